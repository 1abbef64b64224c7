import Verif.LemTextMore
import Verif.SpecMetaDocs
import Verif.SpecPool
import Verif.DemoWorld
import Verif.Drafts
/-
JSON texts and documents: C54.
-/
namespace GJS
open GJS.Io GJS.Spec GJS.Text

/-- C54: what decoding a text yields: the value of the first JSON text in it, after white space. Whatever
follows is not looked at. -/
theorem C54_decode (d : Nat) (bs : Bytes) (v : Json) :
    Text.decode d bs = .ok v ↔ ∃ b t r, Blank b ∧ Text d v t ∧ bs = b ++ t ++ r ∧ Ends v r := decode_ok

/-- C54: a whole text, with white space around it, decodes to its value. -/
theorem C54_whole (d : Nat) (v : Json) (b t b' : Bytes) (hb : Blank b) (h : Text d v t) (hb' : Blank b') :
    Text.decode d (b ++ t ++ b') = .ok v := by
  refine decode_ok.2 ⟨b, t, b', hb, h, rfl, ?_⟩
  intro n c _ hc hx
  cases b' with
  | nil => cases hc
  | cons x xs =>
    have : x = c := by simpa using hc
    subst this
    have hm := hb' x (by simp)
    have key : ∀ x ∈ ascii " \t\n\r", (∀ d, x ≠ digitByte d) ∧ x ∉ ascii "." ∧ x ∉ ascii "eE" := by decide
    obtain ⟨k1, k2, k3⟩ := key x hm
    rcases hx with ⟨⟨d, hd⟩, _⟩ | ⟨hd, _⟩ | ⟨hd, _⟩
    · exact k1 d hd
    · exact k2 hd
    · exact k3 hd

/-- C54: a text stands for at most one value. -/
theorem C54_unique (d d' : Nat) (v v' : Json) (t : Bytes) (h : Text d v t) (h' : Text d' v' t) : v = v' := by
  have key : ∀ d d', d ≤ d' → ∀ v v' : Json, Text d v t → Text d' v' t → v = v' := by
    intro d d' hd v v' h h'
    have e1 := C54_whole d' v [] t [] blank_nil (text_mono h hd) blank_nil
    have e2 := C54_whole d' v' [] t [] blank_nil h' blank_nil
    rw [e1] at e2
    injection e2
  rcases Nat.le_total d d' with hd | hd
  · exact key d d' hd v v' h h'
  · exact (key d' d hd v' v h' h).symm

/-- C54: the documents that can be decoded are exactly those with distinct keys in every object, nested no
deeper than the limit. -/
theorem C54_range (d : Nat) (v : Json) : (∃ bs, Text.decode d bs = .ok v) ↔ v.WF ∧ Nested d v := by
  constructor
  · rintro ⟨bs, h⟩
    obtain ⟨_, _, _, _, ht, _⟩ := decode_ok.1 h
    exact ⟨text_wf ht, text_nested ht⟩
  · rintro ⟨h1, h2⟩
    obtain ⟨t, ht⟩ := text_exists h2 h1
    exact ⟨_, C54_whole d v [] t [] blank_nil ht blank_nil⟩

/-- C54 (finding): anything may follow the document, unless it goes on with a number. -/
theorem C54_trailing (d : Nat) (v : Json) (t r : Bytes) (h : Text d v t) (hv : ∀ n, v ≠ .num n) :
    Text.decode d (t ++ r) = .ok v :=
  decode_ok.2 ⟨[], t, r, blank_nil, h, rfl, fun n _ hn => absurd hn (hv n)⟩

/-- C54: the end of the input is reported exactly for texts of white space. -/
theorem C54_eof (d : Nat) (bs : Bytes) : Text.decode d bs = .error .eof ↔ Blank bs := by
  constructor
  · intro h
    unfold Text.decode at h
    cases hr : readValue d bs with
    | ok => rw [hr] at h; cases h
    | bad => rw [hr] at h; cases h
    | more =>
      rw [hr] at h
      simp only [Text.atEnd] at h
      obtain ⟨b, h1, h2⟩ := skip_spec bs
      have key : (skip bs).isEmpty = true := by
        cases hs : readValue d (bs ++ [0x20]) with
        | ok => rw [hs] at h; cases h
        | bad => rw [hs] at h; revert h; cases (skip bs).isEmpty <;> simp
        | more => rw [hs] at h; revert h; cases (skip bs).isEmpty <;> simp
      rw [List.isEmpty_iff] at key
      rw [key, List.append_nil] at h2
      rw [h2]; exact h1
  · intro h
    have h0 : skip bs = [] := by
      have := skip_blank (r := []) h
      rwa [List.append_nil] at this
    have h1 : skip (bs ++ [0x20]) = [] := by rw [skip_blank h]; rfl
    have e0 : readValue d bs = .more := by rw [readValue, h0, value_nil]; rfl
    have e1 : readValue d (bs ++ [0x20]) = .more := by rw [readValue, h1, value_nil]; rfl
    rw [Text.decode, e0]
    show Text.atEnd d bs = _
    rw [Text.atEnd, e1, h0]
    rfl

/-- C54: a syntax error is final: no continuation of the text would have been accepted. -/
theorem C54_syntax (d : Nat) (bs x : Bytes) (h : Text.decode d bs = .error .syntax) :
    Text.decode d (bs ++ x) = .error .syntax := by
  unfold Text.decode at h
  cases hr : readValue d bs with
  | ok => rw [hr] at h; cases h
  | bad => rw [Text.decode, (readValue_st d bs x).2 hr]
  | more =>
    rw [hr] at h
    simp only [Text.atEnd] at h
    cases hs : readValue d (bs ++ [0x20]) with
    | ok => rw [hs] at h; cases h
    | bad => rw [hs] at h; revert h; cases (skip bs).isEmpty <;> simp
    | more => rw [hs] at h; revert h; cases (skip bs).isEmpty <;> simp

/-- C54: the document does not depend on the pieces in which the text is read. -/
theorem C54_pieces (d : Nat) (buf : Bytes) :
    (Io.loadJSON (scanner d) buf).1 = (Text.decode d buf).mapError ioErr := by
  have := loop_eq d (buf.length + 1) 0 [] buf (by omega) (by simp)
  simpa [Io.loadJSON] using this

/-- C54: decoding texts as modelled here is one of the ways of decoding the other theorems are about. -/
theorem C54_lawful (w : World) (hw : Lawful w) :
    Lawful { w with decode := fun s => (Text.decode maxDepth (utf8 s)).toOption } :=
  { hw with
    decode := by
      intro t D h
      have h : (Text.decode maxDepth (utf8 t)).toOption = some D := h
      cases hd : Text.decode maxDepth (utf8 t) with
      | error e => rw [hd] at h; cases h
      | ok v =>
        rw [hd] at h
        cases h
        obtain ⟨_, _, _, _, ht, _⟩ := decode_ok.1 hd
        exact text_wf ht }

/-! ### The built-in meta-schemas -/

mutual
/-- Equality, executable. -/
def sameB : Json → Json → Bool
  | .null, .null => true
  | .bool a, .bool b => a == b
  | .num a, .num b => decide (a = b)
  | .str a, .str b => a == b
  | .arr xs, .arr ys => sameListB xs ys
  | .obj m, .obj m' => sameMembersB m m'
  | _, _ => false
def sameListB : List Json → List Json → Bool
  | [], [] => true
  | x :: xs, y :: ys => sameB x y && sameListB xs ys
  | _, _ => false
def sameMembersB : List (String × Json) → List (String × Json) → Bool
  | [], [] => true
  | (k, x) :: m, (k', y) :: m' => k == k' && sameB x y && sameMembersB m m'
  | _, _ => false
end

mutual
theorem same_of : ∀ a b, sameB a b = true → a = b
  | .null, b, h => by cases b <;> simp_all [sameB]
  | .bool x, b, h => by cases b <;> simp_all [sameB]
  | .num x, b, h => by cases b <;> simp_all [sameB]
  | .str x, b, h => by cases b <;> simp_all [sameB]
  | .arr xs, b, h => by
    cases b with
    | arr ys => rw [sameList_of xs ys (by simpa [sameB] using h)]
    | _ => simp [sameB] at h
  | .obj m, b, h => by
    cases b with
    | obj m' => rw [sameMembers_of m m' (by simpa [sameB] using h)]
    | _ => simp [sameB] at h
theorem sameList_of : ∀ xs ys, sameListB xs ys = true → xs = ys
  | [], ys, h => by cases ys <;> simp_all [sameListB]
  | x :: xs, ys, h => by
    cases ys with
    | nil => simp [sameListB] at h
    | cons y ys =>
      simp only [sameListB, Bool.and_eq_true] at h
      rw [same_of x y h.1, sameList_of xs ys h.2]
theorem sameMembers_of : ∀ m m', sameMembersB m m' = true → m = m'
  | [], m', h => by cases m' <;> simp_all [sameMembersB]
  | (k, x) :: m, m', h => by
    cases m' with
    | nil => simp [sameMembersB] at h
    | cons e m' =>
      obtain ⟨k', y⟩ := e
      simp only [sameMembersB, Bool.and_eq_true, beq_iff_eq] at h
      rw [h.1.1, same_of x y h.1.2, sameMembers_of m m' h.2]
end

/-- Decoding, as a test. -/
def decodesB (bs : Bytes) (v : Json) : Bool :=
  match Text.decode maxDepth bs with
  | .ok v' => sameB v' v
  | .error _ => false

theorem decodes_lit {s : String} {cs : List Char} {v : Json} (h : s = String.ofList cs)
    (hd : decodesB (cs.flatMap utf8Char) v = true) : Text.decode maxDepth (utf8 s) = .ok v := by
  rw [h, utf8, String.toList_ofList]
  unfold decodesB at hd
  cases he : Text.decode maxDepth (cs.flatMap utf8Char) with
  | error e => rw [he] at hd; cases hd
  | ok v' => rw [he] at hd; rw [same_of v' v hd]

set_option maxRecDepth 100000 in
/-- C54: the built-in text for draft 4 decodes to the meta-schema of draft 4. -/
theorem C54_draft4 : Text.decode maxDepth (utf8 (getMetaSchema "http://json-schema.org/draft-04/schema")) = .ok Meta.draft4 :=
  decodes_lit (s := metaSchema4) (by unfold metaSchema4; exact rfl) (by decide +kernel)

set_option maxRecDepth 100000 in
/-- C54: the built-in text for draft 6 decodes to the meta-schema of draft 6. -/
theorem C54_draft6 : Text.decode maxDepth (utf8 (getMetaSchema "http://json-schema.org/draft-06/schema")) = .ok Meta.draft6 :=
  decodes_lit (s := metaSchema6) (by unfold metaSchema6; exact rfl) (by decide +kernel)

set_option maxRecDepth 100000 in
/-- C54: the built-in text for draft 7 decodes to the meta-schema of draft 7. -/
theorem C54_draft7 : Text.decode maxDepth (utf8 (getMetaSchema "http://json-schema.org/draft-07/schema")) = .ok Meta.draft7 :=
  decodes_lit (s := metaSchema7) (by unfold metaSchema7; exact rfl) (by decide +kernel)

/-! ### Examples -/

namespace Demo

/-- Decode a text. -/
def read (s : String) : Except DecErr Json := Text.decode maxDepth (utf8 s)

/-- `1.5` -/
def onePointFive : Json := .num ⟨false, 1, [5], none⟩

-- members, white space, escapes, a surrogate pair, a number kept as written
example : decodesB (utf8 " {\"a\" : [1.5, true , null],\n\"b\":\"x\\n\\u00e9\\ud83d\\ude00\"} ")
    (.obj [("a", .arr [onePointFive, .bool true, .null]), ("b", .str "x\né😀")]) = true := by decide +kernel
-- the last of several members with one name counts
example : decodesB (utf8 "{\"a\":1.5,\"b\":null,\"a\":false}") (.obj [("b", .null), ("a", .bool false)]) = true := by
  decide +kernel
-- garbage after the document is not noticed
example : decodesB (utf8 "{} and more") (.obj []) = true := by decide +kernel
-- so `01` is the document `0`
example : decodesB (utf8 "01") (.num ⟨false, 0, [], none⟩) = true := by decide +kernel
-- the three errors
example : Text.decode maxDepth (utf8 " ") matches .error .eof := rfl
example : Text.decode maxDepth (utf8 "{\"a\":") matches .error .unexpectedEof := rfl
example : Text.decode maxDepth (utf8 "{a") matches .error .syntax := rfl
-- the limit on nesting
example : Text.decode 1 (utf8 "[[]]") matches .error .syntax := rfl
example : Text.decode 2 (utf8 "[[]]") matches .ok _ := rfl
-- a lone surrogate, and bytes that are not UTF-8
example : decodesB (utf8 "\"\\ud800\"") (.str "\uFFFD") = true := by decide +kernel
example : decodesB [0x22, 0xC3, 0x28, 0x22] (.str "\uFFFD(") = true := by decide +kernel

-- a text in the sense of the grammar
example : Text 1 (.arr [.bool true]) (ascii "[" ++ ([] ++ ascii "true" ++ ascii " ") ++ ascii "]") :=
  .arr 0 _ _ (.one 0 _ _ _ _ (by intro b hb; cases hb) (.true 0) (by unfold Blank; decide))
-- a document that can be decoded
example : (Json.obj [("a", onePointFive)]).WF ∧ Nested 1 (.obj [("a", onePointFive)]) :=
  ⟨.obj _ (by decide) (by intro e he; rw [List.mem_singleton.1 he]; exact .num _),
    .obj _ _ (by intro e he; rw [List.mem_singleton.1 he]; exact .num _ _)⟩
-- a syntax error, and a text of white space
example : Text.decode maxDepth (utf8 "[1,]") matches .error .syntax := rfl
example : Blank (utf8 " \n") := by unfold Blank; decide
-- a loader fed in one piece
example : (Io.loadJSON (scanner maxDepth) (utf8 "[]")).1 matches .ok (.arr []) := rfl
-- a lawful world
example : Lawful { world [] with decode := fun s => (Text.decode maxDepth (utf8 s)).toOption } :=
  C54_lawful _ (world_lawful (by simp))

end Demo

end GJS

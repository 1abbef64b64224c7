import Verif.LemGoFmt
import Verif.PropText
/-
C60: Go values as documents, and the two serialisations behind `enum`, `const` and `uniqueItems`.
-/
namespace GJS
open Spec Go Text Io

/-- C60.  What `LoadJSON` of a Go loader returns is the document the Go value stands for. -/
theorem C60_load (lib : Lib) (hl : Prints lib) (g : GoTree) (hp : Proper g) (v : Json) (h : loadGo lib g = .ok v) :
    Stands g v ∧ v.WF ∧ Nested maxDepth v := by
  unfold loadGo at h
  cases hm : marshal lib g with
  | none => rw [hm] at h; cases h
  | some t =>
    rw [hm] at h
    simp only at h
    cases hd : decode maxDepth (bytes t) with
    | error e => rw [hd] at h; cases h
    | ok v' =>
      rw [hd] at h
      cases h
      obtain ⟨w, h1, h2, _⟩ := marshal_doc hl hp hm
      have := decode_lower h2 hd
      subst this
      exact ⟨h1, text_wf h2, decode_nested hd⟩

/-- C60.  `LoadJSON` of a Go loader succeeds exactly when nothing in the Go value is without JSON and it is not
nested too deep. -/
theorem C60_accepts (lib : Lib) (hl : Prints lib) (g : GoTree) (hp : Proper g) :
    (∃ v, loadGo lib g = .ok v) ↔ Encodable maxDepth g := by
  constructor
  · rintro ⟨v, h⟩
    obtain ⟨h1, _, h2⟩ := C60_load lib hl g hp v h
    exact stands_encodable h1 h2
  · intro he
    obtain ⟨t, ht⟩ := goMarshal_some (lib := lib) he
    obtain ⟨v, _, _, h2⟩ := marshal_doc hl hp ht
    exact ⟨v, by unfold loadGo; rw [ht]; simp only [decode_text (h2 _ he)]⟩

/-- C60.  When it fails: `json.Marshal` fails exactly when something in the value has no JSON, and otherwise it is
the decoder that fails, exactly when the value is nested too deep. -/
theorem C60_fails (lib : Lib) (hl : Prints lib) (g : GoTree) (hp : Proper g) :
    (loadGo lib g = .error .marshal ↔ ∀ d, ¬ Encodable d g) ∧
    ((∃ e, loadGo lib g = .error (.decode e)) ↔ (∃ d, Encodable d g) ∧ ¬ Encodable maxDepth g) := by
  have hsome : ∀ t, marshal lib g = some t → ∃ d, Encodable d g := by
    intro t ht
    obtain ⟨v, h1, h2, _⟩ := marshal_doc hl hp ht
    exact ⟨_, stands_encodable h1 (nested_size v)⟩
  have hacc := C60_accepts lib hl g hp
  cases hm : marshal lib g with
  | none =>
    have e : loadGo lib g = .error .marshal := by unfold loadGo; rw [hm]
    have hno : ∀ d, ¬ Encodable d g := by
      intro d hd
      obtain ⟨t, ht⟩ := goMarshal_some (lib := lib) hd
      rw [ht] at hm; cases hm
    refine ⟨⟨fun _ => hno, fun _ => e⟩, ?_, ?_⟩
    · rintro ⟨x, hx⟩; rw [e] at hx; cases hx
    · rintro ⟨⟨d, hd⟩, _⟩; exact absurd hd (hno d)
  | some t =>
    obtain ⟨d, hd⟩ := hsome t hm
    have e : loadGo lib g = match decode maxDepth (bytes t) with
      | .ok v => .ok v
      | .error e => .error (.decode e) := by unfold loadGo; rw [hm]; rfl
    refine ⟨⟨?_, fun h => absurd hd (h d)⟩, ?_, ?_⟩
    · intro h
      rw [e] at h
      cases hx : decode maxDepth (bytes t) <;> rw [hx] at h <;> cases h
    · rintro ⟨x, hx⟩
      refine ⟨⟨d, hd⟩, fun hn => ?_⟩
      obtain ⟨v, hv⟩ := hacc.2 hn
      rw [hv] at hx; cases hx
    · rintro ⟨_, hn⟩
      cases hx : decode maxDepth (bytes t) with
      | error x => exact ⟨x, by rw [e, hx]⟩
      | ok v => exact absurd (hacc.1 ⟨v, by rw [e, hx]⟩) hn

/-- C60.  A decoded document given to a Go loader comes back as the same document. -/
theorem C60_roundtrip (lib : Lib) (hl : Prints lib) (v : Json) (hw : v.WF) (hn : Nested maxDepth v) :
    ∃ v', loadGo lib (ofJson v) = .ok v' ∧ SameDoc v v' ∧ v'.WF := by
  obtain ⟨v', h⟩ := (C60_accepts lib hl _ (ofJson_proper hw)).2 (ofJson_encodable hn)
  obtain ⟨h1, h2, _⟩ := C60_load lib hl _ (ofJson_proper hw) v' h
  exact ⟨v', h, stands_ofJson h1 rfl, h2⟩

/-- C60.  The text `enum`, `const` and `uniqueItems` compare is a JSON text, and what it denotes is the value it
was made of: the same structure, strings and members, numbers that round to the same float64. -/
theorem C60_marshal (lib : Lib) (hl : Prints lib) (v : Json) (hw : v.WF) (hn : Nested maxDepth v) (t : String)
    (h : marshalWithoutNumber lib.float v = some t) : ∃ v', decode maxDepth (utf8 t) = .ok v' ∧ SameVal v v' := by
  unfold marshalWithoutNumber at h
  obtain ⟨c, hc, rfl⟩ := Option.map_eq_some_iff.1 h
  have hm := marshal_canon lib c (canon_sorted v hc)
  obtain ⟨v', h1, h2, h3⟩ := marshal_doc hl (ofCanon_proper hw hc) hm
  have hs := stands_ofCanon h1 rfl hw hc
  have hn' := sameVal_nested hs (text_wf h2) hn
  refine ⟨v', ?_, hs⟩
  have := decode_text (h3 _ (stands_encodable h1 hn'))
  rw [← this, ← bytes_toList, String.toList_ofList]

/-- C60.  The two serialisations as they are written give the text of the one-step definition the other theorems
use. -/
theorem C60_twice (lib : Lib) (hl : Prints lib) (v : Json) (hw : v.WF)
    (hn : Nested maxDepth v) : marshalTwice lib v = marshalWithoutNumber lib.float v := by
  have he := ofJson_encodable hn
  obtain ⟨t, ht⟩ := goMarshal_some (lib := lib) he
  obtain ⟨v', h1, h2, h3⟩ := marshal_doc hl (ofJson_proper hw) ht
  have hd := stands_ofJson h1 rfl
  have hs := sameDoc_val hd
  have hu := unmarshal_text (h3 _ he)
  unfold marshalTwice marshalWithoutNumber
  cases hc : canon v with
  | none =>
    have : canon v' = none := by
      cases hc' : canon v' with
      | none => rfl
      | some c =>
        obtain ⟨c', e⟩ := canon_same (sameVal_symm hs) ⟨c, hc'⟩
        rw [hc] at e; cases e
    simp [ht, hu, this]
  | some c =>
    obtain ⟨c', hc'⟩ := canon_same hs ⟨c, hc⟩
    have : c = c' := (canon_eq_iff v v' hw (text_wf h2) hc hc').2 hs
    subst this
    simp [ht, hu, hc', marshal_canon lib c (canon_sorted v hc)]

/-- C60.  A value nested too deep has no text: the second half of `marshalWithoutNumber` fails. -/
theorem C60_twice_deep (lib : Lib) (hl : Prints lib) (v : Json) (hw : v.WF) (hn : ¬ Nested maxDepth v) :
    marshalTwice lib v = none := by
  unfold marshalTwice
  cases ht : marshal lib (ofJson v) with
  | none => rfl
  | some t =>
    obtain ⟨v', h1, h2, h3⟩ := marshal_doc hl (ofJson_proper hw) ht
    have hd := stands_ofJson h1 rfl
    cases hu : unmarshal maxDepth (bytes t) with
    | none => simp [hu]
    | some w =>
      have hw' := unmarshal_decode hu
      have := decode_lower h2 hw'
      subst this
      exact absurd (sameDoc_nested hd (decode_nested hw')) hn

/-- C60.  What the other theorems assume of the printing of floats follows from floats being printed as JSON
numbers that round to them, with no `E`. -/
theorem C60_fmt (lib : Lib) (hl : Prints lib) (hE : ∀ f, IsF64 f → 'E' ∉ (lib.float f).toList) : FmtOK lib.float := by
  refine ⟨?_, ?_, ?_⟩
  · intro a b ha hb e
    obtain ⟨m, hm, rm⟩ := hl.float a ha
    obtain ⟨n, hn, rn⟩ := hl.float b hb
    rw [e] at hm
    have := C54_unique 0 0 _ _ _ (.num 0 m _ hm) (.num 0 n _ hn)
    cases this
    rw [rm] at rn
    injection rn
  · intro a ha c hc
    obtain ⟨m, hm, _⟩ := hl.float a ha
    have := number_bytes hm
    rcases low_char (c := c) fun b hb => this b (List.mem_flatMap.2 ⟨c, hc, hb⟩) with h | h
    · exact h
    · exact absurd (h ▸ hc) (hE a ha)
  · intro a ha e
    obtain ⟨m, hm, _⟩ := hl.float a ha
    rw [e] at hm
    obtain ⟨s, i, f, x, h, hs, ⟨d, ds, hi, _, _⟩, _⟩ := hm
    have hi : i = (d :: ds).map digitByte := hi
    have := congrArg List.length h
    rw [hi] at this
    simp [utf8] at this

/-- A struct with a map, a slice, a `json.Number` and an `int` in it. -/
example : Proper (.record [("m", .map [("b", .nil), ("a", .bool true)]), ("n", .number ⟨false, 1, [5], none⟩), ("i", .int (-3)),
    ("s", .arr [.str "<", .str "\n"])]) ∧
    Encodable maxDepth (.record [("m", .map [("b", .nil), ("a", .bool true)]), ("n", .number ⟨false, 1, [5], none⟩), ("i", .int (-3)),
    ("s", .arr [.str "<", .str "\n"])]) := by
  constructor
  · refine .record _ (by decide) ?_
    simp only [List.forall_mem_cons, List.not_mem_nil, false_imp_iff, implies_true, and_true]
    refine ⟨.map _ (by decide) ?_, .number _, .int _, .arr _ ?_⟩
    · simp only [List.forall_mem_cons, List.not_mem_nil, false_imp_iff, implies_true, and_true]
      exact ⟨.nil, .bool _⟩
    · simp only [List.forall_mem_cons, List.not_mem_nil, false_imp_iff, implies_true, and_true]
      exact ⟨.str _, .str _⟩
  · refine .record 9999 _ ?_
    simp only [List.forall_mem_cons, List.not_mem_nil, false_imp_iff, implies_true, and_true]
    refine ⟨.map 9998 _ ?_, .number _ _, .int _ _, .arr 9998 _ ?_⟩
    · simp only [List.forall_mem_cons, List.not_mem_nil, false_imp_iff, implies_true, and_true]
      exact ⟨.nil _, .bool _ _⟩
    · simp only [List.forall_mem_cons, List.not_mem_nil, false_imp_iff, implies_true, and_true]
      exact ⟨.str _ _, .str _ _⟩
/-- There are libraries that print numbers as assumed. -/
example : ∃ lib, Prints lib := prints_exists
/-- The text of a struct. -/
example (lib : Lib) (h : lib.int (-3) = "-3") :
    (marshal lib (.record [("i", .int (-3)), ("s", .arr [.str "<", .nil])])).map String.ofList =
      some "{\"i\":-3,\"s\":[\"\\u003c\",null]}" := by
  simp only [marshal, marshalKV, marshalL, h]
  decide +kernel
/-- An infinity has no JSON, however deep one may go. -/
example (d : Nat) : ¬ Encodable d (.arr [.none]) := by
  intro h
  cases h with | arr d _ h => cases h .none (by simp)

end GJS

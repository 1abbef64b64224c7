import Verif.SpecFormats
import Verif.LemRegex
/-
The patterns of the built-in formats: lemmas for C32, C33, C34, C45.
-/
namespace GJS.Fmt
open GJS Rx Rx.Spec Fmt.Spec

/-! Characters -/

theorem char_le (a b : Char) : a ≤ b ↔ a.toNat ≤ b.toNat := by
  rw [Char.le_def, UInt32.le_iff_toNat_le]; rfl

theorem toNat_ofNat {n : Nat} (h : n < 0xD800) : (Char.ofNat n).toNat = n := by
  have hv : n.isValidChar := .inl h
  simp only [Char.ofNat, hv, dif_pos]
  rfl

theorem char_ext {a b : Char} (h : a.toNat = b.toNat) : a = b := by
  rw [← Char.ofNat_toNat a, ← Char.ofNat_toNat b, h]

/-- The ranges of hexadecimal digits. -/
def hexR : List (Char × Char) := [('a', 'f'), ('0', '9')]

theorem hex_iff (c : Char) : inClass false true hexR c = true ↔ Hex c := by
  have n1 : 'a'.toNat = 97 := rfl
  have n2 : 'f'.toNat = 102 := rfl
  have n3 : '0'.toNat = 48 := rfl
  have n4 : '9'.toNat = 57 := rfl
  have n5 : 'z'.toNat = 122 := rfl
  have n6 : 'A'.toNat = 65 := rfl
  have n7 : 'Z'.toNat = 90 := rfl
  have n8 : 'F'.toNat = 70 := rfl
  have k1 : (Char.ofNat 0x212A).toNat = 0x212A := rfl
  have k2 : (Char.ofNat 0x17F).toNat = 0x17F := rfl
  have k3 : 'k'.toNat = 107 := rfl
  have k4 : 's'.toNat = 115 := rfl
  have k5 : 'K'.toNat = 75 := rfl
  have k6 : 'S'.toNat = 83 := rfl
  have kel : ∀ d, d = Char.ofNat 0x212A ∨ d = Char.ofNat 0x17F → inRanges hexR d = false := by
    rintro d (rfl | rfl) <;> decide
  simp only [inClass, if_true, bne_iff_ne, ne_eq, Bool.not_eq_false, Hex, Digit]
  by_cases hl : 'a' ≤ c ∧ c ≤ 'z'
  · have hn := hl
    rw [char_le, char_le, n1, n5] at hn
    have hu : (Char.ofNat (c.toNat - 32)).toNat = c.toNat - 32 := toNat_ofNat (by omega)
    have hrest : ∀ d ∈ (if c = 'k' then [Char.ofNat 0x212A] else if c = 's' then [Char.ofNat 0x17F] else []), inRanges hexR d = false := by
      intro d hd; apply kel; split at hd
      · simp at hd; exact .inl hd
      · split at hd
        · simp at hd; exact .inr hd
        · simp at hd
    have hrest' : (if c = 'k' then [Char.ofNat 0x212A] else if c = 's' then [Char.ofNat 0x17F] else []).any (inRanges hexR) = false := by
      rw [List.any_eq_false]; intro d hd; simp [hrest d hd]
    simp only [orbit, hl, and_self, if_true, List.any_append, hrest', Bool.or_false, List.any_cons, List.any_nil]
    simp only [inRanges, hexR, List.any_cons, List.any_nil, Bool.or_false, Bool.or_eq_true, Bool.and_eq_true, decide_eq_true_eq,
      char_le, n1, n2, n3, n4, n6, n8, hu, true_and]
    omega
  · by_cases hL : 'A' ≤ c ∧ c ≤ 'Z'
    · have hn := hL
      rw [char_le, char_le, n6, n7] at hn
      have hu : (Char.ofNat (c.toNat + 32)).toNat = c.toNat + 32 := toNat_ofNat (by omega)
      have hrest : ∀ d ∈ (if c = 'K' then [Char.ofNat 0x212A] else if c = 'S' then [Char.ofNat 0x17F] else []), inRanges hexR d = false := by
        intro d hd; apply kel; split at hd
        · simp at hd; exact .inl hd
        · split at hd
          · simp at hd; exact .inr hd
          · simp at hd
      have hrest' : (if c = 'K' then [Char.ofNat 0x212A] else if c = 'S' then [Char.ofNat 0x17F] else []).any (inRanges hexR) = false := by
        rw [List.any_eq_false]; intro d hd; simp [hrest d hd]
      simp only [orbit, hl, if_false, hL, and_self, if_true, List.any_append, hrest', Bool.or_false, List.any_cons, List.any_nil]
      simp only [inRanges, hexR, List.any_cons, List.any_nil, Bool.or_false, Bool.or_eq_true, Bool.and_eq_true, decide_eq_true_eq,
        char_le, n1, n2, n3, n4, n8, hu, true_and]
      omega
    · rw [char_le, char_le, n1, n5] at hl
      rw [char_le, char_le, n6, n7] at hL
      simp only [orbit, char_le, n1, n5, n6, n7, hl, hL, if_false]
      split
      · next h => subst h; decide
      · split
        · next h => subst h; decide
        · simp only [inRanges, hexR, List.any_cons, List.any_nil, Bool.or_false, Bool.or_eq_true, Bool.and_eq_true, decide_eq_true_eq,
            char_le, n1, n2, n3, n4, n8]
          omega

theorem dashF_iff (c : Char) : inClass false true [('-', '-')] c = true ↔ c = '-' := by
  have n0 : '-'.toNat = 45 := rfl
  simp only [inClass, if_true, bne_iff_ne, ne_eq, Bool.not_eq_false]
  constructor
  · intro h
    rw [List.any_eq_true] at h
    obtain ⟨d, hd, h⟩ := h
    simp only [inRanges, List.any_cons, List.any_nil, Bool.or_false, Bool.and_eq_true, decide_eq_true_eq, char_le, n0] at h
    have hd' : d = '-' := char_ext (by rw [n0]; omega)
    subst hd'
    unfold orbit at hd
    have n1 : 'a'.toNat = 97 := rfl
    have n5 : 'z'.toNat = 122 := rfl
    have n6 : 'A'.toNat = 65 := rfl
    have n7 : 'Z'.toNat = 90 := rfl
    split at hd
    · next hl =>
      rw [char_le, char_le, n1, n5] at hl
      rcases List.mem_append.1 hd with hd | hd
      · simp only [List.mem_cons, List.not_mem_nil, or_false] at hd
        rcases hd with hd | hd
        · exact hd.symm
        · have := congrArg Char.toNat hd
          rw [toNat_ofNat (n := c.toNat - 32) (by omega)] at this
          change 45 = _ at this
          omega
      · exfalso; revert hd; split
        · simp
        · split
          · simp
          · simp
    · split at hd
      · next hl =>
        rw [char_le, char_le, n6, n7] at hl
        rcases List.mem_append.1 hd with hd | hd
        · simp only [List.mem_cons, List.not_mem_nil, or_false] at hd
          rcases hd with hd | hd
          · exact hd.symm
          · have := congrArg Char.toNat hd
            rw [toNat_ofNat (n := c.toNat + 32) (by omega)] at this
            change 45 = _ at this
            omega
        · exfalso; revert hd; split
          · simp
          · split
            · simp
            · simp
      · split at hd
        · next h => subst h; revert hd; decide
        · split at hd
          · next h => subst h; revert hd; decide
          · exact (List.mem_singleton.1 hd).symm
  · rintro rfl; decide

theorem one_iff (a c : Char) : inClass false false [(a, a)] c = true ↔ c = a := by
  simp only [inClass, Bool.false_eq_true, if_false, bne_iff_ne, ne_eq, Bool.not_eq_false, inRanges, List.any_cons, List.any_nil, Bool.or_false,
    Bool.and_eq_true, decide_eq_true_eq, char_le]
  constructor
  · intro h; exact char_ext (by omega)
  · rintro rfl; omega

theorem not_one_iff (a c : Char) : inClass true false [(a, a)] c = true ↔ c ≠ a := by
  rw [ne_eq, ← one_iff a c]; simp [inClass]

/-! Positions -/

/-- Texts given by their length and a condition on each position. -/
def At (n : Nat) (Q : Nat → Char → Prop) (l : List Char) : Prop := l.length = n ∧ ∀ (i : Nat) c, l[i]? = some c → Q i c

theorem at_append (n m : Nat) (Q R : Nat → Char → Prop) (l : List Char) :
    (∃ l1 l2, l = l1 ++ l2 ∧ At n Q l1 ∧ At m R l2) ↔ At (n + m) (fun i c => if i < n then Q i c else R (i - n) c) l := by
  constructor
  · rintro ⟨l1, l2, rfl, ⟨h1, q1⟩, ⟨h2, q2⟩⟩
    refine ⟨by simp [h1, h2], fun i c hc => ?_⟩
    dsimp only
    split
    · next hi => rw [List.getElem?_append_left (by omega)] at hc; exact q1 i c hc
    · next hi =>
      rw [List.getElem?_append_right (by omega), h1] at hc
      exact q2 _ c hc
  · rintro ⟨h, q⟩
    have hlen : (l.take n).length = n := by rw [List.length_take]; omega
    refine ⟨l.take n, l.drop n, (List.take_append_drop n l).symm, ⟨hlen, fun i c hc => ?_⟩, ⟨by rw [List.length_drop]; omega, fun i c hc => ?_⟩⟩
    · have hi : i < n := by
        have := (List.getElem?_eq_some_iff.1 hc).1
        omega
      rw [List.getElem?_take_of_lt hi] at hc
      have := q i c hc
      dsimp only at this
      rwa [if_pos hi] at this
    · rw [List.getElem?_drop] at hc
      have := q _ c hc
      dsimp only at this
      rwa [if_neg (Nat.not_lt.2 (Nat.le_add_right n i)), Nat.add_sub_cancel_left] at this

theorem at_all (n : Nat) (P : Char → Prop) (l : List Char) : (l.length = n ∧ ∀ c ∈ l, P c) ↔ At n (fun _ c => P c) l := by
  refine and_congr_right fun _ => ⟨fun h i c hc => h c (List.mem_of_getElem? hc), fun h c hc => ?_⟩
  obtain ⟨i, hi⟩ := List.getElem?_of_mem hc
  exact h i c hi

theorem at_one (P : Char → Prop) (l : List Char) : (∃ c, l = [c] ∧ P c) ↔ At 1 (fun _ c => P c) l := by
  rw [← at_all]
  constructor
  · rintro ⟨c, rfl, h⟩; exact ⟨rfl, by simpa using h⟩
  · rintro ⟨h1, h2⟩
    obtain ⟨c, rfl⟩ := List.length_eq_one_iff.1 h1
    exact ⟨c, rfl, h2 c (List.mem_cons_self ..)⟩

theorem at_nil (l : List Char) : l = [] ↔ At 0 (fun _ _ => True) l := by
  constructor
  · rintro rfl; exact ⟨rfl, fun _ _ _ => trivial⟩
  · rintro ⟨h, -⟩; exact List.length_eq_zero_iff.1 h

theorem IsE.at_seq {x y n Q m R} (hx : Is x (At n Q)) (hy : IsE y (At m R)) :
    IsE (.seq x y) (At (n + m) (fun i c => if i < n then Q i c else R (i - n) c)) :=
  (IsE.seq hx hy).congr fun l => at_append n m Q R l

/-! uuid -/

def rHex : Rx := .cls false true hexR
def rDashF : Rx := .cls false true [('-', '-')]

theorem compile_uuid : Rx.compile rxUUID = some (.seq .first (.seq (rep rHex 8) (.seq rDashF (.seq (rep rHex 4) (.seq rDashF
    (.seq (rep rHex 4) (.seq rDashF (.seq (rep rHex 4) (.seq rDashF (.seq (rep rHex 12) (.seq .last .eps))))))))))) := by
  decide +kernel

theorem uuid_iff (s : String) : matches_ rxUUID s = true ↔ Uuid s.toList := by
  have hd : Is rDashF (At 1 (fun _ c => c = '-')) := ((Is.cls false true [('-', '-')]).congr fun l => by
    simp only [dashF_iff]; exact at_one _ l)
  have hh : ∀ n, Is (rep rHex n) (At n (fun _ c => Hex c)) := fun n =>
    (Is.rep ((Is.cls false true hexR).congr (Q := fun l => ∃ c, l = [c] ∧ Hex c) fun l => by simp only [hex_iff]) n).congr fun l => at_all n _ l
  have hl : IsE (.seq .last .eps) (At 0 (fun _ _ => True)) := IsE.last.congr at_nil
  have h := IsE.at_seq (hh 8) (IsE.at_seq hd (IsE.at_seq (hh 4) (IsE.at_seq hd (IsE.at_seq (hh 4) (IsE.at_seq hd (IsE.at_seq (hh 4)
    (IsE.at_seq hd (IsE.at_seq (hh 12) hl))))))))
  simp only [matches_, compile_uuid, matchString, later_found]
  rw [h.found]
  refine and_congr_right fun hlen => forall_congr' fun i => forall_congr' fun c => ?_
  refine imp_congr_right fun hc => ?_
  have hi : i < 36 := by
    have := (List.getElem?_eq_some_iff.1 hc).1
    omega
  by_cases hm : i ∈ [8, 13, 18, 23]
  · rw [if_pos hm]
    simp only [List.mem_cons, List.not_mem_nil, or_false] at hm
    rcases hm with rfl | rfl | rfl | rfl <;> exact Iff.rfl
  · rw [if_neg hm]
    simp only [List.mem_cons, List.not_mem_nil, or_false, not_or] at hm
    obtain ⟨h1, h2, h3, h4⟩ := hm
    dsimp only
    repeat' split
    all_goals first | exact Iff.rfl | (exfalso; omega)

/-! Pieces -/

theorem Is.seq_eps {x P} (hx : Is x P) : Is (.seq x .eps) P :=
  (hx.seq Is.eps).congr fun l => by
    constructor
    · rintro ⟨l1, _, rfl, h, rfl⟩; simpa using h
    · intro h; exact ⟨l, [], by simp, h, rfl⟩

theorem Is.one (a : Char) : Is (.cls false false [(a, a)]) (· = [a]) :=
  (Is.cls false false [(a, a)]).congr fun l => by
    simp only [one_iff]
    constructor
    · rintro ⟨_, rfl, rfl⟩; rfl
    · rintro rfl; exact ⟨a, rfl, rfl⟩

theorem Is.one_seq {x P} (a : Char) (hx : Is x P) : Is (.seq (.cls false false [(a, a)]) x) (fun l => ∃ t, l = a :: t ∧ P t) :=
  ((Is.one a).seq hx).congr fun l => by
    constructor
    · rintro ⟨_, l2, rfl, rfl, h⟩; exact ⟨l2, rfl, h⟩
    · rintro ⟨t, rfl, h⟩; exact ⟨[a], t, rfl, rfl, h⟩

theorem IsE.whole {x P} (hx : Is x P) : IsE (.seq x (.seq .last .eps)) P :=
  (IsE.seq hx IsE.last).congr fun l => by
    constructor
    · rintro ⟨l1, _, rfl, h, rfl⟩; simpa using h
    · intro h; exact ⟨l, [], by simp, h, rfl⟩

/-! json-pointer -/

def rTok : Rx := .alt (.seq (.cls true false [('~', '~'), ('/', '/')]) .eps)
  (.alt (.seq (.cls false false [('~', '~')]) (.seq (.cls false false [('0', '0')]) .eps))
    (.seq (.cls false false [('~', '~')]) (.seq (.cls false false [('1', '1')]) .eps)))
def rPtr : Rx := .star (.seq (.cls false false [('/', '/')]) (.seq (.star rTok) .eps))

theorem compile_pointer : Rx.compile rxJSONPointer = some (.seq .first (.seq rPtr (.seq .last .eps))) := by
  decide +kernel

/-- Part of a token. -/
def Tok (l : List Char) : Prop := (∃ c, l = [c] ∧ c ≠ '~' ∧ c ≠ '/') ∨ l = ['~', '0'] ∨ l = ['~', '1']

/-- A slash and a token. -/
def Seg (l : List Char) : Prop := ∃ t, l = '/' :: t ∧ Many Tok t

/-- Every tilde is followed by `0` or `1`. -/
def Tildes (l : List Char) : Prop := ∀ i : Nat, l[i]? = some '~' → l[i + 1]? = some '0' ∨ l[i + 1]? = some '1'

theorem is_tok : Is rTok Tok := by
  have h1 : Is (.cls true false [('~', '~'), ('/', '/')]) (fun l => ∃ c, l = [c] ∧ c ≠ '~' ∧ c ≠ '/') :=
    (Is.cls _ _ _).congr fun l => by
      refine exists_congr fun c => and_congr_right fun _ => ?_
      rw [← not_one_iff, ← not_one_iff]
      simp only [inClass, inRanges, List.any_cons, List.any_nil, Bool.or_false]
      simp
  refine ((Is.seq_eps h1).alt ((Is.one_seq '~' (Is.one_seq '0' Is.eps)).alt (Is.one_seq '~' (Is.one_seq '1' Is.eps)))).congr fun l => ?_
  constructor
  · rintro (h | ⟨_, rfl, _, rfl, rfl⟩ | ⟨_, rfl, _, rfl, rfl⟩)
    · exact .inl h
    · exact .inr (.inl rfl)
    · exact .inr (.inr rfl)
  · rintro (h | rfl | rfl)
    · exact .inl h
    · exact .inr (.inl ⟨_, rfl, _, rfl, rfl⟩)
    · exact .inr (.inr ⟨_, rfl, _, rfl, rfl⟩)

theorem is_seg : Is (.seq (.cls false false [('/', '/')]) (.seq (.star rTok) .eps)) Seg :=
  Is.one_seq '/' (Is.seq_eps is_tok.star)

theorem tildes_append {l m : List Char} (hl : Tildes l) (hm : Tildes m) : Tildes (l ++ m) := by
  intro i hi
  by_cases h : i < l.length
  · rw [List.getElem?_append_left h] at hi
    have := hl i hi
    have hlt : i + 1 < l.length := by
      rcases this with h | h <;> exact (List.getElem?_eq_some_iff.1 h).1
    rw [List.getElem?_append_left hlt]
    exact this
  · rw [List.getElem?_append_right (by omega)] at hi
    rw [List.getElem?_append_right (by omega)]
    have := hm _ hi
    rwa [show i + 1 - l.length = i - l.length + 1 by omega]

theorem tildes_one {c : Char} (h : c ≠ '~') : Tildes [c] := by
  intro i hi
  cases i with
  | zero => simp at hi; exact absurd hi h
  | succ i => simp at hi

theorem tildes_tok {l : List Char} (h : Tok l) : Tildes l := by
  rcases h with ⟨c, rfl, h, -⟩ | rfl | rfl
  · exact tildes_one h
  · intro i hi
    match i with
    | 0 => exact .inl rfl
    | 1 => cases hi
    | i + 2 => simp at hi
  · intro i hi
    match i with
    | 0 => exact .inr rfl
    | 1 => cases hi
    | i + 2 => simp at hi

theorem tildes_many {P : List Char → Prop} (hP : ∀ l, P l → Tildes l) {l : List Char} (h : Many P l) : Tildes l := by
  induction h with
  | nil => intro i hi; simp at hi
  | cons l m h _ ih => exact tildes_append (hP l h) ih

theorem tildes_seg {l : List Char} (h : Seg l) : Tildes l := by
  obtain ⟨t, rfl, h⟩ := h
  exact tildes_append (tildes_one (c := '/') (by decide)) (tildes_many (fun _ => tildes_tok) h)

theorem tildes_tail {c : Char} {l : List Char} (h : Tildes (c :: l)) : Tildes l := by
  intro i hi
  have := h (i + 1) (by simpa using hi)
  simpa using this

/-- The rest of a token and further tokens. -/
theorem tildes_split : ∀ (n : Nat) (l : List Char), l.length ≤ n → Tildes l → ∃ a b, l = a ++ b ∧ Many Tok a ∧ Many Seg b
  | _, [], _, _ => ⟨[], [], rfl, .nil, .nil⟩
  | 0, c :: l, hn, _ => by simp at hn
  | n + 1, c :: l, hn, h => by
    by_cases hc : c = '~'
    · subst hc
      have h0 := h 0 rfl
      cases l with
      | nil => simp at h0
      | cons d l =>
        obtain ⟨a, b, rfl, ha, hb⟩ := tildes_split n l (by simp at hn; omega) (tildes_tail (tildes_tail h))
        simp at h0
        refine ⟨['~', d] ++ a, b, rfl, .cons _ _ ?_ ha, hb⟩
        rcases h0 with rfl | rfl
        · exact .inr (.inl rfl)
        · exact .inr (.inr rfl)
    · obtain ⟨a, b, rfl, ha, hb⟩ := tildes_split n l (by simp at hn; omega) (tildes_tail h)
      by_cases hs : c = '/'
      · subst hs
        exact ⟨[], ('/' :: a) ++ b, rfl, .nil, .cons _ _ ⟨a, rfl, ha⟩ hb⟩
      · exact ⟨[c] ++ a, b, rfl, .cons _ _ (.inl ⟨c, rfl, hc, hs⟩) ha, hb⟩

theorem many_seg (l : List Char) : Many Seg l ↔ Pointer l := by
  constructor
  · intro h
    refine ⟨?_, tildes_many (fun _ => tildes_seg) h⟩
    cases h with
    | nil => exact .inl rfl
    | cons l m h _ => obtain ⟨t, rfl, -⟩ := h; exact .inr rfl
  · rintro ⟨h | h, ht⟩
    · subst h; exact .nil
    · cases l with
      | nil => simp at h
      | cons c l =>
        simp at h
        subst h
        obtain ⟨a, b, rfl, ha, hb⟩ := tildes_split l.length l (Nat.le_refl _) (tildes_tail ht)
        exact .cons ('/' :: a) b ⟨a, rfl, ha⟩ hb

theorem is_ptr : Is rPtr Pointer := is_seg.star.congr many_seg

theorem pointer_iff (s : String) : matches_ rxJSONPointer s = true ↔ Pointer s.toList := by
  simp only [matches_, compile_pointer, matchString, later_found]
  exact (IsE.whole is_ptr).found _

/-! relative-json-pointer -/

def rDec : Rx := .alt (.seq (.cls false false [('0', '0')]) .eps)
  (.seq (.cls false false [('1', '9')]) (.seq (.star (.cls false false [('0', '9')])) .eps))

theorem compile_relPointer : Rx.compile rxRelJSONPointer = some (.seq .first (.seq rDec
    (.seq (.alt (.seq (.cls false false [('#', '#')]) .eps) (.seq rPtr .eps)) (.seq .last .eps)))) := by
  decide +kernel

theorem digit_iff (c : Char) : inClass false false [('0', '9')] c = true ↔ Digit c := by
  simp [inClass, inRanges, Digit]

theorem digit19_iff (c : Char) : inClass false false [('1', '9')] c = true ↔ Digit c ∧ c ≠ '0' := by
  have n3 : '0'.toNat = 48 := rfl
  have n4 : '9'.toNat = 57 := rfl
  have n1 : '1'.toNat = 49 := rfl
  simp only [inClass, inRanges, Digit, Bool.false_eq_true, if_false, List.any_cons, List.any_nil, Bool.or_false, bne_iff_ne, ne_eq, Bool.not_eq_false,
    Bool.and_eq_true, decide_eq_true_eq, char_le, n1, n3, n4]
  constructor
  · intro h
    refine ⟨by omega, fun e => ?_⟩
    rw [e, n3] at h; omega
  · rintro ⟨h, hne⟩
    have : c.toNat ≠ 48 := fun e => hne (char_ext e)
    omega

theorem is_dec : Is rDec Decimal := by
  have h19 : Is (.cls false false [('1', '9')]) (fun l => ∃ c, l = [c] ∧ Digit c ∧ c ≠ '0') := (Is.cls _ _ _).congr fun l => by
    simp only [digit19_iff]
  have h09 : Is (.star (.cls false false [('0', '9')])) (fun l => ∀ c ∈ l, Digit c) := (Is.cls _ _ _).star.congr fun l => by
    rw [Many.single]; simp only [digit_iff]
  refine ((Is.seq_eps (Is.one '0')).alt (h19.seq (Is.seq_eps h09))).congr fun l => ?_
  constructor
  · rintro (rfl | ⟨_, m, rfl, ⟨c, rfl, hc, h0⟩, hm⟩)
    · refine ⟨by simp, ?_, fun _ => rfl⟩
      intro c hc; simp at hc; subst hc; exact ⟨by decide, by decide⟩
    · refine ⟨by simp, ?_, ?_⟩
      · intro d hd
        rcases List.mem_cons.1 hd with rfl | hd
        · exact hc
        · exact hm d hd
      · intro h; simp at h; exact absurd h h0
  · rintro ⟨hne, hd, hz⟩
    cases l with
    | nil => exact absurd rfl hne
    | cons c m =>
      by_cases h0 : c = '0'
      · subst h0
        have := hz rfl
        simp at this
        subst this
        exact .inl rfl
      · exact .inr ⟨[c], m, rfl, ⟨c, rfl, hd c (List.mem_cons_self ..), h0⟩, fun d h => hd d (List.mem_cons_of_mem _ h)⟩

theorem relPointer_iff (s : String) : matches_ rxRelJSONPointer s = true ↔ RelPointer s.toList := by
  simp only [matches_, compile_relPointer, matchString, later_found]
  rw [(IsE.seq is_dec (IsE.whole ((Is.seq_eps (Is.one '#')).alt (Is.seq_eps is_ptr)))).found]
  exact Iff.rfl

/-! hostname -/

def anR : List (Char × Char) := [('a', 'z'), ('A', 'Z'), ('0', '9')]
def rAn : Rx := .cls false false anR
def rAnh : Rx := .cls false false (anR ++ [('-', '-')])
def rLabel : Rx := .alt (.seq rAn .eps) (.seq rAn (.seq (.seq .eps (upTo rAnh 61)) (.seq rAn .eps)))

theorem compile_hostname : Rx.compile rxHostname = some (.seq .first (.seq rLabel (.seq (.star (.seq (.cls false false [('.', '.')])
    (.seq rLabel .eps))) (.seq .last .eps)))) := by
  decide +kernel

def An (c : Char) : Prop := Letter c ∨ Digit c

theorem an_iff (c : Char) : inClass false false anR c = true ↔ An c := by
  simp [inClass, inRanges, anR, An, Letter, Digit, or_assoc]

theorem anh_iff (c : Char) : inClass false false (anR ++ [('-', '-')]) c = true ↔ An c ∨ c = '-' := by
  rw [← an_iff, ← one_iff]
  simp [inClass, inRanges, anR, or_assoc]

theorem an_not_dash {c : Char} (h : An c) : c ≠ '-' := by
  rintro rfl
  rcases h with (⟨h, -⟩ | ⟨h, -⟩) | ⟨h, -⟩ <;> exact absurd h (by decide)

theorem is_label : Is rLabel Label := by
  have h1 : Is rAn (fun l => ∃ c, l = [c] ∧ An c) := (Is.cls _ _ _).congr fun l => by simp only [an_iff]
  have h2 : Is rAnh (fun l => ∃ c, l = [c] ∧ (An c ∨ c = '-')) := (Is.cls _ _ _).congr fun l => by simp only [anh_iff]
  refine ((Is.seq_eps h1).alt (h1.seq ((Is.eps.seq (h2.upTo 61)).seq (Is.seq_eps h1)))).congr fun l => ?_
  constructor
  · rintro (⟨c, rfl, hc⟩ | ⟨_, _, rfl, ⟨c, rfl, hc⟩, _, _, rfl, ⟨_, m, rfl, rfl, hl, hm⟩, d, rfl, hd⟩)
    · refine ⟨by simp, by simp, ?_, ?_, ?_⟩
      · intro d hd; simp at hd; subst hd
        rcases hc with h | h
        · exact .inl h
        · exact .inr (.inl h)
      · simpa using an_not_dash hc
      · simpa using an_not_dash hc
    · refine ⟨by simp, by simp; omega, ?_, ?_, ?_⟩
      · intro x hx
        have : An x ∨ x = '-' := by
          simp only [List.nil_append, List.singleton_append, List.mem_cons, List.mem_append, List.not_mem_nil, or_false] at hx
          rcases hx with rfl | hx | rfl
          · exact .inl hc
          · exact hm x hx
          · exact .inl hd
        rcases this with (h | h) | h
        · exact .inl h
        · exact .inr (.inl h)
        · exact .inr (.inr h)
      · simpa using an_not_dash hc
      · have : [c] ++ ([] ++ m ++ [d]) = (c :: m) ++ [d] := by simp
        rw [this, List.getLast?_append]
        simpa using an_not_dash hd
  · rintro ⟨hlo, hhi, hall, hf, hla⟩
    have conv : ∀ x ∈ l, x ≠ '-' → An x := by
      intro x hx hne
      rcases hall x hx with h | h | h
      · exact .inl h
      · exact .inr h
      · exact absurd h hne
    cases l with
    | nil => simp at hlo
    | cons c m =>
      have hc : An c := conv c (List.mem_cons_self ..) (by simpa using hf)
      by_cases hm : m = []
      · subst hm; exact .inl ⟨c, rfl, hc⟩
      · have hsplit := List.dropLast_concat_getLast hm
        have hd : An (m.getLast hm) := conv _ (List.mem_cons_of_mem _ (List.getLast_mem hm)) (by
          intro e
          apply hla
          rw [List.getLast?_cons, List.getLast?_eq_some_getLast hm, e]; rfl)
        refine .inr ⟨[c], m, rfl, ⟨c, rfl, hc⟩, m.dropLast, [m.getLast hm], hsplit.symm, ⟨[], m.dropLast, rfl, rfl, ?_, ?_⟩, _, rfl, hd⟩
        · simp at hhi ⊢; omega
        · intro x hx
          rcases hall x (List.mem_cons_of_mem _ ((List.dropLast_sublist m).subset hx)) with h | h | h
          · exact .inl (.inl h)
          · exact .inl (.inr h)
          · exact .inr h

theorem many_labels {P : List Char → Prop} (l m : List Char) (hm : Many (fun x => ∃ t, x = '.' :: t ∧ P t) m) :
    ∃ ls : List (List Char), (∀ x ∈ ls, P x) ∧ l ++ m = List.intercalate ['.'] (l :: ls) := by
  induction hm generalizing l with
  | nil => exact ⟨[], by simp, by simp⟩
  | cons a m h _ ih =>
    obtain ⟨t, rfl, ht⟩ := h
    obtain ⟨ls, h1, h2⟩ := ih t
    refine ⟨t :: ls, ?_, ?_⟩
    · intro x hx
      rcases List.mem_cons.1 hx with rfl | hx
      · exact ht
      · exact h1 x hx
    · rw [List.intercalate_cons_cons, ← h2]; simp

theorem labels_many {P : List Char → Prop} (l : List Char) (ls : List (List Char)) (h : ∀ x ∈ ls, P x) :
    ∃ m, Many (fun x => ∃ t, x = '.' :: t ∧ P t) m ∧ List.intercalate ['.'] (l :: ls) = l ++ m := by
  induction ls generalizing l with
  | nil => exact ⟨[], .nil, by simp⟩
  | cons t ls ih =>
    obtain ⟨m, h1, h2⟩ := ih t fun x hx => h x (List.mem_cons_of_mem _ hx)
    refine ⟨('.' :: t) ++ m, .cons _ _ ⟨t, rfl, h t (List.mem_cons_self ..)⟩ h1, ?_⟩
    rw [List.intercalate_cons_cons, h2]; simp

theorem labels_iff (s : String) : matches_ rxHostname s = true ↔
    ∃ ls : List (List Char), ls ≠ [] ∧ (∀ l ∈ ls, Label l) ∧ s.toList = List.intercalate ['.'] ls := by
  simp only [matches_, compile_hostname, matchString, later_found]
  rw [(IsE.seq is_label (IsE.whole (Is.one_seq '.' (Is.seq_eps is_label)).star)).found]
  constructor
  · rintro ⟨l, m, h, hl, hm⟩
    obtain ⟨ls, h1, h2⟩ := many_labels l m hm
    refine ⟨l :: ls, by simp, ?_, h.trans h2⟩
    intro x hx
    rcases List.mem_cons.1 hx with rfl | hx
    · exact hl
    · exact h1 x hx
  · rintro ⟨ls, hne, hls, h⟩
    cases ls with
    | nil => exact absurd rfl hne
    | cons l ls =>
      obtain ⟨m, h1, h2⟩ := labels_many (P := Label) l ls fun x hx => hls x (List.mem_cons_of_mem _ hx)
      exact ⟨l, m, h.trans h2, hls l (List.mem_cons_self ..), h1⟩

theorem intercalate_mem {x c : Char} {ls : List (List Char)} (h : x ∈ List.intercalate [c] ls) : x = c ∨ ∃ l ∈ ls, x ∈ l := by
  induction ls with
  | nil => simp at h
  | cons l ls ih =>
    cases ls with
    | nil => rw [List.intercalate_singleton] at h; exact .inr ⟨l, by simp, h⟩
    | cons l' ls =>
      rw [List.intercalate_cons_cons] at h
      simp only [List.mem_append, List.mem_singleton] at h
      rcases h with (h | h) | h
      · exact .inr ⟨l, by simp, h⟩
      · exact .inl h
      · rcases ih h with h | ⟨l2, h1, h2⟩
        · exact .inl h
        · exact .inr ⟨l2, List.mem_cons_of_mem _ h1, h2⟩

theorem utf8ByteSize_ascii (l : List Char) (h : ∀ c ∈ l, c.toNat < 128) : (String.ofList l).utf8ByteSize = l.length := by
  rw [← String.size_toByteArray, String.toByteArray_ofList]
  induction l with
  | nil => rfl
  | cons c l ih =>
    rw [List.utf8Encode_cons, ByteArray.size_append, ih fun d hd => h d (List.mem_cons_of_mem _ hd)]
    have hc := h c (List.mem_cons_self ..)
    have : [c].utf8Encode.size = 1 := by
      rw [List.utf8Encode_singleton]
      simp only [List.size_toByteArray, String.length_utf8EncodeChar]
      have hv : c.val ≤ 127 := by
        rw [UInt32.le_iff_toNat_le]; exact Nat.le_of_lt_succ hc
      simp [Char.utf8Size, hv]
    rw [this, List.length_cons]; omega

theorem label_ascii {l : List Char} (h : Label l) : ∀ c ∈ l, c.toNat < 128 := by
  intro c hc
  rcases h.2.2.1 c hc with (⟨-, h⟩ | ⟨-, h⟩) | ⟨-, h⟩ | rfl
  · have : c.toNat ≤ 122 := (char_le _ _).1 h
    omega
  · have : c.toNat ≤ 90 := (char_le _ _).1 h
    omega
  · have : c.toNat ≤ 57 := (char_le _ _).1 h
    omega
  · decide

theorem hostname_iff (s : String) : (matches_ rxHostname s && decide (s.utf8ByteSize < 256)) = true ↔ Hostname s.toList := by
  rw [Bool.and_eq_true, decide_eq_true_eq, labels_iff, and_comm, Hostname]
  refine and_congr_left fun ⟨ls, hne, hls, h⟩ => ?_
  have : s.utf8ByteSize = s.toList.length := by
    conv => lhs; rw [← String.ofList_toList (s := s)]
    refine utf8ByteSize_ascii _ fun c hc => ?_
    rw [h] at hc
    rcases intercalate_mem hc with rfl | ⟨l, hl, hc⟩
    · decide
    · exact label_ascii (hls l hl) c hc
  omega

/-! uri-template -/

def rPiece : Rx := .seq (.star (.cls true false [('{', '{')])) (.seq (.alt .eps (.seq (.cls false false [('{', '{')])
  (.seq (.star (.cls true false [('}', '}')])) (.seq (.cls false false [('}', '}')]) .eps)))) .eps)

theorem compile_template : Rx.compile rxURITemplate = some (.seq .first (.seq (.star rPiece) (.seq .last .eps))) := by
  decide +kernel

/-- Text without an opening brace, perhaps followed by something in braces. -/
def Piece (l : List Char) : Prop :=
  ∃ a b, l = a ++ b ∧ (∀ c ∈ a, c ≠ '{') ∧ (b = [] ∨ ∃ d, b = '{' :: (d ++ ['}']) ∧ ∀ c ∈ d, c ≠ '}')

theorem is_piece : Is rPiece Piece := by
  have h1 : ∀ a, Is (.star (.cls true false [(a, a)])) (fun l => ∀ c ∈ l, c ≠ a) := fun a => (Is.cls _ _ _).star.congr fun l => by
    rw [Many.single]; simp only [not_one_iff]
  refine ((h1 '{').seq (Is.seq_eps (Is.eps.alt (Is.one_seq '{' ((h1 '}').seq (Is.seq_eps (Is.one '}'))))))).congr fun l => ?_
  refine exists_congr fun a => exists_congr fun b => and_congr_right fun _ => and_congr_right fun _ => or_congr_right ?_
  constructor
  · rintro ⟨_, rfl, d, _, rfl, hd, rfl⟩; exact ⟨d, rfl, hd⟩
  · rintro ⟨d, rfl, hd⟩; exact ⟨_, rfl, d, _, rfl, hd, rfl⟩

theorem closed_out (a l : List Char) (h : ∀ c ∈ a, c ≠ '{') : closed false (a ++ l) = closed false l := by
  induction a with
  | nil => rfl
  | cons c a ih =>
    have : (c == '{') = false := by simpa using h c (List.mem_cons_self ..)
    simp only [List.cons_append, closed, this]
    exact ih fun d hd => h d (List.mem_cons_of_mem _ hd)

theorem closed_in (a l : List Char) (h : ∀ c ∈ a, c ≠ '}') : closed true (a ++ l) = closed true l := by
  induction a with
  | nil => rfl
  | cons c a ih =>
    have : (c == '}') = false := by simpa using h c (List.mem_cons_self ..)
    simp only [List.cons_append, closed, this, Bool.not_false]
    exact ih fun d hd => h d (List.mem_cons_of_mem _ hd)

theorem closed_piece {p l : List Char} (h : Piece p) : closed false (p ++ l) = closed false l := by
  obtain ⟨a, b, rfl, ha, rfl | ⟨d, rfl, hd⟩⟩ := h
  · simpa using closed_out a l ha
  · rw [List.append_assoc, closed_out _ _ ha]
    show closed true ((d ++ ['}']) ++ l) = _
    rw [List.append_assoc, closed_in _ _ hd]
    rfl

theorem closed_true_split : ∀ l : List Char, closed true l = true → ∃ d m, l = d ++ '}' :: m ∧ (∀ c ∈ d, c ≠ '}') ∧ closed false m = true
  | [], h => by cases h
  | c :: l, h => by
    by_cases hc : c = '}'
    · subst hc; exact ⟨[], l, rfl, by simp, h⟩
    · have hb : (c == '}') = false := by simpa using hc
      simp only [closed, hb, Bool.not_false] at h
      obtain ⟨d, m, rfl, hd, hm⟩ := closed_true_split l h
      refine ⟨c :: d, m, rfl, ?_, hm⟩
      intro x hx
      rcases List.mem_cons.1 hx with rfl | hx
      · exact hc
      · exact hd x hx

theorem many_piece : ∀ (n : Nat) (l : List Char), l.length ≤ n → closed false l = true → Many Piece l
  | _, [], _, _ => .nil
  | 0, c :: l, hn, _ => by simp at hn
  | n + 1, c :: l, hn, h => by
    by_cases hc : c = '{'
    · subst hc
      obtain ⟨d, m, rfl, hd, hm⟩ := closed_true_split l h
      have := many_piece n m (by simp at hn; omega) hm
      have e : '{' :: (d ++ '}' :: m) = ('{' :: (d ++ ['}'])) ++ m := by simp
      rw [e]
      exact .cons _ _ ⟨[], _, rfl, by simp, .inr ⟨d, rfl, hd⟩⟩ this
    · have hb : (c == '{') = false := by simpa using hc
      simp only [closed, hb] at h
      have := many_piece n l (by simp at hn; omega) h
      exact .cons [c] l ⟨[c], [], rfl, by simpa using hc, .inl rfl⟩ this

theorem template_iff (s : String) : matches_ rxURITemplate s = true ↔ closed false s.toList = true := by
  simp only [matches_, compile_template, matchString, later_found]
  rw [(IsE.whole is_piece.star).found]
  constructor
  · intro h
    generalize s.toList = l at h
    induction h with
    | nil => rfl
    | cons p l hp _ ih => rw [closed_piece hp]; exact ih
  · exact many_piece _ _ (Nat.le_refl _)

end GJS.Fmt

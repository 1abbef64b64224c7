import Verif.SpecRegex
/-
Helper lemmas: classes of characters.
-/
namespace GJS.Rx
open Spec

theorem le_toNat (a b : Char) : a ≤ b ↔ a.toNat ≤ b.toNat := by
  rw [Char.le_def, UInt32.le_iff_toNat_le]; rfl

theorem ofNat_small {n : Nat} (h : n < 0xD800) : (Char.ofNat n).toNat = n := by
  have hv : n.isValidChar := .inl h
  simp only [Char.ofNat, hv, dif_pos]
  rfl

theorem eq_toNat (a b : Char) : a = b ↔ a.toNat = b.toNat :=
  ⟨fun h => h ▸ rfl, fun h => by rw [← Char.ofNat_toNat a, ← Char.ofNat_toNat b, h]⟩

theorem mem_orbit (c c' : Char) : c' ∈ orbit c ↔ folded c' = folded c := by
  have n1 : 'a'.toNat = 97 := rfl
  have n2 : 'z'.toNat = 122 := rfl
  have n3 : 'A'.toNat = 65 := rfl
  have n4 : 'Z'.toNat = 90 := rfl
  have n5 : 'k'.toNat = 107 := rfl
  have n6 : 's'.toNat = 115 := rfl
  have n7 : 'K'.toNat = 75 := rfl
  have n8 : 'S'.toNat = 83 := rfl
  have n9 : (Char.ofNat 0x212A).toNat = 0x212A := rfl
  have n10 : (Char.ofNat 0x17F).toNat = 0x17F := rfl
  unfold orbit folded
  simp only [le_toNat, n1, n2, n3, n4]
  split
  · next h =>
    have e : (Char.ofNat (c.toNat - 32)).toNat = c.toNat - 32 := ofNat_small (by omega)
    split
    · next h2 => simp only [List.mem_append, List.mem_cons, List.not_mem_nil, or_false, eq_toNat, e, n5, n9] at h2 ⊢; (repeat' split) <;> omega
    · split
      · next h2 h3 => simp only [List.mem_append, List.mem_cons, List.not_mem_nil, or_false, eq_toNat, e, n5, n6, n10] at h2 h3 ⊢; (repeat' split) <;> omega
      · next h2 h3 => simp only [List.append_nil, List.mem_cons, List.not_mem_nil, or_false, eq_toNat, e, n5, n6] at h2 h3 ⊢; (repeat' split) <;> omega
  · split
    · next h =>
      have e : (Char.ofNat (c.toNat + 32)).toNat = c.toNat + 32 := ofNat_small (by omega)
      split
      · next h2 => simp only [List.mem_append, List.mem_cons, List.not_mem_nil, or_false, eq_toNat, e, n7, n9] at h2 ⊢; (repeat' split) <;> omega
      · split
        · next h2 h3 => simp only [List.mem_append, List.mem_cons, List.not_mem_nil, or_false, eq_toNat, e, n7, n8, n10] at h2 h3 ⊢; (repeat' split) <;> omega
        · next h2 h3 => simp only [List.append_nil, List.mem_cons, List.not_mem_nil, or_false, eq_toNat, e, n7, n8] at h2 h3 ⊢; (repeat' split) <;> omega
    · split
      · next h2 => simp only [List.mem_cons, List.not_mem_nil, or_false, eq_toNat, n5, n7, n9] at h2 ⊢; (repeat' split) <;> omega
      · split
        · next h2 h3 => simp only [List.mem_cons, List.not_mem_nil, or_false, eq_toNat, n6, n8, n9, n10] at h2 h3 ⊢; (repeat' split) <;> omega
        · next h2 h3 => simp only [List.mem_cons, List.not_mem_nil, or_false, eq_toNat, n9, n10] at h2 h3 ⊢; (repeat' split) <;> omega

theorem inRanges_iff (rs : List (Char × Char)) (c : Char) : inRanges rs c = true ↔ ∃ r ∈ rs, r.1.toNat ≤ c.toNat ∧ c.toNat ≤ r.2.toNat := by
  simp [inRanges, le_toNat]

theorem inClass_iff (neg fold : Bool) (rs : List (Char × Char)) (c : Char) : inClass neg fold rs c = true ↔ InClass neg fold rs c := by
  have key : (if fold then (orbit c).any (inRanges rs) else inRanges rs c) = true ↔
      ∃ c' : Char, (if fold = true then folded c' = folded c else c' = c) ∧ ∃ r ∈ rs, r.1.toNat ≤ c'.toNat ∧ c'.toNat ≤ r.2.toNat := by
    cases fold with
    | true => simp only [if_true, List.any_eq_true, inRanges_iff, mem_orbit]
    | false => simp [inRanges_iff]
  unfold inClass InClass
  rw [← key]
  cases (if fold then (orbit c).any (inRanges rs) else inRanges rs c) <;> cases neg <;> simp

end GJS.Rx

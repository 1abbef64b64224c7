import Verif.LemFloat
/-
C09 and C12: what number literals denote, and how they are rounded where the code goes through
float64.
-/
namespace GJS
open Spec

/-- C09: the exact value used by the number keywords is the value the literal denotes. -/
theorem C09_value (n : NumLit) : n.val = valueOf n := by
  unfold NumLit.val valueOf
  rw [mag_eq]

example : valueOf ⟨true, 1, [2, 5], some (-1)⟩ = -1 / 8 := by
  simp [valueOf, magnitudeOf, fractionVal]; norm_num

/-- C12: the float64 that stands for a literal in `enum`, `const` and `uniqueItems` is the binary64
number nearest to the value the literal denotes (ties to even), with the sign of the literal. -/
theorem C12_nearest (n : NumLit) (f : F64) :
    n.toF64 = some f ↔ InRange64 n ∧ f.neg = n.neg ∧ Nearest64 (magnitudeOf n) f.mag := toF64_some n f

/-- C12 and C06: there is none exactly for literals beyond the range. -/
theorem C12_overflow (n : NumLit) : n.toF64 = none ↔ ¬ InRange64 n := toF64_none n

/-- C12: so two literals in range are equal for `enum`, `const` and `uniqueItems` exactly when they have the
same sign and the same nearest binary64 number. -/
theorem C12_equal (m n : NumLit) (hm : InRange64 m) (hn : InRange64 n) :
    SameVal (.num m) (.num n) ↔ m.neg = n.neg ∧ ∃ q, Nearest64 (magnitudeOf m) q ∧ Nearest64 (magnitudeOf n) q := by
  constructor
  · intro h
    cases h with
    | num _ _ h =>
      cases hf : m.toF64 with
      | none => exact absurd hm ((toF64_none m).1 hf)
      | some f =>
        obtain ⟨_, h1, h2⟩ := (toF64_some m f).1 hf
        obtain ⟨_, h3, h4⟩ := (toF64_some n f).1 (h ▸ hf)
        exact ⟨h1.symm.trans h3, f.mag, h2, h4⟩
  · rintro ⟨h1, q, h2, h3⟩
    exact .num _ _ (by rw [(toF64_some m ⟨m.neg, q⟩).2 ⟨hm, rfl, h2⟩, (toF64_some n ⟨m.neg, q⟩).2 ⟨hn, h1, h3⟩])

/-! Both sides of `C12_nearest`: a tenth, which is no binary64 number, and a tie. -/
example : (NumLit.toF64 ⟨false, 0, [1], none⟩) = some ⟨false, mkRat 3602879701896397 (2 ^ 55)⟩ := by decide +kernel
example : (NumLit.toF64 ⟨true, 9007199254740993, [], none⟩) = some ⟨true, 9007199254740992⟩ ∧
    (NumLit.toF64 ⟨true, 9007199254740995, [], none⟩) = some ⟨true, 9007199254740996⟩ := by decide +kernel
example : InRange64 ⟨false, 1, [], some 308⟩ ∧ ¬ InRange64 ⟨false, 1, [], some 309⟩ := by
  constructor
  · exact not_not.1 fun h => absurd ((toF64_none _).2 h) (by decide +kernel)
  · exact (toF64_none _).1 (by decide +kernel)

end GJS

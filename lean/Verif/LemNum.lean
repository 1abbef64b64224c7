import Verif.SpecEqual
import Mathlib.Tactic.Linarith
import Mathlib.Tactic.Positivity
import Mathlib.Data.Nat.Log
/-
Helper lemmas about numbers: magnitudes, exactness of float64 rounding on small integers.
-/
namespace GJS
open Spec

theorem NumLit.mag_nonneg (n : NumLit) : 0 ≤ n.mag := by
  unfold NumLit.mag
  split
  · exact Nat.cast_nonneg _
  · exact Rat.mkRat_nonneg (by simp) _

theorem NumLit.val_eq_iff {m n : NumLit} : m.val = n.val ↔ m.mag = n.mag ∧ (m.neg = n.neg ∨ m.mag = 0) := by
  have h1 := m.mag_nonneg
  have h2 := n.mag_nonneg
  unfold NumLit.val
  constructor
  · intro h
    cases hm : m.neg <;> cases hn : n.neg <;> simp only [hm, hn, Bool.false_eq_true, if_true, if_false] at h
    · exact ⟨h, .inl rfl⟩
    · refine ⟨by linarith, .inr (by linarith)⟩
    · refine ⟨by linarith, .inr (by linarith)⟩
    · exact ⟨by linarith, .inl rfl⟩
  · rintro ⟨h, hs | h0⟩
    · rw [hs, h]
    · rw [← h, h0]; simp

theorem roundMag_exact {a : Nat} (ha : a ≤ 2 ^ 53) : roundMag a 1 = some (a : Rat) := by
  unfold roundMag
  by_cases h0 : a = 0
  · simp [h0]
  · simp only [h0, if_false]
    have hlog : log2Ratio a 1 = (a.log2 : Int) := by
      have h1 : Nat.log2 1 = 0 := by decide
      have h2 : 2 ^ a.log2 ≤ a := Nat.log2_self_le h0
      simp [log2Ratio, h1, h2]
    have hlt : (a : Rat) < ((2 ^ 1024 : Nat) : Rat) := by
      have : a < 2 ^ 1024 := Nat.lt_of_le_of_lt ha (by decide +kernel)
      exact_mod_cast this
    by_cases hbig : a = 2 ^ 53
    · subst hbig
      have h1 : ulpExp (2 ^ 53) 1 = 1 := by decide +kernel
      have h2 : divRound (2 ^ 53) (1 * 2 ^ (1 : Int).toNat) = 2 ^ 52 := by decide +kernel
      have h3 : scale2 (2 ^ 52) 1 = ((2 ^ 53 : Nat) : Rat) := by decide +kernel
      have h4 : (if 0 ≤ (1 : Int) then divRound (2 ^ 53) (1 * 2 ^ (1 : Int).toNat)
          else divRound (2 ^ 53 * 2 ^ (-(1 : Int)).toNat) 1) = 2 ^ 52 := by rw [if_pos (by decide), h2]
      rw [h1, h4, h3, if_neg (not_le.2 hlt)]
    · have hlt53 : a < 2 ^ 53 := by omega
      have hl : a.log2 ≤ 52 := by
        have := (Nat.log2_lt h0).2 hlt53
        omega
      have he : ulpExp a 1 = (a.log2 : Int) - 52 := by
        unfold ulpExp; rw [hlog]; omega
      have key : ∀ k : Nat, (k : Int) = 52 - a.log2 → ulpExp a 1 = -(k : Int) := by intro k hk; omega
      obtain ⟨k, hk⟩ : ∃ k : Nat, (k : Int) = 52 - a.log2 := ⟨52 - a.log2, by omega⟩
      rw [key k hk]
      cases k with
      | zero =>
        have h2 : divRound a 1 = a := by simp [divRound, Nat.mod_one]
        have h4 : (if 0 ≤ (-((0 : Nat) : Int)) then divRound a (1 * 2 ^ (-((0 : Nat) : Int)).toNat)
            else divRound (a * 2 ^ (-(-((0 : Nat) : Int))).toNat) 1) = a := by simp [h2]
        rw [h4]
        have h3 : scale2 a (-((0 : Nat) : Int)) = (a : Rat) := by simp [scale2]
        rw [h3, if_neg (not_le.2 hlt)]
      | succ k =>
        have hneg : ¬ (0 ≤ (-((k + 1 : Nat) : Int))) := by omega
        have h2 : divRound (a * 2 ^ (k + 1)) 1 = a * 2 ^ (k + 1) := by simp [divRound, Nat.mod_one]
        have h4 : (if 0 ≤ (-((k + 1 : Nat) : Int)) then divRound a (1 * 2 ^ (-((k + 1 : Nat) : Int)).toNat)
            else divRound (a * 2 ^ (-(-((k + 1 : Nat) : Int))).toNat) 1) = a * 2 ^ (k + 1) := by
          rw [if_neg hneg, neg_neg, Int.toNat_natCast, h2]
        rw [h4]
        have h3 : scale2 (a * 2 ^ (k + 1)) (-((k + 1 : Nat) : Int)) = (a : Rat) := by
          unfold scale2
          rw [if_neg hneg, neg_neg, Int.toNat_natCast, Rat.mkRat_eq_div]
          push_cast
          exact mul_div_cancel_right₀ _ (by positivity)
        rw [h3, if_neg (not_le.2 hlt)]

theorem toF64_int {n : NumLit} {a : Nat} (h : n.mag = a) (ha : a ≤ 2 ^ 53) : n.toF64 = some ⟨n.neg, a⟩ := by
  unfold NumLit.toF64
  rw [h]
  simp [roundMag_exact ha]

theorem scale2_nonneg (m : Nat) (e : Int) : 0 ≤ scale2 m e := by
  unfold scale2
  split
  · exact Nat.cast_nonneg _
  · exact Rat.mkRat_nonneg (by simp) _

theorem isF64_nonneg {f : F64} (h : IsF64 f) : 0 ≤ f.mag := by
  obtain ⟨n, hn⟩ := h
  simp only [NumLit.toF64, Option.map_eq_some_iff] at hn
  obtain ⟨q, hq, rfl⟩ := hn
  unfold roundMag at hq
  split at hq
  · cases hq; exact le_refl _
  · simp only at hq
    generalize (if 0 ≤ ulpExp n.mag.num.natAbs n.mag.den then _ else _) = m at hq
    by_cases hc : ((2 ^ 1024 : Nat) : Rat) ≤ scale2 m (ulpExp n.mag.num.natAbs n.mag.den)
    · rw [if_pos hc] at hq; cases hq
    · rw [if_neg hc] at hq; cases hq; exact scale2_nonneg _ _

end GJS

import Verif.SpecFloat
import Verif.LemNum
import Mathlib.Tactic.Ring
import Mathlib.Tactic.FieldSimp
import Mathlib.Tactic.NormNum
import Mathlib.Algebra.Order.Field.Power
import Mathlib.Data.Rat.Lemmas
/-
Lemmas: the value of literals, rounding to binary64.
-/
namespace GJS
open Spec

theorem digitsVal_cons (d : Fin 10) (ds : List (Fin 10)) : digitsVal (d :: ds) = d.val * 10 ^ ds.length + digitsVal ds := by
  have h : ∀ (ds : List (Fin 10)) (a : Nat), ds.foldl (fun a d => a * 10 + d.val) a =
      a * 10 ^ ds.length + ds.foldl (fun a d => a * 10 + d.val) 0 := by
    intro ds
    induction ds with
    | nil => intro a; simp
    | cons x xs ih =>
      intro a
      simp only [List.foldl_cons, List.length_cons]
      rw [ih (a * 10 + x.val), ih (0 * 10 + x.val)]
      ring
  simp only [digitsVal, List.foldl_cons]
  rw [h]; simp

theorem fractionVal_eq (ds : List (Fin 10)) : fractionVal ds * (10 : Rat) ^ ds.length = digitsVal ds := by
  induction ds with
  | nil => simp [fractionVal, digitsVal]
  | cons d ds ih =>
    rw [digitsVal_cons, fractionVal, List.length_cons, pow_succ]
    push_cast
    rw [← ih]
    ring

theorem mag_eq (n : NumLit) : n.mag = magnitudeOf n := by
  have hm : (n.mant : Rat) = (n.ip + fractionVal n.frac) * (10 : Rat) ^ n.frac.length := by
    rw [add_mul, fractionVal_eq]
    simp [NumLit.mant]
  have h10 : (10 : Rat) ≠ 0 := by norm_num
  have hv : n.mag = n.mant * (10 : Rat) ^ n.exp10 := by
    unfold NumLit.mag
    split
    · rename_i h
      obtain ⟨k, hk⟩ := Int.eq_ofNat_of_zero_le h
      rw [hk]; simp
    · rename_i h
      obtain ⟨k, hk⟩ : ∃ k : Nat, n.exp10 = -(k : Int) := ⟨(-n.exp10).toNat, by omega⟩
      rw [hk, Rat.mkRat_eq_div]
      simp [div_eq_mul_inv]
  rw [hv, hm, magnitudeOf, NumLit.exp10, zpow_sub₀ h10]
  simp
  field_simp

theorem scale2_eq (m : Nat) (e : Int) : scale2 m e = m * (2 : Rat) ^ e := by
  unfold scale2
  split
  · rename_i h
    obtain ⟨k, hk⟩ := Int.eq_ofNat_of_zero_le h
    rw [hk]; simp
  · rename_i h
    obtain ⟨k, hk⟩ : ∃ k : Nat, e = -(k : Int) := ⟨(-e).toNat, by omega⟩
    rw [hk, Rat.mkRat_eq_div]
    simp [div_eq_mul_inv]

/-- Integer division rounds to nearest, ties to even. -/
theorem divRound_near (a b : Nat) (hb : 0 < b) :
    2 * |(a : Rat) / b - divRound a b| ≤ 1 ∧ (2 * |(a : Rat) / b - divRound a b| = 1 → divRound a b % 2 = 0) := by
  have hb' : (0 : Rat) < b := by exact_mod_cast hb
  have hdiv : (a : Rat) = b * (a / b : Nat) + (a % b : Nat) := by exact_mod_cast (Nat.div_add_mod a b).symm
  have hr : a % b < b := Nat.mod_lt _ hb
  have hy : (a : Rat) / b = (a / b : Nat) + ((a % b : Nat) : Rat) / b := by
    rw [hdiv]; field_simp
  have hr0 : (0 : Rat) ≤ ((a % b : Nat) : Rat) / b := by positivity
  have hr1 : ((a % b : Nat) : Rat) / b < 1 := by rw [div_lt_one hb']; exact_mod_cast hr
  rw [hy]
  generalize hg : ((a % b : Nat) : Rat) / b = y at *
  have hyb : ((a % b : Nat) : Rat) = y * b := by rw [← hg]; field_simp
  unfold divRound
  simp only
  generalize a / b = m at *
  generalize a % b = r at *
  split
  · rename_i h
    have h2 : 1 ≤ 2 * y := by
      have : (b : Rat) ≤ 2 * r := by
        rcases h with h | h
        · exact_mod_cast Nat.le_of_lt h
        · exact_mod_cast h.1.ge
      rw [hyb] at this
      by_contra hc
      push Not at hc
      nlinarith
    have e : (m : Rat) + y - (m + 1 : Nat) = y - 1 := by push_cast; ring
    rw [e, abs_of_nonpos (by linarith)]
    refine ⟨by linarith, fun h3 => ?_⟩
    have h4 : 2 * r = b := by
      have : (2 : Rat) * r = b := by rw [hyb]; nlinarith
      exact_mod_cast this
    rcases h with h | h <;> omega
  · rename_i h
    have h2 : 2 * y ≤ 1 := by
      have : (2 : Rat) * r ≤ b := by exact_mod_cast (by omega : 2 * r ≤ b)
      rw [hyb] at this
      by_contra hc
      push Not at hc
      nlinarith
    have e : (m : Rat) + y - m = y := by ring
    rw [e, abs_of_nonneg hr0]
    refine ⟨h2, fun h3 => ?_⟩
    have h4 : 2 * r = b := by
      have : (2 : Rat) * r = b := by rw [hyb]; nlinarith
      exact_mod_cast this
    omega

theorem log2Ratio_spec {a b : Nat} (ha : 0 < a) (hb : 0 < b) :
    (2 : Rat) ^ log2Ratio a b ≤ (a : Rat) / b ∧ (a : Rat) / b < (2 : Rat) ^ (log2Ratio a b + 1) := by
  have hb' : (0 : Rat) < b := by exact_mod_cast hb
  have a1 : (2 : Rat) ^ (a.log2 : Int) ≤ a := by
    rw [zpow_natCast]; exact_mod_cast Nat.log2_self_le (by omega)
  have a2 : (a : Rat) < (2 : Rat) ^ ((a.log2 : Int) + 1) := by
    have : a < 2 ^ (a.log2 + 1) := Nat.lt_log2_self
    rw [← Nat.cast_succ, zpow_natCast]; exact_mod_cast this
  have b1 : (2 : Rat) ^ (b.log2 : Int) ≤ b := by
    rw [zpow_natCast]; exact_mod_cast Nat.log2_self_le (by omega)
  have b2 : (b : Rat) < (2 : Rat) ^ ((b.log2 : Int) + 1) := by
    have : b < 2 ^ (b.log2 + 1) := Nat.lt_log2_self
    rw [← Nat.cast_succ, zpow_natCast]; exact_mod_cast this
  rw [le_div_iff₀ hb', div_lt_iff₀ hb']
  have two : (2 : Rat) ≠ 0 := by norm_num
  -- the test is `2 ^ k * b ≤ a`
  have key : log2Ratio a b = if (2 : Rat) ^ ((a.log2 : Int) - b.log2) * b ≤ a then (a.log2 : Int) - b.log2
      else (a.log2 : Int) - b.log2 - 1 := by
    unfold log2Ratio
    simp only
    generalize (a.log2 : Int) - b.log2 = k
    split
    · rename_i hk
      obtain ⟨j, rfl⟩ := Int.eq_ofNat_of_zero_le hk
      congr 1
      simp only [Int.ofNat_eq_natCast, Int.toNat_natCast, zpow_natCast, eq_iff_iff]
      rw [mul_comm]
      exact_mod_cast Iff.rfl
    · rename_i hk
      obtain ⟨j, rfl⟩ : ∃ j : Nat, k = -(j : Int) := ⟨(-k).toNat, by omega⟩
      congr 1
      simp only [neg_neg, Int.toNat_natCast, zpow_neg, zpow_natCast, eq_iff_iff]
      rw [inv_mul_le_iff₀ (by positivity), mul_comm]
      exact_mod_cast Iff.rfl
  rw [key]
  have up : (a : Rat) < (2 : Rat) ^ ((a.log2 : Int) - b.log2 + 1) * b := by
    have : (2 : Rat) ^ ((a.log2 : Int) + 1) = (2 : Rat) ^ ((a.log2 : Int) - b.log2 + 1) * (2 : Rat) ^ (b.log2 : Int) := by
      rw [← zpow_add₀ two]; congr 1; ring
    have hp : (0 : Rat) < (2 : Rat) ^ ((a.log2 : Int) - b.log2 + 1) := by positivity
    nlinarith
  have down : (2 : Rat) ^ ((a.log2 : Int) - b.log2 - 1) * b ≤ a := by
    have : (2 : Rat) ^ (a.log2 : Int) = (2 : Rat) ^ ((a.log2 : Int) - b.log2 - 1) * (2 : Rat) ^ ((b.log2 : Int) + 1) := by
      rw [← zpow_add₀ two]; congr 1; ring
    have hp : (0 : Rat) < (2 : Rat) ^ ((a.log2 : Int) - b.log2 - 1) := by positivity
    nlinarith
  split
  · rename_i h; exact ⟨h, up⟩
  · rename_i h
    refine ⟨down, ?_⟩
    push Not at h
    simpa using h

/-- What rounding does, in units of the last bit. -/
theorem roundMag_units {a b : Nat} (ha : 0 < a) (hb : 0 < b) :
    ∃ (m : Nat) (e : Int) (y : Rat), (a : Rat) / b = y * (2 : Rat) ^ e ∧
      roundMag a b = (if (2 : Rat) ^ (1024 : Int) ≤ m * (2 : Rat) ^ e then none else some (m * (2 : Rat) ^ e)) ∧
      -1074 ≤ e ∧ y < 2 ^ 53 ∧ (e ≠ -1074 → 2 ^ 52 ≤ y) ∧ 2 * |y - m| ≤ 1 ∧ (2 * |y - m| = 1 → m % 2 = 0) := by
  have two : (2 : Rat) ≠ 0 := by norm_num
  have hb' : (0 : Rat) < b := by exact_mod_cast hb
  obtain ⟨l1, l2⟩ := log2Ratio_spec ha hb
  have hp : (0 : Rat) < (2 : Rat) ^ ulpExp a b := by positivity
  refine ⟨if 0 ≤ ulpExp a b then divRound a (b * 2 ^ (ulpExp a b).toNat) else divRound (a * 2 ^ (-ulpExp a b).toNat) b,
    ulpExp a b, (a : Rat) / b / (2 : Rat) ^ ulpExp a b, by field_simp, ?_, Int.le_max_left _ _, ?_, ?_, ?_⟩
  · unfold roundMag
    rw [if_neg (by omega)]
    simp only [scale2_eq]
    have : (((2 : Nat) ^ 1024 : Nat) : Rat) = (2 : Rat) ^ (1024 : Int) := by
      rw [show (1024 : Int) = ((1024 : Nat) : Int) from rfl, zpow_natCast]; push_cast; rfl
    rw [this]
  · rw [div_lt_iff₀ hp]
    refine lt_of_lt_of_le l2 ?_
    have e53 : (2 : Rat) ^ 53 = (2 : Rat) ^ (53 : Int) := rfl
    rw [e53, ← zpow_add₀ two]
    refine zpow_le_zpow_right₀ (by norm_num) ?_
    unfold ulpExp; omega
  · intro hne
    rw [le_div_iff₀ hp]
    refine le_trans ?_ l1
    have e52 : (2 : Rat) ^ 52 = (2 : Rat) ^ (52 : Int) := rfl
    rw [e52, ← zpow_add₀ two]
    refine zpow_le_zpow_right₀ (by norm_num) ?_
    unfold ulpExp at hne ⊢; omega
  · split
    · rename_i h
      have hd := divRound_near a (b * 2 ^ (ulpExp a b).toNat) (by positivity)
      have : (a : Rat) / ((b * 2 ^ (ulpExp a b).toNat : Nat) : Rat) = (a : Rat) / b / (2 : Rat) ^ ulpExp a b := by
        obtain ⟨k, hk⟩ := Int.eq_ofNat_of_zero_le h
        rw [hk]
        simp only [Int.ofNat_eq_natCast, Int.toNat_natCast, zpow_natCast]
        push_cast
        rw [div_div]
      rw [this] at hd
      exact hd
    · rename_i h
      have hd := divRound_near (a * 2 ^ (-ulpExp a b).toNat) b hb
      have : ((a * 2 ^ (-ulpExp a b).toNat : Nat) : Rat) / b = (a : Rat) / b / (2 : Rat) ^ ulpExp a b := by
        obtain ⟨k, hk⟩ : ∃ k : Nat, ulpExp a b = -(k : Int) := ⟨(-ulpExp a b).toNat, by omega⟩
        rw [hk]
        simp only [neg_neg, Int.toNat_natCast, zpow_neg, zpow_natCast]
        push_cast
        field_simp
      rw [this] at hd
      exact hd

/-- Integers are at least one half away from others. -/
theorem near_int {y : Rat} {m k : Int} (h : 2 * |y - m| ≤ 1) (hk : k ≠ m) :
    |y - m| < |y - k| ∨ |y - m| = |y - k| ∧ 2 * |y - m| = 1 := by
  have h1 : (1 : Rat) ≤ |(m : Rat) - k| := by
    have : (1 : Int) ≤ |m - k| := Int.one_le_abs (by omega)
    exact_mod_cast this
  have h2 : |(m : Rat) - k| ≤ |y - m| + |y - k| := by
    have := abs_sub (y - k) (y - m)
    have e : (y - k) - (y - m) = (m : Rat) - k := by ring
    rw [e] at this; linarith
  by_cases hlt : |y - m| < |y - k|
  · exact .inl hlt
  · right
    push Not at hlt
    constructor <;> linarith

theorem roundMag_nearest {a b : Nat} {q : Rat} (hb : 0 < b) (h : roundMag a b = some q) : Nearest64 ((a : Rat) / b) q := by
  have two : (2 : Rat) ≠ 0 := by norm_num
  rcases Nat.eq_zero_or_pos a with rfl | ha
  · simp only [roundMag, if_true, Option.some.injEq] at h
    subst h
    refine ⟨0, -1074, ⟨by simp, by norm_num, le_refl _, by norm_num, .inr rfl⟩, fun m' e' q' hq => ?_⟩
    by_cases h0 : q' = 0
    · exact .inr (.inl h0)
    · left
      simpa using h0
  obtain ⟨m, e, y, hx, hr, e1, y1, y2, d1, d2⟩ := roundMag_units ha hb
  have hp : (0 : Rat) < (2 : Rat) ^ e := by positivity
  rw [hr] at h
  split at h
  · exact absurd h (by simp)
  rename_i hov
  push Not at hov
  simp only [Option.some.injEq] at h
  subst h
  obtain ⟨da, db⟩ := abs_le.1 (show |y - m| ≤ 1 / 2 by linarith)
  have hm : m ≤ 2 ^ 53 := by
    have : (m : Rat) < 2 ^ 53 + 1 := by linarith
    have : m < 2 ^ 53 + 1 := by exact_mod_cast this
    omega
  have hm2 : e ≠ -1074 → 2 ^ 52 ≤ m := fun hne => by
    have := y2 hne
    have : (2 : Rat) ^ 52 < m + 1 := by linarith
    have : 2 ^ 52 < m + 1 := by exact_mod_cast this
    omega
  have hpow : ∀ j : Nat, (2 : Rat) ^ (j : Int) = ((2 ^ j : Nat) : Rat) := fun j => by rw [zpow_natCast]; push_cast; rfl
  -- the exponent is not too large
  have he : 2 ^ 52 ≤ m → e ≤ 971 := fun hmm => by
    by_contra hc
    have h1 : (2 : Rat) ^ (1024 : Int) ≤ (2 : Rat) ^ ((52 : Nat) : Int) * (2 : Rat) ^ e := by
      rw [← zpow_add₀ two]
      exact zpow_le_zpow_right₀ (by norm_num) (by push_cast; omega)
    rw [hpow] at h1
    have h2 : ((2 ^ 52 : Nat) : Rat) ≤ m := by exact_mod_cast hmm
    nlinarith
  -- comparison with any other number
  have cmp : ∀ m' e' q', Binary64 m' e' q' → |y * (2 : Rat) ^ e - m * (2 : Rat) ^ e| < |y * (2 : Rat) ^ e - q'| ∨
      q' = m * (2 : Rat) ^ e ∨
      |y * (2 : Rat) ^ e - m * (2 : Rat) ^ e| = |y * (2 : Rat) ^ e - q'| ∧ m % 2 = 0 := by
    intro m' e' q' hq
    have fac : ∀ k : Rat, |y * (2 : Rat) ^ e - k * (2 : Rat) ^ e| = |y - k| * (2 : Rat) ^ e := fun k => by
      rw [← sub_mul, abs_mul, abs_of_pos hp]
    by_cases hle : e ≤ e'
    · obtain ⟨j, rfl⟩ : ∃ j : Nat, e' = e + j := ⟨(e' - e).toNat, by omega⟩
      have hq' : q' = ((m' * 2 ^ j : Nat) : Rat) * (2 : Rat) ^ e := by
        rw [hq.value, zpow_add₀ two, hpow]; push_cast; ring
      rw [hq', fac, fac]
      by_cases hk : m' * 2 ^ j = m
      · right; left; rw [hk]
      · rcases near_int (y := y) (m := (m : Int)) (k := ((m' * 2 ^ j : Nat) : Int)) (by exact_mod_cast d1) (by exact_mod_cast hk) with h | ⟨h1, h2⟩
        · left
          exact mul_lt_mul_of_pos_right (by exact_mod_cast h) hp
        · right; right
          exact ⟨by rw [show |y - (m : Rat)| = |y - ((m' * 2 ^ j : Nat) : Rat)| by exact_mod_cast h1], d2 (by exact_mod_cast h2)⟩
    · push Not at hle
      left
      have hne : e ≠ -1074 := by have := hq.low; omega
      have hy := y2 hne
      have hq1 : q' < 2 ^ 52 * (2 : Rat) ^ e := by
        rw [hq.value]
        have : (2 : Rat) ^ e' ≤ (2 : Rat) ^ (e - 1) := zpow_le_zpow_right₀ (by norm_num) (by omega)
        have e3 : (2 : Rat) ^ e = 2 * (2 : Rat) ^ (e - 1) := by rw [zpow_sub₀ two]; field_simp
        have hb : (m' : Rat) < 2 ^ 53 := by exact_mod_cast hq.bits
        have hp' : (0 : Rat) < (2 : Rat) ^ e' := by positivity
        rw [e3]
        nlinarith
      have h52 : |y - m| ≤ |y - ((2 ^ 52 : Nat) : Rat)| := by
        by_cases hk : m = 2 ^ 52
        · rw [hk]
        · rcases near_int (y := y) (m := (m : Int)) (k := ((2 ^ 52 : Nat) : Int)) (by exact_mod_cast d1) (by exact_mod_cast Ne.symm hk) with h | ⟨h, _⟩
          · exact le_of_lt (by exact_mod_cast h)
          · exact le_of_eq (by exact_mod_cast h)
      have h52' : |y - ((2 ^ 52 : Nat) : Rat)| = y - 2 ^ 52 := by
        rw [abs_of_nonneg (by push_cast; linarith)]; push_cast; rfl
      rw [fac]
      refine lt_of_le_of_lt (mul_le_mul_of_nonneg_right (h52.trans (le_of_eq h52')) (le_of_lt hp)) ?_
      rw [abs_of_nonneg (by nlinarith)]
      linarith
  rw [hx]
  by_cases hmax : m = 2 ^ 53
  · have he1 : e + 1 ≤ 971 := by
      by_contra hc
      have h1 : (2 : Rat) ^ (1024 : Int) ≤ (2 : Rat) ^ ((53 : Nat) : Int) * (2 : Rat) ^ e := by
        rw [← zpow_add₀ two]
        exact zpow_le_zpow_right₀ (by norm_num) (by push_cast; omega)
      rw [hpow, ← hmax] at h1
      linarith
    refine ⟨2 ^ 52, e + 1, ⟨?_, by norm_num, by omega, he1, .inl (le_refl _)⟩, fun m' e' q' hq => ?_⟩
    · rw [zpow_add₀ two, hmax]; push_cast; ring
    · rcases cmp m' e' q' hq with h | h | h
      · exact .inl h
      · exact .inr (.inl h)
      · exact .inr (.inr ⟨h.1, by norm_num⟩)
  · refine ⟨m, e, ⟨rfl, by omega, e1, ?_, ?_⟩, cmp⟩
    · by_cases hne : e = -1074
      · omega
      · exact he (hm2 hne)
    · by_cases hne : e = -1074
      · exact .inr hne
      · exact .inl (hm2 hne)

theorem roundMag_overflow {a b : Nat} (hb : 0 < b) : roundMag a b = none ↔ (2 : Rat) ^ 1024 - 2 ^ 970 ≤ (a : Rat) / b := by
  have two : (2 : Rat) ≠ 0 := by norm_num
  have big : (2 : Rat) ^ 1024 - 2 ^ 970 = (2 ^ 53 - 1 / 2) * (2 : Rat) ^ (971 : Int) := by
    have e1 : (2 : Rat) ^ 1024 = 2 ^ 53 * (2 : Rat) ^ (971 : Int) := by
      rw [show (971 : Int) = ((971 : Nat) : Int) from rfl, zpow_natCast, ← pow_add]
    have e2 : (2 : Rat) ^ (971 : Int) = 2 * 2 ^ 970 := by
      rw [show (971 : Int) = ((971 : Nat) : Int) from rfl, zpow_natCast, ← pow_succ']
    rw [e1]
    generalize (2 : Rat) ^ 970 = Q at *
    generalize (2 : Rat) ^ (971 : Int) = P at *
    linarith
  have p971 : (0 : Rat) < (2 : Rat) ^ (971 : Int) := by positivity
  rcases Nat.eq_zero_or_pos a with rfl | ha
  · simp only [roundMag, if_true, reduceCtorEq, false_iff, not_le, Nat.cast_zero, zero_div]
    rw [big]
    exact mul_pos (by norm_num) p971
  obtain ⟨m, e, y, hx, hr, e1, y1, y2, d1, d2⟩ := roundMag_units ha hb
  have hp : (0 : Rat) < (2 : Rat) ^ e := by positivity
  obtain ⟨da, db⟩ := abs_le.1 (show |y - m| ≤ 1 / 2 by linarith)
  have h1024 : (2 : Rat) ^ (1024 : Int) = 2 ^ 53 * (2 : Rat) ^ (971 : Int) := by
    rw [show (2 : Rat) ^ 53 = (2 : Rat) ^ (53 : Int) from rfl, ← zpow_add₀ two]; rfl
  rw [hx, hr, big, h1024]
  have mono : ∀ {i j : Int}, i ≤ j → (2 : Rat) ^ i ≤ (2 : Rat) ^ j := fun h => zpow_le_zpow_right₀ (by norm_num) h
  have step : ∀ i : Int, (2 : Rat) ^ (i + 1) = 2 * (2 : Rat) ^ i := fun i => by rw [zpow_add₀ two]; ring
  have lo : e < 971 → 2 * (2 : Rat) ^ e ≤ (2 : Rat) ^ (971 : Int) := fun h => by rw [← step]; exact mono (by omega)
  have hi : 971 < e → 2 * (2 : Rat) ^ (971 : Int) ≤ (2 : Rat) ^ e := fun h => by rw [← step]; exact mono (by omega)
  have mid : e = 971 → (2 : Rat) ^ e = (2 : Rat) ^ (971 : Int) := fun h => by rw [h]
  clear mono step h1024 hr hx big
  generalize (2 : Rat) ^ (971 : Int) = P at *
  generalize (2 : Rat) ^ e = E at *
  constructor
  · intro h
    split at h
    · rename_i hov
      rcases lt_trichotomy e 971 with hlt | heq | hgt
      · exfalso
        have := lo hlt
        have hm : (m : Rat) < 2 ^ 53 + 1 := by linarith
        nlinarith
      · rw [mid heq] at hov ⊢
        have hm : (2 : Rat) ^ 53 ≤ m := le_of_mul_le_mul_right hov p971
        exact mul_le_mul_of_nonneg_right (by linarith) (le_of_lt p971)
      · have := hi hgt
        have hy := y2 (by omega)
        nlinarith
    · exact absurd h (by simp)
  · intro h
    rw [if_pos]
    rcases lt_trichotomy e 971 with hlt | heq | hgt
    · exfalso
      have := lo hlt
      nlinarith
    · rw [mid heq] at h ⊢
      have hy : 2 ^ 53 - 1 / 2 ≤ y := le_of_mul_le_mul_right h p971
      have hm : (2 : Rat) ^ 53 ≤ m := by
        by_contra hc
        push Not at hc
        have hc' : m < 2 ^ 53 := by exact_mod_cast hc
        have hm1 : (2 : Rat) ^ 53 ≤ m + 1 := by linarith
        have hm1' : 2 ^ 53 ≤ m + 1 := by exact_mod_cast hm1
        have hme : m = 2 ^ 53 - 1 := by omega
        have hmr : (m : Rat) = 2 ^ 53 - 1 := by rw [hme]; norm_num
        have : m % 2 = 0 := d2 (by
          rw [abs_of_nonneg (by linarith)] at d1 ⊢
          linarith)
        rw [hme] at this
        norm_num at this
      exact mul_le_mul_of_nonneg_right hm (le_of_lt p971)
    · have := hi hgt
      have hy := y2 (by omega)
      have hm : (2 : Rat) ^ 52 ≤ m := by
        by_contra hc
        push Not at hc
        have hc' : m < 2 ^ 52 := by exact_mod_cast hc
        have : (m : Rat) + 1 ≤ 2 ^ 52 := by exact_mod_cast hc'
        linarith
      nlinarith

/-- If two numbers are nearest, the smaller one cannot be strictly smaller. -/
theorem nearest_not_lt {x q q' : Rat} (h : Nearest64 x q) (h' : Nearest64 x q') : ¬ q < q' := by
  intro hlt
  have two : (2 : Rat) ≠ 0 := by norm_num
  obtain ⟨m, e, hb, hn⟩ := h
  obtain ⟨m', e', hb', hn'⟩ := h'
  have heq : |x - q| = |x - q'| ∧ m % 2 = 0 ∧ m' % 2 = 0 := by
    rcases hn _ _ _ hb' with a | a | a
    · rcases hn' _ _ _ hb with b | b | b
      · linarith
      · rw [b] at hlt; exact absurd hlt (lt_irrefl _)
      · linarith [b.1]
    · rw [a] at hlt; exact absurd hlt (lt_irrefl _)
    · rcases hn' _ _ _ hb with b | b | b
      · linarith [a.1]
      · rw [b] at hlt; exact absurd hlt (lt_irrefl _)
      · exact ⟨a.1, a.2, b.2⟩
  obtain ⟨hd, m1, m2⟩ := heq
  have hp : (0 : Rat) < (2 : Rat) ^ e := by positivity
  -- `x` is in the middle
  have hx : 2 * x = q + q' := by
    rcases abs_eq_abs.1 hd with h | h <;> linarith
  have hee : e ≤ e' := by
    by_contra hc
    push Not at hc
    have hm : 2 ^ 52 ≤ m := by
      rcases hb.normal with h | h
      · exact h
      · have := hb'.low; omega
    have h1 : (2 : Rat) ^ e' ≤ (2 : Rat) ^ (e - 1) := zpow_le_zpow_right₀ (by norm_num) (by omega)
    have e3 : (2 : Rat) ^ e = 2 * (2 : Rat) ^ (e - 1) := by rw [zpow_sub₀ two]; field_simp
    have b1 : (m' : Rat) < 2 ^ 53 := by exact_mod_cast hb'.bits
    have b2 : (2 : Rat) ^ 52 ≤ m := by exact_mod_cast hm
    have hp' : (0 : Rat) < (2 : Rat) ^ e' := by positivity
    rw [hb.value, hb'.value, e3] at hlt
    nlinarith
  obtain ⟨j, rfl⟩ : ∃ j : Nat, e' = e + j := ⟨(e' - e).toNat, by omega⟩
  have hq' : q' = ((m' * 2 ^ j : Nat) : Rat) * (2 : Rat) ^ e := by
    rw [hb'.value, zpow_add₀ two, zpow_natCast]; push_cast; ring
  have hk : m < m' * 2 ^ j := by
    rw [hq', hb.value] at hlt
    have := lt_of_mul_lt_mul_right hlt (le_of_lt hp)
    exact_mod_cast this
  have hz : Binary64 (m + 1) e (((m + 1 : Nat) : Rat) * (2 : Rat) ^ e) :=
    ⟨rfl, by have := hb.bits; omega, hb.low, hb.high, hb.normal.imp (fun h => by omega) id⟩
  generalize hzq : ((m + 1 : Nat) : Rat) * (2 : Rat) ^ e = z at hz
  have hqz : q < z := by
    rw [← hzq, hb.value]; push_cast; nlinarith
  have hzq' : z ≤ q' := by
    rw [← hzq, hq']
    refine mul_le_mul_of_nonneg_right ?_ (le_of_lt hp)
    exact_mod_cast hk
  have hdist : |x - q| ≤ |x - z| := by
    rcases hn _ _ _ hz with h | h | h
    · exact le_of_lt h
    · rw [h]
    · exact le_of_eq h.1
  have hzz : z = q' := by
    rw [abs_of_nonneg (by linarith)] at hdist
    rcases abs_cases (x - z) with ⟨h1, h2⟩ | ⟨h1, h2⟩ <;> rw [h1] at hdist <;> linarith
  have hmm : m + 1 = m' * 2 ^ j := by
    rw [← hzq, hq'] at hzz
    have := mul_right_cancel₀ (ne_of_gt hp) hzz
    exact_mod_cast this
  have : 2 ∣ m' * 2 ^ j := Dvd.dvd.mul_right (Nat.dvd_of_mod_eq_zero m2) _
  omega

theorem nearest_unique {x q q' : Rat} (h : Nearest64 x q) (h' : Nearest64 x q') : q = q' :=
  le_antisymm (not_lt.1 (nearest_not_lt h' h)) (not_lt.1 (nearest_not_lt h h'))

theorem mag_ratio (n : NumLit) : ((n.mag.num.natAbs : Nat) : Rat) / (n.mag.den : Nat) = magnitudeOf n := by
  rw [← mag_eq]
  have h0 := n.mag_nonneg
  have : ((n.mag.num.natAbs : Nat) : Rat) = n.mag.num := by
    have h1 : 0 ≤ n.mag.num := Rat.num_nonneg.2 h0
    have h2 : ((n.mag.num.natAbs : Nat) : Int) = n.mag.num := Int.natAbs_of_nonneg h1
    calc ((n.mag.num.natAbs : Nat) : Rat) = (((n.mag.num.natAbs : Nat) : Int) : Rat) := (Int.cast_natCast _).symm
      _ = n.mag.num := by rw [h2]
  rw [this]
  exact Rat.num_div_den _

theorem toF64_none (n : NumLit) : n.toF64 = none ↔ ¬ InRange64 n := by
  unfold NumLit.toF64 InRange64
  rw [Option.map_eq_none_iff, roundMag_overflow n.mag.den_pos, mag_ratio, not_lt]

theorem toF64_some (n : NumLit) (f : F64) :
    n.toF64 = some f ↔ InRange64 n ∧ f.neg = n.neg ∧ Nearest64 (magnitudeOf n) f.mag := by
  constructor
  · intro h
    have h1 : InRange64 n := by
      by_contra hc
      rw [(toF64_none n).2 hc] at h
      exact absurd h (by simp)
    unfold NumLit.toF64 at h
    obtain ⟨q, hq, rfl⟩ := Option.map_eq_some_iff.1 h
    have := roundMag_nearest n.mag.den_pos hq
    rw [mag_ratio] at this
    exact ⟨h1, rfl, this⟩
  · rintro ⟨h1, h2, h3⟩
    cases hn : n.toF64 with
    | none => exact absurd h1 ((toF64_none n).1 hn)
    | some g =>
      unfold NumLit.toF64 at hn
      obtain ⟨q, hq, rfl⟩ := Option.map_eq_some_iff.1 hn
      have := roundMag_nearest n.mag.den_pos hq
      rw [mag_ratio] at this
      obtain ⟨neg, mag⟩ := f
      simp only at h2 h3
      rw [h2, nearest_unique h3 this]

end GJS

import Verif.Live
import Verif.LemAbort
import Verif.LemLoc
import Verif.LemWork
/-
Helper lemmas: validation with answers about formats that change.
-/
namespace GJS
open Spec

theorem validateCommon_fmt {env : Env} {f g : String → Json → Bool} {s : Sub} {v : Json} {c : Ctx} (hf : s.format ≠ "" → f s.format v = g s.format v) :
    validateCommon { env with isFormat := f } s v c = validateCommon { env with isFormat := g } s v c := by
  have e : checkFormat { env with isFormat := f } s v c = checkFormat { env with isFormat := g } s v c := by
    unfold checkFormat
    by_cases h : s.format = ""
    · simp [h]
    · simp only [hf h]
  unfold validateCommon
  rw [e]
  rfl

section
variable {env : Env} {f g : String → Json → Bool} {σ : Sched} {rec : Rec} {p : Path} {s : Sub} {v : Json} {c : Ctx}

theorem patternLoop_fmt {key} : ∀ {k l}, patternLoop { env with isFormat := f } rec p key v c k l = patternLoop { env with isFormat := g } rec p key v c k l
  | _, [] => rfl
  | _, (_, _) :: _ => by
    unfold patternLoop
    rw [patternLoop_fmt]
    rfl

theorem uniqueLoop_fmt {all} : ∀ {seen j xs}, uniqueLoop { env with isFormat := f } all c seen j xs = uniqueLoop { env with isFormat := g } all c seen j xs
  | _, _, [] => rfl
  | _, _, _ :: _ => by
    unfold uniqueLoop
    simp only [uniqueLoop_fmt]
    rfl

theorem checkProperty_fmt {key} : checkProperty { env with isFormat := f } σ rec p s key v c = checkProperty { env with isFormat := g } σ rec p s key v c := by
  unfold checkProperty validatePatternProperty
  rw [patternLoop_fmt]

theorem validateObject_fmt {kvs} : validateObject { env with isFormat := f } σ rec p s kvs c = validateObject { env with isFormat := g } σ rec p s kvs c := by
  unfold validateObject
  simp only [checkProperty_fmt (f := f) (g := g)]

theorem validateArray_fmt {xs} : validateArray { env with isFormat := f } rec p s xs c = validateArray { env with isFormat := g } rec p s xs c := by
  unfold validateArray checkUnique
  simp only [uniqueLoop_fmt (f := f) (g := g)]

theorem validateSchema_fmt : validateSchema { env with isFormat := f } σ rec p s v c = validateSchema { env with isFormat := g } σ rec p s v c := rfl

end

theorem validateStep_fmt {env : Env} {f g : String → Json → Bool} {σ : Sched} {h : Heap} {rec : Rec} {p : Path} {i : Id} {v : Json} {c : Ctx}
    (hf : ∀ s, h[i]? = some s → s.format ≠ "" → f s.format v = g s.format v) :
    validateStep { env with isFormat := f } σ h rec p i v c = validateStep { env with isFormat := g } σ h rec p i v c := by
  unfold validateStep
  split
  · rfl
  · rename_i s hs
    have e : validateNode { env with isFormat := f } σ rec p s v c = validateNode { env with isFormat := g } σ rec p s v c := by
      unfold validateNode
      rw [validateSchema_fmt (f := f) (g := g)]
      congr 1
      funext r1
      cases v with
      | arr xs => simp only [validateArray_fmt (f := f) (g := g), validateCommon_fmt (hf s hs)]
      | obj kvs => simp only [validateObject_fmt (f := f) (g := g), validateCommon_fmt (hf s hs)]
      | null => simp only [validateCommon_fmt (hf s hs)]
      | bool b => simp only [validateCommon_fmt (hf s hs)]; rfl
      | str b => simp only [validateCommon_fmt (hf s hs)]; rfl
      | num b => simp only [validateCommon_fmt (hf s hs)]; rfl
    rw [e]
    rfl

/-- Equal answers on what is asked give equal runs. -/
theorem validateLive_congr {env : Env} {ask ask' : Path → String → Json → Bool} {σ : Sched} {h : Heap}
    (ha : ∀ (i : Nat) s, h[i]? = some s → s.format ≠ "" → ∀ p v, ask p s.format v = ask' p s.format v) :
    ∀ n, validateLive env ask σ h n = validateLive env ask' σ h n
  | 0 => rfl
  | n + 1 => by
    funext p i v c
    unfold validateLive
    rw [validateLive_congr ha n]
    exact validateStep_fmt fun s hs hf => ha i s hs hf p v

/-- Answers that do not change: validation as usual. -/
theorem validateLive_const {env : Env} {f : String → Json → Bool} {σ : Sched} {h : Heap} :
    ∀ n, validateLive env (fun _ => f) σ h n = validateRecursive { env with isFormat := f } σ h n
  | 0 => rfl
  | n + 1 => by
    funext p i v c
    unfold validateLive validateRecursive
    rw [validateLive_const n]

theorem live_no_fuel {env : Env} {ask : Path → String → Json → Bool} {σ : Sched} {h : Heap} {rank : Id → Nat} {R : Nat} (hR : ∀ i, rank i ≤ R)
    (hrank : ∀ i j, InPlaceEdge h i j → rank j < rank i) :
    ∀ n i v p c, v.size * (R + 1) + rank i < n → NE .fuel (validateLive env ask σ h n p i v c) := by
  intro n
  induction n with
  | zero => intro i v p c h; omega
  | succ n ih =>
    intro i v p c hn
    refine validateStep_ne (by simp) (by simp) ?_
    rintro s hs p j w c (⟨hj, rfl⟩ | ⟨_, hw⟩)
    · have := hrank i j ⟨s, hs, hj⟩
      exact ih _ _ _ _ (by omega)
    · have h1 := inside_size hw
      have h2 := hR j
      refine ih _ _ _ _ ?_
      have : (w.size + 1) * (R + 1) ≤ v.size * (R + 1) := Nat.mul_le_mul_right _ h1
      rw [Nat.add_mul] at this
      omega

theorem inRange_fmt {env : Env} {f : String → Json → Bool} {v : Json} (h : InRange env v) : InRange { env with isFormat := f } v := by
  induction h with
  | null => exact .null
  | bool b => exact .bool b
  | str s => exact .str s
  | num n h1 h2 => exact .num n h1 h2
  | arr xs _ ih => exact .arr xs ih
  | obj kvs _ ih => exact .obj kvs ih

theorem live_no_panic {env : Env} {ask : Path → String → Json → Bool} {σ : Sched} {h : Heap} (hh : HeapOK h) :
    ∀ n i v p c, i < h.length → InRange env v → NE .panic (validateLive env ask σ h n p i v c) := by
  intro n
  induction n with
  | zero => intros; simp [NE, validateLive, throw, throwThe, MonadExceptOf.throw]
  | succ n ih =>
    intro i v p c hi hv
    refine validateStep_ne (fun _ => hi) ?_ ?_
    · intro _ s hs
      have := hh s (List.mem_of_getElem? hs)
      exact ⟨this.2.1, this.2.2, inRange_fmt hv⟩
    · rintro s hs p j w c hc
      have hm := (hh s (List.mem_of_getElem? hs)).1
      rcases hc with ⟨hj, rfl⟩ | ⟨hj, hw⟩
      · exact ih _ _ _ _ (hm j (by simp [hj])) hv
      · exact ih _ _ _ _ (hm j (by simp [hj])) (inside_inRange hv hw)

theorem live_loc {env : Env} {ask : Path → String → Json → Bool} {σ : Sched} {h : Heap} : ∀ n p i v c r,
    validateLive env ask σ h n p i v c = .ok r → AllLoc v c r := by
  intro n
  induction n with
  | zero => intro p i v c r hr; simp [validateLive] at hr
  | succ n ih => intro p i v c r hr; exact validateStep_loc ih hr

end GJS

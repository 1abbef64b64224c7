import Verif.LemLive
import Verif.LemValidate
/-
Helper lemmas: without not, oneOf and if, accepting more below means accepting more above.
-/
namespace GJS
open Spec

/-- If the first accepts, so does the second (if both come back). -/
def Mono (x y : Exec Result) : Prop := ∀ a b, x = .ok a → y = .ok b → a.valid = true → b.valid = true

theorem Mono.refl {x : Exec Result} : Mono x x := fun a b ha hb h => by
  rw [ha] at hb
  cases hb
  exact h

theorem Mono.empty {x : Exec Result} : Mono x (pure {}) := fun _ b _ hb _ => by
  cases hb
  rfl

theorem forEach_mono {α} {f g : Nat → α → Exec Result} (h : ∀ k x, Mono (f k x) (g k x)) : ∀ {xs : List α} {k}, Mono (forEach f k xs) (forEach g k xs)
  | [], _ => .refl
  | x :: xs, k => by
    intro a b ha hb hv
    simp only [forEach, Exec.bind_ok, Exec.pure_ok] at ha hb
    obtain ⟨a1, ha1, a2, ha2, rfl⟩ := ha
    obtain ⟨b1, hb1, b2, hb2, rfl⟩ := hb
    simp only [Result.valid_append, Bool.and_eq_true] at hv ⊢
    exact ⟨h _ _ _ _ ha1 hb1 hv.1, forEach_mono h _ _ ha2 hb2 hv.2⟩

section
variable {rec rec' : Rec} (H : ∀ p i v c, Mono (rec p i v c) (rec' p i v c))
variable {env : Env} {σ : Sched} {p : Path} {s : Sub} {v : Json} {c : Ctx}

theorem anyOfLoop_stays {run : Nat → Id → Exec Result} : ∀ {is : List Id} {k best y}, anyOfLoop run k is true best = .ok y → y.1 = true
  | [], _, _, _, h => by cases h; rfl
  | _ :: _, _, _, _, h => by
    unfold anyOfLoop at h
    exact anyOfLoop_stays h

theorem anyOfLoop_mono {run run' : Nat → Id → Exec Result} (h : ∀ k i, Mono (run k i) (run' k i)) : ∀ {is : List Id} {k b b' o o' x y},
    anyOfLoop run k is b o = .ok x → anyOfLoop run' k is b' o' = .ok y → (b = true → b' = true) → x.1 = true → y.1 = true
  | [], _, _, _, _, _, _, _, hx, hy, hb, hv => by
    cases hx
    cases hy
    exact hb hv
  | i :: is, k, b, b', o, o', x, y, hx, hy, hb, hv => by
    cases b' with
    | true => exact anyOfLoop_stays hy
    | false =>
      cases b with
      | true => exact absurd (hb rfl) (by simp)
      | false =>
        simp only [anyOfLoop, Bool.not_false, if_true, Exec.bind_ok] at hx hy
        obtain ⟨r, hr, hx⟩ := hx
        obtain ⟨r', hr', hy⟩ := hy
        exact anyOfLoop_mono h hx hy (h _ _ _ _ hr hr') hv

include H in
theorem checkAnyOf_mono : Mono (checkAnyOf rec p s v c) (checkAnyOf rec' p s v c) := by
  intro a b ha hb hv
  unfold checkAnyOf at ha hb
  split at ha
  · rename_i hl
    rw [if_pos hl] at hb
    simp only [Exec.bind_ok] at ha hb
    obtain ⟨⟨x, o⟩, hx, ha⟩ := ha
    obtain ⟨⟨y, o'⟩, hy, hb⟩ := hb
    have hm : x = true → y = true := fun hv => anyOfLoop_mono (fun k i => H _ _ _ _) hx hy (fun h => h) hv
    cases x with
    | false =>
      exfalso
      simp only [Bool.not_false, if_true] at ha
      cases o <;> cases ha <;> simp [addErr, Result.valid] at hv
    | true =>
      rw [hm rfl] at hb
      cases hb
      rfl
  · rename_i hl
    rw [if_neg hl] at hb
    cases hb
    rfl

theorem allOfLoop_mono {run run' : Nat → Id → Exec Result} (h : ∀ k i, Mono (run k i) (run' k i)) : ∀ {is : List Id} {k x y},
    allOfLoop run k is = .ok x → allOfLoop run' k is = .ok y → x.2.valid = true → y.2.valid = true ∧ y.1 = is.length
  | [], _, _, _, hx, hy, _ => by
    cases hx
    cases hy
    exact ⟨rfl, rfl⟩
  | i :: is, k, x, y, hx, hy, hv => by
    simp only [allOfLoop, Exec.bind_ok, Exec.pure_ok] at hx hy
    obtain ⟨r, hr, xs, hxs, rfl⟩ := hx
    obtain ⟨r', hr', ys, hys, rfl⟩ := hy
    simp only [Result.valid_append, Bool.and_eq_true] at hv ⊢
    have h1 := h _ _ _ _ hr hr' hv.1
    have h2 := allOfLoop_mono h hxs hys hv.2
    exact ⟨⟨h1, h2.1⟩, by simp [h1, h2.2]⟩

include H in
theorem checkAllOf_mono : Mono (checkAllOf rec p s v c) (checkAllOf rec' p s v c) := by
  intro a b ha hb hv
  unfold checkAllOf at ha hb
  split at ha
  · rename_i hl
    rw [if_pos hl] at hb
    simp only [Exec.bind_ok] at ha hb
    obtain ⟨⟨x, o⟩, hx, ha⟩ := ha
    obtain ⟨⟨y, o'⟩, hy, hb⟩ := hb
    have ho : o.valid = true := by
      simp only at ha
      split at ha <;> cases ha
      · simp at hv
      · exact hv
    obtain ⟨h1, h2⟩ := allOfLoop_mono (fun k i => H _ _ _ _) hx hy ho
    simp only at h1 h2
    simp only [h2, bne_self_eq_false, Bool.false_eq_true, if_false] at hb
    cases hb
    exact h1
  · rename_i hl
    rw [if_neg hl] at hb
    cases hb
    rfl

include H in
theorem checkDependencies_mono : Mono (checkDependencies env σ rec p s v c) (checkDependencies env σ rec' p s v c) := by
  unfold checkDependencies
  split
  · split
    · refine forEach_mono fun k kv => ?_
      unfold checkDependency
      split
      · exact .refl
      · exact H _ _ _ _
      · exact .refl
    · exact .refl
    · exact .refl
  · exact .refl

include H in
theorem validateSchema_mono (ho : s.oneOf = []) (hn : s.not = none) (hi : s.if_ = none) :
    Mono (validateSchema env σ rec p s v c) (validateSchema env σ rec' p s v c) := by
  intro a b ha hb hv
  have e1 : ∀ rec : Rec, checkOneOf rec p s v c = .ok {} := fun rec => by simp [checkOneOf, ho]
  have e2 : ∀ rec : Rec, checkNot rec p s v c = .ok {} := fun rec => by simp [checkNot, hn]
  have e3 : ∀ rec : Rec, checkIf rec p s v c = .ok {} := fun rec => by simp [checkIf, hi]
  unfold validateSchema at ha hb
  simp only [e1, e2, e3, Exec.bind_ok, Exec.pure_ok] at ha hb
  obtain ⟨a1, ha1, a2, -, a3, ha3, a4, -, a5, ha5, a6, -, rfl⟩ := ha
  obtain ⟨b1, hb1, b2, hb2, b3, hb3, b4, hb4, b5, hb5, b6, hb6, rfl⟩ := hb
  cases hb2
  cases hb4
  cases hb6
  simp only [Result.valid_append, Bool.and_eq_true] at hv ⊢
  exact ⟨⟨⟨⟨⟨⟨checkAnyOf_mono H _ _ ha1 hb1 hv.1.1.1.1.1.1, rfl⟩, checkAllOf_mono H _ _ ha3 hb3 hv.1.1.1.1.2⟩, rfl⟩,
    checkDependencies_mono H _ _ ha5 hb5 hv.1.1.2⟩, rfl⟩, hv.2⟩

include H in
theorem checkItems_mono {xs : List Json} : Mono (checkItems rec p s xs c) (checkItems rec' p s xs c) := by
  unfold checkItems
  split
  · refine forEach_mono fun k x => ?_
    split
    · exact H _ _ _ _
    · exact .refl
  · split
    · intro a b ha hb hv
      simp only [Exec.bind_ok, Exec.pure_ok] at ha hb
      obtain ⟨a1, ha1, a2, ha2, rfl⟩ := ha
      obtain ⟨b1, hb1, b2, hb2, rfl⟩ := hb
      simp only [Result.valid_append, Bool.and_eq_true] at hv ⊢
      refine ⟨forEach_mono (fun _ _ => H _ _ _ _) _ _ ha1 hb1 hv.1, ?_⟩
      refine (?_ : Mono (checkAdditionalItems rec p s xs c) (checkAdditionalItems rec' p s xs c)) _ _ ha2 hb2 hv.2
      unfold checkAdditionalItems
      simp only
      split
      · split
        · exact .refl
        · exact forEach_mono fun _ _ => H _ _ _ _
        · exact .refl
      · exact .refl
    · exact .refl

theorem containsLoop_mono {run run' : Nat → Json → Exec Result} (h : ∀ k x, Mono (run k x) (run' k x)) : ∀ {xs : List Json} {k o o' x y},
    containsLoop run k xs o = .ok x → containsLoop run' k xs o' = .ok y → x.1 = true → y.1 = true
  | [], _, _, _, _, _, hx, _, hv => by
    cases hx
    cases hv
  | z :: zs, k, o, o', x, y, hx, hy, hv => by
    simp only [containsLoop, Exec.bind_ok] at hx hy
    obtain ⟨r, hr, hx⟩ := hx
    obtain ⟨r', hr', hy⟩ := hy
    split at hy
    · cases hy
      rfl
    · rename_i hn
      split at hx
      · rename_i hp
        exact absurd (h _ _ _ _ hr hr' hp) hn
      · exact containsLoop_mono h hx hy hv

include H in
theorem checkContains_mono {xs : List Json} : Mono (checkContains rec p s xs c) (checkContains rec' p s xs c) := by
  unfold checkContains
  split
  · exact .refl
  · intro a b ha hb hv
    simp only [Exec.bind_ok] at ha hb
    obtain ⟨⟨x, o⟩, hx, ha⟩ := ha
    obtain ⟨⟨y, o'⟩, hy, hb⟩ := hb
    have hm : x = true → y = true := fun hv => containsLoop_mono (fun k i => H _ _ _ _) hx hy hv
    cases x with
    | false =>
      exfalso
      simp only [Bool.not_false, if_true] at ha
      cases o <;> cases ha <;> simp [addErr, Result.valid] at hv
    | true =>
      rw [hm rfl] at hb
      cases hb
      rfl

include H in
theorem validateArray_mono {xs : List Json} : Mono (validateArray env rec p s xs c) (validateArray env rec' p s xs c) := by
  intro a b ha hb hv
  unfold validateArray at ha hb
  simp only [Exec.bind_ok, Exec.pure_ok] at ha hb
  obtain ⟨a1, ha1, a3, ha3, a4, ha4, rfl⟩ := ha
  obtain ⟨b1, hb1, b3, hb3, b4, hb4, rfl⟩ := hb
  rw [ha3] at hb3
  cases hb3
  simp only [Result.valid_append, Bool.and_eq_true] at hv ⊢
  exact ⟨⟨⟨⟨checkItems_mono H _ _ ha1 hb1 hv.1.1.1.1, hv.1.1.1.2⟩, hv.1.1.2⟩, checkContains_mono H _ _ ha4 hb4 hv.1.2⟩, hv.2⟩

include H in
theorem patternLoop_mono {key} : ∀ {l k x y}, patternLoop env rec p key v c k l = .ok x → patternLoop env rec' p key v c k l = .ok y →
    x.1 = y.1 ∧ (x.2.valid = true → y.2.valid = true)
  | [], _, _, _, hx, hy => by
    cases hx
    cases hy
    exact ⟨rfl, fun h => h⟩
  | (pat, i) :: l, k, x, y, hx, hy => by
    simp only [patternLoop, Exec.bind_ok, Exec.pure_ok] at hx hy
    obtain ⟨a1, ha1, a2, ha2, rfl⟩ := hx
    obtain ⟨b1, hb1, b2, hb2, rfl⟩ := hy
    have h2 := patternLoop_mono ha2 hb2
    have h1 : a1.1 = b1.1 ∧ (a1.2.valid = true → b1.2.valid = true) := by
      unfold patternOne at ha1 hb1
      split at ha1
      · rename_i hm
        rw [if_pos hm] at hb1
        simp only [Exec.bind_ok, Exec.pure_ok] at ha1 hb1
        obtain ⟨r, hr, rfl⟩ := ha1
        obtain ⟨r', hr', rfl⟩ := hb1
        exact ⟨rfl, H _ _ _ _ _ _ hr hr'⟩
      · rename_i hm
        rw [if_neg hm] at hb1
        cases ha1
        cases hb1
        exact ⟨rfl, fun h => h⟩
    simp only [h1.1, h2.1, Result.valid_append, Bool.and_eq_true, true_and]
    exact fun h => ⟨h1.2 h.1, h2.2 h.2⟩

include H in
theorem checkProperty_mono {key} : Mono (checkProperty env σ rec p s key v c) (checkProperty env σ rec' p s key v c) := by
  intro a b ha hb hv
  unfold checkProperty validatePatternProperty at ha hb
  simp only [Exec.bind_ok] at ha hb
  obtain ⟨⟨m, r⟩, ⟨x, hx, hx'⟩, ha⟩ := ha
  obtain ⟨⟨m', r'⟩, ⟨y, hy, hy'⟩, hb⟩ := hb
  obtain ⟨h1, h2⟩ := patternLoop_mono H hx hy
  have hm : m = m' ∧ (r.valid = true → r'.valid = true) := by
    obtain ⟨x1, x2⟩ := x
    obtain ⟨y1, y2⟩ := y
    simp only at h1 h2 hx' hy'
    subst h1
    cases x1 with
    | false =>
      simp only [Bool.not_false, if_true] at hx' hy'
      cases hx'
      cases hy'
      exact ⟨rfl, h2⟩
    | true =>
      simp only [Bool.not_true, Bool.false_eq_true, if_false] at hx' hy'
      cases hx'
      cases hy'
      simp only [Result.valid_append, Bool.and_eq_true, true_and]
      exact fun h => ⟨h2 h.1, h.2⟩
  obtain ⟨rfl, hr⟩ := hm
  simp only at ha hb
  split at ha
  · rename_i hc
    rw [if_pos hc] at hb
    split at ha
    · rename_i o ho
      simp only [ho] at hb
      split at ha
      · rename_i hq
        cases ha
        simp at hv
      · rename_i hq
        rw [if_neg hq] at hb
        cases ha
        cases hb
        exact hr hv
    · rename_i i ho
      simp only [ho, Exec.bind_ok, Exec.pure_ok] at ha hb
      obtain ⟨a1, ha1, rfl⟩ := ha
      obtain ⟨b1, hb1, rfl⟩ := hb
      simp only [Result.valid_append, Bool.and_eq_true] at hv ⊢
      exact ⟨hr hv.1, H _ _ _ _ _ _ ha1 hb1 hv.2⟩
    · rename_i ho
      simp only [ho] at hb
      cases ha
      cases hb
      exact hr hv
  · rename_i hc
    rw [if_neg hc] at hb
    cases ha
    cases hb
    exact hr hv

include H in
theorem checkPropertyNames_mono {kvs} : Mono (checkPropertyNames σ rec p s kvs c) (checkPropertyNames σ rec' p s kvs c) := by
  unfold checkPropertyNames
  split
  · exact .refl
  · refine forEach_mono fun k kv => ?_
    intro a b ha hb hv
    simp only [Exec.bind_ok] at ha hb
    obtain ⟨r, hr, ha⟩ := ha
    obtain ⟨r', hr', hb⟩ := hb
    split at ha
    · cases ha
      simp at hv
    · rename_i hq
      have hr1 : r.valid = true := by simpa using hq
      rw [if_neg (by simp [H _ _ _ _ _ _ hr hr' hr1])] at hb
      cases hb
      rfl

include H in
theorem validateObject_mono {kvs} : Mono (validateObject env σ rec p s kvs c) (validateObject env σ rec' p s kvs c) := by
  intro a b ha hb hv
  unfold validateObject at ha hb
  simp only [Exec.bind_ok, Exec.pure_ok] at ha hb
  obtain ⟨a3, ha3, a4, ha4, rfl⟩ := ha
  obtain ⟨b3, hb3, b4, hb4, rfl⟩ := hb
  simp only [Result.valid_append, Bool.and_eq_true] at hv ⊢
  exact ⟨⟨⟨hv.1.1.1, forEach_mono (fun _ _ => checkProperty_mono H) _ _ ha3 hb3 hv.1.1.2⟩, checkPropertyNames_mono H _ _ ha4 hb4 hv.1.2⟩, hv.2⟩

include H in
theorem checkProperties_mono {kvs} : Mono (checkProperties rec p s kvs c) (checkProperties rec' p s kvs c) := by
  unfold checkProperties
  refine forEach_mono fun k q => ?_
  split
  · exact H _ _ _ _
  · exact .refl

end

theorem validateCommon_mono {env : Env} {f g : String → Json → Bool} {s : Sub} {v : Json} {c : Ctx}
    (hf : s.format ≠ "" → f s.format v = true → g s.format v = true) :
    Mono (validateCommon { env with isFormat := f } s v c) (validateCommon { env with isFormat := g } s v c) := by
  intro a b ha hb hv
  have e1 : checkConst { env with isFormat := g } s v c = checkConst { env with isFormat := f } s v c := rfl
  have e2 : checkEnum { env with isFormat := g } s v c = checkEnum { env with isFormat := f } s v c := rfl
  unfold validateCommon at ha hb
  rw [e1, e2] at hb
  simp only [Exec.bind_ok, Exec.pure_ok] at ha hb
  obtain ⟨a1, ha1, a2, ha2, a3, ha3, rfl⟩ := ha
  obtain ⟨b1, hb1, b2, hb2, b3, hb3, rfl⟩ := hb
  rw [ha1] at hb1
  rw [ha2] at hb2
  cases hb1
  cases hb2
  simp only [Result.valid_append, Bool.and_eq_true] at hv ⊢
  refine ⟨⟨hv.1.1, ?_⟩, hv.2⟩
  have h3 := hv.1.2
  unfold checkFormat at ha3 hb3
  by_cases h : s.format = ""
  · simp [h] at hb3
    subst hb3
    rfl
  · have : f s.format v = true := by
      cases hx : f s.format v with
      | true => rfl
      | false =>
        simp [h, hx] at ha3
        subst ha3
        simp at h3
    simp [h, hf h this] at hb3
    subst hb3
    rfl

/-- No not, no oneOf, no if. -/
def Sub.Positive (s : Sub) : Prop := s.oneOf = [] ∧ s.not = none ∧ s.if_ = none

theorem validateStep_mono {env : Env} {f g : String → Json → Bool} {σ : Sched} {h : Heap} {rec rec' : Rec} {p : Path} {i : Id} {v : Json} {c : Ctx}
    (H : ∀ p i v c, Mono (rec p i v c) (rec' p i v c)) (hp : ∀ s, h[i]? = some s → s.Positive)
    (hf : ∀ s, h[i]? = some s → s.format ≠ "" → f s.format v = true → g s.format v = true) :
    Mono (validateStep { env with isFormat := f } σ h rec p i v c) (validateStep { env with isFormat := g } σ h rec' p i v c) := by
  unfold validateStep
  split
  · exact .refl
  · rename_i s hs
    split
    · exact .refl
    · split
      · exact H _ _ _ _
      · have et : typeError { env with isFormat := g } s.types v = typeError { env with isFormat := f } s.types v := rfl
        rw [et]
        split
        · exact .refl
        · obtain ⟨ho, hn, hi⟩ := hp s hs
          have hN : Mono (validateNode { env with isFormat := f } σ rec p s v c) (validateNode { env with isFormat := g } σ rec' p s v c) := by
            intro a b ha hb hv
            unfold validateNode at ha hb
            rw [validateSchema_fmt (f := g) (g := f)] at hb
            have hS := validateSchema_mono (env := { env with isFormat := f }) (σ := σ) (p := p) (v := v) (c := c) H ho hn hi
            have hC := validateCommon_mono (env := env) (c := c) (hf s hs)
            cases v with
            | null =>
              simp only [Exec.bind_ok, Exec.pure_ok] at ha hb
              obtain ⟨a1, ha1, a2, ha2, rfl⟩ := ha
              obtain ⟨b1, hb1, b2, hb2, rfl⟩ := hb
              simp only [Result.valid_append, Bool.and_eq_true] at hv ⊢
              exact ⟨hS _ _ ha1 hb1 hv.1, hC _ _ ha2 hb2 hv.2⟩
            | arr xs =>
              simp only [validateArray_fmt (f := g) (g := f), Exec.bind_ok, Exec.pure_ok] at ha hb
              obtain ⟨a1, ha1, a2, ha2, a3, ha3, rfl⟩ := ha
              obtain ⟨b1, hb1, b2, hb2, b3, hb3, rfl⟩ := hb
              simp only [Result.valid_append, Bool.and_eq_true] at hv ⊢
              exact ⟨⟨hS _ _ ha1 hb1 hv.1.1, validateArray_mono H _ _ ha2 hb2 hv.1.2⟩, hC _ _ ha3 hb3 hv.2⟩
            | obj kvs =>
              simp only [validateObject_fmt (f := g) (g := f), Exec.bind_ok, Exec.pure_ok] at ha hb
              obtain ⟨a1, ha1, a2, ha2, a3, ha3, a4, ha4, rfl⟩ := ha
              obtain ⟨b1, hb1, b2, hb2, b3, hb3, b4, hb4, rfl⟩ := hb
              simp only [Result.valid_append, Bool.and_eq_true] at hv ⊢
              exact ⟨⟨⟨hS _ _ ha1 hb1 hv.1.1.1, validateObject_mono H _ _ ha2 hb2 hv.1.1.2⟩, hC _ _ ha3 hb3 hv.1.2⟩,
                checkProperties_mono H _ _ ha4 hb4 hv.2⟩
            | bool x =>
              simp only [Exec.bind_ok, Exec.pure_ok] at ha hb
              obtain ⟨a1, ha1, a2, ha2, a3, ha3, rfl⟩ := ha
              obtain ⟨b1, hb1, b2, hb2, b3, hb3, rfl⟩ := hb
              rw [show validateNumber { env with isFormat := g } s (.bool x) c = validateNumber { env with isFormat := f } s (.bool x) c from rfl, ha2] at hb2
              cases hb2
              simp only [Result.valid_append, Bool.and_eq_true] at hv ⊢
              exact ⟨⟨⟨hS _ _ ha1 hb1 hv.1.1.1, hv.1.1.2⟩, hC _ _ ha3 hb3 hv.1.2⟩, hv.2⟩
            | str x =>
              simp only [Exec.bind_ok, Exec.pure_ok] at ha hb
              obtain ⟨a1, ha1, a2, ha2, a3, ha3, rfl⟩ := ha
              obtain ⟨b1, hb1, b2, hb2, b3, hb3, rfl⟩ := hb
              rw [show validateNumber { env with isFormat := g } s (.str x) c = validateNumber { env with isFormat := f } s (.str x) c from rfl, ha2] at hb2
              cases hb2
              simp only [Result.valid_append, Bool.and_eq_true] at hv ⊢
              exact ⟨⟨⟨hS _ _ ha1 hb1 hv.1.1.1, hv.1.1.2⟩, hC _ _ ha3 hb3 hv.1.2⟩, hv.2⟩
            | num x =>
              simp only [Exec.bind_ok, Exec.pure_ok] at ha hb
              obtain ⟨a1, ha1, a2, ha2, a3, ha3, rfl⟩ := ha
              obtain ⟨b1, hb1, b2, hb2, b3, hb3, rfl⟩ := hb
              rw [show validateNumber { env with isFormat := g } s (.num x) c = validateNumber { env with isFormat := f } s (.num x) c from rfl, ha2] at hb2
              cases hb2
              simp only [Result.valid_append, Bool.and_eq_true] at hv ⊢
              exact ⟨⟨⟨hS _ _ ha1 hb1 hv.1.1.1, hv.1.1.2⟩, hC _ _ ha3 hb3 hv.1.2⟩, hv.2⟩
          intro a b ha hb hv
          simp only [Exec.bind_ok, Exec.pure_ok] at ha hb
          obtain ⟨a1, ha1, rfl⟩ := ha
          obtain ⟨b1, hb1, rfl⟩ := hb
          simp only [Result.valid_append, Bool.and_eq_true] at hv ⊢
          exact ⟨hN _ _ ha1 hb1 hv.1, hv.2⟩

/-- Answers that accept more give runs that accept more. -/
theorem validateLive_mono {env : Env} {ask ask' : Path → String → Json → Bool} {σ : Sched} {h : Heap} (hp : ∀ s ∈ h, s.Positive)
    (ha : ∀ s ∈ h, s.format ≠ "" → ∀ p v, ask p s.format v = true → ask' p s.format v = true) :
    ∀ n p i v c, Mono (validateLive env ask σ h n p i v c) (validateLive env ask' σ h n p i v c)
  | 0, _, _, _, _ => .refl
  | n + 1, p, _, v, _ => validateStep_mono (validateLive_mono hp ha n) (fun s hs => hp s (List.mem_of_getElem? hs))
      (fun s hs hf => ha s (List.mem_of_getElem? hs) hf p v)

end GJS

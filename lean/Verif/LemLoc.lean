import Verif.LemValidate
import Verif.SpecLoc
/-
Helper lemmas: every error is located.
-/
namespace GJS
open Spec

/-- All errors of `r` are located in `v` at `c`. -/
def AllLoc (v : Json) (c : Ctx) (r : Result) : Prop := ∀ e ∈ r.errors, Located v c e

theorem AllLoc.empty {v c} : AllLoc v c {} := by simp [AllLoc]
theorem AllLoc.tick {v c} : AllLoc v c tick := by simp [AllLoc, GJS.tick]
theorem AllLoc.append {v c a b} (h1 : AllLoc v c a) (h2 : AllLoc v c b) : AllLoc v c (a ++ b) := by
  intro e he
  rw [Result.errors_append, List.mem_append] at he
  exact he.elim (h1 e) (h2 e)
theorem AllLoc.addErr {v c k} : AllLoc v c (addErr k c v) := by
  intro e he
  simp [GJS.addErr] at he
  subst he
  exact ⟨[], v, rfl, .here v, .inl rfl⟩

theorem Spec.Located.elem {xs : List Json} {k : Nat} {x c e} (hx : xs[k]? = some x)
    (h : Located x (toString k :: c) e) : Located (.arr xs) c e := by
  obtain ⟨steps, w, h1, h2, h3⟩ := h
  exact ⟨steps ++ [toString k], w, by simp [h1], by simpa using .elem xs k x w _ hx h2, h3⟩

theorem Spec.Located.member {kvs : List (String × Json)} {k : String} {x c e} (hx : (k, x) ∈ kvs)
    (h : Located x (k :: c) e) : Located (.obj kvs) c e := by
  obtain ⟨steps, w, h1, h2, h3⟩ := h
  exact ⟨steps ++ [k], w, by simp [h1], by simpa using .member kvs k x w _ hx h2, h3⟩

theorem Spec.Located.key {kvs : List (String × Json)} {k : String} {c e} (hx : k ∈ kvs.map Prod.fst)
    (h : Located (.str k) c e) : Located (.obj kvs) c e := by
  obtain ⟨steps, w, h1, h2, h3⟩ := h
  have hs : steps = [] ∧ w = .str k := by
    generalize hr : steps.reverse = rs at h2
    cases h2 with
    | here => exact ⟨by simpa using hr, rfl⟩
  obtain ⟨rfl, rfl⟩ := hs
  refine ⟨[], .obj kvs, h1, .here _, .inr (.inr ⟨kvs, k, rfl, hx, ?_⟩)⟩
  rcases h3 with h3 | ⟨_, _, h3, _⟩ | ⟨_, _, h3, _⟩
  · exact h3
  · cases h3
  · cases h3

theorem forEach_loc {α : Type} {f : Nat → α → Exec Result} {v c} : ∀ {l : List α} {k r},
    (∀ k x r, x ∈ l → f k x = .ok r → AllLoc v c r) → forEach f k l = .ok r → AllLoc v c r := by
  intro l
  induction l with
  | nil => intro k r _ h; simp [forEach] at h; subst h; exact .empty
  | cons x xs ih =>
    intro k r hf h
    simp only [forEach, Exec.bind_ok, Exec.pure_ok] at h
    obtain ⟨a, ha, b, hb, rfl⟩ := h
    exact .append (hf _ _ _ (by simp) ha) (ih (fun k y r hy => hf k y r (by simp [hy])) hb)

theorem forEach_loc_idx {α : Type} {f : Nat → α → Exec Result} {v c} : ∀ {l : List α} {k r},
    (∀ (j : Nat) x r, l[j]? = some x → f (k + j) x = .ok r → AllLoc v c r) → forEach f k l = .ok r → AllLoc v c r := by
  intro l
  induction l with
  | nil => intro k r _ h; simp [forEach] at h; subst h; exact .empty
  | cons x xs ih =>
    intro k r hf h
    simp only [forEach, Exec.bind_ok, Exec.pure_ok] at h
    obtain ⟨a, ha, b, hb, rfl⟩ := h
    refine .append (hf 0 _ _ (by simp) ha) (ih (fun j y r hy hr => hf (j + 1) y r (by simpa using hy) ?_) hb)
    rwa [show k + (j + 1) = k + 1 + j by omega]

section
variable {rec : Rec} (H : ∀ p i v c r, rec p i v c = .ok r → AllLoc v c r)

/-- The remembered best result is one of the branch results. -/
theorem anyOfLoop_best_mem {run : Nat → Id → Exec Result} {P : Result → Prop}
    (hP : ∀ k i r, run k i = .ok r → P r) : ∀ {l : List Id} {k b best o},
    anyOfLoop run k l b best = .ok o → (∀ r, best = some r → P r) → ∀ r, o.2 = some r → P r := by
  intro l
  induction l with
  | nil => intro k b best o h hb; simp [anyOfLoop] at h; subst h; exact hb
  | cons i is ih =>
    intro k b best o h hb
    rw [anyOfLoop] at h
    cases b with
    | true => simp at h; exact ih h hb
    | false =>
      simp only [Bool.not_false, if_true, Exec.bind_ok] at h
      obtain ⟨r, hr, h⟩ := h
      refine ih h ?_
      intro r' hr'
      split at hr'
      · cases hr'; exact hP _ _ _ hr
      · exact hb _ hr'

theorem oneOfLoop_best_mem {run : Nat → Id → Exec Result} {P : Result → Prop}
    (hP : ∀ k i r, run k i = .ok r → P r) : ∀ {l : List Id} {k n best o},
    oneOfLoop run k l n best = .ok o → (∀ r, best = some r → P r) → ∀ r, o.2 = some r → P r := by
  intro l
  induction l with
  | nil => intro k b best o h hb; simp [oneOfLoop] at h; subst h; exact hb
  | cons i is ih =>
    intro k n best o h hb
    simp only [oneOfLoop, Exec.bind_ok] at h
    obtain ⟨r, hr, h⟩ := h
    split at h
    · exact ih h hb
    · split at h
      · exact ih h (fun r' e => by cases e; exact hP _ _ _ hr)
      · exact ih h hb

theorem containsLoop_best_mem {run : Nat → Json → Exec Result} {P : Result → Prop} :
    ∀ {l : List Json} {k best o}, (∀ (j : Nat) x r, l[j]? = some x → run (k + j) x = .ok r → P r) →
    containsLoop run k l best = .ok o → (∀ r, best = some r → P r) → ∀ r, o.2 = some r → P r := by
  intro l
  induction l with
  | nil => intro k best o _ h hb; simp [containsLoop] at h; subst h; exact hb
  | cons i is ih =>
    intro k best o hP h hb
    simp only [containsLoop, Exec.bind_ok] at h
    obtain ⟨r, hr, h⟩ := h
    split at h
    · simp at h; subst h; exact hb
    · refine ih (fun j x r hx hr => hP (j + 1) x r (by simpa using hx) ?_) h ?_
      · rwa [show k + (j + 1) = k + 1 + j by omega]
      · intro r' hr'
        split at hr'
        · cases hr'; exact hP 0 _ _ (by simp) hr
        · exact hb _ hr'

include H

theorem checkAnyOf_loc {p s v c r} (h : checkAnyOf rec p s v c = .ok r) : AllLoc v c r := by
  unfold checkAnyOf at h
  split at h
  · simp only [Exec.bind_ok] at h
    obtain ⟨⟨b, best⟩, h1, h2⟩ := h
    have := anyOfLoop_best_mem (P := AllLoc v c) (fun _ _ _ hr => H _ _ _ _ _ hr) h1 (by simp)
    cases b <;> cases best <;> simp at h2 <;> subst h2
    · exact .addErr
    · exact .append .addErr (this _ rfl)
    · exact .empty
    · exact .empty
  · simp at h; subst h; exact .empty

theorem checkOneOf_loc {p s v c r} (h : checkOneOf rec p s v c = .ok r) : AllLoc v c r := by
  unfold checkOneOf at h
  split at h
  · simp only [Exec.bind_ok] at h
    obtain ⟨⟨n, best⟩, h1, h2⟩ := h
    have := oneOfLoop_best_mem (P := AllLoc v c) (fun _ _ _ hr => H _ _ _ _ _ hr) h1 (by simp)
    simp only at h2
    split at h2
    · split at h2
      · cases best <;> simp at h2; subst h2; exact .append .addErr (this _ rfl)
      · simp at h2; subst h2; exact .addErr
    · simp at h2; subst h2; exact .empty
  · simp at h; subst h; exact .empty

theorem checkAllOf_loc {p s v c r} (h : checkAllOf rec p s v c = .ok r) : AllLoc v c r := by
  unfold checkAllOf at h
  split at h
  · simp only [Exec.bind_ok] at h
    obtain ⟨⟨n, rs⟩, h1, h2⟩ := h
    have : ∀ {l : List Id} {k o}, allOfLoop (fun k i => rec (k :: 3 :: p) i v c) k l = .ok o → AllLoc v c o.2 := by
      intro l
      induction l with
      | nil => intro k o h; simp [allOfLoop] at h; subst h; exact .empty
      | cons i is ih =>
        intro k o h
        simp only [allOfLoop, Exec.bind_ok, Exec.pure_ok] at h
        obtain ⟨r, hr, ⟨nb, rs⟩, hrs, rfl⟩ := h
        exact .append (H _ _ _ _ _ hr) (ih hrs)
    have := this h1
    simp only at h2
    split at h2
    · simp at h2; subst h2; exact .append this .addErr
    · simp at h2; subst h2; exact this
  · simp at h; subst h; exact .empty

omit H in
theorem checkNot_loc {p s v c r} (h : checkNot rec p s v c = .ok r) : AllLoc v c r := by
  unfold checkNot at h
  split at h
  · simp only [Exec.bind_ok] at h
    obtain ⟨a, _, h⟩ := h
    split at h <;> simp at h <;> subst h
    · exact .addErr
    · exact .empty
  · simp at h; subst h; exact .empty

theorem checkDependencies_loc {env σ p s v c r} (h : checkDependencies env σ rec p s v c = .ok r) : AllLoc v c r := by
  unfold checkDependencies at h
  split at h
  · split at h
    · refine forEach_loc ?_ h
      intro k kv r _ hr
      unfold checkDependency at hr
      split at hr
      · refine forEach_loc ?_ hr
        intro _ _ _ _ hr
        split at hr <;> simp at hr <;> subst hr
        · exact .empty
        · exact .addErr
      · exact H _ _ _ _ _ hr
      · simp at hr; subst hr; exact .empty
    · split at h <;> simp at h; subst h; exact .empty
    · simp at h; subst h; exact .empty
  · simp at h; subst h; exact .empty

theorem checkBranch_loc {p o on kind v c r} (h : checkBranch rec p o on kind v c = .ok r) : AllLoc v c r := by
  unfold checkBranch at h
  split at h
  · split at h
    · simp only [Exec.bind_ok] at h
      obtain ⟨a, ha, h⟩ := h
      split at h <;> simp at h <;> subst h
      · exact .append .addErr (H _ _ _ _ _ ha)
      · exact .empty
    · simp at h; subst h; exact .empty
  · simp at h; subst h; exact .empty

theorem checkIf_loc {p s v c r} (h : checkIf rec p s v c = .ok r) : AllLoc v c r := by
  unfold checkIf at h
  split at h
  · simp at h; subst h; exact .empty
  · simp only [Exec.bind_ok, Exec.pure_ok] at h
    obtain ⟨_, _, a, ha, b, hb, rfl⟩ := h
    exact .append (checkBranch_loc H ha) (checkBranch_loc H hb)

theorem validateSchema_loc {env σ p s v c r} (h : validateSchema env σ rec p s v c = .ok r) : AllLoc v c r := by
  simp only [validateSchema, Exec.bind_ok, Exec.pure_ok] at h
  obtain ⟨r1, h1, r2, h2, r3, h3, r4, h4, r5, h5, r6, h6, rfl⟩ := h
  exact .append (.append (.append (.append (.append (.append (checkAnyOf_loc H h1) (checkOneOf_loc H h2))
    (checkAllOf_loc H h3)) (checkNot_loc h4)) (checkDependencies_loc H h5)) (checkIf_loc H h6)) .tick

omit H in
theorem validateCommon_loc {env s v c r} (h : validateCommon env s v c = .ok r) : AllLoc v c r := by
  simp only [validateCommon, Exec.bind_ok, Exec.pure_ok] at h
  obtain ⟨r1, h1, r2, h2, r3, h3, rfl⟩ := h
  refine .append (.append (.append ?_ ?_) ?_) .tick
  · unfold checkConst at h1
    split at h1
    · simp at h1; subst h1; exact .empty
    · split at h1
      · simp at h1
      · split at h1 <;> simp at h1 <;> subst h1
        · exact .addErr
        · exact .empty
  · unfold checkEnum at h2
    split at h2
    · split at h2
      · simp at h2
      · split at h2 <;> simp at h2 <;> subst h2
        · exact .addErr
        · exact .empty
    · simp at h2; subst h2; exact .empty
  · unfold checkFormat at h3
    split at h3
    · split at h3 <;> simp at h3 <;> subst h3
      · exact .addErr
      · exact .empty
    · simp at h3; subst h3; exact .empty

omit H in
theorem sizeCheck_loc {mn mx n f g c v} : AllLoc v c (sizeCheck mn mx n f g c v) := by
  unfold sizeCheck
  refine .append ?_ ?_
  · cases mn with
    | none => exact .empty
    | some m => simp only; split; exact .addErr; exact .empty
  · cases mx with
    | none => exact .empty
    | some m => simp only; split; exact .addErr; exact .empty

theorem checkItems_loc {p s xs c r} (h : checkItems rec p s xs c = .ok r) : AllLoc (.arr xs) c r := by
  unfold checkItems at h
  split at h
  · refine forEach_loc_idx ?_ h
    intro j x r hx hr
    split at hr
    · intro e he
      rw [Nat.zero_add] at hr
      exact .elem hx (H _ _ _ _ _ hr e he)
    · simp at hr
  · split at h
    · simp only [Exec.bind_ok, Exec.pure_ok] at h
      obtain ⟨r1, h1, r2, h2, rfl⟩ := h
      refine .append (forEach_loc_idx ?_ h1) ?_
      · intro j x r hx hr e he
        rw [List.getElem?_zip_eq_some] at hx
        rw [Nat.zero_add] at hr
        exact .elem hx.2 (H _ _ _ _ _ hr e he)
      · unfold checkAdditionalItems at h2
        simp only at h2
        split at h2
        · split at h2
          · split at h2 <;> simp at h2 <;> subst h2
            · exact .addErr
            · exact .empty
          · refine forEach_loc_idx ?_ h2
            intro j x r hx hr e he
            rw [List.getElem?_drop] at hx
            exact .elem hx (H _ _ _ _ _ hr e he)
          · simp at h2; subst h2; exact .empty
        · simp at h2; subst h2; exact .empty
    · simp at h; subst h; exact .empty

omit H in
theorem uniqueLoop_loc {env all c} : ∀ {xs seen j r}, uniqueLoop env all c seen j xs = .ok r →
    AllLoc (.arr all) c r := by
  intro xs
  induction xs with
  | nil => intro seen j r h; simp [uniqueLoop] at h; subst h; exact .empty
  | cons x xs ih =>
    intro seen j r h
    rw [uniqueLoop] at h
    split at h
    · simp at h
    · simp only [Exec.bind_ok, Exec.pure_ok] at h
      obtain ⟨rs, hrs, rfl⟩ := h
      refine .append ?_ (ih hrs)
      unfold dupError
      split
      · exact .addErr
      · exact .empty

theorem validateArray_loc {env p s xs c r} (h : validateArray env rec p s xs c = .ok r) : AllLoc (.arr xs) c r := by
  simp only [validateArray, Exec.bind_ok, Exec.pure_ok] at h
  obtain ⟨r1, h1, r3, h3, r4, h4, rfl⟩ := h
  refine .append (.append (.append (.append (checkItems_loc H h1) sizeCheck_loc) ?_) ?_) .tick
  · unfold checkUnique at h3
    split at h3
    · exact uniqueLoop_loc h3
    · simp at h3; subst h3; exact .empty
  · unfold checkContains at h4
    split at h4
    · simp at h4; subst h4; exact .empty
    · simp only [Exec.bind_ok] at h4
      obtain ⟨⟨b, best⟩, h1, h2⟩ := h4
      have := containsLoop_best_mem (P := AllLoc (.arr xs) c) (fun j x r hx hr e he => by
        rw [Nat.zero_add] at hr
        exact .elem hx (H _ _ _ _ _ hr e he)) h1 (by simp)
      cases b <;> cases best <;> simp at h2 <;> subst h2
      · exact .addErr
      · exact .append .addErr (this _ rfl)
      · exact .empty
      · exact .empty

omit H in
theorem checkRequired_loc {kvs c} : ∀ {qs}, AllLoc (.obj kvs) c (checkRequired kvs c qs) := by
  intro qs
  induction qs with
  | nil => exact .empty
  | cons q qs ih =>
    unfold checkRequired
    refine .append ?_ ih
    split
    · exact .tick
    · exact .addErr

theorem checkProperty_loc {env σ p s key value c r} {kvs} (hm : (key, value) ∈ kvs)
    (h : checkProperty env σ rec p s key value c = .ok r) : AllLoc (.obj kvs) c r := by
  simp only [checkProperty, validatePatternProperty, Exec.bind_ok] at h
  obtain ⟨⟨pm, r1⟩, ⟨⟨b, r0⟩, h0, h1⟩, h2⟩ := h
  have P : ∀ {l : List (String × Id)} {k o}, patternLoop env rec p key value c k l = .ok o →
      AllLoc (.obj kvs) c o.2 := by
    intro l
    induction l with
    | nil => intro k o h; simp [patternLoop] at h; subst h; exact .empty
    | cons q qs ih =>
      obtain ⟨pat, i⟩ := q
      intro k o h
      simp only [patternLoop, Exec.bind_ok, Exec.pure_ok] at h
      obtain ⟨a, ha, rs, hrs, rfl⟩ := h
      refine .append ?_ (ih hrs)
      unfold patternOne at ha
      split at ha
      · simp only [Exec.bind_ok, Exec.pure_ok] at ha
        obtain ⟨r', hr', rfl⟩ := ha
        exact fun e he => .member hm (H _ _ _ _ _ hr' e he)
      · simp at ha; subst ha; exact .empty
  have L0 := P h0
  have L1 : AllLoc (.obj kvs) c r1 := by
    cases b <;> simp at h1 <;> obtain ⟨rfl, rfl⟩ := h1
    · exact L0
    · exact .append L0 .tick
  simp only at h2
  split at h2
  · split at h2
    · split at h2 <;> simp at h2 <;> subst h2
      · refine .append L1 ?_
        intro e he
        simp [addErr] at he; subst he
        exact ⟨[], _, rfl, .here _, .inr (.inl ⟨kvs, key, rfl, rfl, hm⟩)⟩
      · exact L1
    · simp only [Exec.bind_ok, Exec.pure_ok] at h2
      obtain ⟨a, ha, rfl⟩ := h2
      exact .append L1 fun e he => .member hm (H _ _ _ _ _ ha e he)
    · simp at h2; subst h2; exact L1
  · simp at h2; subst h2; exact L1

theorem validateObject_loc {env σ p s kvs c r} (h : validateObject env σ rec p s kvs c = .ok r) :
    AllLoc (.obj kvs) c r := by
  simp only [validateObject, Exec.bind_ok, Exec.pure_ok] at h
  obtain ⟨r3, h3, r4, h4, rfl⟩ := h
  refine .append (.append (.append (.append sizeCheck_loc checkRequired_loc) ?_) ?_) .tick
  · refine forEach_loc ?_ h3
    intro k kv r hkv hr
    exact checkProperty_loc H ((σ.perm _ _).mem_iff.1 hkv) hr
  · unfold checkPropertyNames at h4
    split at h4
    · simp at h4; subst h4; exact .empty
    · refine forEach_loc ?_ h4
      intro k kv r hkv hr
      simp only [Exec.bind_ok] at hr
      obtain ⟨a, ha, hr⟩ := hr
      split at hr <;> simp at hr <;> subst hr
      · refine .append .addErr fun e he => .key ?_ (H _ _ _ _ _ ha e he)
        exact List.mem_map.2 ⟨kv, (σ.perm _ _).mem_iff.1 hkv, rfl⟩
      · exact .empty

theorem checkProperties_loc {p s kvs c r} (h : checkProperties rec p s kvs c = .ok r) :
    AllLoc (.obj kvs) c r := by
  refine forEach_loc ?_ h
  intro k q r _ hr
  split at hr
  · rename_i x hx
    exact fun e he => .member (lookup_some_mem hx) (H _ _ _ _ _ hr e he)
  · simp at hr; subst hr; exact .empty

omit H in
theorem validateString_loc {env s v c} : AllLoc v c (validateString env s v c) := by
  unfold validateString
  split
  · refine .append (.append sizeCheck_loc ?_) .tick
    unfold checkPattern
    split
    · split
      · exact .addErr
      · exact .empty
    · exact .empty
  · exact .empty

omit H in
theorem boundCheck_loc {x b bad kind c v r} (h : boundCheck x b bad kind c v = .ok r) : AllLoc v c r := by
  unfold boundCheck at h
  split at h
  · simp at h; subst h; exact .empty
  · split at h
    · simp at h
    · split at h <;> simp at h <;> subst h
      · exact .addErr
      · exact .empty

omit H in
theorem validateNumber_loc {env s v c r} (h : validateNumber env s v c = .ok r) : AllLoc v c r := by
  unfold validateNumber at h
  split at h
  · simp only [Exec.bind_ok, Exec.pure_ok] at h
    obtain ⟨r1, h1, r2, h2, r3, h3, r4, h4, r5, h5, rfl⟩ := h
    refine .append (.append (.append (.append (.append ?_ (boundCheck_loc h2)) (boundCheck_loc h3))
      (boundCheck_loc h4)) (boundCheck_loc h5)) .tick
    unfold checkMultipleOf at h1
    split at h1
    · simp at h1; subst h1; exact .empty
    · split at h1
      · simp at h1
      · split at h1
        · simp at h1
        · split at h1 <;> simp at h1 <;> subst h1
          · exact .addErr
          · exact .empty
  · simp at h; subst h; exact .empty

theorem validateNode_loc {env σ p s v c r} (h : validateNode env σ rec p s v c = .ok r) : AllLoc v c r := by
  simp only [validateNode, Exec.bind_ok] at h
  obtain ⟨r1, h1, h⟩ := h
  have A := validateSchema_loc H h1
  cases v with
  | null =>
    simp only [Exec.bind_ok, Exec.pure_ok] at h
    obtain ⟨r2, h2, rfl⟩ := h
    exact .append A (validateCommon_loc h2)
  | arr xs =>
    simp only [Exec.bind_ok, Exec.pure_ok] at h
    obtain ⟨r2, h2, r3, h3, rfl⟩ := h
    exact .append (.append A (validateArray_loc H h2)) (validateCommon_loc h3)
  | obj kvs =>
    simp only [Exec.bind_ok, Exec.pure_ok] at h
    obtain ⟨r2, h2, r3, h3, r4, h4, rfl⟩ := h
    exact .append (.append (.append A (validateObject_loc H h2)) (validateCommon_loc h3)) (checkProperties_loc H h4)
  | bool _ | str _ | num _ =>
    simp only [Exec.bind_ok, Exec.pure_ok] at h
    obtain ⟨r2, h2, r3, h3, rfl⟩ := h
    exact .append (.append (.append A (validateNumber_loc h2)) (validateCommon_loc h3)) validateString_loc

theorem validateStep_loc {env σ h} {p i v c r} (hr : validateStep env σ h rec p i v c = .ok r) : AllLoc v c r := by
  unfold validateStep at hr
  split at hr
  · simp at hr
  · split at hr
    · split at hr <;> simp at hr <;> subst hr
      · exact .addErr
      · exact .empty
    · split at hr
      · exact H _ _ _ _ _ hr
      · split at hr
        · simp at hr; subst hr; exact .addErr
        · simp only [Exec.bind_ok, Exec.pure_ok] at hr
          obtain ⟨a, ha, rfl⟩ := hr
          exact .append (validateNode_loc H ha) .tick

end

theorem validateRecursive_loc {env σ h} : ∀ n p i v c r,
    validateRecursive env σ h n p i v c = .ok r → AllLoc v c r := by
  intro n
  induction n with
  | zero => intro p i v c r hr; simp [validateRecursive] at hr
  | succ n ih => intro p i v c r hr; exact validateStep_loc ih hr

end GJS

import Verif.LemValidate
import Verif.SpecScore
/-
Helper lemmas: the score of a result.
-/
namespace GJS
open Spec

/-- The score of a result is `k` less two for every error. -/
def Bal (r : Result) (k : Int) : Prop := r.score = k - 2 * r.errors.length

theorem Bal.empty : Bal {} 0 := by simp [Bal]
theorem Bal.tick : Bal tick 1 := by simp [Bal, GJS.tick]
theorem Bal.addErr {k c v} : Bal (addErr k c v) 0 := by simp [Bal, GJS.addErr]
theorem Bal.append {a b i j} (h1 : Bal a i) (h2 : Bal b j) : Bal (a ++ b) (i + j) := by
  simp only [Bal, Result.score_append, Result.errors_append, List.length_append] at *
  omega
theorem Bal.to {a i j} (h : Bal a i) (e : i = j) : Bal a j := e ▸ h

theorem forEach_bal {α : Type} {f : Nat → α → Exec Result} : ∀ {l : List α} {k r},
    (∀ k x r, x ∈ l → f k x = .ok r → Bal r 0) → forEach f k l = .ok r → Bal r 0 := by
  intro l
  induction l with
  | nil => intro k r _ h; simp [forEach] at h; subst h; exact .empty
  | cons x xs ih =>
    intro k r hf h
    simp only [forEach, Exec.bind_ok, Exec.pure_ok] at h
    obtain ⟨a, ha, b, hb, rfl⟩ := h
    exact .append (hf _ _ _ (by simp) ha) (ih (fun k y r hy hr => hf k y r (by simp [hy]) hr) hb)

section
variable {env : Env} {σ : Sched} {rec : Rec} {p : Path} {s : Sub} {v : Json} {c : Ctx} {r : Result}

theorem validateSchema_bal (L : Leaf s) (hr : validateSchema env σ rec p s v c = .ok r) : Bal r 1 := by
  simp only [validateSchema, Exec.bind_ok, Exec.pure_ok] at hr
  obtain ⟨r1, h1, r2, h2, r3, h3, r4, h4, r5, h5, r6, h6, rfl⟩ := hr
  simp [checkAnyOf, L.anyOf] at h1
  simp [checkOneOf, L.oneOf] at h2
  simp [checkAllOf, L.allOf] at h3
  simp [checkNot, L.not] at h4
  simp [checkIf, L.if_] at h6
  subst h1 h2 h3 h4 h6
  refine .append (.append (i := 0) (.append (i := 0) (j := 0) .empty ?_) .empty) .tick
  unfold checkDependencies at h5
  split at h5
  · split at h5
    · refine forEach_bal ?_ h5
      intro k kv r _ hr
      unfold checkDependency at hr
      split at hr
      · refine forEach_bal ?_ hr
        intro _ _ _ _ hr
        split at hr <;> simp at hr <;> subst hr
        · exact .empty
        · exact .addErr
      · rename_i i hi
        exact absurd hi (L.dependencies _ _)
      · simp at hr; subst hr; exact .empty
    · split at h5 <;> simp at h5; subst h5; exact .empty
    · simp at h5; subst h5; exact .empty
  · simp at h5; subst h5; exact .empty

theorem validateCommon_bal (hr : validateCommon env s v c = .ok r) : Bal r 1 := by
  simp only [validateCommon, Exec.bind_ok, Exec.pure_ok] at hr
  obtain ⟨r1, h1, r2, h2, r3, h3, rfl⟩ := hr
  refine .append (i := 0) (.append (i := 0) (j := 0) (.append (i := 0) (j := 0) ?_ ?_) ?_) .tick
  · unfold checkConst at h1
    split at h1
    · simp at h1; subst h1; exact .empty
    · split at h1
      · simp at h1
      · split at h1 <;> simp at h1 <;> subst h1
        · exact .addErr
        · exact .empty
  · unfold checkEnum at h2
    split at h2
    · split at h2
      · simp at h2
      · split at h2 <;> simp at h2 <;> subst h2
        · exact .addErr
        · exact .empty
    · simp at h2; subst h2; exact .empty
  · unfold checkFormat at h3
    split at h3
    · split at h3 <;> simp at h3 <;> subst h3
      · exact .addErr
      · exact .empty
    · simp at h3; subst h3; exact .empty

theorem sizeCheck_bal {mn mx n f g} : Bal (sizeCheck mn mx n f g c v) 0 := by
  unfold sizeCheck
  refine .append (i := 0) (j := 0) ?_ ?_
  · cases mn with
    | none => exact .empty
    | some m => simp only; split; exact .addErr; exact .empty
  · cases mx with
    | none => exact .empty
    | some m => simp only; split; exact .addErr; exact .empty

theorem uniqueLoop_bal {all} : ∀ {xs seen j r}, uniqueLoop env all c seen j xs = .ok r → Bal r 0 := by
  intro xs
  induction xs with
  | nil => intro seen j r h; simp [uniqueLoop] at h; subst h; exact .empty
  | cons x xs ih =>
    intro seen j r h
    rw [uniqueLoop] at h
    split at h
    · simp at h
    · simp only [Exec.bind_ok, Exec.pure_ok] at h
      obtain ⟨rs, hrs, rfl⟩ := h
      refine .append (i := 0) (j := 0) ?_ (ih hrs)
      unfold dupError
      split
      · exact .addErr
      · exact .empty

theorem validateArray_bal {xs} (L : Leaf s) (hr : validateArray env rec p s xs c = .ok r) : Bal r 1 := by
  simp only [validateArray, Exec.bind_ok, Exec.pure_ok] at hr
  obtain ⟨r1, h1, r3, h3, r4, h4, rfl⟩ := hr
  simp [checkItems, L.items, L.single] at h1
  simp [checkContains, L.contains] at h4
  subst h1 h4
  refine .append (i := 0) (.append (i := 0) (j := 0) (.append (i := 0) (j := 0) (.append (i := 0) (j := 0) .empty sizeCheck_bal) ?_) .empty) .tick
  unfold checkUnique at h3
  split at h3
  · exact uniqueLoop_bal h3
  · simp at h3; subst h3; exact .empty

theorem checkRequired_bal {kvs} : ∀ {qs}, Bal (checkRequired kvs c qs) (present kvs qs) := by
  intro qs
  induction qs with
  | nil => exact .empty
  | cons q qs ih =>
    unfold checkRequired
    by_cases hq : existsMapKey kvs q = true
    · have hm : q ∈ names kvs := existsMapKey_iff.1 hq
      rw [if_pos hq]
      refine (Bal.tick.append ih).to ?_
      simp [present, hm]; omega
    · have hm : q ∉ names kvs := fun h => hq (existsMapKey_iff.2 h)
      rw [if_neg hq]
      refine (Bal.addErr.append ih).to ?_
      simp [present, hm]

theorem validateObject_bal {kvs} (L : Leaf s) (hr : validateObject env σ rec p s kvs c = .ok r) :
    Bal r (present kvs s.required + 1) := by
  simp only [validateObject, Exec.bind_ok, Exec.pure_ok] at hr
  obtain ⟨r3, h3, r4, h4, rfl⟩ := hr
  simp [checkPropertyNames, L.propertyNames] at h4
  subst h4
  refine (Bal.append (Bal.append (Bal.append (Bal.append sizeCheck_bal checkRequired_bal) (j := 0) (forEach_bal ?_ h3)) .empty) .tick).to (by omega)
  intro k kv r _ hr
  have ho : σ.order (14 :: k :: 13 :: p) s.patternProperties = [] := by
    rw [L.patternProperties]
    have := (σ.perm (14 :: k :: 13 :: p) ([] : List (String × Id)))
    exact List.perm_nil.1 this
  simp only [checkProperty, validatePatternProperty, ho, patternLoop] at hr
  simp only [Exec.bind_ok] at hr
  obtain ⟨⟨pm, r1⟩, ⟨⟨b, r0⟩, h0, h1⟩, h2⟩ := hr
  simp at h0
  obtain ⟨rfl, rfl⟩ := h0
  simp at h1
  obtain ⟨rfl, rfl⟩ := h1
  simp only [L.properties, List.any_nil, Bool.not_false, Bool.and_true, if_true] at h2
  cases ha : s.additionalProperties with
  | absent => simp [ha] at h2; subst h2; exact .empty
  | bool b =>
    cases b <;> simp [ha] at h2 <;> subst h2
    · exact .append (i := 0) (j := 0) .empty .addErr
    · exact .empty
  | schema i => exact absurd ha (L.additionalProperties i)

theorem validateString_bal {t} : Bal (validateString env s (.str t) c) 1 := by
  unfold validateString
  refine .append (i := 0) (.append (i := 0) (j := 0) sizeCheck_bal ?_) .tick
  unfold checkPattern
  split
  · split
    · exact .addErr
    · exact .empty
  · exact .empty

theorem boundCheck_bal {x bound bad kind} (hr : boundCheck x bound bad kind c v = .ok r) : Bal r 0 := by
  unfold boundCheck at hr
  cases bound with
  | none => simp at hr; subst hr; exact .empty
  | some b =>
    cases x with
    | none => simp at hr
    | some q =>
      cases hb : bad q b <;> simp [hb] at hr <;> subst hr
      · exact .empty
      · exact .addErr

theorem validateNumber_bal {n} (hr : validateNumber env s (.num n) c = .ok r) : Bal r 1 := by
  simp only [validateNumber, Exec.bind_ok, Exec.pure_ok] at hr
  obtain ⟨r1, h1, r2, h2, r3, h3, r4, h4, r5, h5, rfl⟩ := hr
  refine .append (i := 0) (.append (i := 0) (j := 0) (.append (i := 0) (j := 0) (.append (i := 0) (j := 0) (.append (i := 0) (j := 0) ?_
    (boundCheck_bal h2)) (boundCheck_bal h3)) (boundCheck_bal h4)) (boundCheck_bal h5)) .tick
  unfold checkMultipleOf at h1
  split at h1
  · simp at h1; subst h1; exact .empty
  · split at h1
    · simp at h1
    · split at h1
      · simp at h1
      · split at h1 <;> simp at h1 <;> subst h1
        · exact .addErr
        · exact .empty

theorem validateNode_bal (L : Leaf s) (hr : validateNode env σ rec p s v c = .ok r) : Bal (r ++ tick) (leafScore s v) := by
  cases v with
  | null =>
    simp only [validateNode, Exec.bind_ok, Exec.pure_ok] at hr
    obtain ⟨r1, h1, r2, h2, rfl⟩ := hr
    exact .append (.append (validateSchema_bal L h1) (validateCommon_bal h2)) .tick
  | arr xs =>
    simp only [validateNode, Exec.bind_ok, Exec.pure_ok] at hr
    obtain ⟨r1, h1, r2, h2, r3, h3, rfl⟩ := hr
    exact .append (.append (.append (validateSchema_bal L h1) (validateArray_bal L h2)) (validateCommon_bal h3)) .tick
  | obj kvs =>
    simp only [validateNode, Exec.bind_ok, Exec.pure_ok] at hr
    obtain ⟨r1, h1, r2, h2, r3, h3, r4, h4, rfl⟩ := hr
    simp [checkProperties, L.properties, forEach] at h4
    subst h4
    refine (Bal.append (.append (.append (.append (validateSchema_bal L h1) (validateObject_bal L h2)) (validateCommon_bal h3)) .empty) .tick).to ?_
    simp only [leafScore]; omega
  | bool b =>
    simp only [validateNode, Exec.bind_ok, Exec.pure_ok] at hr
    obtain ⟨r1, h1, r2, h2, r3, h3, rfl⟩ := hr
    simp only [validateNumber, Exec.pure_ok] at h2; subst h2
    exact .append (.append (.append (.append (validateSchema_bal L h1) .empty) (validateCommon_bal h3)) .empty) .tick
  | num n =>
    simp only [validateNode, Exec.bind_ok, Exec.pure_ok] at hr
    obtain ⟨r1, h1, r2, h2, r3, h3, rfl⟩ := hr
    exact .append (.append (.append (.append (validateSchema_bal L h1) (validateNumber_bal h2)) (validateCommon_bal h3)) .empty) .tick
  | str t =>
    simp only [validateNode, Exec.bind_ok, Exec.pure_ok] at hr
    obtain ⟨r1, h1, r2, h2, r3, h3, rfl⟩ := hr
    simp only [validateNumber, Exec.pure_ok] at h2; subst h2
    exact .append (.append (.append (.append (validateSchema_bal L h1) .empty) (validateCommon_bal h3)) validateString_bal) .tick

end
end GJS

import Verif.LemLoc
import Verif.SpecGraph
/-
Helper lemmas: which errors a run reports (required, unique, best branch).
-/
namespace GJS
open Spec

/-! ### best branch -/

/-- The best-so-far selection as a function of the list of results. -/
def pick (best : Option Result) : List Result → Option Result
  | [] => best
  | r :: rs => pick (if better best r then some r else best) rs

theorem pick_some : ∀ (rs : List Result) (b0 b : Result), pick (some b0) rs = some b →
    (b = b0 ∧ ∀ r ∈ rs, r.score ≤ b.score) ∨
    (∃ k : Nat, rs[k]? = some b ∧ b0.score < b.score ∧ (∀ r ∈ rs, r.score ≤ b.score) ∧
      ∀ (j : Nat) r, j < k → rs[j]? = some r → r.score < b.score) := by
  intro rs
  induction rs with
  | nil => intro b0 b h; simp [pick] at h; exact .inl ⟨h.symm, by simp⟩
  | cons r rs ih =>
    intro b0 b h
    rw [pick] at h
    by_cases hb : b0.score < r.score
    · simp [better, hb] at h
      rcases ih r b h with ⟨rfl, h2⟩ | ⟨k, h1, h2, h3, h4⟩
      · right
        refine ⟨0, by simp, hb, ?_, by simp⟩
        intro r' hr'; simp at hr'; rcases hr' with rfl | hr'
        · exact Int.le_refl _
        · exact h2 _ hr'
      · right
        refine ⟨k + 1, by simpa using h1, by omega, ?_, ?_⟩
        · intro r' hr'; simp at hr'; rcases hr' with rfl | hr'
          · omega
          · exact h3 _ hr'
        · intro j r' hj hr'
          cases j with
          | zero => simp at hr'; subst hr'; exact h2
          | succ j => exact h4 j r' (by omega) (by simpa using hr')
    · simp [better, hb] at h
      rcases ih b0 b h with ⟨rfl, h2⟩ | ⟨k, h1, h2, h3, h4⟩
      · left
        refine ⟨rfl, ?_⟩
        intro r' hr'; simp at hr'; rcases hr' with rfl | hr'
        · omega
        · exact h2 _ hr'
      · right
        refine ⟨k + 1, by simpa using h1, h2, ?_, ?_⟩
        · intro r' hr'; simp at hr'; rcases hr' with rfl | hr'
          · omega
          · exact h3 _ hr'
        · intro j r' hj hr'
          cases j with
          | zero => simp at hr'; subst hr'; omega
          | succ j => exact h4 j r' (by omega) (by simpa using hr')

theorem pick_isSome : ∀ (rs : List Result) (b : Result), ∃ b', pick (some b) rs = some b' := by
  intro rs
  induction rs with
  | nil => intro b; exact ⟨b, rfl⟩
  | cons r rs ih => intro b; rw [pick]; split <;> exact ih _

/-- First maximal element. -/
theorem pick_none {rs : List Result} (h : rs ≠ []) : ∃ b, pick none rs = some b ∧
    ∃ k : Nat, rs[k]? = some b ∧ (∀ r ∈ rs, r.score ≤ b.score) ∧
      ∀ (j : Nat) r, j < k → rs[j]? = some r → r.score < b.score := by
  cases rs with
  | nil => exact absurd rfl h
  | cons r rs =>
    obtain ⟨b, hb⟩ := pick_isSome rs r
    refine ⟨b, by simpa [pick, better] using hb, ?_⟩
    rcases pick_some rs r b hb with ⟨rfl, h2⟩ | ⟨k, h1, h2, h3, h4⟩
    · exact ⟨0, by simp, by simpa using h2, by simp⟩
    · refine ⟨k + 1, by simpa using h1, ?_, ?_⟩
      · intro r' hr'; simp at hr'; rcases hr' with rfl | hr'
        · omega
        · exact h3 _ hr'
      · intro j r' hj hr'
        cases j with
        | zero => simp at hr'; subst hr'; exact h2
        | succ j => exact h4 j r' (by omega) (by simpa using hr')

theorem anyOfLoop_pick {run : Nat → Id → Exec Result} : ∀ {l : List Id} {rs : List Result} {k best},
    rs.length = l.length → (∀ (j : Nat) i r, l[j]? = some i → rs[j]? = some r → run (k + j) i = .ok r ∧ r.valid = false) →
    anyOfLoop run k l false best = .ok (false, pick best rs) := by
  intro l
  induction l with
  | nil => intro rs k best hl _; cases rs <;> simp at hl; simp [anyOfLoop, pick]
  | cons i is ih =>
    intro rs k best hl h
    cases rs with
    | nil => simp at hl
    | cons r rs =>
      obtain ⟨h1, h2⟩ := h 0 i r (by simp) (by simp)
      rw [anyOfLoop]
      simp only [Nat.add_zero] at h1
      simp [h1, bind, Except.bind, h2, pick]
      exact ih (by simpa using hl) fun j i r hi hr => by
        rw [show k + 1 + j = k + (j + 1) by omega]; exact h (j + 1) i r (by simpa using hi) (by simpa using hr)

theorem oneOfLoop_pick {run : Nat → Id → Exec Result} : ∀ {l : List Id} {rs : List Result} {k best},
    rs.length = l.length → (∀ (j : Nat) i r, l[j]? = some i → rs[j]? = some r → run (k + j) i = .ok r ∧ r.valid = false) →
    oneOfLoop run k l 0 best = .ok (0, pick best rs) := by
  intro l
  induction l with
  | nil => intro rs k best hl _; cases rs <;> simp at hl; simp [oneOfLoop, pick]
  | cons i is ih =>
    intro rs k best hl h
    cases rs with
    | nil => simp at hl
    | cons r rs =>
      obtain ⟨h1, h2⟩ := h 0 i r (by simp) (by simp)
      have := fun b => @ih rs (k + 1) b (by simpa using hl) fun j i r hi hr => by
        rw [show k + 1 + j = k + (j + 1) by omega]; exact h (j + 1) i r (by simpa using hi) (by simpa using hr)
      rw [oneOfLoop]
      simp only [Nat.add_zero] at h1
      simp [h1, bind, Except.bind, h2, pick]
      split <;> exact this _

theorem containsLoop_pick {run : Nat → Json → Exec Result} : ∀ {l : List Json} {rs : List Result} {k best},
    rs.length = l.length → (∀ (j : Nat) i r, l[j]? = some i → rs[j]? = some r → run (k + j) i = .ok r ∧ r.valid = false) →
    containsLoop run k l best = .ok (false, pick best rs) := by
  intro l
  induction l with
  | nil => intro rs k best hl _; cases rs <;> simp at hl; simp [containsLoop, pick]
  | cons i is ih =>
    intro rs k best hl h
    cases rs with
    | nil => simp at hl
    | cons r rs =>
      obtain ⟨h1, h2⟩ := h 0 i r (by simp) (by simp)
      rw [containsLoop]
      simp only [Nat.add_zero] at h1
      simp [h1, bind, Except.bind, h2, pick]
      exact ih (by simpa using hl) fun j i r hi hr => by
        rw [show k + 1 + j = k + (j + 1) by omega]; exact h (j + 1) i r (by simpa using hi) (by simpa using hr)

/-- The errors of a node start with those of the combinators. -/
theorem validateNode_prefix {env σ rec p s v c r} (h : validateNode env σ rec p s v c = .ok r) :
    ∃ r1 rest, validateSchema env σ rec p s v c = .ok r1 ∧ r.errors = r1.errors ++ rest := by
  simp only [validateNode, Exec.bind_ok] at h
  obtain ⟨r1, h1, h2⟩ := h
  refine ⟨r1, ?_⟩
  cases v with
  | null =>
    simp only [Exec.bind_ok, Exec.pure_ok] at h2
    obtain ⟨_, _, rfl⟩ := h2
    simp only [Result.errors_append, List.append_assoc]
    exact ⟨_, h1, rfl⟩
  | obj _ =>
    simp only [Exec.bind_ok, Exec.pure_ok] at h2
    obtain ⟨_, _, _, _, _, _, rfl⟩ := h2
    simp only [Result.errors_append, List.append_assoc]
    exact ⟨_, h1, rfl⟩
  | bool _ | str _ | num _ | arr _ =>
    simp only [Exec.bind_ok, Exec.pure_ok] at h2
    obtain ⟨_, _, _, _, rfl⟩ := h2
    simp only [Result.errors_append, List.append_assoc]
    exact ⟨_, h1, rfl⟩

/-- A successful run on a plain node that admits the type is the run of its keywords. -/
theorem validateRecursive_node {env σ h n p i v c r s} (hs : h[i]? = some s) (hpass : s.pass = none)
    (href : s.refSchema = none) (hty : TypeRule env s.types v)
    (hr : validateRecursive env σ h (n + 1) p i v c = .ok r) :
    ∃ a, validateNode env σ (validateRecursive env σ h n) p s v c = .ok a ∧ r = a ++ tick := by
  simp only [validateRecursive, validateStep, hs, hpass, href, typeError_none.2 hty, Exec.bind_ok,
    Exec.pure_ok] at hr
  obtain ⟨a, ha, rfl⟩ := hr
  exact ⟨a, ha, rfl⟩

/-! ### required -/

/-- `e` is a 'required' error at context `c`. -/
def isReqAt (c : Ctx) (e : Err) : Bool :=
  match e.kind with
  | .required _ => decide (e.ctx = c)
  | _ => false

/-- `r` has no 'required' error at `c`. -/
def NoReq (c : Ctx) (r : Result) : Prop := ∀ e ∈ r.errors, isReqAt c e = false

theorem NoReq.empty {c} : NoReq c {} := by simp [NoReq]
theorem NoReq.tick {c} : NoReq c tick := by simp [NoReq, GJS.tick]
theorem NoReq.append {c a b} (h1 : NoReq c a) (h2 : NoReq c b) : NoReq c (a ++ b) := by
  intro e he
  rw [Result.errors_append, List.mem_append] at he
  exact he.elim (h1 e) (h2 e)
theorem NoReq.addErr {c c' k v} (h : ∀ q, k ≠ .required q) : NoReq c (addErr k c' v) := by
  intro e he
  simp [GJS.addErr] at he
  subst he
  unfold isReqAt
  split
  · rename_i q hq; exact absurd hq (h q)
  · rfl
theorem NoReq.filter {c r} (h : NoReq c r) : r.errors.filter (isReqAt c) = [] := by
  rw [List.filter_eq_nil_iff]; intro e he; simp [h e he]
/-- Errors found at a deeper context are not at `c`. -/
theorem NoReq.deeper {v k c r} (h : AllLoc v (k :: c) r) : NoReq c r := by
  intro e he
  obtain ⟨steps, w, h1, _⟩ := h e he
  unfold isReqAt
  split
  · rw [decide_eq_false_iff_not, h1]
    intro hc
    have := congrArg List.length hc
    simp at this
    omega
  · rfl

theorem NoReq.forEach {α : Type} {f : Nat → α → Exec Result} {c} : ∀ {l : List α} {k r},
    (∀ k x r, x ∈ l → f k x = .ok r → NoReq c r) → forEach f k l = .ok r → NoReq c r := by
  intro l
  induction l with
  | nil => intro k r _ h; simp [GJS.forEach] at h; subst h; exact .empty
  | cons x xs ih =>
    intro k r hf h
    simp only [GJS.forEach, Exec.bind_ok, Exec.pure_ok] at h
    obtain ⟨a, ha, b, hb, rfl⟩ := h
    exact .append (hf _ _ _ (by simp) ha) (ih (fun k y r hy => hf k y r (by simp [hy])) hb)

theorem checkRequired_filter {kvs c} : ∀ {qs : List String},
    (checkRequired kvs c qs).errors.filter (isReqAt c) =
      (qs.filter (fun q => !existsMapKey kvs q)).map fun q => ⟨.required q, c, .obj kvs⟩ := by
  intro qs
  induction qs with
  | nil => simp [checkRequired]
  | cons q qs ih =>
    rw [checkRequired, Result.errors_append, List.filter_append, ih]
    by_cases h : existsMapKey kvs q <;> simp [h, tick, addErr, isReqAt]

section
variable {rec : Rec} (H : ∀ p i v c r, rec p i v c = .ok r → AllLoc v c r)
include H

theorem checkProperty_noReq {env σ p s key value c r}
    (h : checkProperty env σ rec p s key value c = .ok r) : NoReq c r := by
  simp only [checkProperty, validatePatternProperty, Exec.bind_ok] at h
  obtain ⟨⟨pm, r1⟩, ⟨⟨b, r0⟩, h0, h1⟩, h2⟩ := h
  have P : ∀ {l : List (String × Id)} {k o}, patternLoop env rec p key value c k l = .ok o → NoReq c o.2 := by
    intro l
    induction l with
    | nil => intro k o h; simp [patternLoop] at h; subst h; exact .empty
    | cons q qs ih =>
      obtain ⟨pat, i⟩ := q
      intro k o h
      simp only [patternLoop, Exec.bind_ok, Exec.pure_ok] at h
      obtain ⟨a, ha, rs, hrs, rfl⟩ := h
      refine .append ?_ (ih hrs)
      unfold patternOne at ha
      split at ha
      · simp only [Exec.bind_ok, Exec.pure_ok] at ha
        obtain ⟨r', hr', rfl⟩ := ha
        exact .deeper (H _ _ _ _ _ hr')
      · simp at ha; subst ha; exact .empty
  have L0 := P h0
  have L1 : NoReq c r1 := by
    cases b <;> simp at h1 <;> obtain ⟨rfl, rfl⟩ := h1
    · exact L0
    · exact .append L0 .tick
  simp only at h2
  split at h2
  · split at h2
    · split at h2 <;> simp at h2 <;> subst h2
      · exact .append L1 (.addErr (by simp))
      · exact L1
    · simp only [Exec.bind_ok, Exec.pure_ok] at h2
      obtain ⟨a, ha, rfl⟩ := h2
      exact .append L1 (.deeper (H _ _ _ _ _ ha))
    · simp at h2; subst h2; exact L1
  · simp at h2; subst h2; exact L1

theorem checkProperties_noReq {p s kvs c r} (h : checkProperties rec p s kvs c = .ok r) : NoReq c r := by
  refine NoReq.forEach ?_ h
  intro k q r _ hr
  split at hr
  · exact .deeper (H _ _ _ _ _ hr)
  · simp at hr; subst hr; exact .empty

omit H in
theorem validateCommon_noReq {env s v c r} (h : validateCommon env s v c = .ok r) : NoReq c r := by
  simp only [validateCommon, Exec.bind_ok, Exec.pure_ok] at h
  obtain ⟨r1, h1, r2, h2, r3, h3, rfl⟩ := h
  refine .append (.append (.append ?_ ?_) ?_) .tick
  · unfold checkConst at h1
    split at h1
    · simp at h1; subst h1; exact .empty
    · split at h1
      · simp at h1
      · split at h1 <;> simp at h1 <;> subst h1
        · exact .addErr (by simp)
        · exact .empty
  · unfold checkEnum at h2
    split at h2
    · split at h2
      · simp at h2
      · split at h2 <;> simp at h2 <;> subst h2
        · exact .addErr (by simp)
        · exact .empty
    · simp at h2; subst h2; exact .empty
  · unfold checkFormat at h3
    split at h3
    · split at h3 <;> simp at h3 <;> subst h3
      · exact .addErr (by simp)
      · exact .empty
    · simp at h3; subst h3; exact .empty

omit H in
theorem validateSchema_noReq {env σ p s v c r} (hs : inPlace s = [])
    (h : validateSchema env σ rec p s v c = .ok r) : NoReq c r := by
  simp only [inPlace, List.append_eq_nil_iff, Option.toList_eq_nil_iff] at hs
  obtain ⟨⟨⟨⟨⟨⟨⟨⟨h1, h2⟩, h3⟩, h4⟩, h5⟩, h6⟩, h7⟩, h8⟩, h9⟩ := hs
  simp only [validateSchema, Exec.bind_ok, Exec.pure_ok] at h
  obtain ⟨a1, e1, a2, e2, a3, e3, a4, e4, r5, hr5, a6, e6, rfl⟩ := h
  simp [checkAnyOf, h2] at e1
  simp [checkOneOf, h3] at e2
  simp [checkAllOf, h4] at e3
  simp [checkNot, h5] at e4
  simp [checkIf, h6] at e6
  subst e1 e2 e3 e4 e6
  have hd : NoReq c r5 := by
    unfold checkDependencies at hr5
    split at hr5
    · split at hr5
      · refine NoReq.forEach ?_ hr5
        intro k kv r _ hr
        unfold checkDependency at hr
        split at hr
        · refine NoReq.forEach ?_ hr
          intro _ _ _ _ hr
          split at hr <;> simp at hr <;> subst hr
          · exact .empty
          · exact .addErr (by simp)
        · rename_i i hi
          rw [List.filterMap_eq_nil_iff] at h9
          simpa using h9 _ (lookup_some_mem hi)
        · simp at hr; subst hr; exact .empty
      · split at hr5 <;> simp at hr5; subst hr5; exact .empty
      · simp at hr5; subst hr5; exact .empty
    · simp at hr5; subst hr5; exact .empty
  repeat' apply NoReq.append
  all_goals first | exact hd | exact .empty | exact .tick

theorem validateNode_required {env σ p s kvs c r} (hs : inPlace s = []) (hp : s.propertyNames = none)
    (h : validateNode env σ rec p s (.obj kvs) c = .ok r) :
    r.errors.filter (isReqAt c) =
      (s.required.filter (fun q => !existsMapKey kvs q)).map fun q => ⟨.required q, c, .obj kvs⟩ := by
  simp only [validateNode, Exec.bind_ok, Exec.pure_ok, validateObject, checkPropertyNames, hp] at h
  obtain ⟨r1, h1, r2, ⟨r3, h3, r4, h4, rfl⟩, r5, h5, r6, h6, rfl⟩ := h
  subst h4
  have e1 := (validateSchema_noReq hs h1).filter
  have e3 := (NoReq.forEach (fun k x r _ hr => checkProperty_noReq H hr) h3).filter
  have e5 := (validateCommon_noReq h5).filter
  have e6 := (checkProperties_noReq H h6).filter
  have e0 : NoReq c (checkPropCount s kvs c) := by
    unfold checkPropCount sizeCheck
    refine .append ?_ ?_
    · split
      · split
        · exact .addErr (by simp)
        · exact .empty
      · exact .empty
    · split
      · split
        · exact .addErr (by simp)
        · exact .empty
      · exact .empty
  simp only [Result.errors_append, List.filter_append, e1, e3, e5, e6, e0.filter, NoReq.tick.filter,
    checkRequired_filter]
  simp

end

/-! ### uniqueItems -/

theorem uniqueLoop_sound {env all c} : ∀ {xs seen j r}, uniqueLoop env all c seen j xs = .ok r →
    all.drop j = xs →
    (∀ t i, (t, i) ∈ seen → i < j ∧ ∃ x, all[i]? = some x ∧ env.marshal x = some t) →
    ∀ e ∈ r.errors, ∃ a b x y, a < b ∧ e.kind = .unique a b ∧ e.ctx = c ∧ e.value = .arr all ∧
      all[a]? = some x ∧ all[b]? = some y ∧ env.marshal x = env.marshal y := by
  intro xs
  induction xs with
  | nil => intro seen j r h _ _; simp [uniqueLoop] at h; subst h; simp
  | cons x xs ih =>
    intro seen j r h hd hseen
    rw [uniqueLoop] at h
    split at h
    · simp at h
    · rename_i t ht
      simp only [Exec.bind_ok, Exec.pure_ok] at h
      obtain ⟨rs, hrs, rfl⟩ := h
      have hj : all[j]? = some x := by
        have := congrArg List.head? hd
        simpa [List.head?_drop] using this
      have hd' : all.drop (j + 1) = xs := by
        rw [← List.drop_drop, hd]; rfl
      intro e he
      rw [Result.errors_append, List.mem_append] at he
      rcases he with he | he
      · unfold dupError at he
        split at he
        · rename_i i hi
          simp [addErr] at he; subst he
          obtain ⟨h1, y, h2, h3⟩ := hseen _ _ (lookup_some_mem hi)
          exact ⟨i, j, y, x, h1, rfl, rfl, rfl, h2, hj, by rw [h3, ht]⟩
        · simp at he
      · refine ih hrs hd' ?_ e he
        intro t' i hm
        simp only [List.mem_cons, Prod.mk.injEq] at hm
        rcases hm with ⟨rfl, rfl⟩ | hm
        · exact ⟨by omega, x, hj, ht⟩
        · obtain ⟨h1, h2⟩ := hseen _ _ hm; exact ⟨by omega, h2⟩

theorem uniqueLoop_complete {env all c} : ∀ {xs seen j r}, uniqueLoop env all c seen j xs = .ok r →
    all.drop j = xs →
    (∀ i x t, i < j → all[i]? = some x → env.marshal x = some t → t ∈ seen.map Prod.fst) →
    ∀ (a b : Nat) x y, a < b → j ≤ b → all[a]? = some x → all[b]? = some y → env.marshal x = env.marshal y →
      ∃ a', ⟨.unique a' b, c, .arr all⟩ ∈ r.errors := by
  intro xs
  induction xs with
  | nil =>
    intro seen j r h hd _ a b x y _ hb _ hy _
    have : b < all.length := by
      rw [List.getElem?_eq_some_iff] at hy; exact hy.1
    rw [List.drop_eq_nil_iff] at hd
    omega
  | cons x xs ih =>
    intro seen j r h hd hseen a b x' y hab hb hx hy he
    rw [uniqueLoop] at h
    split at h
    · simp at h
    · rename_i t ht
      simp only [Exec.bind_ok, Exec.pure_ok] at h
      obtain ⟨rs, hrs, rfl⟩ := h
      have hj : all[j]? = some x := by
        have := congrArg List.head? hd
        simpa [List.head?_drop] using this
      have hd' : all.drop (j + 1) = xs := by
        rw [← List.drop_drop, hd]; rfl
      by_cases hbj : b = j
      · subst hbj
        rw [hj] at hy; cases hy
        rw [ht] at he
        have hm := hseen a x' t hab hx he
        cases hl : seen.lookup t with
        | none => exact absurd hm (lookup_none_iff.1 hl)
        | some i =>
          refine ⟨i, ?_⟩
          rw [Result.errors_append, List.mem_append]
          left
          simp [dupError, hl, addErr]
      · obtain ⟨a', ha'⟩ := ih hrs hd' (by
          intro i z u hi hz hu
          by_cases hij : i = j
          · subst hij; rw [hj] at hz; cases hz; rw [ht] at hu; cases hu; simp
          · have := hseen i z u (by omega) hz hu
            simp only [List.map_cons, List.mem_cons]; exact .inr this) a b x' y hab (by omega) hx hy he
        exact ⟨a', by rw [Result.errors_append, List.mem_append]; exact .inr ha'⟩

end GJS

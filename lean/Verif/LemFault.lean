import Verif.LemLoc
import Verif.LemErrors
import Verif.SpecFault
/-
Helper lemmas: error reports and violated keywords.
-/
namespace GJS
open Spec

/-! ### Settled verdicts -/

theorem unfold_add {env h} (P) : ∀ n m i v, Spec.unfold env h P (n + m) i v ↔ Spec.unfold env h (Spec.unfold env h P m) n i v := by
  intro n
  induction n with
  | zero => intro m i v; rw [Nat.zero_add]; exact Iff.rfl
  | succ n ih =>
    intro m i v
    rw [show n + 1 + m = (n + m) + 1 by omega]
    have : Spec.unfold env h P (n + m) = Spec.unfold env h (Spec.unfold env h P m) n := by
      funext i v; exact propext (ih m i v)
    show NodeRules env h (Spec.unfold env h P (n + m)) i v ↔ _
    rw [this]
    exact Iff.rfl

theorem not_holds_fails {env h i v} (h1 : Holds env h i v) (h2 : Fails env h i v) : False := by
  obtain ⟨n, h1⟩ := h1
  obtain ⟨m, h2⟩ := h2
  have a := (unfold_add (fun _ _ => True) n m i v).2 (h1 _)
  have b := fun x => h2 _ ((unfold_add (fun _ _ => True) m n i v).1 x)
  rw [Nat.add_comm] at b
  exact b a

/-- `rec` settles verdicts whenever it returns. -/
structure Settles (H F : Id → Json → Prop) (rec : Rec) : Prop where
  disj : ∀ i v, H i v → F i v → False
  holds : ∀ p i v c r, rec p i v c = .ok r → r.valid = true → H i v
  fails : ∀ p i v c r, rec p i v c = .ok r → r.valid = false → F i v

theorem Settles.agreesH {H F rec} (S : Settles H F rec) : Agrees rec H := by
  intro p i v c r hr
  refine ⟨S.holds p i v c r hr, fun hh => ?_⟩
  cases hv : r.valid with
  | true => rfl
  | false => exact (S.disj _ _ hh (S.fails p i v c r hr hv)).elim

theorem Settles.agreesF {H F rec} (S : Settles H F rec) : Agrees rec (fun i v => ¬ F i v) := by
  intro p i v c r hr
  refine ⟨fun hv hf => S.disj _ _ (S.holds p i v c r hr hv) hf, fun hh => ?_⟩
  cases hv : r.valid with
  | true => rfl
  | false => exact (hh (S.fails p i v c r hr hv)).elim

theorem validateRecursive_settles {env σ h} (n) : Settles (Holds env h) (Fails env h) (validateRecursive env σ h n) := by
  constructor
  · intro i v; exact not_holds_fails
  · intro p i v c r hr hv
    exact ⟨n, fun P => (validateRecursive_agrees env σ h P n _ _ _ _ _ hr).1 hv⟩
  · intro p i v c r hr hv
    refine ⟨n, fun P hu => ?_⟩
    rw [(validateRecursive_agrees env σ h P n _ _ _ _ _ hr).2 hu] at hv
    cases hv

/-! ### Where errors come from -/

/-- The error `e`, reported for node `i` on `v` at context `c`, is explained by a node reached from
there. -/
def Blame (env : Env) (H F : Id → Json → Prop) (h : Heap) (i : Id) (v : Json) (c : Ctx) (e : Err) : Prop :=
  ∃ path j w s, e.ctx = path.reverse ++ c ∧ Reach h (May env H F) i v path j w ∧ h[j]? = some s ∧
    Fault env H F s w e.kind e.value

/-- The error is a violated keyword of the node, or one of a node it applies. -/
def Src (env : Env) (H F : Id → Json → Prop) (h : Heap) (s : Sub) (v : Json) (c : Ctx) (e : Err) : Prop :=
  (e.ctx = c ∧ KwFault env H F s v e.kind e.value) ∨
  ∃ o j w, May env H F s v o j w ∧ Blame env H F h j w (o.toList ++ c) e

def AllSrc (env : Env) (H F : Id → Json → Prop) (h : Heap) (s : Sub) (v : Json) (c : Ctx) (r : Result) : Prop :=
  ∀ e ∈ r.errors, Src env H F h s v c e

section
variable {env : Env} {H F : Id → Json → Prop} {h : Heap} {s : Sub} {v : Json} {c : Ctx}

theorem AllSrc.empty : AllSrc env H F h s v c {} := by simp [AllSrc]
theorem AllSrc.tick : AllSrc env H F h s v c tick := by simp [AllSrc, GJS.tick]
theorem AllSrc.append {a b} (h1 : AllSrc env H F h s v c a) (h2 : AllSrc env H F h s v c b) : AllSrc env H F h s v c (a ++ b) := by
  intro e he
  rw [Result.errors_append, List.mem_append] at he
  exact he.elim (h1 e) (h2 e)
theorem AllSrc.addErr {k x} (hk : KwFault env H F s v k x) : AllSrc env H F h s v c (addErr k c x) := by
  intro e he
  simp [GJS.addErr] at he
  subst he
  exact .inl ⟨rfl, hk⟩
theorem AllSrc.sub {o j w r} (hm : May env H F s v o j w) (hr : ∀ e ∈ r.errors, Blame env H F h j w (o.toList ++ c) e) :
    AllSrc env H F h s v c r := fun e he => .inr ⟨o, j, w, hm, hr e he⟩
theorem AllSrc.must {o j w r} (hm : Must env H F s v o j w) (hr : ∀ e ∈ r.errors, Blame env H F h j w (o.toList ++ c) e) :
    AllSrc env H F h s v c r := .sub (.must _ _ _ hm) hr

theorem forEach_src {α : Type} {f : Nat → α → Exec Result} : ∀ {l : List α} {k r},
    (∀ (j : Nat) x r, l[j]? = some x → f (k + j) x = .ok r → AllSrc env H F h s v c r) → forEach f k l = .ok r →
    AllSrc env H F h s v c r := by
  intro l
  induction l with
  | nil => intro k r _ h; simp [forEach] at h; subst h; exact .empty
  | cons x xs ih =>
    intro k r hf h
    simp only [forEach, Exec.bind_ok, Exec.pure_ok] at h
    obtain ⟨a, ha, b, hb, rfl⟩ := h
    refine .append (hf 0 _ _ (by simp) ha) (ih (fun j y r hy hr => hf (j + 1) y r (by simpa using hy) ?_) hb)
    rwa [show k + (j + 1) = k + 1 + j by omega]

theorem forEach_src' {α : Type} {f : Nat → α → Exec Result} {l : List α} {k r}
    (hf : ∀ k x r, x ∈ l → f k x = .ok r → AllSrc env H F h s v c r) (hr : forEach f k l = .ok r) : AllSrc env H F h s v c r :=
  forEach_src (fun j x r hx => hf _ x r (List.mem_of_getElem? hx)) hr

/-- Every position of a `for` loop was executed and its errors are in the result. -/
theorem forEach_ran {α : Type} {f : Nat → α → Exec Result} : ∀ {l : List α} {k r}, forEach f k l = .ok r →
    ∀ (j : Nat) x, l[j]? = some x → ∃ a, f (k + j) x = .ok a ∧ ∀ e ∈ a.errors, e ∈ r.errors := by
  intro l
  induction l with
  | nil => intro k r _ j x hx; simp at hx
  | cons y ys ih =>
    intro k r hr j x hx
    simp only [forEach, Exec.bind_ok, Exec.pure_ok] at hr
    obtain ⟨a, ha, b, hb, rfl⟩ := hr
    cases j with
    | zero =>
      simp at hx; subst hx
      exact ⟨a, ha, fun e he => by simp [he]⟩
    | succ j =>
      obtain ⟨a', h1, h2⟩ := ih hb j x (by simpa using hx)
      exact ⟨a', by rwa [show k + (j + 1) = k + 1 + j by omega], fun e he => by simp [h2 e he]⟩

theorem forEach_ran' {α : Type} {f : Nat → α → Exec Result} {l : List α} {k r} (hr : forEach f k l = .ok r) {x} (hx : x ∈ l) :
    ∃ k' a, f k' x = .ok a ∧ ∀ e ∈ a.errors, e ∈ r.errors := by
  obtain ⟨j, hj⟩ := List.getElem?_of_mem hx
  obtain ⟨a, h1, h2⟩ := forEach_ran hr j x hj
  exact ⟨_, a, h1, h2⟩

end

/-! ### The checks -/

/-- `r` has the errors of some execution of `rec`. -/
def Incl (rec : Rec) (j : Id) (w : Json) (c : Ctx) (r : Result) : Prop :=
  ∃ p a, rec p j w c = .ok a ∧ ∀ e ∈ a.errors, e ∈ r.errors

section
variable {env : Env} {H F : Id → Json → Prop} {h : Heap} {rec : Rec} {σ : Sched} {p : Path} {s : Sub} {v : Json} {c : Ctx} {r : Result}

theorem Incl.mono {j w c r r'} (hi : Incl rec j w c r) (hr : ∀ e ∈ r.errors, e ∈ r'.errors) : Incl rec j w c r' := by
  obtain ⟨p, a, h1, h2⟩ := hi
  exact ⟨p, a, h1, fun e he => hr e (h2 e he)⟩

variable (S : Settles H F rec) (B : ∀ p i v c r, rec p i v c = .ok r → ∀ e ∈ r.errors, Blame env H F h i v c e)

theorem mem_addErr {k c v} : (⟨k, c, v⟩ : Err) ∈ (addErr k c v).errors := by simp [addErr]

include S in
theorem anyOf_fails (hne : s.anyOf ≠ []) {p0 v c} {x : Bool × Option Result}
    (h1 : anyOfLoop (fun k i => rec (k :: 1 :: p0) i v c) 0 s.anyOf false none = .ok x) (hx : x.1 = false) :
    ∀ i ∈ s.anyOf, F i v := by
  have := anyOfLoop_valid (Q := fun i => ¬ F i v) (fun k i r hr => S.agreesF _ _ _ _ _ hr) _ _ _ _ _ h1
  intro i hi
  refine Classical.not_not.1 fun hf => ?_
  rw [this.2 (.inr ⟨i, hi, hf⟩)] at hx
  cases hx

theorem anyOfLoop_best_ran {run : Nat → Id → Exec Result} : ∀ {l : List Id} {k b best o},
    anyOfLoop run k l b best = .ok o → ∀ r, o.2 = some r → best = some r ∨ ∃ i ∈ l, ∃ k, run k i = .ok r := by
  intro l
  induction l with
  | nil => intro k b best o h r hr; simp [anyOfLoop] at h; subst h; exact .inl hr
  | cons i is ih =>
    intro k b best o h r hr
    rw [anyOfLoop] at h
    cases b with
    | true =>
      simp at h
      rcases ih h r hr with h | ⟨i', h1, h2⟩
      · exact .inl h
      · exact .inr ⟨i', by simp [h1], h2⟩
    | false =>
      simp only [Bool.not_false, if_true, Exec.bind_ok] at h
      obtain ⟨r', hr', h⟩ := h
      rcases ih h r hr with h | ⟨i', h1, h2⟩
      · split at h
        · cases h; exact .inr ⟨i, by simp, k, hr'⟩
        · exact .inl h
      · exact .inr ⟨i', by simp [h1], h2⟩

theorem oneOfLoop_best_ran {run : Nat → Id → Exec Result} : ∀ {l : List Id} {k n best o},
    oneOfLoop run k l n best = .ok o → ∀ r, o.2 = some r → best = some r ∨ ∃ i ∈ l, ∃ k, run k i = .ok r := by
  intro l
  induction l with
  | nil => intro k b best o h r hr; simp [oneOfLoop] at h; subst h; exact .inl hr
  | cons i is ih =>
    intro k n best o h r hr
    simp only [oneOfLoop, Exec.bind_ok] at h
    obtain ⟨r', hr', h⟩ := h
    have lift : ∀ {best'}, (best' = some r ∨ ∃ i ∈ is, ∃ k, run k i = .ok r) →
        best' = some r ∨ ∃ i' ∈ i :: is, ∃ k, run k i' = .ok r := by
      rintro b (h | ⟨i', h1, h2⟩)
      · exact .inl h
      · exact .inr ⟨i', by simp [h1], h2⟩
    split at h
    · exact lift (ih h r hr)
    · split at h
      · rcases lift (ih h r hr) with h | h
        · cases h; exact .inr ⟨i, by simp, k, hr'⟩
        · exact .inr h
      · exact lift (ih h r hr)

include S B

theorem checkAnyOf_src (hp : Plain env s v) (hr : checkAnyOf rec p s v c = .ok r) : AllSrc env H F h s v c r := by
  unfold checkAnyOf at hr
  split at hr
  · rename_i hl
    have hne : s.anyOf ≠ [] := by intro e; simp [e] at hl
    simp only [Exec.bind_ok] at hr
    obtain ⟨⟨b, best⟩, h1, h2⟩ := hr
    cases b with
    | true => simp at h2; subst h2; exact .empty
    | false =>
      have hf := anyOf_fails S hne h1 rfl
      have e0 : AllSrc env H F h s v c (addErr .numberAnyOf c v) := .addErr (.anyOf hne hf)
      cases best with
      | none => simp at h2; subst h2; exact e0
      | some b =>
        simp at h2; subst h2
        refine .append e0 ?_
        rcases anyOfLoop_best_ran h1 b rfl with h | ⟨i, hi, k, hk⟩
        · cases h
        · exact .sub (o := none) (.anyOf i hp hi hf) (B _ _ _ _ _ hk)
  · simp at hr; subst hr; exact .empty

omit S B in
theorem two_hold {Q : Id → Prop} : ∀ {l : List Id}, 2 ≤ numHolds Q l →
    ∃ (k k' : Nat) (i i' : Id), k ≠ k' ∧ l[k]? = some i ∧ l[k']? = some i' ∧ Q i ∧ Q i' := by
  intro l
  induction l with
  | nil => intro h; simp [numHolds] at h
  | cons i is ih =>
    intro h2
    by_cases hi : Q i
    · have h1 : numHolds Q (i :: is) = numHolds Q is + 1 := by simp [numHolds, hi]
      have : ¬ numHolds Q is = 0 := by omega
      rw [numHolds_zero] at this
      simp only [not_forall, not_not] at this
      obtain ⟨j, hj, hq⟩ := this
      obtain ⟨k, hk⟩ := List.getElem?_of_mem hj
      exact ⟨0, k + 1, i, j, by omega, by simp, by simpa using hk, hi, hq⟩
    · have h1 : numHolds Q (i :: is) = numHolds Q is := by simp [numHolds, hi]
      obtain ⟨k, k', a, b, h3, h4, h5, h6⟩ := ih (by omega)
      exact ⟨k + 1, k' + 1, a, b, by omega, by simpa using h4, by simpa using h5, h6⟩

theorem checkOneOf_src (hp : Plain env s v) (hr : checkOneOf rec p s v c = .ok r) : AllSrc env H F h s v c r := by
  unfold checkOneOf at hr
  split at hr
  · rename_i hl
    have hne : s.oneOf ≠ [] := by intro e; simp [e] at hl
    simp only [Exec.bind_ok] at hr
    obtain ⟨⟨n, best⟩, h1, h2⟩ := hr
    have nH := oneOfLoop_valid (Q := fun i => H i v) (fun k i r hr => S.agreesH _ _ _ _ _ hr) _ _ _ _ _ h1
    have nF := oneOfLoop_valid (Q := fun i => ¬ F i v) (fun k i r hr => S.agreesF _ _ _ _ _ hr) _ _ _ _ _ h1
    simp only [Nat.zero_add] at nH nF h2
    split at h2
    · rename_i hn1
      split at h2
      · rename_i hn0
        have hn0 : n = 0 := by simpa using hn0
        have hf : ∀ i ∈ s.oneOf, F i v := by
          rw [hn0] at nF
          intro i hi
          exact Classical.not_not.1 (numHolds_zero.1 nF.symm i hi)
        cases best with
        | none => simp at h2
        | some b =>
          simp at h2; subst h2
          refine .append (.addErr (.oneOf_none hne hf)) ?_
          rcases oneOfLoop_best_ran h1 b rfl with h | ⟨i, hi, k, hk⟩
          · cases h
          · exact .sub (o := none) (.oneOf i hp hi hf) (B _ _ _ _ _ hk)
      · rename_i hn0
        simp at h2; subst h2
        have : 2 ≤ numHolds (fun i => H i v) s.oneOf := by
          have a : n ≠ 1 := by simpa using hn1
          have b : n ≠ 0 := by simpa using hn0
          omega
        obtain ⟨k, k', i, i', a, b, c', d, e⟩ := two_hold this
        exact .addErr (.oneOf_many k k' i i' a b c' d e)
    · simp at h2; subst h2; exact .empty
  · simp at hr; subst hr; exact .empty

omit S B in
theorem allOfLoop_ran {run : Nat → Id → Exec Result} : ∀ {l : List Id} {k o}, allOfLoop run k l = .ok o →
    (∀ e ∈ o.2.errors, ∃ i ∈ l, ∃ k r, run k i = .ok r ∧ e ∈ r.errors) ∧
    (∀ i ∈ l, ∃ k r, run k i = .ok r ∧ ∀ e ∈ r.errors, e ∈ o.2.errors) := by
  intro l
  induction l with
  | nil => intro k o h; simp [allOfLoop] at h; subst h; simp
  | cons i is ih =>
    intro k o h
    simp only [allOfLoop, Exec.bind_ok, Exec.pure_ok] at h
    obtain ⟨r, hr, ⟨nb, rs⟩, hrs, rfl⟩ := h
    obtain ⟨i1, i2⟩ := ih hrs
    constructor
    · intro e he
      simp only [Result.errors_append, List.mem_append] at he
      rcases he with he | he
      · exact ⟨i, by simp, k, r, hr, he⟩
      · obtain ⟨j, hj, x⟩ := i1 e he
        exact ⟨j, by simp [hj], x⟩
    · intro j hj
      rcases List.mem_cons.1 hj with rfl | hj
      · exact ⟨k, r, hr, fun e he => by simp [he]⟩
      · obtain ⟨k', r', h1, h2⟩ := i2 j hj
        exact ⟨k', r', h1, fun e he => by simp only [Result.errors_append, List.mem_append]; exact .inr (h2 e he)⟩

theorem checkAllOf_src (hp : Plain env s v) (hr : checkAllOf rec p s v c = .ok r) : AllSrc env H F h s v c r := by
  have hv := checkAllOf_valid S.agreesF hr
  unfold checkAllOf at hr
  split at hr
  · simp only [Exec.bind_ok] at hr
    obtain ⟨⟨n, rs⟩, h1, h2⟩ := hr
    have hrs : AllSrc env H F h s v c rs := by
      intro e he
      obtain ⟨i, hi, k, a, ha, hea⟩ := (allOfLoop_ran h1).1 e he
      exact AllSrc.must (o := none) (.allOf i hp hi) (B _ _ _ _ _ ha) e hea
    simp only at h2
    split at h2
    · simp at h2; subst h2
      refine .append hrs (.addErr ?_)
      have : ¬ AllOfRule (fun i v => ¬ F i v) s.allOf v := fun x => by
        have := hv.2 x
        simp [addErr, Result.valid] at this
      simp only [AllOfRule, not_forall, not_not] at this
      obtain ⟨i, hi, hf⟩ := this
      exact .allOf i hi hf
    · simp at h2; subst h2; exact hrs
  · simp at hr; subst hr; exact .empty

omit B in
theorem checkNot_src (hr : checkNot rec p s v c = .ok r) : AllSrc env H F h s v c r := by
  unfold checkNot at hr
  split at hr
  · rename_i i hi
    simp only [Exec.bind_ok] at hr
    obtain ⟨a, ha, hr⟩ := hr
    split at hr <;> simp at hr <;> subst hr
    · rename_i hv
      exact .addErr (.not i hi (S.holds _ _ _ _ _ ha hv))
    · exact .empty
  · simp at hr; subst hr; exact .empty

omit S in
theorem checkDependencies_src (hp : Plain env s v) (hr : checkDependencies env σ rec p s v c = .ok r) : AllSrc env H F h s v c r := by
  unfold checkDependencies at hr
  split at hr
  · split at hr
    · rename_i kvs
      refine forEach_src' ?_ hr
      intro k kv r hkv hr
      have hk : kv.1 ∈ names kvs := List.mem_map.2 ⟨kv, (σ.perm _ _).mem_iff.1 hkv, rfl⟩
      unfold checkDependency at hr
      split at hr
      · rename_i ks hks
        refine forEach_src' ?_ hr
        intro _ q _ hq hr
        split at hr <;> simp at hr <;> subst hr
        · exact .empty
        · rename_i hn
          rw [existsMapKey_iff] at hn
          exact .addErr (.dependency kvs kv.1 ks q rfl hk hks hq hn)
      · rename_i i hi
        exact .must (o := none) (.dependency kvs kv.1 i hp rfl hk hi) (B _ _ _ _ _ hr)
      · simp at hr; subst hr; exact .empty
    · split at hr <;> simp at hr; subst hr; exact .empty
    · simp at hr; subst hr; exact .empty
  · simp at hr; subst hr; exact .empty

theorem checkIf_src (hp : Plain env s v) (hr : checkIf rec p s v c = .ok r) : AllSrc env H F h s v c r := by
  unfold checkIf at hr
  split at hr
  · simp at hr; subst hr; exact .empty
  · rename_i i hi
    simp only [Exec.bind_ok, Exec.pure_ok] at hr
    obtain ⟨q, hq, a, ha, b, hb, rfl⟩ := hr
    refine .append ?_ ?_
    · unfold checkBranch at ha
      split at ha
      · rename_i t ht
        split at ha
        · rename_i hv
          simp only [Exec.bind_ok] at ha
          obtain ⟨x, hx, ha⟩ := ha
          have hh := S.holds _ _ _ _ _ hq hv
          split at ha <;> simp at ha <;> subst ha
          · rename_i hx'
            exact .append (.addErr (.then_ i t hi ht hh (S.fails _ _ _ _ _ hx (by simpa using hx'))))
              (.must (o := none) (.then_ i t hp hi ht hh) (B _ _ _ _ _ hx))
          · exact .empty
        · simp at ha; subst ha; exact .empty
      · simp at ha; subst ha; exact .empty
    · unfold checkBranch at hb
      split at hb
      · rename_i t ht
        split at hb
        · rename_i hv
          simp only [Exec.bind_ok] at hb
          obtain ⟨x, hx, hb⟩ := hb
          have hh := S.fails _ _ _ _ _ hq (by simpa using hv)
          split at hb <;> simp at hb <;> subst hb
          · rename_i hx'
            exact .append (.addErr (.else_ i t hi ht hh (S.fails _ _ _ _ _ hx (by simpa using hx'))))
              (.must (o := none) (.else_ i t hp hi ht hh) (B _ _ _ _ _ hx))
          · exact .empty
        · simp at hb; subst hb; exact .empty
      · simp at hb; subst hb; exact .empty

theorem validateSchema_src (hp : Plain env s v) (hr : validateSchema env σ rec p s v c = .ok r) : AllSrc env H F h s v c r := by
  simp only [validateSchema, Exec.bind_ok, Exec.pure_ok] at hr
  obtain ⟨r1, h1, r2, h2, r3, h3, r4, h4, r5, h5, r6, h6, rfl⟩ := hr
  exact .append (.append (.append (.append (.append (.append (checkAnyOf_src S B hp h1) (checkOneOf_src S B hp h2))
    (checkAllOf_src S B hp h3)) (checkNot_src S h4)) (checkDependencies_src B hp h5)) (checkIf_src S B hp h6)) .tick

omit S B in
theorem validateCommon_src (hr : validateCommon env s v c = .ok r) : AllSrc env H F h s v c r := by
  simp only [validateCommon, Exec.bind_ok, Exec.pure_ok] at hr
  obtain ⟨r1, h1, r2, h2, r3, h3, rfl⟩ := hr
  refine .append (.append (.append ?_ ?_) ?_) .tick
  · unfold checkConst at h1
    split at h1
    · simp at h1; subst h1; exact .empty
    · rename_i k hk
      split at h1
      · simp at h1
      · rename_i t ht
        split at h1 <;> simp at h1 <;> subst h1
        · rename_i hn
          refine .addErr (.const k hk ?_)
          rw [ht]; simpa using hn
        · exact .empty
  · unfold checkEnum at h2
    split at h2
    · rename_i hl
      have hne : s.enum ≠ [] := by intro e; simp [e] at hl
      split at h2
      · simp at h2
      · rename_i t ht
        split at h2 <;> simp at h2 <;> subst h2
        · rename_i hn
          refine .addErr (.enum hne fun k hk => ?_)
          rw [ht]
          rintro e
          cases e
          simp [hk] at hn
        · exact .empty
    · simp at h2; subst h2; exact .empty
  · unfold checkFormat at h3
    split at h3
    · rename_i hf
      split at h3 <;> simp at h3 <;> subst h3
      · rename_i hn
        exact .addErr (.format (by simpa using hf) (by simpa using hn))
      · exact .empty
    · simp at h3; subst h3; exact .empty

omit S in
theorem checkItems_src {xs} (hp : Plain env s (.arr xs)) (hr : checkItems rec p s xs c = .ok r) :
    AllSrc env H F h s (.arr xs) c r := by
  unfold checkItems at hr
  split at hr
  · rename_i hs
    refine forEach_src ?_ hr
    intro j x r hx hr
    split at hr
    · rename_i i is his
      rw [Nat.zero_add] at hr
      exact .must (o := some (toString j)) (.items xs i j x hp rfl hs (by rw [his]; rfl) hx) (B _ _ _ _ _ hr)
    · simp at hr
  · rename_i hs
    have hs : s.itemsChildrenIsSingleSchema = false := by simpa using hs
    split at hr
    · rename_i hl
      have hne : s.itemsChildren ≠ [] := by intro e; simp [e] at hl
      simp only [Exec.bind_ok, Exec.pure_ok] at hr
      obtain ⟨r1, h1, r2, h2, rfl⟩ := hr
      refine .append (forEach_src ?_ h1) ?_
      · intro j x r hx hr
        rw [List.getElem?_zip_eq_some] at hx
        rw [Nat.zero_add] at hr
        exact .must (o := some (toString j)) (.item xs x.1 j x.2 hp rfl hs hx.1 hx.2) (B _ _ _ _ _ hr)
      · unfold checkAdditionalItems at h2
        simp only at h2
        split at h2
        · rename_i hlt
          split at h2
          · rename_i b hb
            split at h2 <;> simp at h2 <;> subst h2
            · rename_i hb'
              have : b = false := by simpa using hb'
              subst this
              exact .addErr (.additionalItems xs rfl hs hne hb hlt)
            · exact .empty
          · rename_i i hi
            refine forEach_src ?_ h2
            intro j x r hx hr
            rw [List.getElem?_drop] at hx
            exact .must (o := some (toString (s.itemsChildren.length + j)))
              (.additionalItems xs i _ x hp rfl hs hne (by omega) hi hx) (B _ _ _ _ _ hr)
          · simp at h2; subst h2; exact .empty
        · simp at h2; subst h2; exact .empty
    · simp at hr; subst hr; exact .empty

omit S B in
theorem sizeCheck_src {mn mx} {n : Nat} {f g} (hf : ∀ m, mn = some m → (n : Int) < m → KwFault env H F s v (f m) v)
    (hg : ∀ m, mx = some m → m < (n : Int) → KwFault env H F s v (g m) v) : AllSrc env H F h s v c (sizeCheck mn mx n f g c v) := by
  unfold sizeCheck
  refine .append ?_ ?_
  · cases mn with
    | none => exact .empty
    | some m =>
      simp only; split
      · exact .addErr (hf m rfl (by assumption))
      · exact .empty
  · cases mx with
    | none => exact .empty
    | some m =>
      simp only; split
      · exact .addErr (hg m rfl (by assumption))
      · exact .empty

omit S B in
theorem uniqueLoop_exact {all c} : ∀ {xs seen j r}, uniqueLoop env all c seen j xs = .ok r → all.drop j = xs →
    (∀ t i, seen.lookup t = some i ↔ i < j ∧ (∃ x, all[i]? = some x ∧ env.marshal x = some t) ∧
      ∀ (k : Nat) z, i < k → k < j → all[k]? = some z → env.marshal z ≠ some t) →
    ∀ e, e ∈ r.errors ↔ ∃ (a b : Nat) (x y : Json), a < b ∧ j ≤ b ∧ all[a]? = some x ∧ all[b]? = some y ∧ env.marshal x = env.marshal y ∧
      (∀ (k : Nat) z, a < k → k < b → all[k]? = some z → env.marshal z ≠ env.marshal y) ∧
      e = ⟨.unique a b, c, .arr all⟩ := by
  intro xs
  induction xs with
  | nil =>
    intro seen j r h hd _ e
    simp [uniqueLoop] at h; subst h
    simp only [List.not_mem_nil, false_iff]
    rintro ⟨a, b, x, y, _, hb, _, hy, _⟩
    have : b < all.length := by rw [List.getElem?_eq_some_iff] at hy; exact hy.1
    rw [List.drop_eq_nil_iff] at hd
    omega
  | cons x xs ih =>
    intro seen j r h hd hseen e
    rw [uniqueLoop] at h
    split at h
    · simp at h
    · rename_i t ht
      simp only [Exec.bind_ok, Exec.pure_ok] at h
      obtain ⟨rs, hrs, rfl⟩ := h
      have hj : all[j]? = some x := by
        have := congrArg List.head? hd
        simpa [List.head?_drop] using this
      have hd' : all.drop (j + 1) = xs := by
        rw [← List.drop_drop, hd]; rfl
      have := ih hrs hd' (by
        intro u i
        by_cases hu : u = t
        · subst hu
          simp only [List.lookup_cons, beq_self_eq_true, Option.some.injEq]
          constructor
          · rintro rfl
            exact ⟨by omega, ⟨x, hj, ht⟩, fun k z h1 h2 => by omega⟩
          · rintro ⟨h1, _, h3⟩
            refine Classical.byContradiction fun hne => ?_
            exact h3 j x (by omega) (by omega) hj ht
        · have hb : (u == t) = false := by simpa using hu
          simp only [List.lookup_cons, hb]
          rw [hseen]
          constructor
          · rintro ⟨h1, h2, h3⟩
            refine ⟨by omega, h2, fun k z h4 h5 h6 => ?_⟩
            by_cases hk : k = j
            · subst hk; rw [hj] at h6; cases h6; rw [ht]; intro e; cases e; exact hu rfl
            · exact h3 k z h4 (by omega) h6
          · rintro ⟨h1, ⟨y, h2, h2'⟩, h3⟩
            have : i ≠ j := by
              rintro rfl; rw [hj] at h2; cases h2; rw [ht] at h2'; cases h2'; exact hu rfl
            exact ⟨by omega, ⟨y, h2, h2'⟩, fun k z h4 h5 => h3 k z h4 (by omega)⟩) e
      rw [Result.errors_append, List.mem_append, this]
      constructor
      · rintro (he | ⟨a, b, x', y, h1, h2, h3⟩)
        · unfold dupError at he
          split at he
          · rename_i i hi
            simp [addErr] at he
            obtain ⟨h1, ⟨z, h2, h3⟩, h4⟩ := (hseen t i).1 hi
            exact ⟨i, j, z, x, h1, Nat.le_refl _, h2, hj, by rw [h3, ht], by rw [ht]; exact h4, he⟩
          · simp at he
        · exact ⟨a, b, x', y, h1, by omega, h3⟩
      · rintro ⟨a, b, x', y, h1, h2, h3, h4, h5, h6, h7⟩
        by_cases hb : b = j
        · left
          subst hb
          rw [hj] at h4; cases h4
          rw [ht] at h5 h6
          have := (hseen t a).2 ⟨h1, ⟨x', h3, h5⟩, h6⟩
          simp [dupError, this, addErr, h7]
        · exact .inr ⟨a, b, x', y, h1, by omega, h3, h4, h5, h6, h7⟩

omit S B in
theorem checkUnique_exact {xs} (hu : s.uniqueItems = true) (hr : checkUnique env s xs c = .ok r) (e) :
    e ∈ r.errors ↔ ∃ (a b : Nat) (x y : Json), a < b ∧ xs[a]? = some x ∧ xs[b]? = some y ∧ env.marshal x = env.marshal y ∧
      (∀ (k : Nat) z, a < k → k < b → xs[k]? = some z → env.marshal z ≠ env.marshal y) ∧
      e = ⟨.unique a b, c, .arr xs⟩ := by
  unfold checkUnique at hr
  rw [if_pos hu] at hr
  rw [uniqueLoop_exact hr (by simp) (by simp)]
  simp

omit S B in
theorem containsLoop_best_ran {run : Nat → Json → Exec Result} : ∀ {l : List Json} {k best o},
    containsLoop run k l best = .ok o → ∀ r, o.2 = some r → best = some r ∨
      ∃ (j : Nat) (x : Json), l[j]? = some x ∧ run (k + j) x = .ok r := by
  intro l
  induction l with
  | nil => intro k best o h r hr; simp [containsLoop] at h; subst h; exact .inl hr
  | cons i is ih =>
    intro k best o h r hr
    simp only [containsLoop, Exec.bind_ok] at h
    obtain ⟨r', hr', h⟩ := h
    split at h
    · simp at h; subst h; exact .inl hr
    · rcases ih h r hr with h | ⟨j, x, h1, h2⟩
      · split at h
        · cases h; exact .inr ⟨0, i, by simp, hr'⟩
        · exact .inl h
      · exact .inr ⟨j + 1, x, by simpa using h1, by rwa [show k + (j + 1) = k + 1 + j by omega]⟩

omit B in
theorem checkContains_cases {xs i} (hi : s.contains = some i) (hr : checkContains rec p s xs c = .ok r) :
    ((∃ x ∈ xs, H i x) ∧ r = {}) ∨
    ((∀ x ∈ xs, F i x) ∧ ∃ best, containsLoop (fun k x => rec (k :: 12 :: p) i x (toString k :: c)) 0 xs none
        = .ok (false, best) ∧ r = addErr .contains c (.arr xs) ++ best.getD {}) := by
  unfold checkContains at hr
  rw [hi] at hr
  simp only [Exec.bind_ok] at hr
  obtain ⟨⟨b, best⟩, h1, h2⟩ := hr
  have H := containsLoop_valid (Q := fun x => H i x) (fun k x r hr => S.agreesH _ _ _ _ _ hr) _ _ _ _ h1
  have F := containsLoop_valid (Q := fun x => ¬ F i x) (fun k x r hr => S.agreesF _ _ _ _ _ hr) _ _ _ _ h1
  cases b with
  | true =>
    simp at h2
    exact .inl ⟨by simpa using H, h2.symm⟩
  | false =>
    right
    refine ⟨fun x hx => Classical.not_not.1 fun hf => ?_, best, h1, ?_⟩
    · have := F.2 ⟨x, hx, hf⟩
      cases this
    · cases best <;> simp at h2 <;> rw [← h2] <;> simp [Result.append_def]

theorem validateArray_src {xs} (hp : Plain env s (.arr xs)) (hr : validateArray env rec p s xs c = .ok r) :
    AllSrc env H F h s (.arr xs) c r := by
  simp only [validateArray, Exec.bind_ok, Exec.pure_ok] at hr
  obtain ⟨r1, h1, r3, h3, r4, h4, rfl⟩ := hr
  refine .append (.append (.append (.append (checkItems_src B hp h1)
    (sizeCheck_src (fun m h1 h2 => .minItems xs m rfl h1 h2) (fun m h1 h2 => .maxItems xs m rfl h1 h2))) ?_) ?_) .tick
  · cases hu : s.uniqueItems with
    | false => simp [checkUnique, hu] at h3; subst h3; exact .empty
    | true =>
      intro e he
      obtain ⟨a, b, x, y, q1, q2, q3, q4, q5, rfl⟩ := (checkUnique_exact hu h3 e).1 he
      exact .inl ⟨rfl, .unique xs a b x y rfl hu q1 q2 q3 q4 q5⟩
  · cases hi : s.contains with
    | none => simp [checkContains, hi] at h4; subst h4; exact .empty
    | some i =>
      rcases checkContains_cases S hi h4 with ⟨_, rfl⟩ | ⟨hf, best, hb, rfl⟩
      · exact .empty
      · refine .append (.addErr (.contains xs i rfl hi hf)) ?_
        cases best with
        | none => exact .empty
        | some b =>
          rcases containsLoop_best_ran hb b rfl with h | ⟨j, x, hx, hj⟩
          · cases h
          · rw [Nat.zero_add] at hj
            exact .sub (o := some (toString j)) (.contains xs i j x hp rfl hi hx hf) (B _ _ _ _ _ hj)

omit S B in
theorem checkRequired_src {kvs} : ∀ {qs}, (∀ q ∈ qs, q ∈ s.required) → AllSrc env H F h s (.obj kvs) c (checkRequired kvs c qs) := by
  intro qs
  induction qs with
  | nil => intro _; exact .empty
  | cons q qs ih =>
    intro hs
    unfold checkRequired
    refine .append ?_ (ih fun x hx => hs x (by simp [hx]))
    split
    · exact .tick
    · rename_i hn
      rw [existsMapKey_iff] at hn
      exact .addErr (.required kvs q rfl (hs q (by simp)) hn)

omit S B in
/-- What the loop over `patternProperties` did. -/
theorem patternLoop_ran {key value} : ∀ {l : List (String × Id)} {k o}, patternLoop env rec p key value c k l = .ok o →
    (o.1 = true ↔ ∃ q ∈ l, env.reMatch q.1 key = true) ∧
    (∀ e ∈ o.2.errors, ∃ q ∈ l, env.reMatch q.1 key = true ∧ ∃ p r, rec p q.2 value (key :: c) = .ok r ∧ e ∈ r.errors) ∧
    (∀ q ∈ l, env.reMatch q.1 key = true → Incl rec q.2 value (key :: c) o.2) := by
  intro l
  induction l with
  | nil => intro k o h; simp [patternLoop] at h; subst h; simp
  | cons q qs ih =>
    obtain ⟨pat, i⟩ := q
    intro k o h
    simp only [patternLoop, Exec.bind_ok, Exec.pure_ok] at h
    obtain ⟨a, ha, rs, hrs, rfl⟩ := h
    obtain ⟨i1, i2, i3⟩ := ih hrs
    unfold patternOne at ha
    by_cases hm : env.reMatch pat key = true
    · rw [if_pos hm] at ha
      simp only [Exec.bind_ok, Exec.pure_ok] at ha
      obtain ⟨r', hr', rfl⟩ := ha
      refine ⟨by simp [hm], ?_, ?_⟩
      · intro e he
        simp only [Result.errors_append, List.mem_append] at he
        rcases he with he | he
        · exact ⟨(pat, i), by simp, hm, _, _, hr', he⟩
        · obtain ⟨q, h1, h2⟩ := i2 e he
          exact ⟨q, by simp [h1], h2⟩
      · intro q hq hqm
        rcases List.mem_cons.1 hq with rfl | hq
        · exact ⟨_, _, hr', fun e he => by simp [he]⟩
        · exact (i3 q hq hqm).mono fun e he => by simp [he]
    · rw [if_neg hm] at ha
      simp at ha; subst ha
      have e0 : ∀ r : Result, (({} : Result) ++ r).errors = r.errors := by simp
      refine ⟨by simp [i1, hm], ?_, ?_⟩
      · intro e he
        rw [e0] at he
        obtain ⟨q, h1, h2⟩ := i2 e he
        exact ⟨q, by simp [h1], h2⟩
      · intro q hq hqm
        rcases List.mem_cons.1 hq with rfl | hq
        · exact absurd hqm hm
        · exact (i3 q hq hqm).mono fun e he => by rw [e0]; exact he

omit S B in
/-- What the check of one member did. -/
theorem checkProperty_ran {key value} (hr : checkProperty env σ rec p s key value c = .ok r) :
    ∃ r1 : Result,
      (∀ e ∈ r1.errors, ∃ q ∈ s.patternProperties, env.reMatch q.1 key = true ∧
        ∃ p r, rec p q.2 value (key :: c) = .ok r ∧ e ∈ r.errors) ∧
      (∀ q ∈ s.patternProperties, env.reMatch q.1 key = true → Incl rec q.2 value (key :: c) r1) ∧
      ((¬ Extraneous env s key ∧ r = r1) ∨
       (Extraneous env s key ∧
        match s.additionalProperties with
        | .absent => r = r1
        | .bool true => r = r1
        | .bool false => r = r1 ++ addErr (.additionalPropertyNotAllowed key) c value
        | .schema i => ∃ r2, rec (16 :: p) i value (key :: c) = .ok r2 ∧ r = r1 ++ r2)) := by
  simp only [checkProperty, validatePatternProperty, Exec.bind_ok] at hr
  obtain ⟨⟨pm, r1⟩, ⟨⟨b, r0⟩, h0, h1⟩, h2⟩ := hr
  obtain ⟨hA, hB, hC⟩ := patternLoop_ran h0
  simp only at hA hB hC
  have e1 : pm = b ∧ r1.errors = r0.errors := by
    cases b <;> simp at h1 <;> obtain ⟨rfl, rfl⟩ := h1 <;> simp [tick]
  obtain ⟨rfl, e1⟩ := e1
  have hX : Extraneous env s key ↔ (s.propertiesChildren.any fun q => key == q.1) = false ∧ pm = false := by
    unfold Extraneous
    refine and_congr ?_ ?_
    · rw [← Bool.not_eq_true, List.any_eq_true]
      constructor
      · rintro hh ⟨q, hq, e⟩
        have : key = q.1 := by simpa using e
        subst this; exact hh _ hq
      · intro hh i hm; exact hh ⟨_, hm, by simp⟩
    · rw [← Bool.not_eq_true, hA]
      constructor
      · rintro hh ⟨q, hq, e⟩
        have := hh q.1 q.2 ((σ.perm _ _).mem_iff.1 hq)
        simp [this] at e
      · intro hh pat i hm
        rw [← Bool.not_eq_true]
        intro e; exact hh ⟨(pat, i), (σ.perm _ _).mem_iff.2 hm, e⟩
  refine ⟨r1, ?_, ?_, ?_⟩
  · rw [e1]
    intro e he
    obtain ⟨q, h1, h2⟩ := hB e he
    exact ⟨q, (σ.perm _ _).mem_iff.1 h1, h2⟩
  · intro q hq hm
    exact (hC q ((σ.perm _ _).mem_iff.2 hq) hm).mono fun e he => by rw [e1]; exact he
  · simp only at h2
    by_cases hc : (s.propertiesChildren.any fun q => key == q.1) = false ∧ pm = false
    · right
      refine ⟨hX.2 hc, ?_⟩
      simp only [hc.1, hc.2, Bool.not_false, Bool.and_true, if_true] at h2
      cases ha : s.additionalProperties with
      | absent => simp [ha] at h2; exact h2.symm
      | bool b => cases b <;> simp [ha] at h2 <;> exact h2.symm
      | schema i =>
        simp only [ha, Exec.bind_ok, Exec.pure_ok] at h2
        obtain ⟨r', hr', rfl⟩ := h2
        exact ⟨r', hr', rfl⟩
    · left
      have : ((!(s.propertiesChildren.any fun q => key == q.1)) && !pm) = false := by
        revert hc; cases (s.propertiesChildren.any fun q => key == q.1) <;> cases pm <;> simp
      simp only [this, Bool.false_eq_true, if_false, Exec.pure_ok] at h2
      exact ⟨fun x => hc (hX.1 x), h2.symm⟩

omit S in
theorem checkProperty_src {key value kvs} (hp : Plain env s (.obj kvs)) (hm : (key, value) ∈ kvs)
    (hr : checkProperty env σ rec p s key value c = .ok r) : AllSrc env H F h s (.obj kvs) c r := by
  obtain ⟨r1, h1, _, h2⟩ := checkProperty_ran hr
  have L1 : AllSrc env H F h s (.obj kvs) c r1 := by
    intro e he
    obtain ⟨q, hq, hqm, p', a, ha, hea⟩ := h1 e he
    exact AllSrc.must (o := some key) (.patternProperty kvs q.2 q.1 key value hp rfl hq hm hqm) (B _ _ _ _ _ ha) e hea
  rcases h2 with ⟨_, rfl⟩ | ⟨hx, h2⟩
  · exact L1
  · cases ha : s.additionalProperties with
    | absent => simp only [ha] at h2; subst h2; exact L1
    | bool b =>
      cases b with
      | true => simp only [ha] at h2; subst h2; exact L1
      | false =>
        simp only [ha] at h2; subst h2
        exact .append L1 (.addErr (.additionalProperty kvs key value rfl hm hx ha))
    | schema i =>
      simp only [ha] at h2
      obtain ⟨r2, h3, rfl⟩ := h2
      exact .append L1 (.must (o := some key) (.additionalProperty kvs i key value hp rfl hm hx ha) (B _ _ _ _ _ h3))

theorem checkPropertyNames_src {kvs} (hp : Plain env s (.obj kvs))
    (hr : checkPropertyNames σ rec p s kvs c = .ok r) : AllSrc env H F h s (.obj kvs) c r := by
  unfold checkPropertyNames at hr
  split at hr
  · simp at hr; subst hr; exact .empty
  · rename_i i hi
    refine forEach_src' ?_ hr
    intro k kv r hkv hr
    have hk : kv.1 ∈ names kvs := List.mem_map.2 ⟨kv, (σ.perm _ _).mem_iff.1 hkv, rfl⟩
    simp only [Exec.bind_ok] at hr
    obtain ⟨a, ha, hr⟩ := hr
    split at hr <;> simp at hr <;> subst hr
    · rename_i hv
      exact .append (.addErr (.propertyName kvs kv.1 i rfl hk hi (S.fails _ _ _ _ _ ha (by simpa using hv))))
        (.must (o := none) (.propertyName kvs i kv.1 hp rfl hk hi) (B _ _ _ _ _ ha))
    · exact .empty

theorem validateObject_src {kvs} (hp : Plain env s (.obj kvs)) (hr : validateObject env σ rec p s kvs c = .ok r) :
    AllSrc env H F h s (.obj kvs) c r := by
  simp only [validateObject, Exec.bind_ok, Exec.pure_ok] at hr
  obtain ⟨r3, h3, r4, h4, rfl⟩ := hr
  refine .append (.append (.append (.append
    (sizeCheck_src (fun m h1 h2 => .minProperties kvs m rfl h1 h2) (fun m h1 h2 => .maxProperties kvs m rfl h1 h2))
    (checkRequired_src fun _ h => h)) (forEach_src' ?_ h3)) (checkPropertyNames_src S B hp h4)) .tick
  intro k kv r hkv hr
  exact checkProperty_src B hp ((σ.perm _ _).mem_iff.1 hkv) hr

omit S in
theorem checkProperties_src {kvs} (hp : Plain env s (.obj kvs)) (hr : checkProperties rec p s kvs c = .ok r) :
    AllSrc env H F h s (.obj kvs) c r := by
  refine forEach_src' ?_ hr
  intro k q r hq hr
  split at hr
  · rename_i x hx
    exact .must (o := some q.1) (.property kvs q.2 q.1 x hp rfl hq hx) (B _ _ _ _ _ hr)
  · simp at hr; subst hr; exact .empty

omit S B in
theorem validateString_src {t} : AllSrc env H F h s (.str t) c (validateString env s (.str t) c) := by
  unfold validateString
  refine .append (.append (sizeCheck_src (fun m h1 h2 => .minLength t m rfl h1 h2)
    (fun m h1 h2 => .maxLength t m rfl h1 h2)) ?_) .tick
  unfold checkPattern
  split
  · rename_i q hq
    split
    · rename_i hm
      exact .addErr (.pattern t q rfl hq (by simpa using hm))
    · exact .empty
  · exact .empty

omit S B in
theorem rat_val {n : NumLit} {q} (hq : env.rat n = some q) : q = n.val := by
  unfold Env.rat at hq
  split at hq <;> simp at hq; exact hq.symm

omit S B in
theorem boundCheck_exact {n : NumLit} {bound bad kind v r} (hr : boundCheck (env.rat n) bound bad kind c v = .ok r) :
    (∀ e ∈ r.errors, ∃ b, bound = some b ∧ bad n.val b = true ∧ e = ⟨kind b, c, v⟩) ∧
    (∀ b, bound = some b → bad n.val b = true → ⟨kind b, c, v⟩ ∈ r.errors) := by
  unfold boundCheck at hr
  cases bound with
  | none => simp at hr; subst hr; simp
  | some b =>
    cases hx : env.rat n with
    | none => simp [hx] at hr
    | some q =>
      rw [hx] at hr
      rw [← rat_val hx]
      cases hb : bad q b <;> simp [hb] at hr <;> subst hr <;> simp [hb, addErr]

omit S B in
theorem checkMultipleOf_exact {n : NumLit} {m v r} (hr : checkMultipleOf (env.rat n) m c v = .ok r) :
    (∀ e ∈ r.errors, ∃ b, m = some b ∧ (¬ ∃ z : Int, n.val = z * b) ∧ e = ⟨.multipleOf b, c, v⟩) ∧
    (∀ b, m = some b → (¬ ∃ z : Int, n.val = z * b) → ⟨.multipleOf b, c, v⟩ ∈ r.errors) := by
  unfold checkMultipleOf at hr
  cases m with
  | none => simp at hr; subst hr; simp
  | some b =>
    cases hx : env.rat n with
    | none => simp [hx] at hr
    | some q =>
      rw [hx] at hr
      rw [← rat_val hx]
      simp only at hr
      split at hr
      · simp at hr
      · rename_i h0
        have h0 : ¬ b = 0 := by simpa using h0
        have e : (q / b).den = 1 ↔ ∃ z : Int, q = z * b := by
          rw [rat_den_one_iff]
          constructor
          · rintro ⟨z, hz⟩; exact ⟨z, by rw [← hz, Rat.div_mul_cancel h0]⟩
          · rintro ⟨z, hz⟩; exact ⟨z, by rw [hz, Rat.mul_div_cancel h0]⟩
        by_cases hd : (q / b).den = 1
        · simp [hd] at hr; subst hr
          refine ⟨by simp, ?_⟩
          intro b' hb' hn
          cases hb'
          exact absurd (e.1 hd) hn
        · simp [hd] at hr; subst hr
          rw [e] at hd
          refine ⟨?_, ?_⟩
          · intro e' he'
            simp [addErr] at he'
            exact ⟨b, rfl, hd, he'⟩
          · intro b' hb' _
            cases hb'
            exact mem_addErr

omit S B in
theorem validateNumber_src {n} (hr : validateNumber env s (.num n) c = .ok r) : AllSrc env H F h s (.num n) c r := by
  simp only [validateNumber, Exec.bind_ok, Exec.pure_ok] at hr
  obtain ⟨r1, h1, r2, h2, r3, h3, r4, h4, r5, h5, rfl⟩ := hr
  refine .append (.append (.append (.append (.append ?_ ?_) ?_) ?_) ?_) .tick
  · intro e he
    obtain ⟨b, q1, q2, rfl⟩ := (checkMultipleOf_exact h1).1 e he
    exact .inl ⟨rfl, .multipleOf n b rfl q1 q2⟩
  · intro e he
    obtain ⟨b, q1, q2, rfl⟩ := (boundCheck_exact h2).1 e he
    exact .inl ⟨rfl, .maximum n b rfl q1 (by simpa using q2)⟩
  · intro e he
    obtain ⟨b, q1, q2, rfl⟩ := (boundCheck_exact h3).1 e he
    exact .inl ⟨rfl, .exclusiveMaximum n b rfl q1 (by simpa using q2)⟩
  · intro e he
    obtain ⟨b, q1, q2, rfl⟩ := (boundCheck_exact h4).1 e he
    exact .inl ⟨rfl, .minimum n b rfl q1 (by simpa using q2)⟩
  · intro e he
    obtain ⟨b, q1, q2, rfl⟩ := (boundCheck_exact h5).1 e he
    exact .inl ⟨rfl, .exclusiveMinimum n b rfl q1 (by simpa using q2)⟩

theorem validateNode_src (hp : Plain env s v) (hr : validateNode env σ rec p s v c = .ok r) : AllSrc env H F h s v c r := by
  cases v with
  | null =>
    simp only [validateNode, Exec.bind_ok, Exec.pure_ok] at hr
    obtain ⟨r1, h1, r2, h2, rfl⟩ := hr
    exact .append (validateSchema_src S B hp h1) (validateCommon_src h2)
  | arr xs =>
    simp only [validateNode, Exec.bind_ok, Exec.pure_ok] at hr
    obtain ⟨r1, h1, r2, h2, r3, h3, rfl⟩ := hr
    exact .append (.append (validateSchema_src S B hp h1) (validateArray_src S B hp h2)) (validateCommon_src h3)
  | obj kvs =>
    simp only [validateNode, Exec.bind_ok, Exec.pure_ok] at hr
    obtain ⟨r1, h1, r2, h2, r3, h3, r4, h4, rfl⟩ := hr
    exact .append (.append (.append (validateSchema_src S B hp h1) (validateObject_src S B hp h2)) (validateCommon_src h3))
      (checkProperties_src B hp h4)
  | bool b =>
    simp only [validateNode, Exec.bind_ok, Exec.pure_ok] at hr
    obtain ⟨r1, h1, r2, h2, r3, h3, rfl⟩ := hr
    simp only [validateNumber, Exec.pure_ok] at h2; subst h2
    exact .append (.append (.append (validateSchema_src S B hp h1) .empty) (validateCommon_src h3)) .empty
  | num n =>
    simp only [validateNode, Exec.bind_ok, Exec.pure_ok] at hr
    obtain ⟨r1, h1, r2, h2, r3, h3, rfl⟩ := hr
    exact .append (.append (.append (validateSchema_src S B hp h1) (validateNumber_src h2)) (validateCommon_src h3)) .empty
  | str t =>
    simp only [validateNode, Exec.bind_ok, Exec.pure_ok] at hr
    obtain ⟨r1, h1, r2, h2, r3, h3, rfl⟩ := hr
    simp only [validateNumber, Exec.pure_ok] at h2; subst h2
    exact .append (.append (.append (validateSchema_src S B hp h1) .empty) (validateCommon_src h3)) validateString_src

end

theorem typesString_eq {ts : List String} (hn : ts ≠ []) : typesString ts = typeNames ts := by
  unfold typesString typeNames
  rcases ts with _ | ⟨a, _ | ⟨b, l⟩⟩
  · exact absurd rfl hn
  · rfl
  · rfl

theorem types_ne {env ts v} (h : ¬ TypeRule env ts v) : ts ≠ [] := fun e => h (.inl e)

theorem not_integer {env : Env} {n : NumLit} (hi : env.checkInteger n = false) : ¬ HasType env (.num n) "integer" := by
  intro hh
  generalize ht : "integer" = t at hh
  cases hh with
  | num => simp at ht
  | int n z h1 h2 => rw [checkInteger_iff.2 ⟨h1, z, h2⟩] at hi; cases hi

theorem typeError_some {env ts v t} : typeError env ts v = some t ↔ ¬ TypeRule env ts v ∧ TypeName env v t := by
  have hn : ∀ t, typeError env ts v = some t → ¬ TypeRule env ts v := fun t h1 h2 => by
    rw [typeError_none.2 h2] at h1; cases h1
  have key : ∀ t, typeError env ts v = some t → TypeName env v t := by
    intro t ht
    unfold typeError at ht
    cases v with
    | num n =>
      simp only at ht
      split at ht
      · cases hi : env.checkInteger n with
        | true =>
          rw [hi] at ht; simp at ht; subst ht
          obtain ⟨h1, z, h2⟩ := checkInteger_iff.1 hi
          exact ⟨.int n z h1 h2, by simp [TYPE_INTEGER]⟩
        | false =>
          rw [hi] at ht; simp at ht; subst ht
          exact ⟨.num n, fun _ => not_integer hi⟩
      · cases ht
    | _ =>
      simp only at ht
      split at ht
      · cases ht
        refine ⟨by constructor, ?_⟩
        intro e; simp [TYPE_NULL, TYPE_BOOLEAN, TYPE_STRING, TYPE_ARRAY, TYPE_OBJECT] at e
      · cases ht
  have uniq : ∀ t t', TypeName env v t → TypeName env v t' → t = t' := by
    rintro t t' ⟨h1, h2⟩ ⟨h3, h4⟩
    cases h1 <;> cases h3 <;> first | rfl | skip
    · exact absurd (HasType.int _ _ ‹_› ‹_›) (h2 rfl)
    · exact absurd (HasType.int _ _ ‹_› ‹_›) (h4 rfl)
  constructor
  · intro ht; exact ⟨hn t ht, key t ht⟩
  · rintro ⟨h1, h2⟩
    cases hx : typeError env ts v with
    | none => exact absurd (typeError_none.1 hx) h1
    | some t' => rw [uniq _ _ (key t' hx) h2]

/-- Soundness: every error is explained. -/
theorem validateRecursive_blame {env σ H F h} (S : ∀ n, Settles H F (validateRecursive env σ h n)) : ∀ n p i v c r, validateRecursive env σ h n p i v c = .ok r →
    ∀ e ∈ r.errors, Blame env H F h i v c e := by
  intro n
  induction n with
  | zero => intro p i v c r hr; simp [validateRecursive] at hr
  | succ n ih =>
    intro p i v c r hr e he
    simp only [validateRecursive, validateStep] at hr
    split at hr
    · simp at hr
    · rename_i s hs
      have node : ∀ {k x}, e = ⟨k, c, x⟩ → Fault env H F s v k x → Blame env H F h i v c e := by
        rintro k x rfl hf
        exact ⟨[], i, v, s, rfl, .here _ _, hs, hf⟩
      have step : ∀ {o j w}, May env H F s v o j w → Blame env H F h j w (o.toList ++ c) e → Blame env H F h i v c e := by
        rintro o j w hm ⟨path, j', w', s', h1, h2, h3, h4⟩
        refine ⟨o.toList ++ path, j', w', s', ?_, .step i s v o j w path j' w' hs hm h2, h3, h4⟩
        rw [h1]
        cases o <;> simp
      split at hr
      · rename_i b hb
        split at hr <;> simp at hr <;> subst hr
        · rename_i hb'
          simp [addErr] at he
          have : b = false := by simpa using hb'
          subst this
          exact node he (.false_ hb)
        · simp at he
      · rename_i hpass
        split at hr
        · rename_i j hj
          exact step (o := none) (.must _ _ _ (.ref j hpass hj)) (ih _ _ _ _ _ hr e he)
        · rename_i href
          split at hr
          · rename_i given hg
            obtain ⟨h1, h2⟩ := typeError_some.1 hg
            simp at hr; subst hr
            simp [addErr] at he
            rw [typesString_eq (types_ne h1)] at he
            exact node he (.type given hpass href h1 h2)
          · rename_i ht
            simp only [Exec.bind_ok, Exec.pure_ok] at hr
            obtain ⟨a, ha, rfl⟩ := hr
            have hp : Plain env s v := ⟨hpass, href, typeError_none.1 ht⟩
            have he : e ∈ a.errors := by simpa [tick] using he
            rcases validateNode_src (S n) ih hp ha e he with ⟨h1, h2⟩ | ⟨o, j, w, h1, h2⟩
            · exact node (by rw [← h1]) (.keyword _ _ hp h2)
            · exact step h1 h2

/-! ### Completeness -/

section
variable {env : Env} {H F : Id → Json → Prop} {h : Heap} {rec : Rec} {σ : Sched} {p : Path} {s : Sub} {v : Json} {c : Ctx} {r : Result}
variable (S : Settles H F rec)
include S

theorem checkAnyOf_has (hne : s.anyOf ≠ []) (hf : ∀ i ∈ s.anyOf, F i v)
    (hr : checkAnyOf rec p s v c = .ok r) : ⟨.numberAnyOf, c, v⟩ ∈ r.errors := by
  have hv := checkAnyOf_valid S.agreesF hr
  unfold checkAnyOf at hr
  split at hr
  · simp only [Exec.bind_ok] at hr
    obtain ⟨⟨b, best⟩, h1, h2⟩ := hr
    cases b with
    | true =>
      simp at h2; subst h2
      rcases hv.1 rfl with h | ⟨i, hi, hn⟩
      · exact absurd h hne
      · exact absurd (hf i hi) hn
    | false => cases best <;> simp at h2 <;> subst h2 <;> simp [addErr]
  · rename_i hl; exact absurd (by simpa using hl) hne

theorem checkOneOf_has (hv : ¬ OneOfRule H s.oneOf v)
    (hr : checkOneOf rec p s v c = .ok r) : ⟨.numberOneOf, c, v⟩ ∈ r.errors := by
  rw [← checkOneOf_valid S.agreesH hr] at hv
  unfold checkOneOf at hr
  split at hr
  · simp only [Exec.bind_ok] at hr
    obtain ⟨⟨n, best⟩, h1, h2⟩ := hr
    simp only at h2
    split at h2
    · split at h2
      · cases best <;> simp at h2; subst h2; simp [addErr]
      · simp at h2; subst h2; simp [addErr]
    · simp at h2; subst h2; simp at hv
  · simp at hr; subst hr; simp at hv

theorem checkAllOf_has {i} (hi : i ∈ s.allOf) (hf : F i v)
    (hr : checkAllOf rec p s v c = .ok r) : ⟨.numberAllOf, c, v⟩ ∈ r.errors := by
  unfold checkAllOf at hr
  split at hr
  · simp only [Exec.bind_ok] at hr
    obtain ⟨⟨n, rs⟩, h1, h2⟩ := hr
    have := allOfLoop_valid (Q := fun i => ¬ F i v) (fun k i r hr => S.agreesF _ _ _ _ _ hr) _ _ _ h1
    simp only at h2
    split at h2
    · simp at h2; subst h2; simp [addErr]
    · rename_i hn
      have e : n = s.allOf.length := by simpa using hn
      exact absurd hf (this.1.1 (this.2.1.2 e) i hi)
  · rename_i hl
    have : s.allOf = [] := by simpa using hl
    rw [this] at hi; cases hi

theorem checkNot_has {i} (hi : s.not = some i) (hh : H i v)
    (hr : checkNot rec p s v c = .ok r) : ⟨.numberNot, c, v⟩ ∈ r.errors := by
  unfold checkNot at hr
  rw [hi] at hr
  simp only [Exec.bind_ok] at hr
  obtain ⟨a, ha, hr⟩ := hr
  rw [if_pos ((S.agreesH _ _ _ _ _ ha).2 hh)] at hr
  simp at hr; subst hr; exact mem_addErr

omit S in
theorem checkAllOf_incl {i} (hi : i ∈ s.allOf) (hr : checkAllOf rec p s v c = .ok r) : Incl rec i v c r := by
  unfold checkAllOf at hr
  split at hr
  · simp only [Exec.bind_ok] at hr
    obtain ⟨⟨n, rs⟩, h1, h2⟩ := hr
    obtain ⟨k, a, ha, hsub⟩ := (allOfLoop_ran h1).2 i hi
    refine ⟨_, a, ha, fun e he => ?_⟩
    simp only at h2
    split at h2 <;> simp at h2 <;> subst h2
    · simp [hsub e he]
    · exact hsub e he
  · rename_i hl
    have : s.allOf = [] := by simpa using hl
    rw [this] at hi; cases hi

omit S in
theorem checkDependencies_ran {kvs k} (hk : k ∈ names kvs) (hd : getKey k s.dependencies ≠ none)
    (hr : checkDependencies env σ rec p s (.obj kvs) c = .ok r) :
    ∃ p' a, checkDependency rec p' s kvs c k = .ok a ∧ ∀ e ∈ a.errors, e ∈ r.errors := by
  unfold checkDependencies at hr
  split at hr
  · simp only at hr
    obtain ⟨kv, hkv, rfl⟩ := List.mem_map.1 hk
    obtain ⟨k', a, ha, hsub⟩ := forEach_ran' hr ((σ.perm _ _).mem_iff.2 hkv)
    exact ⟨_, a, ha, hsub⟩
  · rename_i hl
    have : s.dependencies = [] := by simpa using hl
    rw [this] at hd; exact absurd rfl hd

omit S in
theorem checkDependencies_has {kvs k ks q} (hk : k ∈ names kvs) (hks : getKey k s.dependencies = some (.keys ks))
    (hq : q ∈ ks) (hn : q ∉ names kvs) (hr : checkDependencies env σ rec p s (.obj kvs) c = .ok r) :
    ⟨.missingDependency q, c, .obj kvs⟩ ∈ r.errors := by
  obtain ⟨p', a, ha, hsub⟩ := checkDependencies_ran hk (by simp [hks]) hr
  refine hsub _ ?_
  unfold checkDependency at ha
  rw [hks] at ha
  obtain ⟨k', b, hb, hsub⟩ := forEach_ran' ha hq
  refine hsub _ ?_
  rw [if_neg (by rw [existsMapKey_iff]; exact hn)] at hb
  simp at hb; subst hb; exact mem_addErr

omit S in
theorem checkDependencies_incl {kvs k i} (hk : k ∈ names kvs) (hi : getKey k s.dependencies = some (.schema i))
    (hr : checkDependencies env σ rec p s (.obj kvs) c = .ok r) : Incl rec i (.obj kvs) c r := by
  obtain ⟨p', a, ha, hsub⟩ := checkDependencies_ran hk (by simp [hi]) hr
  unfold checkDependency at ha
  rw [hi] at ha
  exact ⟨_, a, ha, hsub⟩

/-- What a branch of the conditional did. -/
theorem checkBranch_ran {o on kind t} (ht : o = some t) (hon : on = true) (hr : checkBranch rec p o on kind v c = .ok r) :
    Incl rec t v c r ∧ (F t v → ⟨kind, c, v⟩ ∈ r.errors) := by
  subst ht hon
  simp only [checkBranch, if_true, Exec.bind_ok] at hr
  obtain ⟨x, hx, hr⟩ := hr
  split at hr <;> simp at hr <;> subst hr
  · exact ⟨⟨_, x, hx, fun e he => by simp [he]⟩, fun _ => by simp [addErr]⟩
  · rename_i hv
    have hv : x.valid = true := by simpa using hv
    refine ⟨⟨_, x, hx, fun e he => ?_⟩, fun hf => (S.disj _ _ (S.holds _ _ _ _ _ hx hv) hf).elim⟩
    rw [Result.valid_iff] at hv; rw [hv] at he; cases he

theorem checkIf_then {i t} (hi : s.if_ = some i) (ht : s.then_ = some t) (hh : H i v)
    (hr : checkIf rec p s v c = .ok r) : Incl rec t v c r ∧ (F t v → ⟨.conditionThen, c, v⟩ ∈ r.errors) := by
  unfold checkIf at hr
  rw [hi] at hr
  simp only [Exec.bind_ok, Exec.pure_ok] at hr
  obtain ⟨q, hq, a, ha, b, hb, rfl⟩ := hr
  obtain ⟨h1, h2⟩ := checkBranch_ran S ht ((S.agreesH _ _ _ _ _ hq).2 hh) ha
  exact ⟨h1.mono fun e he => by simp [he], fun hf => by simp [h2 hf]⟩

theorem checkIf_else {i t} (hi : s.if_ = some i) (ht : s.else_ = some t) (hh : F i v)
    (hr : checkIf rec p s v c = .ok r) : Incl rec t v c r ∧ (F t v → ⟨.conditionElse, c, v⟩ ∈ r.errors) := by
  unfold checkIf at hr
  rw [hi] at hr
  simp only [Exec.bind_ok, Exec.pure_ok] at hr
  obtain ⟨q, hq, a, ha, b, hb, rfl⟩ := hr
  have hv : q.valid = false := by
    rw [← Bool.not_eq_true]; intro hv; exact (S.agreesF _ _ _ _ _ hq).1 hv hh
  obtain ⟨h1, h2⟩ := checkBranch_ran S ht (by rw [hv]; rfl) hb
  exact ⟨h1.mono fun e he => by simp [he], fun hf => by simp [h2 hf]⟩

omit S in
theorem checkConst_has {k} (hk : s.const = some k) (hn : env.marshal v ≠ some k)
    (hr : checkConst env s v c = .ok r) : ⟨.const k, c, v⟩ ∈ r.errors := by
  unfold checkConst at hr
  rw [hk] at hr
  simp only at hr
  split at hr
  · simp at hr
  · rename_i t ht
    rw [ht] at hn
    have : t ≠ k := fun e => hn (by rw [e])
    split at hr
    · simp at hr; subst hr; exact mem_addErr
    · rename_i hx
      exact absurd (by simpa using hx) this

omit S in
theorem checkEnum_has (hne : s.enum ≠ []) (hn : ∀ k ∈ s.enum, env.marshal v ≠ some k)
    (hr : checkEnum env s v c = .ok r) : ⟨.enum (String.intercalate ", " s.enum), c, v⟩ ∈ r.errors := by
  unfold checkEnum at hr
  split at hr
  · split at hr
    · simp at hr
    · rename_i t ht
      split at hr
      · simp at hr; subst hr; exact mem_addErr
      · rename_i hx
        have : t ∈ s.enum := by simpa using hx
        exact absurd ht (hn t this)
  · rename_i hl
    exact absurd (by simpa using hl) hne

omit S in
theorem checkFormat_has (hf : s.format ≠ "") (hn : env.isFormat s.format v = false)
    (hr : checkFormat env s v c = .ok r) : ⟨.format s.format, c, v⟩ ∈ r.errors := by
  unfold checkFormat at hr
  rw [if_pos (by simpa using hf), if_pos (by simp [hn])] at hr
  simp at hr; subst hr; exact mem_addErr

omit S in
theorem sizeCheck_min {mn mx : Option Int} {n : Nat} {f g : Int → ErrKind} {m : Int} (hm : mn = some m) (hlt : (n : Int) < m) :
    ⟨f m, c, v⟩ ∈ (sizeCheck mn mx n f g c v).errors := by
  subst hm
  unfold sizeCheck
  rw [Result.errors_append, List.mem_append]
  left
  simp only [if_pos hlt]; exact mem_addErr

omit S in
theorem sizeCheck_max {mn mx : Option Int} {n : Nat} {f g : Int → ErrKind} {m : Int} (hm : mx = some m) (hlt : m < (n : Int)) :
    ⟨g m, c, v⟩ ∈ (sizeCheck mn mx n f g c v).errors := by
  subst hm
  unfold sizeCheck
  rw [Result.errors_append, List.mem_append]
  right
  have : (n : Int) > m := hlt
  simp only [if_pos this]; exact mem_addErr

omit S in
theorem checkItems_single {xs : List Json} {j} {k : Nat} {x} (hs : s.itemsChildrenIsSingleSchema = true) (hj : s.itemsChildren.head? = some j)
    (hx : xs[k]? = some x) (hr : checkItems rec p s xs c = .ok r) : Incl rec j x (toString k :: c) r := by
  unfold checkItems at hr
  rw [if_pos hs] at hr
  obtain ⟨a, ha, hsub⟩ := forEach_ran hr k x hx
  rw [Nat.zero_add] at ha
  split at ha
  · rename_i i is his
    rw [his] at hj; cases hj
    exact ⟨_, a, ha, hsub⟩
  · simp at ha

omit S in
theorem checkItems_item {xs : List Json} {j} {k : Nat} {x} (hs : s.itemsChildrenIsSingleSchema = false) (hj : s.itemsChildren[k]? = some j)
    (hx : xs[k]? = some x) (hr : checkItems rec p s xs c = .ok r) : Incl rec j x (toString k :: c) r := by
  unfold checkItems at hr
  rw [if_neg (by simp [hs])] at hr
  have hl : s.itemsChildren.length > 0 := by
    rw [List.getElem?_eq_some_iff] at hj
    obtain ⟨h1, _⟩ := hj
    omega
  rw [if_pos hl] at hr
  simp only [Exec.bind_ok, Exec.pure_ok] at hr
  obtain ⟨r1, h1, r2, h2, rfl⟩ := hr
  obtain ⟨a, ha, hsub⟩ := forEach_ran h1 k (j, x) (List.getElem?_zip_eq_some.2 ⟨hj, hx⟩)
  rw [Nat.zero_add] at ha
  exact ⟨_, a, ha, fun e he => by simp [hsub e he]⟩

omit S in
theorem checkItems_extra {xs : List Json} (hs : s.itemsChildrenIsSingleSchema = false) (hne : s.itemsChildren ≠ [])
    (hlt : s.itemsChildren.length < xs.length) (hr : checkItems rec p s xs c = .ok r) :
    (s.additionalItems = .bool false → ⟨.arrayNoAdditionalItems, c, .arr xs⟩ ∈ r.errors) ∧
    (∀ (k : Nat) x j, s.additionalItems = .schema j → s.itemsChildren.length ≤ k → xs[k]? = some x →
      Incl rec j x (toString k :: c) r) := by
  unfold checkItems at hr
  rw [if_neg (by simp [hs]), if_pos (List.length_pos_iff.2 hne)] at hr
  simp only [Exec.bind_ok, Exec.pure_ok] at hr
  obtain ⟨r1, h1, r2, h2, rfl⟩ := hr
  unfold checkAdditionalItems at h2
  simp only at h2
  rw [if_pos hlt] at h2
  constructor
  · intro ha
    rw [ha] at h2
    simp at h2; subst h2
    simp [addErr]
  · intro k x j ha hk hx
    rw [ha] at h2
    simp only at h2
    obtain ⟨a, ha, hsub⟩ := forEach_ran h2 (k - s.itemsChildren.length) x (by
      rw [List.getElem?_drop, Nat.add_sub_cancel' hk]; exact hx)
    rw [Nat.add_sub_cancel' hk] at ha
    exact ⟨_, a, ha, fun e he => by simp [hsub e he]⟩

omit S in
theorem checkRequired_has {kvs q} : ∀ {qs : List String}, q ∈ qs → q ∉ names kvs →
    ⟨.required q, c, .obj kvs⟩ ∈ (checkRequired kvs c qs).errors := by
  intro qs
  induction qs with
  | nil => intro hq; cases hq
  | cons x xs ih =>
    intro hq hn
    unfold checkRequired
    rw [Result.errors_append, List.mem_append]
    rcases List.mem_cons.1 hq with rfl | hq
    · left
      rw [if_neg (by rw [existsMapKey_iff]; exact hn)]
      exact mem_addErr
    · exact .inr (ih hq hn)

theorem checkPropertyNames_ran {kvs k i} (hk : k ∈ names kvs) (hi : s.propertyNames = some i)
    (hr : checkPropertyNames σ rec p s kvs c = .ok r) :
    Incl rec i (.str k) c r ∧ (F i (.str k) → ⟨.invalidPropertyName k, c, .obj kvs⟩ ∈ r.errors) := by
  unfold checkPropertyNames at hr
  rw [hi] at hr
  obtain ⟨kv, hkv, rfl⟩ := List.mem_map.1 hk
  obtain ⟨k', a, ha, hsub⟩ := forEach_ran' hr ((σ.perm _ _).mem_iff.2 hkv)
  simp only [Exec.bind_ok] at ha
  obtain ⟨b, hb, ha⟩ := ha
  split at ha <;> simp at ha <;> subst ha
  · exact ⟨⟨_, b, hb, fun e he => hsub e (by simp [he])⟩, fun _ => hsub _ (by simp [addErr])⟩
  · rename_i hv
    have hv : b.valid = true := by simpa using hv
    refine ⟨⟨_, b, hb, fun e he => ?_⟩, fun hf => (S.disj _ _ (S.holds _ _ _ _ _ hb hv) hf).elim⟩
    rw [Result.valid_iff] at hv; rw [hv] at he; cases he

omit S in
/-- The checks a node makes. -/
theorem validateNode_parts (hr : validateNode env σ rec p s v c = .ok r) :
    (∃ a, validateSchema env σ rec p s v c = .ok a ∧ ∀ e ∈ a.errors, e ∈ r.errors) ∧
    (∃ a, validateCommon env s v c = .ok a ∧ ∀ e ∈ a.errors, e ∈ r.errors) ∧
    (∀ xs, v = .arr xs → ∃ a, validateArray env rec p s xs c = .ok a ∧ ∀ e ∈ a.errors, e ∈ r.errors) ∧
    (∀ kvs, v = .obj kvs → ∃ a, validateObject env σ rec p s kvs c = .ok a ∧ ∀ e ∈ a.errors, e ∈ r.errors) ∧
    (∀ kvs, v = .obj kvs → ∃ a, checkProperties rec p s kvs c = .ok a ∧ ∀ e ∈ a.errors, e ∈ r.errors) ∧
    (∀ n, v = .num n → ∃ a, validateNumber env s v c = .ok a ∧ ∀ e ∈ a.errors, e ∈ r.errors) ∧
    (∀ t, v = .str t → ∀ e ∈ (validateString env s v c).errors, e ∈ r.errors) := by
  cases v with
  | null =>
    simp only [validateNode, Exec.bind_ok, Exec.pure_ok] at hr
    obtain ⟨r1, h1, r2, h2, rfl⟩ := hr
    exact ⟨⟨_, h1, fun e he => by simp [he]⟩, ⟨_, h2, fun e he => by simp [he]⟩, by simp, by simp, by simp, by simp, by simp⟩
  | arr xs =>
    simp only [validateNode, Exec.bind_ok, Exec.pure_ok] at hr
    obtain ⟨r1, h1, r2, h2, r3, h3, rfl⟩ := hr
    refine ⟨⟨_, h1, fun e he => by simp [he]⟩, ⟨_, h3, fun e he => by simp [he]⟩, ?_, by simp, by simp, by simp, by simp⟩
    intro xs' e; cases e
    exact ⟨_, h2, fun e he => by simp [he]⟩
  | obj kvs =>
    simp only [validateNode, Exec.bind_ok, Exec.pure_ok] at hr
    obtain ⟨r1, h1, r2, h2, r3, h3, r4, h4, rfl⟩ := hr
    refine ⟨⟨_, h1, fun e he => by simp [he]⟩, ⟨_, h3, fun e he => by simp [he]⟩, by simp, ?_, ?_, by simp, by simp⟩
    · intro kvs' e; cases e
      exact ⟨_, h2, fun e he => by simp [he]⟩
    · intro kvs' e; cases e
      exact ⟨_, h4, fun e he => by simp [he]⟩
  | bool b =>
    simp only [validateNode, Exec.bind_ok, Exec.pure_ok] at hr
    obtain ⟨r1, h1, r2, h2, r3, h3, rfl⟩ := hr
    exact ⟨⟨_, h1, fun e he => by simp [he]⟩, ⟨_, h3, fun e he => by simp [he]⟩, by simp, by simp, by simp, by simp, by simp⟩
  | num n =>
    simp only [validateNode, Exec.bind_ok, Exec.pure_ok] at hr
    obtain ⟨r1, h1, r2, h2, r3, h3, rfl⟩ := hr
    exact ⟨⟨_, h1, fun e he => by simp [he]⟩, ⟨_, h3, fun e he => by simp [he]⟩, by simp, by simp, by simp,
      fun _ _ => ⟨_, h2, fun e he => by simp [he]⟩, by simp⟩
  | str t =>
    simp only [validateNode, Exec.bind_ok, Exec.pure_ok] at hr
    obtain ⟨r1, h1, r2, h2, r3, h3, rfl⟩ := hr
    exact ⟨⟨_, h1, fun e he => by simp [he]⟩, ⟨_, h3, fun e he => by simp [he]⟩, by simp, by simp, by simp, by simp,
      fun _ _ e he => by simp [he]⟩

/-- Every violated keyword is reported. -/
theorem validateNode_keyword {k x} (hk : KwFault env H F s v k x) (hr : validateNode env σ rec p s v c = .ok r) :
    ⟨k, c, x⟩ ∈ r.errors := by
  obtain ⟨⟨r1, h1, i1⟩, ⟨r2, h2, i2⟩, hA, hO, -, hN, hS⟩ := validateNode_parts hr
  simp only [validateSchema, Exec.bind_ok, Exec.pure_ok] at h1
  obtain ⟨a1, a1', a2, a2', a3, a3', a4, a4', a5, a5', a6, a6', rfl⟩ := h1
  simp only [validateCommon, Exec.bind_ok, Exec.pure_ok] at h2
  obtain ⟨b1, b1', b2, b2', b3, b3', rfl⟩ := h2
  have arr : ∀ {xs}, v = .arr xs → ∃ q1 q3 q4, checkItems rec p s xs c = .ok q1 ∧ checkUnique env s xs c = .ok q3 ∧
      checkContains rec p s xs c = .ok q4 ∧ (∀ e ∈ q1.errors, e ∈ r.errors) ∧
      (∀ e ∈ (checkItemCount s xs c).errors, e ∈ r.errors) ∧ (∀ e ∈ q3.errors, e ∈ r.errors) ∧ (∀ e ∈ q4.errors, e ∈ r.errors) := by
    intro xs e
    obtain ⟨a, ha, hs⟩ := hA xs e
    simp only [validateArray, Exec.bind_ok, Exec.pure_ok] at ha
    obtain ⟨q1, g1, q3, g3, q4, g4, rfl⟩ := ha
    exact ⟨q1, q3, q4, g1, g3, g4, fun e he => hs e (by simp [he]), fun e he => hs e (by simp [he]),
      fun e he => hs e (by simp [he]), fun e he => hs e (by simp [he])⟩
  have obj : ∀ {kvs}, v = .obj kvs → ∃ q3 q4, forEach (fun k (kv : String × Json) =>
        checkProperty env σ rec (k :: 13 :: p) s kv.1 kv.2 c) 0 (σ.order (13 :: p) kvs) = .ok q3 ∧
      checkPropertyNames σ rec p s kvs c = .ok q4 ∧
      (∀ e ∈ (checkPropCount s kvs c).errors, e ∈ r.errors) ∧ (∀ e ∈ (checkRequired kvs c s.required).errors, e ∈ r.errors) ∧
      (∀ e ∈ q3.errors, e ∈ r.errors) ∧ (∀ e ∈ q4.errors, e ∈ r.errors) := by
    intro kvs e
    obtain ⟨a, ha, hs⟩ := hO kvs e
    simp only [validateObject, Exec.bind_ok, Exec.pure_ok] at ha
    obtain ⟨q3, g3, q4, g4, rfl⟩ := ha
    exact ⟨q3, q4, g3, g4, fun e he => hs e (by simp [he]), fun e he => hs e (by simp [he]),
      fun e he => hs e (by simp [he]), fun e he => hs e (by simp [he])⟩
  have num : ∀ {n}, v = .num n → ∃ q1 q2 q3 q4 q5, checkMultipleOf (env.rat n) s.multipleOf c v = .ok q1 ∧
      boundCheck (env.rat n) s.maximum (fun a b => decide (a > b)) .numberLTE c v = .ok q2 ∧
      boundCheck (env.rat n) s.exclusiveMaximum (fun a b => decide (a ≥ b)) .numberLT c v = .ok q3 ∧
      boundCheck (env.rat n) s.minimum (fun a b => decide (a < b)) .numberGTE c v = .ok q4 ∧
      boundCheck (env.rat n) s.exclusiveMinimum (fun a b => decide (a ≤ b)) .numberGT c v = .ok q5 ∧
      (∀ e ∈ q1.errors, e ∈ r.errors) ∧ (∀ e ∈ q2.errors, e ∈ r.errors) ∧ (∀ e ∈ q3.errors, e ∈ r.errors) ∧
      (∀ e ∈ q4.errors, e ∈ r.errors) ∧ (∀ e ∈ q5.errors, e ∈ r.errors) := by
    intro n e
    obtain ⟨a, ha, hs⟩ := hN n e
    subst e
    simp only [validateNumber, Exec.bind_ok, Exec.pure_ok] at ha
    obtain ⟨q1, g1, q2, g2, q3, g3, q4, g4, q5, g5, rfl⟩ := ha
    exact ⟨q1, q2, q3, q4, q5, g1, g2, g3, g4, g5, fun e he => hs e (by simp [he]), fun e he => hs e (by simp [he]),
      fun e he => hs e (by simp [he]), fun e he => hs e (by simp [he]), fun e he => hs e (by simp [he])⟩
  cases hk with
  | anyOf hne hf => exact i1 _ (by simp [checkAnyOf_has S hne hf a1'])
  | oneOf_none hne hf =>
    refine i1 _ ?_
    have := checkOneOf_has S (by
      rintro (e | ⟨k, i, e1, e2, e3⟩)
      · exact hne e
      · exact S.disj _ _ e2 (hf i (List.mem_of_getElem? e1))) a2'
    simp [this]
  | oneOf_many k k' i i' e1 e2 e3 e4 e5 =>
    refine i1 _ ?_
    have := checkOneOf_has S (by
      rintro (e | ⟨k0, i0, f1, f2, f3⟩)
      · rw [e] at e2; simp at e2
      · exact e1 ((f3 k i e2 e4).trans (f3 k' i' e3 e5).symm)) a2'
    simp [this]
  | allOf i hi hf => exact i1 _ (by simp [checkAllOf_has S hi hf a3'])
  | not i hi hh => exact i1 _ (by simp [checkNot_has S hi hh a4'])
  | dependency kvs k ks q hv hk hks hq hn =>
    subst hv
    exact i1 _ (by simp [checkDependencies_has hk hks hq hn a5'])
  | then_ i t hi ht hh hf => exact i1 _ (by simp [(checkIf_then S hi ht hh a6').2 hf])
  | else_ i t hi ht hh hf => exact i1 _ (by simp [(checkIf_else S hi ht hh a6').2 hf])
  | const k hk hn => exact i2 _ (by simp [checkConst_has hk hn b1'])
  | enum hne hn => exact i2 _ (by simp [checkEnum_has hne hn b2'])
  | format hf hn => exact i2 _ (by simp [checkFormat_has hf hn b3'])
  | additionalItems xs hv hs hne ha hlt =>
    obtain ⟨q1, q3, q4, g1, g3, g4, j1, j2, j3, j4⟩ := arr hv
    subst hv
    exact j1 _ ((checkItems_extra hs hne hlt g1).1 ha)
  | minItems xs m hv hm hlt =>
    obtain ⟨q1, q3, q4, g1, g3, g4, j1, j2, j3, j4⟩ := arr hv
    subst hv
    exact j2 _ (sizeCheck_min hm hlt)
  | maxItems xs m hv hm hlt =>
    obtain ⟨q1, q3, q4, g1, g3, g4, j1, j2, j3, j4⟩ := arr hv
    subst hv
    exact j2 _ (sizeCheck_max hm hlt)
  | unique xs a b x y hv hu e1 e2 e3 e4 e5 =>
    obtain ⟨q1, q3, q4, g1, g3, g4, j1, j2, j3, j4⟩ := arr hv
    subst hv
    exact j3 _ ((checkUnique_exact hu g3 _).2 ⟨a, b, x, y, e1, e2, e3, e4, e5, rfl⟩)
  | contains xs i hv hi hf =>
    obtain ⟨q1, q3, q4, g1, g3, g4, j1, j2, j3, j4⟩ := arr hv
    subst hv
    rcases checkContains_cases S hi g4 with ⟨⟨x, hx, hh⟩, rfl⟩ | ⟨_, best, hb, rfl⟩
    · exact (S.disj _ _ hh (hf x hx)).elim
    · exact j4 _ (by simp [addErr])
  | minProperties kvs m hv hm hlt =>
    obtain ⟨q3, q4, g3, g4, j1, j2, j3, j4⟩ := obj hv
    subst hv
    exact j1 _ (sizeCheck_min hm hlt)
  | maxProperties kvs m hv hm hlt =>
    obtain ⟨q3, q4, g3, g4, j1, j2, j3, j4⟩ := obj hv
    subst hv
    exact j1 _ (sizeCheck_max hm hlt)
  | required kvs q hv hq hn =>
    obtain ⟨q3, q4, g3, g4, j1, j2, j3, j4⟩ := obj hv
    subst hv
    exact j2 _ (checkRequired_has hq hn)
  | additionalProperty kvs k x hv hm hx ha =>
    obtain ⟨q3, q4, g3, g4, j1, j2, j3, j4⟩ := obj hv
    subst hv
    obtain ⟨k', a, hc, hs⟩ := forEach_ran' g3 ((σ.perm _ _).mem_iff.2 hm)
    refine j3 _ (hs _ ?_)
    obtain ⟨r1, _, _, e | ⟨_, e⟩⟩ := checkProperty_ran hc
    · exact absurd hx e.1
    · rw [ha] at e
      simp only at e; subst e
      simp [addErr]
  | propertyName kvs k i hv hk hi hf =>
    obtain ⟨q3, q4, g3, g4, j1, j2, j3, j4⟩ := obj hv
    subst hv
    exact j4 _ ((checkPropertyNames_ran S hk hi g4).2 hf)
  | minLength t m hv hm hlt =>
    subst hv
    refine hS t rfl _ ?_
    have := sizeCheck_min (c := c) (v := .str t) (mx := s.maxLength) (f := .stringGTE) (g := .stringLTE) hm hlt
    simp [validateString, this]
  | maxLength t m hv hm hlt =>
    subst hv
    refine hS t rfl _ ?_
    have := sizeCheck_max (c := c) (v := .str t) (mn := s.minLength) (f := .stringGTE) (g := .stringLTE) hm hlt
    simp [validateString, this]
  | pattern t q hv hq hm =>
    subst hv
    refine hS t rfl _ ?_
    simp [validateString, checkPattern, hq, hm, addErr]
  | multipleOf n b hv hb hn =>
    obtain ⟨q1, q2, q3, q4, q5, g1, g2, g3, g4, g5, j1, j2, j3, j4, j5⟩ := num hv
    exact j1 _ ((checkMultipleOf_exact g1).2 b hb hn)
  | maximum n b hv hb hn =>
    obtain ⟨q1, q2, q3, q4, q5, g1, g2, g3, g4, g5, j1, j2, j3, j4, j5⟩ := num hv
    exact j2 _ ((boundCheck_exact g2).2 b hb (by simpa using hn))
  | exclusiveMaximum n b hv hb hn =>
    obtain ⟨q1, q2, q3, q4, q5, g1, g2, g3, g4, g5, j1, j2, j3, j4, j5⟩ := num hv
    exact j3 _ ((boundCheck_exact g3).2 b hb (by simpa using hn))
  | minimum n b hv hb hn =>
    obtain ⟨q1, q2, q3, q4, q5, g1, g2, g3, g4, g5, j1, j2, j3, j4, j5⟩ := num hv
    exact j4 _ ((boundCheck_exact g4).2 b hb (by simpa using hn))
  | exclusiveMinimum n b hv hb hn =>
    obtain ⟨q1, q2, q3, q4, q5, g1, g2, g3, g4, g5, j1, j2, j3, j4, j5⟩ := num hv
    exact j5 _ ((boundCheck_exact g5).2 b hb (by simpa using hn))

/-- The errors of every node that must be applied are in the report. -/
theorem validateNode_must {o j w} (hp : s.refSchema = none) (hm : Must env H F s v o j w)
    (hr : validateNode env σ rec p s v c = .ok r) : Incl rec j w (o.toList ++ c) r := by
  obtain ⟨⟨r1, h1, i1⟩, -, hA, hO, hP, -, -⟩ := validateNode_parts hr
  simp only [validateSchema, Exec.bind_ok, Exec.pure_ok] at h1
  obtain ⟨a1, a1', a2, a2', a3, a3', a4, a4', a5, a5', a6, a6', rfl⟩ := h1
  have arr : ∀ {xs}, v = .arr xs → ∃ q1, checkItems rec p s xs c = .ok q1 ∧ (∀ e ∈ q1.errors, e ∈ r.errors) := by
    intro xs e
    obtain ⟨a, ha, hs⟩ := hA xs e
    simp only [validateArray, Exec.bind_ok, Exec.pure_ok] at ha
    obtain ⟨q1, g1, q3, g3, q4, g4, rfl⟩ := ha
    exact ⟨q1, g1, fun e he => hs e (by simp [he])⟩
  have obj : ∀ {kvs}, v = .obj kvs → ∃ q3 q4, forEach (fun k (kv : String × Json) =>
        checkProperty env σ rec (k :: 13 :: p) s kv.1 kv.2 c) 0 (σ.order (13 :: p) kvs) = .ok q3 ∧
      checkPropertyNames σ rec p s kvs c = .ok q4 ∧ (∀ e ∈ q3.errors, e ∈ r.errors) ∧ (∀ e ∈ q4.errors, e ∈ r.errors) := by
    intro kvs e
    obtain ⟨a, ha, hs⟩ := hO kvs e
    simp only [validateObject, Exec.bind_ok, Exec.pure_ok] at ha
    obtain ⟨q3, g3, q4, g4, rfl⟩ := ha
    exact ⟨q3, q4, g3, g4, fun e he => hs e (by simp [he]), fun e he => hs e (by simp [he])⟩
  cases hm with
  | ref j _ hj => rw [hp] at hj; cases hj
  | allOf j _ hj => exact (checkAllOf_incl hj a3').mono fun e he => i1 e (by simp [he])
  | dependency kvs k j _ hv hk hj =>
    subst hv
    exact (checkDependencies_incl hk hj a5').mono fun e he => i1 e (by simp [he])
  | then_ i j _ hi hj hh => exact (checkIf_then S hi hj hh a6').1.mono fun e he => i1 e (by simp [he])
  | else_ i j _ hi hj hh => exact (checkIf_else S hi hj hh a6').1.mono fun e he => i1 e (by simp [he])
  | items xs j k x _ hv hs hj hx =>
    obtain ⟨q1, g1, j1⟩ := arr hv
    exact (checkItems_single hs hj hx g1).mono j1
  | item xs j k x _ hv hs hj hx =>
    obtain ⟨q1, g1, j1⟩ := arr hv
    exact (checkItems_item hs hj hx g1).mono j1
  | additionalItems xs j k x _ hv hs hne hk ha hx =>
    obtain ⟨q1, g1, j1⟩ := arr hv
    have : k < xs.length := by
      rw [List.getElem?_eq_some_iff] at hx; exact hx.1
    exact ((checkItems_extra hs hne (by omega) g1).2 k _ j ha hk hx).mono j1
  | property kvs j k x _ hv hm hx =>
    obtain ⟨a, ha, hs⟩ := hP kvs hv
    obtain ⟨k', b, hb, hs'⟩ := forEach_ran' ha hm
    simp only [hx] at hb
    exact ⟨_, b, hb, fun e he => hs e (hs' e he)⟩
  | patternProperty kvs j q k x _ hv hm hx hq =>
    obtain ⟨q3, q4, g3, g4, j3, j4⟩ := obj hv
    obtain ⟨k', a, hc, hs⟩ := forEach_ran' g3 ((σ.perm _ _).mem_iff.2 hx)
    obtain ⟨r1, _, hi, e⟩ := checkProperty_ran hc
    refine (hi (q, j) hm hq).mono fun e' he' => j3 _ (hs _ ?_)
    rcases e with ⟨_, rfl⟩ | ⟨_, e⟩
    · exact he'
    · revert e
      cases s.additionalProperties with
      | absent => rintro rfl; exact he'
      | bool b => cases b <;> rintro rfl <;> simp [he']
      | schema i => rintro ⟨r2, _, rfl⟩; simp [he']
  | additionalProperty kvs j k x _ hv hm hx ha =>
    obtain ⟨q3, q4, g3, g4, j3, j4⟩ := obj hv
    obtain ⟨k', a, hc, hs⟩ := forEach_ran' g3 ((σ.perm _ _).mem_iff.2 hm)
    obtain ⟨r1, _, _, e | ⟨_, e⟩⟩ := checkProperty_ran hc
    · exact absurd hx e.1
    · rw [ha] at e
      obtain ⟨r2, hr2, rfl⟩ := e
      exact ⟨_, r2, hr2, fun e he => j3 _ (hs _ (by simp [he]))⟩
  | propertyName kvs j k _ hv hk hj =>
    obtain ⟨q3, q4, g3, g4, j3, j4⟩ := obj hv
    exact (checkPropertyNames_ran S hk hj g4).1.mono j4

end

theorem must_pass {env H F s v o j w} (hm : Must env H F s v o j w) : s.pass = none := by
  cases hm <;> first | assumption | exact Plain.pass ‹_›

theorem must_plain {env H F s v o j w} (hm : Must env H F s v o j w) : s.refSchema = some j ∧ o = none ∧ w = v ∨ Plain env s v := by
  cases hm <;> first | exact .inl ⟨‹_›, rfl, rfl⟩ | exact .inr ‹_›

/-- Completeness: every violated keyword of a node that must be applied is reported. -/
theorem validateRecursive_reports {env σ H F h i v path j w} (S : ∀ n, Settles H F (validateRecursive env σ h n)) (hreach : Reach h (Must env H F) i v path j w) :
    ∀ {s k x}, h[j]? = some s → Fault env H F s w k x →
    ∀ n p c r, validateRecursive env σ h n p i v c = .ok r → ⟨k, path.reverse ++ c, x⟩ ∈ r.errors := by
  induction hreach with
  | here i v =>
    intro s k x hs hf n p c r hr
    cases n with
    | zero => simp [validateRecursive] at hr
    | succ n =>
      simp only [validateRecursive, validateStep, hs] at hr
      simp only [List.reverse_nil, List.nil_append]
      cases hf with
      | false_ hp => simp [hp] at hr; subst hr; exact mem_addErr
      | type t hp href ht hn =>
        simp only [hp, href, typeError_some.2 ⟨ht, hn⟩] at hr
        rw [typesString_eq (types_ne ht)] at hr
        simp at hr; subst hr; exact mem_addErr
      | keyword _ _ hp hk =>
        simp only [hp.pass, hp.ref, typeError_none.2 hp.type, Exec.bind_ok, Exec.pure_ok] at hr
        obtain ⟨a, ha, rfl⟩ := hr
        simp [validateNode_keyword (S n) hk ha]
  | step i s0 v o j w path i' w' h0 hm _ ih =>
    intro s k x hs hf n p c r hr
    cases n with
    | zero => simp [validateRecursive] at hr
    | succ n =>
      simp only [validateRecursive, validateStep, h0, must_pass hm] at hr
      have fin : ∀ a : Result, Incl (validateRecursive env σ h n) j w (o.toList ++ c) a →
          ⟨k, (o.toList ++ path).reverse ++ c, x⟩ ∈ a.errors := by
        rintro a ⟨p', b, hb, hsub⟩
        have := hsub _ (ih hs hf n p' _ b hb)
        cases o <;> simpa using this
      rcases must_plain hm with ⟨h1, rfl, rfl⟩ | hp
      · simp only [h1] at hr
        exact fin r ⟨_, r, hr, fun e he => he⟩
      · simp only [hp.ref, typeError_none.2 hp.type, Exec.bind_ok, Exec.pure_ok] at hr
        obtain ⟨a, ha, rfl⟩ := hr
        have := fin a (validateNode_must (S n) hp.ref hm ha)
        rw [Result.errors_append, List.mem_append]; exact .inl this

end GJS

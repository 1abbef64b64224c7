import Verif.Validate
import Verif.SpecNode
import Mathlib.Tactic.Tauto
/-
Helper lemmas: what each piece of the validator decides, given what the nested calls decide.
-/
namespace GJS
open Spec

theorem Result.append_def (a b : Result) : a ++ b = ⟨a.errors ++ b.errors, a.score + b.score⟩ := rfl
@[simp] theorem Result.errors_append (a b : Result) : (a ++ b).errors = a.errors ++ b.errors := rfl
@[simp] theorem Result.score_append (a b : Result) : (a ++ b).score = a.score + b.score := rfl

theorem Result.append_assoc (a b c : Result) : a ++ b ++ c = a ++ (b ++ c) := by
  simp [Result.append_def, List.append_assoc, Int.add_assoc]

@[simp] theorem Result.valid_append (a b : Result) : (a ++ b).valid = (a.valid && b.valid) := by
  simp [Result.valid, List.length_append]
  cases a.errors <;> cases b.errors <;> simp <;> omega

@[simp] theorem Result.valid_empty : ({} : Result).valid = true := rfl
@[simp] theorem tick_valid : tick.valid = true := rfl
@[simp] theorem addErr_valid (k c v) : (addErr k c v).valid = false := rfl

theorem Result.valid_iff (r : Result) : r.valid = true ↔ r.errors = [] := by
  simp [Result.valid]

/-- Case analysis on a sequence of two executions. -/
theorem Exec.bind_ok {α β : Type} {x : Exec α} {f : α → Exec β} {b : β} :
    (x >>= f) = .ok b ↔ ∃ a, x = .ok a ∧ f a = .ok b := by
  cases x with
  | error e => simp [bind, Except.bind]
  | ok a => simp [bind, Except.bind]

@[simp] theorem Exec.pure_ok {α : Type} {a b : α} : (pure a : Exec α) = .ok b ↔ a = b := by
  simp [pure, Except.pure]

@[simp] theorem Exec.throw_ok {α : Type} {e : Abort} {b : α} : (throw e : Exec α) = .ok b ↔ False := by
  simp [throw, throwThe, MonadExceptOf.throw]

/-- `rec` decides `Sat` whenever it returns. -/
def Agrees (rec : Rec) (Sat : Id → Json → Prop) : Prop :=
  ∀ p i v c r, rec p i v c = .ok r → (r.valid = true ↔ Sat i v)

theorem forEach_valid {α : Type} {f : Nat → α → Exec Result} {Q : α → Prop}
    (hf : ∀ k x r, f k x = .ok r → (r.valid = true ↔ Q x)) :
    ∀ (l : List α) (k : Nat) (r : Result), forEach f k l = .ok r → (r.valid = true ↔ ∀ x ∈ l, Q x) := by
  intro l
  induction l with
  | nil => intro k r h; simp [forEach] at h; subst h; simp
  | cons x xs ih =>
    intro k r h
    simp only [forEach, Exec.bind_ok, Exec.pure_ok] at h
    obtain ⟨a, ha, b, hb, rfl⟩ := h
    simp [hf _ _ _ ha, ih _ _ hb]

/-- As `forEach_valid`, with a condition that may mention the position. -/
theorem forEach_valid_idx {α : Type} {f : Nat → α → Exec Result} {Q : Nat → α → Prop}
    (hf : ∀ k x r, f k x = .ok r → (r.valid = true ↔ Q k x)) :
    ∀ (l : List α) (k : Nat) (r : Result), forEach f k l = .ok r →
      (r.valid = true ↔ ∀ (j : Nat) x, l[j]? = some x → Q (k + j) x) := by
  intro l
  induction l with
  | nil => intro k r h; simp [forEach] at h; subst h; simp
  | cons x xs ih =>
    intro k r h
    simp only [forEach, Exec.bind_ok, Exec.pure_ok] at h
    obtain ⟨a, ha, b, hb, rfl⟩ := h
    simp only [Result.valid_append, Bool.and_eq_true, hf _ _ _ ha, ih _ _ hb]
    constructor
    · rintro ⟨h1, h2⟩ j y hj
      cases j with
      | zero => simp at hj; subst hj; simpa using h1
      | succ j => simp at hj; have := h2 j y hj; rwa [show k + (j + 1) = k + 1 + j by omega]
    · intro h
      refine ⟨by simpa using h 0 x (by simp), fun j y hj => ?_⟩
      have := h (j + 1) y (by simpa using hj)
      rwa [show k + (j + 1) = k + 1 + j by omega] at this

theorem anyOfLoop_valid {run : Nat → Id → Exec Result} {Q : Id → Prop}
    (hf : ∀ k i r, run k i = .ok r → (r.valid = true ↔ Q i)) :
    ∀ (l : List Id) (k : Nat) (b : Bool) (best : Option Result) (o : Bool × Option Result),
      anyOfLoop run k l b best = .ok o → (o.1 = true ↔ b = true ∨ ∃ i ∈ l, Q i) := by
  intro l
  induction l with
  | nil => intro k b best o h; simp [anyOfLoop] at h; subst h; simp
  | cons i is ih =>
    intro k b best o h
    rw [anyOfLoop] at h
    cases b with
    | true => simp at h; have := ih _ _ _ _ h; simp_all
    | false =>
      simp only [Bool.not_false, if_true, Exec.bind_ok] at h
      obtain ⟨r, hr, h⟩ := h
      have := ih _ _ _ _ h
      rw [this, hf _ _ _ hr]; simp

theorem checkAnyOf_valid {rec : Rec} {Sat} (H : Agrees rec Sat) {p s v c r}
    (h : checkAnyOf rec p s v c = .ok r) : r.valid = true ↔ AnyOfRule Sat s.anyOf v := by
  unfold checkAnyOf at h
  unfold AnyOfRule
  by_cases hl : s.anyOf.length > 0
  · simp only [hl, if_true, Exec.bind_ok] at h
    obtain ⟨⟨b, best⟩, h1, h2⟩ := h
    have := anyOfLoop_valid (Q := fun i => Sat i v) (fun k i r hr => H _ _ _ _ _ hr) _ _ _ _ _ h1
    have hne : s.anyOf ≠ [] := by intro e; simp [e] at hl
    simp only [Bool.false_eq_true, false_or] at this
    simp only [hne, false_or, ← this]
    cases b <;> cases best <;> simp at h2 <;> subst h2 <;> simp
  · have : s.anyOf = [] := by cases h : s.anyOf <;> simp_all
    simp [this] at h; subst h; simp [this]

/-- Exactly one position of the list satisfies `Q`. -/
def OneHolds (Q : Id → Prop) (l : List Id) : Prop :=
  ∃ (k : Nat) (i : Id), l[k]? = some i ∧ Q i ∧ ∀ (k' : Nat) (i' : Id), l[k']? = some i' → Q i' → k' = k

open Classical in
/-- Number of positions satisfying `Q`. -/
noncomputable def numHolds (Q : Id → Prop) (l : List Id) : Nat := l.countP (fun i => decide (Q i))

theorem numHolds_zero {Q : Id → Prop} {l} : numHolds Q l = 0 ↔ ∀ i ∈ l, ¬ Q i := by
  simp [numHolds, List.countP_eq_zero]

theorem oneHolds_iff {Q : Id → Prop} : ∀ {l : List Id}, OneHolds Q l ↔ numHolds Q l = 1 := by
  intro l
  induction l with
  | nil => simp [OneHolds, numHolds]
  | cons i is ih =>
    by_cases hi : Q i
    · have h1 : numHolds Q (i :: is) = numHolds Q is + 1 := by simp [numHolds, hi]
      rw [h1]
      constructor
      · rintro ⟨k, j, hk, hj, hu⟩
        have h0 := hu 0 i (by simp) hi
        subst h0
        have : numHolds Q is = 0 := by
          rw [numHolds_zero]; intro x hx hq
          obtain ⟨n, hn⟩ := List.getElem?_of_mem hx
          have := hu (n + 1) x (by simpa using hn) hq
          omega
        omega
      · intro h
        have h0 : numHolds Q is = 0 := by omega
        rw [numHolds_zero] at h0
        refine ⟨0, i, by simp, hi, fun k' i' hk' hq => ?_⟩
        cases k' with
        | zero => rfl
        | succ n => simp at hk'; exact absurd hq (h0 _ (List.mem_of_getElem? hk'))
    · have h1 : numHolds Q (i :: is) = numHolds Q is := by simp [numHolds, hi]
      rw [h1, ← ih]
      constructor
      · rintro ⟨k, j, hk, hj, hu⟩
        cases k with
        | zero => simp at hk; subst hk; exact absurd hj hi
        | succ n =>
          refine ⟨n, j, by simpa using hk, hj, fun k' i' h' hq => ?_⟩
          have := hu (k' + 1) i' (by simpa using h') hq
          omega
      · rintro ⟨k, j, hk, hj, hu⟩
        refine ⟨k + 1, j, by simpa using hk, hj, fun k' i' h' hq => ?_⟩
        cases k' with
        | zero => simp at h'; subst h'; exact absurd hq hi
        | succ n => simp at h'; rw [hu n i' h' hq]

theorem oneOfLoop_valid {run : Nat → Id → Exec Result} {Q : Id → Prop}
    (hf : ∀ k i r, run k i = .ok r → (r.valid = true ↔ Q i)) :
    ∀ (l : List Id) (k : Nat) (n : Nat) (best : Option Result) (o : Nat × Option Result),
      oneOfLoop run k l n best = .ok o → o.1 = n + numHolds Q l := by
  intro l
  induction l with
  | nil => intro k n best o h; simp [oneOfLoop] at h; subst h; simp [numHolds]
  | cons i is ih =>
    intro k n best o h
    simp only [oneOfLoop, Exec.bind_ok] at h
    obtain ⟨r, hr, h⟩ := h
    have hq := hf _ _ _ hr
    cases hv : r.valid with
    | true =>
      have : Q i := hq.1 hv
      simp [hv] at h
      have := ih _ _ _ _ h
      simp [numHolds, *]; omega
    | false =>
      have hnq : ¬ Q i := fun q => by simp [hq.2 q] at hv
      have e : numHolds Q (i :: is) = numHolds Q is := by simp [numHolds, hnq]
      simp only [hv, Bool.false_eq_true, if_false] at h
      rw [e]
      split at h
      · exact ih _ _ _ _ h
      · exact ih _ _ _ _ h

theorem checkOneOf_valid {rec : Rec} {Sat} (H : Agrees rec Sat) {p s v c r}
    (h : checkOneOf rec p s v c = .ok r) : r.valid = true ↔ OneOfRule Sat s.oneOf v := by
  unfold checkOneOf at h
  by_cases hl : s.oneOf.length > 0
  · simp only [hl, if_true, Exec.bind_ok] at h
    obtain ⟨⟨n, best⟩, h1, h2⟩ := h
    have hn := oneOfLoop_valid (Q := fun i => Sat i v) (fun k i r hr => H _ _ _ _ _ hr) _ _ _ _ _ h1
    simp only [Nat.zero_add] at hn
    have hne : s.oneOf ≠ [] := by intro e; simp [e] at hl
    show _ ↔ (s.oneOf = [] ∨ OneHolds (fun i => Sat i v) s.oneOf)
    simp only [hne, false_or]
    rw [oneHolds_iff, ← hn]
    by_cases h1 : n = 1
    · subst h1; simp at h2; subst h2; simp
    · by_cases h0 : n = 0
      · subst h0; cases best <;> simp at h2; subst h2; simp
      · simp [h1, h0] at h2; subst h2; simp [h1]
  · have : s.oneOf = [] := by cases h : s.oneOf <;> simp_all
    simp [this] at h; subst h; simp [this, OneOfRule]

theorem allOfLoop_valid {run : Nat → Id → Exec Result} {Q : Id → Prop}
    (hf : ∀ k i r, run k i = .ok r → (r.valid = true ↔ Q i)) :
    ∀ (l : List Id) (k : Nat) (o : Nat × Result),
      allOfLoop run k l = .ok o → (o.2.valid = true ↔ ∀ i ∈ l, Q i) ∧
        (o.2.valid = true ↔ o.1 = l.length) ∧ o.1 ≤ l.length := by
  intro l
  induction l with
  | nil => intro k o h; simp [allOfLoop] at h; subst h; simp
  | cons i is ih =>
    intro k o h
    simp only [allOfLoop, Exec.bind_ok, Exec.pure_ok] at h
    obtain ⟨r, hr, ⟨nb, rs⟩, hrs, rfl⟩ := h
    obtain ⟨h1, h2, h3⟩ := ih _ _ hrs
    simp only at h1 h2 h3
    refine ⟨by simp [h1, hf _ _ _ hr], ?_, ?_⟩
    · simp only [Result.valid_append, Bool.and_eq_true, h2, List.length_cons]
      cases hv : r.valid <;> simp; omega
    · cases hv : r.valid <;> simp <;> omega

theorem checkAllOf_valid {rec : Rec} {Sat} (H : Agrees rec Sat) {p s v c r}
    (h : checkAllOf rec p s v c = .ok r) : r.valid = true ↔ AllOfRule Sat s.allOf v := by
  unfold checkAllOf at h
  unfold AllOfRule
  by_cases hl : s.allOf.length > 0
  · simp only [hl, if_true, Exec.bind_ok] at h
    obtain ⟨⟨n, rs⟩, h1, h2⟩ := h
    obtain ⟨ha, hb, hc⟩ := allOfLoop_valid (Q := fun i => Sat i v) (fun k i r hr => H _ _ _ _ _ hr) _ _ _ h1
    simp only at ha hb hc
    rw [← ha]
    by_cases hn : n = s.allOf.length
    · simp [hn] at h2; subst h2; rfl
    · simp [hn] at h2; subst h2
      have : ¬ rs.valid = true := fun e => hn (hb.1 e)
      simp [this]
  · have : s.allOf = [] := by cases h : s.allOf <;> simp_all
    simp [this] at h; subst h; simp [this]

theorem checkNot_valid {rec : Rec} {Sat} (H : Agrees rec Sat) {p s v c r}
    (h : checkNot rec p s v c = .ok r) : r.valid = true ↔ NotRule Sat s.not v := by
  unfold checkNot at h
  unfold NotRule
  cases hs : s.not with
  | none => simp [hs] at h; subst h; simp
  | some i =>
    simp only [hs, Exec.bind_ok] at h
    obtain ⟨r', hr, h⟩ := h
    have := H _ _ _ _ _ hr
    cases hv : r'.valid <;> simp [hv] at h this <;> subst h <;> simp [this]

theorem existsMapKey_iff {kvs : List (String × α)} {k : String} :
    existsMapKey kvs k = true ↔ k ∈ kvs.map Prod.fst := by
  unfold existsMapKey getKey
  have := @lookup_none_iff _ k kvs
  cases h : kvs.lookup k with
  | none => simp only [h, true_iff] at this; simp [this]
  | some x => simp only [h, reduceCtorEq, false_iff, Classical.not_not] at this; simpa using this

theorem checkDependency_valid {rec : Rec} {Sat} (H : Agrees rec Sat) {p s kvs c key r}
    (h : checkDependency rec p s kvs c key = .ok r) :
    r.valid = true ↔
      (∀ ks, getKey key s.dependencies = some (.keys ks) → ∀ q ∈ ks, q ∈ kvs.map Prod.fst) ∧
      (∀ i, getKey key s.dependencies = some (.schema i) → Sat i (.obj kvs)) := by
  unfold checkDependency at h
  cases hd : getKey key s.dependencies with
  | none => simp [hd] at h; subst h; simp
  | some d =>
    cases d with
    | keys ks =>
      simp only [hd] at h
      rw [forEach_valid (Q := fun q => q ∈ kvs.map Prod.fst) _ _ _ _ h]
      · simp
      · intro k x r hr
        rw [← existsMapKey_iff]
        cases hx : existsMapKey kvs x <;> simp [hx] at hr <;> subst hr <;> simp
    | schema i =>
      simp only [hd] at h
      simp [H _ _ _ _ _ h]

theorem checkDependencies_valid {env σ} {rec : Rec} {Sat} (H : Agrees rec Sat) {p s v c r}
    (h : checkDependencies env σ rec p s v c = .ok r) :
    r.valid = true ↔ DependenciesRule Sat s.dependencies v := by
  unfold checkDependencies at h
  unfold DependenciesRule
  by_cases hl : s.dependencies.length > 0
  · simp only [hl, if_true] at h
    cases v with
    | obj kvs =>
      simp only at h
      rw [forEach_valid (Q := fun kv => (∀ ks, getKey kv.1 s.dependencies = some (.keys ks) →
          ∀ q ∈ ks, q ∈ kvs.map Prod.fst) ∧
        (∀ i, getKey kv.1 s.dependencies = some (.schema i) → Sat i (.obj kvs))) _ _ _ _ h]
      · constructor
        · intro hh kvs' e k hk
          cases e
          obtain ⟨kv, hkv, rfl⟩ := List.mem_map.1 hk
          exact hh kv ((σ.perm _ _).mem_iff.2 hkv)
        · intro hh kv hkv
          exact hh kvs rfl kv.1 (List.mem_map.2 ⟨kv, (σ.perm _ _).mem_iff.1 hkv, rfl⟩)
      · intro k x r hr
        exact checkDependency_valid H hr
    | num n =>
      cases hr : env.ratOk n <;> simp [hr] at h; subst h; simp
    | null => simp at h; subst h; simp
    | bool b => simp at h; subst h; simp
    | str t => simp at h; subst h; simp
    | arr xs => simp at h; subst h; simp
  · have : s.dependencies = [] := by cases h : s.dependencies <;> simp_all
    simp [this] at h; subst h; simp [this, getKey]

theorem checkBranch_valid {rec : Rec} {Sat} (H : Agrees rec Sat) {p o on kind v c r}
    (h : checkBranch rec p o on kind v c = .ok r) :
    r.valid = true ↔ ∀ t, o = some t → on = true → Sat t v := by
  unfold checkBranch at h
  cases o with
  | none => simp at h; subst h; simp
  | some t =>
    cases on with
    | false => simp at h; subst h; simp
    | true =>
      simp only [if_true, Exec.bind_ok] at h
      obtain ⟨rt, hrt, ha⟩ := h
      have Ht := H _ _ _ _ _ hrt
      cases hw : rt.valid <;> simp [hw] at ha Ht <;> subst ha <;> simp [Ht]

theorem checkIf_valid {rec : Rec} {Sat} (H : Agrees rec Sat) {p s v c r}
    (h : checkIf rec p s v c = .ok r) : r.valid = true ↔ IfRule Sat s.if_ s.then_ s.else_ v := by
  unfold checkIf at h
  unfold IfRule
  cases hi : s.if_ with
  | none => simp [hi] at h; subst h; simp
  | some i =>
    simp only [hi, Exec.bind_ok, Exec.pure_ok] at h
    obtain ⟨ri, hri, a, ha, b, hb, rfl⟩ := h
    have Hi := H _ _ _ _ _ hri
    simp only [Result.valid_append, Bool.and_eq_true, checkBranch_valid H ha, checkBranch_valid H hb,
      Hi, Bool.not_eq_true', ← Bool.not_eq_true, Option.some.injEq, forall_eq']

theorem validateSchema_valid {env σ} {rec : Rec} {Sat} (H : Agrees rec Sat) {p s v c r}
    (h : validateSchema env σ rec p s v c = .ok r) :
    r.valid = true ↔ AnyOfRule Sat s.anyOf v ∧ OneOfRule Sat s.oneOf v ∧ AllOfRule Sat s.allOf v ∧
      NotRule Sat s.not v ∧ DependenciesRule Sat s.dependencies v ∧
      IfRule Sat s.if_ s.then_ s.else_ v := by
  simp only [validateSchema, Exec.bind_ok, Exec.pure_ok] at h
  obtain ⟨r1, h1, r2, h2, r3, h3, r4, h4, r5, h5, r6, h6, rfl⟩ := h
  simp only [Result.valid_append, Bool.and_eq_true, tick_valid, and_true, checkAnyOf_valid H h1,
    checkOneOf_valid H h2, checkAllOf_valid H h3, checkNot_valid H h4, checkDependencies_valid H h5,
    checkIf_valid H h6, and_assoc]

theorem checkConst_valid {env s v c r1} (h0 : checkConst env s v c = .ok r1) :
    r1.valid = true ↔ ConstRule env s.const v := by
  unfold checkConst at h0
  unfold ConstRule
  cases hc : s.const with
  | none => simp [hc] at h0; subst h0; simp
  | some k =>
    simp only [hc] at h0
    cases hm : env.marshal v with
    | none => simp [hm] at h0
    | some t =>
      by_cases e : t = k
      · simp [hm, e] at h0; subst h0; simp [e]
      · simp [hm, e] at h0; subst h0; simp [e]

theorem checkEnum_valid {env s v c r2} (h0 : checkEnum env s v c = .ok r2) :
    r2.valid = true ↔ EnumRule env s.enum v := by
  unfold checkEnum at h0
  unfold EnumRule
  by_cases hl : s.enum.length > 0
  · have hne : s.enum ≠ [] := by intro e; simp [e] at hl
    simp only [hl, if_true] at h0
    cases hm : env.marshal v with
    | none => simp [hm] at h0
    | some t =>
      by_cases e : t ∈ s.enum
      · simp [hm, e] at h0; subst h0; simp [hne, e]
      · simp [hm, e] at h0; subst h0
        simp only [addErr_valid, Bool.false_eq_true, hne, false_or, false_iff]
        rintro ⟨k, hk, hk'⟩; cases hk'; exact e hk
  · have : s.enum = [] := by cases h : s.enum <;> simp_all
    simp [this] at h0; subst h0; simp [this]

theorem validateCommon_valid {env s v c r} (h : validateCommon env s v c = .ok r) :
    r.valid = true ↔ ConstRule env s.const v ∧ EnumRule env s.enum v ∧ FormatRule env s.format v := by
  simp only [validateCommon, Exec.bind_ok, Exec.pure_ok] at h
  obtain ⟨r1, h1, r2, h2, r3, h3, rfl⟩ := h
  have A := checkConst_valid h1
  have B := checkEnum_valid h2
  have C : r3.valid = true ↔ FormatRule env s.format v := by
    unfold checkFormat at h3
    unfold FormatRule
    by_cases hf : s.format = ""
    · simp [hf] at h3; subst h3; simp [hf]
    · simp only [bne_iff_ne, ne_eq, hf, not_false_eq_true, if_true] at h3
      cases hm : env.isFormat s.format v <;> simp [hm] at h3 <;> subst h3 <;> simp [hf]
  simp [A, B, C, and_assoc]

theorem checkAdditionalItems_valid {rec : Rec} {Sat} (H : Agrees rec Sat) {p s xs c r}
    (h2 : checkAdditionalItems rec p s xs c = .ok r) :
    r.valid = true ↔ AdditionalItemsRule Sat s.additionalItems s.itemsChildren.length xs := by
  unfold checkAdditionalItems at h2
  unfold AdditionalItemsRule
  by_cases hlt : s.itemsChildren.length < xs.length
  · simp only [hlt, if_true] at h2
    cases ha : s.additionalItems with
    | absent => simp [ha] at h2; subst h2; simp
    | bool b =>
      cases b <;> simp [ha] at h2 <;> subst h2 <;> simp
      omega
    | schema i =>
      simp only [ha] at h2
      have := forEach_valid_idx (Q := fun _ x => Sat i x) (fun k x r hr => H _ _ _ _ _ hr) _ _ _ h2
      rw [this]
      constructor
      · intro hh k x hk hx
        refine hh (k - s.itemsChildren.length) x ?_
        rw [List.getElem?_drop]
        rwa [show s.itemsChildren.length + (k - s.itemsChildren.length) = k by omega]
      · intro hh j x hx
        rw [List.getElem?_drop] at hx
        exact hh _ x (by omega) hx
  · simp only [hlt, if_false, Exec.pure_ok] at h2
    subst h2
    simp only [Result.valid_empty, true_iff]
    cases ha : s.additionalItems with
    | absent => trivial
    | bool b => simp; intro; omega
    | schema i =>
      intro k x hk hx
      have := (List.getElem?_eq_some_iff.1 hx).1
      omega

theorem checkItems_valid {rec : Rec} {Sat} (H : Agrees rec Sat) {p s xs c r}
    (h : checkItems rec p s xs c = .ok r) : r.valid = true ↔ ItemsRule Sat s xs := by
  unfold checkItems at h
  unfold ItemsRule
  cases hs : s.itemsChildrenIsSingleSchema with
  | true =>
    simp only [hs, if_true] at h ⊢
    refine forEach_valid (Q := fun x => ∃ i, s.itemsChildren.head? = some i ∧ Sat i x) ?_ _ _ _ h
    intro k x r hr
    cases hc : s.itemsChildren with
    | nil => simp [hc] at hr
    | cons i is => simp only [hc] at hr; simp [H _ _ _ _ _ hr]
  | false =>
    simp only [hs, Bool.false_eq_true, if_false] at h ⊢
    by_cases hl : s.itemsChildren.length > 0
    · have hne : s.itemsChildren ≠ [] := by intro e; simp [e] at hl
      simp only [hl, if_true, Exec.bind_ok, Exec.pure_ok] at h
      obtain ⟨r1, h1, r2, h2, rfl⟩ := h
      have A := forEach_valid_idx (Q := fun _ (ix : Id × Json) => Sat ix.1 ix.2)
        (fun k x r hr => H _ _ _ _ _ hr) _ _ _ h1
      have A' : r1.valid = true ↔
          ∀ (k : Nat) i x, s.itemsChildren[k]? = some i → xs[k]? = some x → Sat i x := by
        rw [A]
        constructor
        · intro hh k i x hi hx
          exact hh k (i, x) (by simp [List.getElem?_zip_eq_some, hi, hx])
        · intro hh k ix hix
          rw [List.getElem?_zip_eq_some] at hix
          exact hh k _ _ hix.1 hix.2
      have B := checkAdditionalItems_valid H h2
      simp only [Result.valid_append, Bool.and_eq_true, A', B, hne, ne_eq, not_false_eq_true, true_imp_iff]
    · have : s.itemsChildren = [] := by cases h : s.itemsChildren <;> simp_all
      simp [this] at h; subst h; simp [this]

theorem sizeCheck_valid {mn mx : Option Int} {n : Nat} {f g : Int → ErrKind} {c v} :
    (sizeCheck mn mx n f g c v).valid = true ↔ SizeRule mn mx n := by
  unfold SizeRule sizeCheck
  simp only [Result.valid_append, Bool.and_eq_true]
  refine and_congr ?_ ?_
  · cases mn with
    | none => simp
    | some m => by_cases h : (n : Int) < m <;> simp [h] <;> omega
  · cases mx with
    | none => simp
    | some m => by_cases h : (n : Int) > m <;> simp [h] <;> omega

theorem checkItemCount_valid {s xs c} :
    (checkItemCount s xs c).valid = true ↔ SizeRule s.minItems s.maxItems xs.length :=
  sizeCheck_valid

theorem checkPropCount_valid {s kvs c} :
    (checkPropCount s kvs c).valid = true ↔ SizeRule s.minProperties s.maxProperties kvs.length :=
  sizeCheck_valid

theorem lookup_isSome_iff {k : String} {l : List (String × α)} :
    (l.lookup k).isSome = true ↔ k ∈ l.map Prod.fst := existsMapKey_iff

theorem uniqueLoop_valid {env all c} : ∀ (xs : List Json) (seen : List (String × Nat)) (j : Nat) (r : Result),
    uniqueLoop env all c seen j xs = .ok r →
    (r.valid = true ↔ (∀ x ∈ xs, ∀ t, env.marshal x = some t → t ∉ seen.map Prod.fst) ∧
      xs.Pairwise (fun x y => env.marshal x ≠ env.marshal y)) := by
  intro xs
  induction xs with
  | nil => intro seen j r h; simp [uniqueLoop] at h; subst h; simp
  | cons x xs ih =>
    intro seen j r h
    rw [uniqueLoop] at h
    cases hm : env.marshal x with
    | none => simp [hm] at h
    | some t =>
      simp only [hm, Exec.bind_ok, Exec.pure_ok] at h
      obtain ⟨rs, hrs, rfl⟩ := h
      have := ih _ _ _ hrs
      simp only [Result.valid_append, Bool.and_eq_true, this]
      have hh : (dupError seen t j c (.arr all)).valid = true ↔ t ∉ seen.map Prod.fst := by
        rw [← lookup_isSome_iff]
        unfold dupError
        cases seen.lookup t <;> simp
      rw [hh]
      simp only [List.mem_cons, List.map_cons, not_or, List.pairwise_cons, forall_eq_or_imp, hm,
        Option.some.injEq, forall_eq']
      constructor
      · rintro ⟨h1, h2, h3⟩
        refine ⟨⟨h1, fun y hy u hu => (h2 y hy u hu).2⟩, fun y hy e => (h2 y hy t e.symm).1 rfl, h3⟩
      · rintro ⟨⟨h1, h2⟩, h3, h4⟩
        refine ⟨h1, fun y hy u hu => ⟨?_, h2 y hy u hu⟩, h4⟩
        rintro rfl; exact h3 y hy hu.symm

theorem pairwise_iff_idx {R : Json → Json → Prop} {xs : List Json} :
    xs.Pairwise R ↔ ∀ (a b : Nat) x y, a < b → xs[a]? = some x → xs[b]? = some y → R x y := by
  rw [List.pairwise_iff_getElem]
  constructor
  · intro h a b x y hab hx hy
    obtain ⟨ha, rfl⟩ := List.getElem?_eq_some_iff.1 hx
    obtain ⟨hb, rfl⟩ := List.getElem?_eq_some_iff.1 hy
    exact h a b ha hb hab
  · intro h i j hi hj hij
    exact h i j _ _ hij (List.getElem?_eq_getElem hi) (List.getElem?_eq_getElem hj)

theorem checkUnique_valid {env s xs c r} (h : checkUnique env s xs c = .ok r) :
    r.valid = true ↔ UniqueRule env s.uniqueItems xs := by
  unfold checkUnique at h
  unfold UniqueRule
  cases hu : s.uniqueItems with
  | false => simp [hu] at h; subst h; simp
  | true =>
    simp only [hu, if_true] at h
    rw [uniqueLoop_valid _ _ _ _ h, pairwise_iff_idx]
    simp

theorem containsLoop_valid {run : Nat → Json → Exec Result} {Q : Json → Prop}
    (hf : ∀ k i r, run k i = .ok r → (r.valid = true ↔ Q i)) :
    ∀ (l : List Json) (k : Nat) (best : Option Result) (o : Bool × Option Result),
      containsLoop run k l best = .ok o → (o.1 = true ↔ ∃ i ∈ l, Q i) := by
  intro l
  induction l with
  | nil => intro k best o h; simp [containsLoop] at h; subst h; simp
  | cons i is ih =>
    intro k best o h
    simp only [containsLoop, Exec.bind_ok] at h
    obtain ⟨r, hr, h⟩ := h
    have hq := hf _ _ _ hr
    cases hv : r.valid with
    | true => simp [hv] at h; subst h; simp [hq.1 hv]
    | false =>
      have hnq : ¬ Q i := fun q => by simp [hq.2 q] at hv
      simp only [hv, Bool.false_eq_true, if_false] at h
      rw [ih _ _ _ h]; simp [hnq]

theorem checkContains_valid {rec : Rec} {Sat} (H : Agrees rec Sat) {p s xs c r}
    (h : checkContains rec p s xs c = .ok r) : r.valid = true ↔ ContainsRule Sat s.contains xs := by
  unfold checkContains at h
  unfold ContainsRule
  cases hs : s.contains with
  | none => simp [hs] at h; subst h; simp
  | some i =>
    simp only [hs, Exec.bind_ok] at h
    obtain ⟨⟨b, best⟩, h1, h2⟩ := h
    have := containsLoop_valid (Q := fun x => Sat i x) (fun k x r hr => H _ _ _ _ _ hr) _ _ _ _ h1
    simp only [Option.some.injEq, forall_eq', ← this]
    cases b <;> cases best <;> simp at h2 <;> subst h2 <;> simp

theorem validateArray_valid {env} {rec : Rec} {Sat} (H : Agrees rec Sat) {p s xs c r}
    (h : validateArray env rec p s xs c = .ok r) :
    r.valid = true ↔ ItemsRule Sat s xs ∧ SizeRule s.minItems s.maxItems xs.length ∧
      UniqueRule env s.uniqueItems xs ∧ ContainsRule Sat s.contains xs := by
  simp only [validateArray, Exec.bind_ok, Exec.pure_ok] at h
  obtain ⟨r1, h1, r3, h3, r4, h4, rfl⟩ := h
  simp only [Result.valid_append, Bool.and_eq_true, tick_valid, and_true, checkItems_valid H h1,
    checkItemCount_valid, checkUnique_valid h3, checkContains_valid H h4, and_assoc]

theorem checkRequired_valid {kvs c} : ∀ {qs : List String},
    (checkRequired kvs c qs).valid = true ↔ RequiredRule qs kvs := by
  intro qs
  unfold RequiredRule
  induction qs with
  | nil => simp [checkRequired]
  | cons q qs ih =>
    simp only [checkRequired, Result.valid_append, Bool.and_eq_true, ih, List.mem_cons, forall_eq_or_imp]
    refine and_congr ?_ Iff.rfl
    rw [← existsMapKey_iff]
    cases existsMapKey kvs q <;> simp

theorem patternOne_valid {env} {rec : Rec} {Sat} (H : Agrees rec Sat) {p key value c pat i o}
    (h : patternOne env rec p key value c pat i = .ok o) :
    o.1 = env.reMatch pat key ∧ (o.2.valid = true ↔ (env.reMatch pat key = true → Sat i value)) := by
  unfold patternOne at h
  cases hm : env.reMatch pat key with
  | false => simp [hm] at h; subst h; simp
  | true =>
    simp only [hm, if_true, Exec.bind_ok, Exec.pure_ok] at h
    obtain ⟨r', hr', rfl⟩ := h
    simp [H _ _ _ _ _ hr']

theorem patternLoop_valid {env} {rec : Rec} {Sat} (H : Agrees rec Sat) {p key value c} :
    ∀ (l : List (String × Id)) (k : Nat) (o : Bool × Result),
      patternLoop env rec p key value c k l = .ok o →
      (o.1 = true ↔ ∃ q ∈ l, env.reMatch q.1 key = true) ∧
      (o.2.valid = true ↔ ∀ q ∈ l, env.reMatch q.1 key = true → Sat q.2 value) := by
  intro l
  induction l with
  | nil => intro k o h; simp [patternLoop] at h; subst h; simp
  | cons q qs ih =>
    obtain ⟨pat, i⟩ := q
    intro k o h
    simp only [patternLoop, Exec.bind_ok, Exec.pure_ok] at h
    obtain ⟨r, hr, rs, hrs, rfl⟩ := h
    obtain ⟨h1, h2⟩ := ih _ _ hrs
    obtain ⟨h3, h4⟩ := patternOne_valid H hr
    simp [h1, h2, h3, h4]

theorem checkProperty_valid {env σ} {rec : Rec} {Sat} (H : Agrees rec Sat) {p s key value c r}
    (h : checkProperty env σ rec p s key value c = .ok r) :
    r.valid = true ↔
      (∀ pat i, (pat, i) ∈ s.patternProperties → env.reMatch pat key = true → Sat i value) ∧
      ((∀ i, (key, i) ∉ s.propertiesChildren) →
        (∀ pat i, (pat, i) ∈ s.patternProperties → env.reMatch pat key = false) →
        ExtraRule Sat s.additionalProperties value) := by
  simp only [checkProperty, validatePatternProperty, Exec.bind_ok] at h
  obtain ⟨⟨pm, r1⟩, ⟨⟨b, r0⟩, h0, h1⟩, h2⟩ := h
  obtain ⟨hA, hB⟩ := patternLoop_valid H _ _ _ h0
  simp only at hA hB
  have e1 : pm = b ∧ r1.valid = r0.valid := by
    cases b <;> simp at h1 <;> obtain ⟨rfl, rfl⟩ := h1 <;> simp
  obtain ⟨rfl, e1⟩ := e1
  have hB' : r1.valid = true ↔
      ∀ pat i, (pat, i) ∈ s.patternProperties → env.reMatch pat key = true → Sat i value := by
    rw [e1, hB]
    constructor
    · intro hh pat i hm; exact hh (pat, i) ((σ.perm _ _).mem_iff.2 hm)
    · intro hh q hq; exact hh q.1 q.2 ((σ.perm _ _).mem_iff.1 hq)
  have hA' : pm = false ↔ ∀ pat i, (pat, i) ∈ s.patternProperties → env.reMatch pat key = false := by
    rw [← Bool.not_eq_true, hA]
    constructor
    · intro hh pat i hm
      rw [← Bool.not_eq_true]
      intro e; exact hh ⟨(pat, i), (σ.perm _ _).mem_iff.2 hm, e⟩
    · rintro hh ⟨q, hq, e⟩
      have := hh q.1 q.2 ((σ.perm _ _).mem_iff.1 hq)
      simp [this] at e
  have hF : (s.propertiesChildren.any fun q => key == q.1) = false ↔ ∀ i, (key, i) ∉ s.propertiesChildren := by
    rw [← Bool.not_eq_true, List.any_eq_true]
    constructor
    · intro hh i hm; exact hh ⟨_, hm, by simp⟩
    · rintro hh ⟨q, hq, e⟩
      have : key = q.1 := by simpa using e
      subst this; exact hh _ hq
  by_cases hc : (s.propertiesChildren.any fun q => key == q.1) = false ∧ pm = false
  · simp only [hc.1, hc.2, Bool.not_false, Bool.and_true, if_true] at h2
    have hp := hF.1 hc.1
    have hq := hA'.1 hc.2
    have e2 : (∀ i, (key, i) ∉ s.propertiesChildren) ↔ True := iff_true_intro hp
    have e3 : (∀ pat i, (pat, i) ∈ s.patternProperties → env.reMatch pat key = false) ↔ True :=
      iff_true_intro hq
    rw [e2, e3, ← hB']
    simp only [true_imp_iff]
    unfold ExtraRule
    cases ha : s.additionalProperties with
    | absent => simp [ha] at h2; subst h2; simp
    | bool b => cases b <;> simp [ha] at h2 <;> subst h2 <;> simp
    | schema i =>
      simp only [ha, Exec.bind_ok, Exec.pure_ok] at h2
      obtain ⟨r', hr', rfl⟩ := h2
      simp [H _ _ _ _ _ hr']
  · have : ((!(s.propertiesChildren.any fun q => key == q.1)) && !pm) = false := by
      revert hc; cases (s.propertiesChildren.any fun q => key == q.1) <;> cases pm <;> simp
    simp only [this, Bool.false_eq_true, if_false, Exec.pure_ok] at h2
    subst h2
    rw [← hB']
    constructor
    · intro h; exact ⟨h, fun h1 h2 => absurd ⟨hF.2 h1, hA'.2 h2⟩ hc⟩
    · intro h; exact h.1

theorem checkPropertyNames_valid {σ} {rec : Rec} {Sat} (H : Agrees rec Sat) {p s kvs c r}
    (h : checkPropertyNames σ rec p s kvs c = .ok r) :
    r.valid = true ↔ PropertyNamesRule Sat s.propertyNames kvs := by
  unfold checkPropertyNames at h
  unfold PropertyNamesRule
  cases hs : s.propertyNames with
  | none => simp [hs] at h; subst h; simp
  | some i =>
    simp only [hs] at h
    rw [forEach_valid (Q := fun kv => Sat i (.str kv.1)) _ _ _ _ h]
    · constructor
      · intro hh j hj k hk
        cases hj
        obtain ⟨kv, hkv, rfl⟩ := List.mem_map.1 hk
        exact hh kv ((σ.perm _ _).mem_iff.2 hkv)
      · intro hh kv hkv
        exact hh i rfl kv.1 (List.mem_map.2 ⟨kv, (σ.perm _ _).mem_iff.1 hkv, rfl⟩)
    · intro k x r hr
      simp only [Exec.bind_ok] at hr
      obtain ⟨r', hr', h2⟩ := hr
      have := H _ _ _ _ _ hr'
      cases hv : r'.valid <;> simp [hv] at h2 this <;> subst h2 <;> simp [this]

theorem checkProperties_valid {rec : Rec} {Sat} (H : Agrees rec Sat) {p s kvs c r}
    (h : checkProperties rec p s kvs c = .ok r) :
    r.valid = true ↔ PropertiesRule Sat s.propertiesChildren kvs := by
  unfold checkProperties at h
  unfold PropertiesRule
  rw [forEach_valid (Q := fun q => ∀ x, getKey q.1 kvs = some x → Sat q.2 x) _ _ _ _ h]
  · constructor
    · intro hh name i hm; exact hh (name, i) hm
    · intro hh q hq; exact hh q.1 q.2 hq
  · intro k q r hr
    cases hg : getKey q.1 kvs with
    | none => simp [hg] at hr; subst hr; simp
    | some x => simp only [hg] at hr; simp [H _ _ _ _ _ hr]

theorem validateString_valid {env s v c} :
    (validateString env s v c).valid = true ↔ StringRules env s v := by
  unfold StringRules
  cases v with
  | str t =>
    simp only [validateString, Json.str.injEq, forall_eq', Result.valid_append, Bool.and_eq_true,
      sizeCheck_valid, tick_valid, and_true]
    refine and_congr Iff.rfl ?_
    unfold checkPattern
    cases s.pattern with
    | none => simp
    | some q => cases h : env.reMatch q t <;> simp [h]
  | _ => simp [validateString]

theorem boundCheck_valid {x bound bad kind c v r} (h : boundCheck x bound bad kind c v = .ok r) :
    r.valid = true ↔ ∀ b, bound = some b → ∀ q, x = some q → bad q b = false := by
  unfold boundCheck at h
  cases bound with
  | none => simp at h; subst h; simp
  | some b =>
    cases x with
    | none => simp at h
    | some q => cases hb : bad q b <;> simp [hb] at h <;> subst h <;> simp [hb]

theorem boundCheck_some {x bound bad kind c v r b} (h : boundCheck x bound bad kind c v = .ok r)
    (hb : bound = some b) : ∃ q, x = some q := by
  subst hb
  cases x with
  | none => simp [boundCheck] at h
  | some q => exact ⟨q, rfl⟩

theorem rat_den_one_iff (q : Rat) : q.den = 1 ↔ ∃ z : Int, q = z := by
  constructor
  · intro h; exact ⟨q.num, Rat.ext (by simp) (by simp [h])⟩
  · rintro ⟨z, rfl⟩; simp

theorem validateNumber_valid {env s v c r} (h : validateNumber env s v c = .ok r) :
    r.valid = true ↔ NumberRules s v := by
  unfold NumberRules
  cases v with
  | num n =>
    simp only [validateNumber, Exec.bind_ok, Exec.pure_ok] at h
    obtain ⟨r1, h1, r2, h2, r3, h3, r4, h4, r5, h5, rfl⟩ := h
    have key : ∀ q, env.rat n = some q → q = n.val := by
      intro q hq
      unfold Env.rat at hq
      split at hq <;> simp at hq; exact hq.symm
    have A : r1.valid = true ↔ ∀ m, s.multipleOf = some m → ∃ z : Int, n.val = z * m := by
      unfold checkMultipleOf at h1
      cases hm : s.multipleOf with
      | none => simp [hm] at h1; subst h1; simp
      | some m =>
        simp only [hm] at h1
        cases hx : env.rat n with
        | none => simp [hx] at h1
        | some q =>
          have := key q hx; subst this
          simp only [hx] at h1
          by_cases h0 : m = 0
          · simp [h0] at h1
          · have e : (n.val / m).den = 1 ↔ ∃ z : Int, n.val = z * m := by
              rw [rat_den_one_iff]
              constructor
              · rintro ⟨z, hz⟩; exact ⟨z, by rw [← hz, Rat.div_mul_cancel h0]⟩
              · rintro ⟨z, hz⟩; exact ⟨z, by rw [hz, Rat.mul_div_cancel h0]⟩
            simp only [beq_iff_eq, h0, if_false] at h1
            by_cases hd : (n.val / m).den = 1
            · simp [hd] at h1; subst h1; simp [← e, hd]
            · simp [hd] at h1; subst h1
              simp only [addErr_valid, Bool.false_eq_true, Option.some.injEq, forall_eq', ← e, hd]
    have aux : ∀ {bound : Option Rat} {bad : Rat → Rat → Bool} {kind r} {Q : Rat → Prop},
        boundCheck (env.rat n) bound bad kind c (.num n) = .ok r →
        (∀ b, bad n.val b = false ↔ Q b) →
        (r.valid = true ↔ ∀ b, bound = some b → Q b) := by
      intro bound bad kind r Q hh hq
      rw [boundCheck_valid hh]
      constructor
      · intro h b hb
        obtain ⟨q, hx⟩ := boundCheck_some hh hb
        have := h b hb q hx
        rw [key q hx] at this
        exact (hq b).1 this
      · intro h b hb q hx
        rw [key q hx]; exact (hq b).2 (h b hb)
    have B := aux (Q := fun b => n.val ≤ b) h2 (by intro b; simp [Rat.not_lt])
    have C := aux (Q := fun b => n.val < b) h3 (by intro b; simp [Rat.not_le])
    have D := aux (Q := fun b => b ≤ n.val) h4 (by intro b; simp [Rat.not_lt])
    have E := aux (Q := fun b => b < n.val) h5 (by intro b; simp [Rat.not_le])
    simp only [Result.valid_append, Bool.and_eq_true, tick_valid, and_true, A, B, C, D, E, and_assoc,
      Json.num.injEq, forall_eq']
  | _ => simp [validateNumber] at h; subst h; simp

theorem validateObject_valid {env σ} {rec : Rec} {Sat} (H : Agrees rec Sat) {p s kvs c r}
    (h : validateObject env σ rec p s kvs c = .ok r) :
    r.valid = true ↔ SizeRule s.minProperties s.maxProperties kvs.length ∧ RequiredRule s.required kvs ∧
      PatternRule env Sat s.patternProperties kvs ∧
      AdditionalRule env Sat s kvs ∧ PropertyNamesRule Sat s.propertyNames kvs := by
  simp only [validateObject, Exec.bind_ok, Exec.pure_ok] at h
  obtain ⟨r3, h3, r4, h4, rfl⟩ := h
  have A := forEach_valid (fun k x r hr => checkProperty_valid H hr) _ _ _ h3
  have A' : r3.valid = true ↔ PatternRule env Sat s.patternProperties kvs ∧ AdditionalRule env Sat s kvs := by
    rw [A]
    unfold PatternRule AdditionalRule
    constructor
    · intro hh
      exact ⟨fun pat i hp k x hm => (hh (k, x) ((σ.perm _ _).mem_iff.2 hm)).1 pat i hp,
        fun k x hm => (hh (k, x) ((σ.perm _ _).mem_iff.2 hm)).2⟩
    · rintro ⟨h1, h2⟩ kv hkv
      have hm := (σ.perm _ _).mem_iff.1 hkv
      exact ⟨fun pat i hp => h1 pat i hp kv.1 kv.2 hm, h2 kv.1 kv.2 hm⟩
  simp only [Result.valid_append, Bool.and_eq_true, tick_valid, and_true, checkPropCount_valid,
    checkRequired_valid, A', checkPropertyNames_valid H h4, and_assoc]

theorem checkInteger_iff {env : Env} {n : NumLit} :
    env.checkInteger n = true ↔ env.ratOk n = true ∧ ∃ z : Int, n.val = z := by
  unfold Env.checkInteger Env.rat
  cases h : env.ratOk n <;> simp
  exact rat_den_one_iff _

theorem typeError_none {env ts v} : typeError env ts v = none ↔ TypeRule env ts v := by
  have simple : ∀ {v : Json} {t0 : String}, (∀ t, HasType env v t ↔ t = t0) →
      ((if isTyped ts && !typesContain ts t0 then some t0 else none) = none ↔ TypeRule env ts v) := by
    intro v t0 ht
    unfold TypeRule isTyped typesContain
    simp only [ht, exists_eq_right]
    cases ts with
    | nil => simp
    | cons t ts =>
      simp only [List.length_cons, List.contains_eq_mem]
      by_cases h : t0 ∈ t :: ts <;> simp [h]
  cases v with
  | null => exact simple (fun t => ⟨fun h => by cases h; rfl, fun h => h ▸ .null⟩)
  | bool b => exact simple (fun t => ⟨fun h => by cases h; rfl, fun h => h ▸ .bool _⟩)
  | str s => exact simple (fun t => ⟨fun h => by cases h; rfl, fun h => h ▸ .str _⟩)
  | arr xs => exact simple (fun t => ⟨fun h => by cases h; rfl, fun h => h ▸ .arr _⟩)
  | obj kvs => exact simple (fun t => ⟨fun h => by cases h; rfl, fun h => h ▸ .obj _⟩)
  | num n =>
    unfold TypeRule
    have ht : ∀ t, HasType env (.num n) t ↔ t = "number" ∨ (t = "integer" ∧ env.checkInteger n = true) := by
      intro t
      rw [checkInteger_iff]
      constructor
      · intro h
        cases h with
        | num => exact .inl rfl
        | int _ z h1 h2 => exact .inr ⟨rfl, h1, z, h2⟩
      · rintro (rfl | ⟨rfl, h1, z, h2⟩)
        · exact .num n
        · exact .int n z h1 h2
    simp only [typeError, ht]
    cases ts with
    | nil => simp [isTyped]
    | cons t ts =>
      simp only [isTyped, typesContain, List.contains_eq_mem]
      by_cases h1 : TYPE_NUMBER ∈ t :: ts
      · simp only [h1, decide_true, Bool.true_or, Bool.not_true, Bool.and_false, Bool.false_eq_true,
          if_false, true_iff]
        exact .inr ⟨TYPE_NUMBER, h1, .inl rfl⟩
      · cases hi : env.checkInteger n with
        | false =>
          simp only [h1, decide_false, Bool.false_and, Bool.or_false]
          simp
          constructor
          · rintro rfl; exact h1 (by simp [TYPE_NUMBER])
          · intro h; exact h1 (by simp [TYPE_NUMBER, h])
        | true =>
          by_cases h2 : TYPE_INTEGER ∈ t :: ts
          · simp only [h2, decide_true, Bool.true_and, Bool.or_true, Bool.not_true, Bool.and_false,
              Bool.false_eq_true, if_false, true_iff]
            exact .inr ⟨TYPE_INTEGER, h2, .inr ⟨rfl, trivial⟩⟩
          · simp only [h1, h2, decide_false, Bool.and_false, Bool.or_false, Bool.not_false,
              Bool.and_true, List.length_cons]
            simp
            refine ⟨⟨?_, ?_⟩, ?_⟩
            · rintro rfl; exact h1 (by simp [TYPE_NUMBER])
            · rintro rfl; exact h2 (by simp [TYPE_INTEGER])
            · intro x hx
              refine ⟨?_, ?_⟩
              · rintro rfl; exact h1 (by simp [TYPE_NUMBER, hx])
              · rintro rfl; exact h2 (by simp [TYPE_INTEGER, hx])

theorem validateNode_valid {env σ} {rec : Rec} {Sat} (H : Agrees rec Sat) {p s v c r}
    (h : validateNode env σ rec p s v c = .ok r) (ht : TypeRule env s.types v) :
    r.valid = true ↔ Keywords env Sat s v := by
  simp only [validateNode, Exec.bind_ok] at h
  obtain ⟨r1, h1, h⟩ := h
  have A := validateSchema_valid H h1
  unfold Keywords
  have scalar : (∀ xs, v ≠ .arr xs) → (∀ kvs, v ≠ .obj kvs) →
      (∃ r2, validateNumber env s v c = .ok r2 ∧ ∃ r3, validateCommon env s v c = .ok r3 ∧
        r1 ++ r2 ++ r3 ++ validateString env s v c = r) → (r.valid = true ↔ Keywords env Sat s v) := by
    rintro na no ⟨r2, h2, r3, h3, rfl⟩
    have a1 : ArrayRules env Sat s v := fun xs e => absurd e (na xs)
    have a2 : ObjectRules env Sat s v := fun xs e => absurd e (no xs)
    unfold Keywords
    simp only [Result.valid_append, Bool.and_eq_true, A, validateCommon_valid h3,
      validateNumber_valid h2, validateString_valid, a1, a2, ht, true_and, and_assoc]
    tauto
  cases v with
  | null =>
    simp only [Exec.bind_ok, Exec.pure_ok] at h
    obtain ⟨r2, h2, rfl⟩ := h
    simp only [Result.valid_append, Bool.and_eq_true, A, validateCommon_valid h2, ht, true_and, and_assoc]
    simp [ArrayRules, ObjectRules, StringRules, NumberRules]
  | arr xs =>
    simp only [Exec.bind_ok, Exec.pure_ok] at h
    obtain ⟨r2, h2, r3, h3, rfl⟩ := h
    simp only [Result.valid_append, Bool.and_eq_true, A, validateCommon_valid h3,
      validateArray_valid H h2, ht, true_and, and_assoc]
    simp only [ArrayRules, ObjectRules, StringRules, NumberRules, Json.arr.injEq, forall_eq', reduceCtorEq, false_imp_iff, implies_true, and_true]
    tauto
  | obj kvs =>
    simp only [Exec.bind_ok, Exec.pure_ok] at h
    obtain ⟨r2, h2, r3, h3, r4, h4, rfl⟩ := h
    simp only [Result.valid_append, Bool.and_eq_true, A, validateCommon_valid h3,
      validateObject_valid H h2, checkProperties_valid H h4, ht, true_and, and_assoc]
    simp only [ArrayRules, ObjectRules, StringRules, NumberRules, Json.obj.injEq, forall_eq', reduceCtorEq, false_imp_iff, implies_true, and_true, true_and]
    tauto
  | bool b => simp only [Exec.bind_ok, Exec.pure_ok] at h; exact scalar (by simp) (by simp) h
  | str b => simp only [Exec.bind_ok, Exec.pure_ok] at h; exact scalar (by simp) (by simp) h
  | num b => simp only [Exec.bind_ok, Exec.pure_ok] at h; exact scalar (by simp) (by simp) h

theorem validateStep_agrees {env σ h} {rec : Rec} {Sat} (H : Agrees rec Sat) :
    Agrees (validateStep env σ h rec) (NodeRules env h Sat) := by
  intro p i v c r hr
  unfold validateStep at hr
  unfold NodeRules
  cases hi : h[i]? with
  | none => simp [hi] at hr
  | some s =>
    simp only [hi] at hr
    simp only [Option.some.injEq, exists_eq_left']
    cases hp : s.pass with
    | some b => cases b <;> simp [hp] at hr <;> subst hr <;> simp
    | none =>
      simp only [hp] at hr ⊢
      cases hf : s.refSchema with
      | some j => simp only [hf] at hr ⊢; exact H _ _ _ _ _ hr
      | none =>
        simp only [hf] at hr ⊢
        cases ht : typeError env s.types v with
        | some g =>
          simp [ht] at hr; subst hr
          have : ¬ TypeRule env s.types v := by rw [← typeError_none, ht]; simp
          simp [Keywords, this]
        | none =>
          simp only [ht, Exec.bind_ok, Exec.pure_ok] at hr
          obtain ⟨r', hr', rfl⟩ := hr
          simpa using validateNode_valid H hr' (typeError_none.1 ht)

theorem validateRecursive_agrees (env σ h) (P : Id → Json → Prop) :
    ∀ n, Agrees (validateRecursive env σ h n) (Spec.unfold env h P n) := by
  intro n
  induction n with
  | zero => intro p i v c r hr; simp [validateRecursive] at hr
  | succ n ih => exact validateStep_agrees ih

end GJS

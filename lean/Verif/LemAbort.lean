import Verif.LemValidate
import Verif.SpecGraph
/-
Helper lemmas: the validator aborts only if a nested call does, or (for panics) if the node
or the value is of a kind it cannot handle.
-/
namespace GJS
open Spec

/-- The execution does not end in abort `e`. -/
def NE {α : Type} (e : Abort) (x : Exec α) : Prop := x ≠ .error e

theorem NE.ok {α : Type} {e : Abort} {a : α} : NE e (.ok a : Exec α) := by simp [NE]
theorem NE.pure {α : Type} {e : Abort} {a : α} : NE e (pure a : Exec α) := by simp [NE, Pure.pure, Except.pure]
theorem NE.bind {α β : Type} {e : Abort} {x : Exec α} {f : α → Exec β} (hx : NE e x)
    (hf : ∀ a, x = .ok a → NE e (f a)) : NE e (x >>= f) := by
  cases x with
  | error e' => simpa [NE, Bind.bind, Except.bind] using hx
  | ok a => simpa [Bind.bind, Except.bind] using hf a rfl

theorem NE.forEach {α : Type} {e : Abort} {f : Nat → α → Exec Result} :
    ∀ {l : List α} {k}, (∀ k x, x ∈ l → NE e (f k x)) → NE e (forEach f k l) := by
  intro l
  induction l with
  | nil => intro k _; exact .ok
  | cons x xs ih =>
    intro k h
    rw [GJS.forEach]
    exact .bind (h _ _ (by simp)) fun _ _ => .bind (ih fun k y hy => h k y (by simp [hy])) fun _ _ => .pure

/-- The calls a node makes: its own value to in-place sub-schemas, inner values to nested ones. -/
def Calls (s : Sub) (v : Json) (j : Id) (w : Json) : Prop :=
  (j ∈ inPlace s ∧ w = v) ∨ (j ∈ nested s ∧ Inside v w)

/-- What a node needs not to panic by itself on `v`. -/
def LocalOK (env : Env) (s : Sub) (v : Json) : Prop :=
  (s.itemsChildrenIsSingleSchema = true → s.itemsChildren ≠ []) ∧ s.multipleOf ≠ some 0 ∧
  InRange env v

mutual
theorem canon_isSome {env : Env} : ∀ v, InRange env v → (canon v).isSome = true
  | .null, _ => rfl
  | .bool _, _ => rfl
  | .str _, _ => rfl
  | .num n, h => by
    cases h with
    | num _ _ h2 => rw [canon]; cases hn : n.toF64 <;> simp_all
  | .arr xs, h => by
    cases h with
    | arr _ h => rw [canon, Option.isSome_map]; exact canonL_isSome xs h
  | .obj kvs, h => by
    cases h with
    | obj _ h => rw [canon, Option.isSome_map]; exact canonKV_isSome kvs h
theorem canonL_isSome {env : Env} : ∀ xs, (∀ x ∈ xs, InRange env x) → (canonL xs).isSome = true
  | [], _ => rfl
  | x :: xs, h => by
    have h1 := canon_isSome x (h x (by simp))
    have h2 := canonL_isSome xs (fun y hy => h y (by simp [hy]))
    obtain ⟨a, ha⟩ := Option.isSome_iff_exists.1 h1
    obtain ⟨b, hb⟩ := Option.isSome_iff_exists.1 h2
    simp [canonL, ha, hb]
theorem canonKV_isSome {env : Env} : ∀ kvs, (∀ k x, (k, x) ∈ kvs → InRange env x) → (canonKV kvs).isSome = true
  | [], _ => rfl
  | (k, x) :: xs, h => by
    have h1 := canon_isSome x (h k x (by simp))
    have h2 := canonKV_isSome xs (fun k y hy => h k y (by simp [hy]))
    obtain ⟨a, ha⟩ := Option.isSome_iff_exists.1 h1
    obtain ⟨b, hb⟩ := Option.isSome_iff_exists.1 h2
    simp [canonKV, ha, hb]
end

theorem marshal_some {env : Env} {v} (h : InRange env v) : ∃ t, env.marshal v = some t := by
  obtain ⟨a, ha⟩ := Option.isSome_iff_exists.1 (canon_isSome v h)
  exact ⟨_, by simp [Env.marshal, marshalWithoutNumber, ha]; rfl⟩

section
variable {e : Abort} {env : Env} {σ : Sched} {rec : Rec} {s : Sub} {v : Json}
variable (hloc : e = .panic → LocalOK env s v)
variable (hrec : ∀ p j w c, Calls s v j w → NE e (rec p j w c))

theorem anyOfLoop_ne {run : Nat → Id → Exec Result} : ∀ {l : List Id} {k b best},
    (∀ k i, i ∈ l → NE e (run k i)) → NE e (anyOfLoop run k l b best) := by
  intro l
  induction l with
  | nil => intros; exact .ok
  | cons i is ih =>
    intro k b best h
    rw [anyOfLoop]
    split
    · exact .bind (h _ _ (by simp)) fun _ _ => ih fun k j hj => h k j (by simp [hj])
    · exact ih fun k j hj => h k j (by simp [hj])

theorem oneOfLoop_ne {run : Nat → Id → Exec Result} : ∀ {l : List Id} {k n best},
    (∀ k i, i ∈ l → NE e (run k i)) → NE e (oneOfLoop run k l n best) := by
  intro l
  induction l with
  | nil => intros; exact .ok
  | cons i is ih =>
    intro k n best h
    have ih' := fun {k n best} => ih (k := k) (n := n) (best := best) fun k j hj => h k j (by simp [hj])
    rw [oneOfLoop]
    refine .bind (h _ _ (by simp)) fun _ _ => ?_
    split
    · exact ih'
    · split <;> exact ih'

/-- In the oneOf loop a failing branch is remembered as long as none has succeeded. -/
theorem oneOfLoop_best {run : Nat → Id → Exec Result} : ∀ {l : List Id} {k n best o},
    oneOfLoop run k l n best = .ok o → o.1 = 0 → (l ≠ [] ∨ best ≠ none) → o.2 ≠ none := by
  intro l
  induction l with
  | nil => intro k n best o h h0 hb; simp [oneOfLoop] at h; subst h; simpa using hb
  | cons i is ih =>
    intro k n best o h h0 _
    simp only [oneOfLoop, Exec.bind_ok] at h
    obtain ⟨r, hr, h⟩ := h
    have mono : ∀ {l : List Id} {k n best o}, oneOfLoop run k l n best = .ok o → n ≤ o.1 := by
      intro l
      induction l with
      | nil => intro k n best o h; simp [oneOfLoop] at h; subst h; simp
      | cons i is ih =>
        intro k n best o h
        simp only [oneOfLoop, Exec.bind_ok] at h
        obtain ⟨r, _, h⟩ := h
        split at h
        · have := ih h; omega
        · split at h <;> exact ih h
    split at h
    · have := mono h; omega
    · split at h
      · exact ih h h0 (.inr (by simp))
      · rename_i hc
        have hn := mono h
        have : n = 0 := by omega
        subst this
        refine ih h h0 (.inr ?_)
        intro hb; subst hb; simp [better] at hc

theorem allOfLoop_ne {run : Nat → Id → Exec Result} : ∀ {l : List Id} {k},
    (∀ k i, i ∈ l → NE e (run k i)) → NE e (allOfLoop run k l) := by
  intro l
  induction l with
  | nil => intros; exact .ok
  | cons i is ih =>
    intro k h
    rw [allOfLoop]
    exact .bind (h _ _ (by simp)) fun _ _ => .bind (ih fun k j hj => h k j (by simp [hj])) fun _ _ => .pure

theorem containsLoop_ne {run : Nat → Json → Exec Result} : ∀ {l : List Json} {k best},
    (∀ k x, x ∈ l → NE e (run k x)) → NE e (containsLoop run k l best) := by
  intro l
  induction l with
  | nil => intros; exact .ok
  | cons i is ih =>
    intro k best h
    rw [containsLoop]
    refine .bind (h _ _ (by simp)) fun _ _ => ?_
    split
    · exact .pure
    · exact ih fun k j hj => h k j (by simp [hj])

include hrec

theorem checkAnyOf_ne {p c} : NE e (checkAnyOf rec p s v c) := by
  unfold checkAnyOf
  split
  · refine .bind (anyOfLoop_ne fun k i hi => hrec _ _ _ _ (.inl ⟨by simp [inPlace, hi], rfl⟩)) ?_
    rintro ⟨b, best⟩ _
    cases b <;> cases best <;> exact .pure
  · exact .pure

theorem checkOneOf_ne {p c} : NE e (checkOneOf rec p s v c) := by
  unfold checkOneOf
  split
  · rename_i hl
    refine .bind (oneOfLoop_ne fun k i hi => hrec _ _ _ _ (.inl ⟨by simp [inPlace, hi], rfl⟩)) ?_
    rintro ⟨n, best⟩ ho
    have hne : s.oneOf ≠ [] := by intro e; simp [e] at hl
    have hb := fun h0 => oneOfLoop_best ho h0 (.inl hne)
    simp only at hb ⊢
    split
    · split
      · rename_i h0
        cases best with
        | none => exact absurd rfl (hb (by simpa using h0))
        | some b => exact .pure
      · exact .pure
    · exact .pure
  · exact .pure

theorem checkAllOf_ne {p c} : NE e (checkAllOf rec p s v c) := by
  unfold checkAllOf
  split
  · refine .bind (allOfLoop_ne fun k i hi => hrec _ _ _ _ (.inl ⟨by simp [inPlace, hi], rfl⟩)) ?_
    rintro ⟨b, best⟩ _
    simp only
    split <;> exact .pure
  · exact .pure

theorem checkNot_ne {p c} : NE e (checkNot rec p s v c) := by
  unfold checkNot
  split
  · rename_i i hi
    refine .bind (hrec _ _ _ _ (.inl ⟨by simp [inPlace, hi], rfl⟩)) fun _ _ => ?_
    split <;> exact .pure
  · exact .pure

theorem checkDependencies_ne (hloc : e = .panic → LocalOK env s v) {p c} :
    NE e (checkDependencies env σ rec p s v c) := by
  unfold checkDependencies
  split
  · split
    · rename_i kvs
      refine .forEach fun k kv _ => ?_
      unfold checkDependency
      split
      · refine .forEach fun _ q _ => ?_
        split <;> exact .pure
      · rename_i i hi
        refine hrec _ _ _ _ (.inl ⟨?_, rfl⟩)
        simp only [inPlace, List.mem_append, List.mem_filterMap]
        exact .inr ⟨_, lookup_some_mem hi, rfl⟩
      · exact .pure
    · rename_i n
      split
      · exact .pure
      · rename_i hn
        intro he
        have : e = .panic := by simpa [throw, throwThe, MonadExceptOf.throw] using he.symm
        have := (hloc this).2.2
        cases this with
        | num _ h1 _ => exact hn h1
    · exact .pure
  · exact .pure

theorem checkBranch_ne {p o on kind c} (ho : ∀ t, o = some t → t ∈ inPlace s) :
    NE e (checkBranch rec p o on kind v c) := by
  unfold checkBranch
  split
  · split
    · refine .bind (hrec _ _ _ _ (.inl ⟨ho _ rfl, rfl⟩)) fun _ _ => ?_
      split <;> exact .pure
    · exact .pure
  · exact .pure

theorem checkIf_ne {p c} : NE e (checkIf rec p s v c) := by
  unfold checkIf
  split
  · exact .pure
  · rename_i i hi
    refine .bind (hrec _ _ _ _ (.inl ⟨by simp [inPlace, hi], rfl⟩)) fun _ _ =>
      .bind (checkBranch_ne hrec fun t ht => by simp [inPlace, ht]) fun _ _ =>
      .bind (checkBranch_ne hrec fun t ht => by simp [inPlace, ht]) fun _ _ => .pure

theorem validateSchema_ne (hloc : e = .panic → LocalOK env s v) {p c} :
    NE e (validateSchema env σ rec p s v c) := by
  unfold validateSchema
  exact .bind (checkAnyOf_ne hrec) fun _ _ => .bind (checkOneOf_ne hrec) fun _ _ =>
    .bind (checkAllOf_ne hrec) fun _ _ => .bind (checkNot_ne hrec) fun _ _ =>
    .bind (checkDependencies_ne hrec hloc) fun _ _ => .bind (checkIf_ne hrec) fun _ _ => .pure

omit hrec in
include hloc in
theorem validateCommon_ne {c} : NE e (validateCommon env s v c) := by
  have pan : ∀ {α : Type}, (e = .panic → False) → NE e (throw Abort.panic : Exec α) := by
    intro α h he
    exact h (by simpa [throw, throwThe, MonadExceptOf.throw] using he.symm)
  unfold validateCommon
  refine .bind ?_ fun _ _ => .bind ?_ fun _ _ => .bind ?_ fun _ _ => .pure
  · unfold checkConst
    split
    · exact .pure
    · split
      · rename_i hm
        refine pan fun he => ?_
        obtain ⟨t, ht⟩ := marshal_some (hloc he).2.2
        simp [ht] at hm
      · split <;> exact .pure
  · unfold checkEnum
    split
    · split
      · rename_i hm
        refine pan fun he => ?_
        obtain ⟨t, ht⟩ := marshal_some (hloc he).2.2
        simp [ht] at hm
      · split <;> exact .pure
    · exact .pure
  · unfold checkFormat
    split
    · split <;> exact .pure
    · exact .pure

theorem checkAdditionalItems_ne {p c} {xs} (hv : v = .arr xs) : NE e (checkAdditionalItems rec p s xs c) := by
  unfold checkAdditionalItems
  simp only
  split
  · split
    · split <;> exact .pure
    · rename_i i hi
      refine .forEach fun k x hx => hrec _ _ _ _ (.inr ⟨by simp [nested, hi, extraId], .inl ⟨xs, hv, ?_⟩⟩)
      exact List.mem_of_mem_drop hx
    · exact .pure
  · exact .pure

theorem checkItems_ne (hloc : e = .panic → LocalOK env s v) {p c} {xs} (hv : v = .arr xs) :
    NE e (checkItems rec p s xs c) := by
  unfold checkItems
  split
  · rename_i hs
    refine .forEach fun k x hx => ?_
    split
    · rename_i i is hi
      exact hrec _ _ _ _ (.inr ⟨by simp [nested, hi], .inl ⟨xs, hv, hx⟩⟩)
    · rename_i hi
      intro he
      have : e = .panic := by simpa [throw, throwThe, MonadExceptOf.throw] using he.symm
      exact (hloc this).1 hs hi
  · split
    · refine .bind (.forEach fun k x hx => hrec _ _ _ _ (.inr ⟨?_, .inl ⟨xs, hv, ?_⟩⟩)) fun _ _ =>
        .bind (checkAdditionalItems_ne hrec hv) fun _ _ => .pure
      · have := (List.of_mem_zip (a := x.1) (b := x.2) hx).1
        simp [nested, this]
      · exact (List.of_mem_zip (a := x.1) (b := x.2) hx).2
    · exact .pure

omit hrec in
theorem uniqueLoop_ne {all c} : ∀ {xs : List Json} {seen j}, (e = .panic → ∀ x ∈ xs, InRange env x) →
    NE e (uniqueLoop env all c seen j xs) := by
  intro xs
  induction xs with
  | nil => intros; exact .ok
  | cons x xs ih =>
    intro seen j h
    rw [uniqueLoop]
    split
    · rename_i hm
      intro he
      have : e = .panic := by simpa [throw, throwThe, MonadExceptOf.throw] using he.symm
      obtain ⟨t, ht⟩ := marshal_some (h this x (by simp))
      simp [ht] at hm
    · exact .bind (ih fun he y hy => h he y (by simp [hy])) fun _ _ => .pure

theorem validateArray_ne (hloc : e = .panic → LocalOK env s v) {p c} {xs} (hv : v = .arr xs) :
    NE e (validateArray env rec p s xs c) := by
  unfold validateArray
  refine .bind (checkItems_ne hrec hloc hv) fun _ _ => .bind ?_ fun _ _ => .bind ?_ fun _ _ => .pure
  · unfold checkUnique
    split
    · refine uniqueLoop_ne fun he => ?_
      have := (hloc he).2.2
      subst hv
      cases this with
      | arr _ h => exact h
    · exact .pure
  · unfold checkContains
    split
    · exact .pure
    · rename_i i hi
      refine .bind (containsLoop_ne fun k x hx =>
        hrec _ _ _ _ (.inr ⟨by simp [nested, hi], .inl ⟨xs, hv, hx⟩⟩)) ?_
      rintro ⟨b, best⟩ _
      cases b <;> cases best <;> exact .pure

theorem patternLoop_ne {p c key value} {kvs} (hv : v = .obj kvs) (hm : (key, value) ∈ kvs) :
    ∀ {l : List (String × Id)} {k}, (∀ q ∈ l, q ∈ s.patternProperties) →
    NE e (patternLoop env rec p key value c k l) := by
  intro l
  induction l with
  | nil => intros; exact .ok
  | cons q qs ih =>
    obtain ⟨pat, i⟩ := q
    intro k h
    rw [patternLoop]
    refine .bind ?_ fun _ _ => .bind (ih fun q hq => h q (by simp [hq])) fun _ _ => .pure
    unfold patternOne
    split
    · refine .bind (hrec _ _ _ _ (.inr ⟨?_, .inr ⟨kvs, hv, .inl ⟨key, hm⟩⟩⟩)) fun _ _ => .pure
      have : i ∈ s.patternProperties.map Prod.snd := List.mem_map.2 ⟨(pat, i), h _ (by simp), rfl⟩
      simp only [nested, List.mem_append]
      tauto
    · exact .pure

theorem checkProperty_ne {p c key value} {kvs} (hv : v = .obj kvs) (hm : (key, value) ∈ kvs) :
    NE e (checkProperty env σ rec p s key value c) := by
  unfold checkProperty
  refine .bind ?_ ?_
  · unfold validatePatternProperty
    refine .bind (patternLoop_ne hrec hv hm fun q hq => (σ.perm _ _).mem_iff.1 hq) ?_
    rintro ⟨b, r⟩ _
    cases b <;> exact .pure
  · rintro ⟨b, r⟩ _
    simp only
    split
    · split
      · split <;> exact .pure
      · rename_i i hi
        refine .bind (hrec _ _ _ _ (.inr ⟨?_, .inr ⟨kvs, hv, .inl ⟨key, hm⟩⟩⟩)) fun _ _ => .pure
        simp [nested, hi, extraId]
      · exact .pure
    · exact .pure

theorem validateObject_ne {p c} {kvs} (hv : v = .obj kvs) :
    NE e (validateObject env σ rec p s kvs c) := by
  unfold validateObject
  refine .bind (.forEach fun k kv hkv => checkProperty_ne hrec hv ((σ.perm _ _).mem_iff.1 hkv)) fun _ _ =>
    .bind ?_ fun _ _ => .pure
  unfold checkPropertyNames
  split
  · exact .pure
  · rename_i i hi
    refine .forEach fun k kv hkv => .bind (hrec _ _ _ _ (.inr ⟨by simp [nested, hi],
      .inr ⟨kvs, hv, .inr ⟨kv.1, List.mem_map.2 ⟨kv, (σ.perm _ _).mem_iff.1 hkv, rfl⟩, rfl⟩⟩⟩)) fun _ _ => ?_
    split <;> exact .pure

theorem checkProperties_ne {p c} {kvs} (hv : v = .obj kvs) : NE e (checkProperties rec p s kvs c) := by
  unfold checkProperties
  refine .forEach fun k q hq => ?_
  split
  · rename_i x hx
    refine hrec _ _ _ _ (.inr ⟨?_, .inr ⟨kvs, hv, .inl ⟨q.1, lookup_some_mem hx⟩⟩⟩)
    have : q.2 ∈ s.propertiesChildren.map Prod.snd := List.mem_map.2 ⟨q, hq, rfl⟩
    simp only [nested, List.mem_append]
    tauto
  · exact .pure

omit hrec in
include hloc in
theorem validateNumber_ne {c} : NE e (validateNumber env s v c) := by
  unfold validateNumber
  split
  · rename_i n
    have hr : e = .panic → ∃ q, env.rat n = some q := by
      intro he
      have := (hloc he).2.2
      cases this with
      | num _ h1 _ => exact ⟨n.val, by simp [Env.rat, h1]⟩
    have bc : ∀ {bound bad kind}, NE e (boundCheck (env.rat n) bound bad kind c (.num n)) := by
      intro bound bad kind
      unfold boundCheck
      split
      · exact .pure
      · split
        · rename_i hx
          intro he
          have : e = .panic := by simpa [throw, throwThe, MonadExceptOf.throw] using he.symm
          obtain ⟨q, hq⟩ := hr this
          simp [hq] at hx
        · split <;> exact .pure
    refine .bind ?_ fun _ _ => .bind bc fun _ _ => .bind bc fun _ _ => .bind bc fun _ _ => .bind bc fun _ _ => .pure
    unfold checkMultipleOf
    split
    · exact .pure
    · rename_i b hb
      split
      · rename_i hx
        intro he
        have : e = .panic := by simpa [throw, throwThe, MonadExceptOf.throw] using he.symm
        obtain ⟨q, hq⟩ := hr this
        simp [hq] at hx
      · split
        · rename_i h0
          intro he
          have : e = .panic := by simpa [throw, throwThe, MonadExceptOf.throw] using he.symm
          have h1 : b = 0 := by simpa using h0
          exact (hloc this).2.1 (by rw [hb, h1])
        · split <;> exact .pure
  · exact .pure

include hloc in
theorem validateNode_ne {p c} : NE e (validateNode env σ rec p s v c) := by
  unfold validateNode
  refine .bind (validateSchema_ne hrec hloc) fun _ _ => ?_
  cases hv : v with
  | null => subst hv; exact .bind (validateCommon_ne hloc) fun _ _ => .pure
  | arr xs =>
    subst hv
    exact .bind (validateArray_ne hrec hloc rfl) fun _ _ => .bind (validateCommon_ne hloc) fun _ _ => .pure
  | obj kvs =>
    subst hv
    exact .bind (validateObject_ne hrec rfl) fun _ _ => .bind (validateCommon_ne hloc) fun _ _ =>
      .bind (checkProperties_ne hrec rfl) fun _ _ => .pure
  | bool b =>
    subst hv; exact .bind (validateNumber_ne hloc) fun _ _ => .bind (validateCommon_ne hloc) fun _ _ => .pure
  | str b =>
    subst hv; exact .bind (validateNumber_ne hloc) fun _ _ => .bind (validateCommon_ne hloc) fun _ _ => .pure
  | num b =>
    subst hv; exact .bind (validateNumber_ne hloc) fun _ _ => .bind (validateCommon_ne hloc) fun _ _ => .pure

end

theorem validateStep_ne {e : Abort} {env σ h rec p i v c}
    (hid : e = .panic → i < h.length)
    (hloc : e = .panic → ∀ s, h[i]? = some s → LocalOK env s v)
    (hrec : ∀ s, h[i]? = some s → ∀ p j w c, Calls s v j w → NE e (rec p j w c)) :
    NE e (validateStep env σ h rec p i v c) := by
  unfold validateStep
  split
  · rename_i hi
    intro he
    have : e = .panic := by simpa [throw, throwThe, MonadExceptOf.throw] using he.symm
    have h2 := hid this
    exact absurd (List.getElem?_eq_none_iff.1 hi) (Nat.not_le.2 h2)
  · rename_i s hs
    split
    · split <;> exact .pure
    · split
      · rename_i j hj
        exact hrec s hs _ _ _ _ (.inl ⟨by simp [inPlace, hj], rfl⟩)
      · split
        · exact .pure
        · exact .bind (validateNode_ne (fun he => hloc he s hs) (hrec s hs)) fun _ _ => .pure

theorem inside_size {v w : Json} (h : Inside v w) : w.size < v.size := by
  rcases h with ⟨xs, rfl, hw⟩ | ⟨kvs, rfl, ⟨k, hk⟩ | ⟨k, hk, rfl⟩⟩
  · exact Json.size_lt_of_mem hw
  · have := Json.size_lt_of_mem_kv hk; omega
  · obtain ⟨⟨k', x⟩, hx, rfl⟩ := List.mem_map.1 hk
    have := Json.size_lt_of_mem_kv hx
    simp [Json.size] at this ⊢; omega

theorem inside_inRange {env v w} (hv : InRange env v) (h : Inside v w) : InRange env w := by
  rcases h with ⟨xs, rfl, hw⟩ | ⟨kvs, rfl, ⟨k, hk⟩ | ⟨k, hk, rfl⟩⟩
  · cases hv with | arr _ h => exact h _ hw
  · cases hv with | obj _ h => exact h _ _ hk
  · exact .str k

/-- With a ranking of the in-place edges, enough fuel always suffices. -/
theorem no_fuel {env σ h} {rank : Id → Nat} {R : Nat} (hR : ∀ i, rank i ≤ R)
    (hrank : ∀ i j, InPlaceEdge h i j → rank j < rank i) :
    ∀ n i v p c, v.size * (R + 1) + rank i < n → NE .fuel (validateRecursive env σ h n p i v c) := by
  intro n
  induction n with
  | zero => intro i v p c h; omega
  | succ n ih =>
    intro i v p c hn
    refine validateStep_ne (by simp) (by simp) ?_
    rintro s hs p j w c (⟨hj, rfl⟩ | ⟨_, hw⟩)
    · have := hrank i j ⟨s, hs, hj⟩
      exact ih _ _ _ _ (by omega)
    · have h1 := inside_size hw
      have h2 := hR j
      refine ih _ _ _ _ ?_
      have : (w.size + 1) * (R + 1) ≤ v.size * (R + 1) := Nat.mul_le_mul_right _ h1
      rw [Nat.add_mul] at this
      omega

/-- On a closed heap and an in-range instance there is no panic. -/
theorem no_panic {env σ h} (hh : HeapOK h) : ∀ n i v p c, i < h.length → InRange env v →
    NE .panic (validateRecursive env σ h n p i v c) := by
  intro n
  induction n with
  | zero => intros; simp [NE, validateRecursive, throw, throwThe, MonadExceptOf.throw]
  | succ n ih =>
    intro i v p c hi hv
    refine validateStep_ne (fun _ => hi) ?_ ?_
    · intro _ s hs
      have := hh s (List.mem_of_getElem? hs)
      exact ⟨this.2.1, this.2.2, hv⟩
    · rintro s hs p j w c hc
      have hm := (hh s (List.mem_of_getElem? hs)).1
      rcases hc with ⟨hj, rfl⟩ | ⟨hj, hw⟩
      · exact ih _ _ _ _ (hm j (by simp [hj])) hv
      · exact ih _ _ _ _ (hm j (by simp [hj])) (inside_inRange hv hw)

end GJS

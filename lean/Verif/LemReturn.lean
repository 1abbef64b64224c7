import Verif.LemAbort
import Verif.SpecReturn
import Verif.LemMeaning
/-
Helper lemmas on which nested calls a call makes.
-/
namespace GJS
open Spec

/-! ### The rules depend on the needed answers only -/

/-- The first of the positions at which `P` holds. -/
theorem first_of {P : Nat → Prop} {k : Nat} (h : P k) : ∃ m, m ≤ k ∧ P m ∧ ∀ m' < m, ¬ P m' := by
  induction k using Nat.strongRecOn with
  | ind k ih =>
    by_cases hk : ∃ m < k, P m
    · obtain ⟨m, h1, h2⟩ := hk
      obtain ⟨m', h3, h4⟩ := ih m h1 h2
      exact ⟨m', by omega, h4⟩
    · exact ⟨k, Nat.le_refl _, h, fun m' h1 h2 => hk ⟨m', h1, h2⟩⟩

section
variable {env : Env} {S T : Id → Json → Prop} {s : Sub} {v : Json}
variable (H : ∀ j w, Needs env S s v j w → (S j w ↔ T j w))
include H

/-- What is false for `T` before a position is false for `S` as well. -/
theorem anyOf_before {k : Nat} (h : ∀ (k' : Nat) i', k' < k → s.anyOf[k']? = some i' → ¬ T i' v) :
    ∀ (k' : Nat) i', k' < k → s.anyOf[k']? = some i' → ¬ S i' v := by
  intro k'
  induction k' using Nat.strongRecOn with
  | ind k' ih =>
    intro i' hk hi hS
    exact h k' i' hk hi ((H _ _ (.anyOf k' i' v hi fun k'' i'' h1 h2 => ih k'' h1 i'' (by omega) h2)).1 hS)

theorem contains_before {xs i} (hv : v = .arr xs) (hi : s.contains = some i) {k : Nat}
    (h : ∀ (k' : Nat) y, k' < k → xs[k']? = some y → ¬ T i y) : ∀ (k' : Nat) y, k' < k → xs[k']? = some y → ¬ S i y := by
  subst hv
  intro k'
  induction k' using Nat.strongRecOn with
  | ind k' ih =>
    intro y hk hy hS
    exact h k' y hk hy ((H _ _ (.contains k' xs i y hi hy fun k'' y' h1 h2 => ih k'' h1 y' (by omega) h2)).1 hS)

theorem needs_back {j w} (h : Needs env T s v j w) : Needs env S s v j w := by
  cases h with
  | anyOf k i v h1 h2 => exact .anyOf k _ _ h1 (anyOf_before H h2)
  | oneOf i v h => exact .oneOf _ _ h
  | allOf i v h => exact .allOf _ _ h
  | not i v h => exact .not _ _ h
  | dependency kvs k i h1 h2 => exact .dependency _ _ _ h1 h2
  | if_ i v h => exact .if_ _ _ h
  | then_ i t v h1 h2 h3 => exact .then_ i _ _ h1 h2 ((H _ _ (.if_ i _ h1)).2 h3)
  | else_ i t v h1 h2 h3 => exact .else_ i _ _ h1 h2 fun h => h3 ((H _ _ (.if_ i _ h1)).1 h)
  | items xs i x h1 h2 h3 => exact .items _ _ _ h1 h2 h3
  | itemAt k xs i x h1 h2 h3 => exact .itemAt k _ _ _ h1 h2 h3
  | additionalItem k xs i x h1 h2 h3 h4 h5 => exact .additionalItem k _ _ _ h1 h2 h3 h4 h5
  | contains k xs i x h1 h2 h3 => exact .contains k _ _ _ h1 h2 (contains_before H rfl h1 h3)
  | property kvs name i x h1 h2 => exact .property _ name _ _ h1 h2
  | patternProperty kvs pat i k x h1 h2 h3 => exact .patternProperty _ pat _ k _ h1 h2 h3
  | additionalProperty kvs i k x h1 h2 h3 h4 => exact .additionalProperty _ _ k _ h1 h2 h3 h4
  | propertyName kvs i k h1 h2 => exact .propertyName _ _ _ h1 h2

theorem keywords_needs : Keywords env S s v ↔ Keywords env T s v := by
  have anyOf : AnyOfRule S s.anyOf v ↔ AnyOfRule T s.anyOf v := by
    unfold AnyOfRule
    refine or_congr Iff.rfl ⟨?_, ?_⟩
    · rintro ⟨i, hi, hS⟩
      obtain ⟨k, hk⟩ := List.getElem?_of_mem hi
      obtain ⟨m, _, ⟨i', h1, h2⟩, h3⟩ := first_of (P := fun k => ∃ i, s.anyOf[k]? = some i ∧ S i v) ⟨i, hk, hS⟩
      exact ⟨i', List.mem_of_getElem? h1,
        (H _ _ (.anyOf m i' v h1 fun k' i'' a b c => h3 k' a ⟨i'', b, c⟩)).1 h2⟩
    · rintro ⟨i, hi, hT⟩
      obtain ⟨k, hk⟩ := List.getElem?_of_mem hi
      obtain ⟨m, _, ⟨i', h1, h2⟩, h3⟩ := first_of (P := fun k => ∃ i, s.anyOf[k]? = some i ∧ T i v) ⟨i, hk, hT⟩
      refine ⟨i', List.mem_of_getElem? h1, (H _ _ (.anyOf m i' v h1 ?_)).2 h2⟩
      exact anyOf_before H fun k' i'' a b c => h3 k' a ⟨i'', b, c⟩
  have oneOf : OneOfRule S s.oneOf v ↔ OneOfRule T s.oneOf v := by
    have e : ∀ {k : Nat} {i}, s.oneOf[k]? = some i → (S i v ↔ T i v) := fun h => H _ _ (.oneOf _ _ (List.mem_of_getElem? h))
    unfold OneOfRule
    refine or_congr Iff.rfl ⟨?_, ?_⟩
    · rintro ⟨k, i, h1, h2, h3⟩
      exact ⟨k, i, h1, (e h1).1 h2, fun k' i' a b => h3 k' i' a ((e a).2 b)⟩
    · rintro ⟨k, i, h1, h2, h3⟩
      exact ⟨k, i, h1, (e h1).2 h2, fun k' i' a b => h3 k' i' a ((e a).1 b)⟩
  have allOf : AllOfRule S s.allOf v ↔ AllOfRule T s.allOf v :=
    forall₂_congr fun i hi => H _ _ (.allOf _ _ hi)
  have not : NotRule S s.not v ↔ NotRule T s.not v :=
    forall₂_congr fun i hi => not_congr (H _ _ (.not _ _ hi))
  have deps : DependenciesRule S s.dependencies v ↔ DependenciesRule T s.dependencies v := by
    unfold DependenciesRule
    refine forall₂_congr fun kvs hv => forall₂_congr fun k hk => and_congr Iff.rfl (forall₂_congr fun i hi => ?_)
    subst hv
    exact H _ _ (.dependency _ k _ hk hi)
  have ifs : IfRule S s.if_ s.then_ s.else_ v ↔ IfRule T s.if_ s.then_ s.else_ v := by
    unfold IfRule
    refine forall₂_congr fun i hi => and_congr (forall₂_congr fun t ht => ?_) (forall₂_congr fun t ht => ?_)
    · have e := H _ _ (.if_ _ _ hi)
      exact ⟨fun h a => (H _ _ (.then_ i t v hi ht (e.2 a))).1 (h (e.2 a)), fun h a => (H _ _ (.then_ i t v hi ht a)).2 (h (e.1 a))⟩
    · have e := H _ _ (.if_ _ _ hi)
      exact ⟨fun h a => (H _ _ (.else_ i t v hi ht fun b => a (e.1 b))).1 (h fun b => a (e.1 b)),
        fun h a => (H _ _ (.else_ i t v hi ht a)).2 (h fun b => a (e.2 b))⟩
  have arr : ArrayRules env S s v ↔ ArrayRules env T s v := by
    unfold ArrayRules
    refine forall₂_congr fun xs hv => ?_
    subst hv
    refine and_congr ?_ (and_congr Iff.rfl (and_congr Iff.rfl ?_))
    · unfold ItemsRule
      split
      · rename_i hs
        exact forall₂_congr fun x hx => exists_congr fun i => and_congr_right fun hi => H _ _ (.items _ _ _ hs hi hx)
      · rename_i hs
        have hs : s.itemsChildrenIsSingleSchema = false := by simpa using hs
        refine and_congr ?_ (imp_congr_right fun hne => ?_)
        · exact forall_congr' fun k => forall_congr' fun i => forall_congr' fun x => forall₂_congr fun a b =>
            H _ _ (.itemAt k _ _ _ hs a b)
        · unfold AdditionalItemsRule
          cases ha : s.additionalItems with
          | absent => exact Iff.rfl
          | bool b => exact Iff.rfl
          | schema i =>
            exact forall_congr' fun k => forall_congr' fun x => forall₂_congr fun a b =>
              H _ _ (.additionalItem k _ _ _ hs hne ha a b)
    · unfold ContainsRule
      refine forall₂_congr fun i hi => ⟨?_, ?_⟩
      · rintro ⟨x, hx, hS⟩
        obtain ⟨k, hk⟩ := List.getElem?_of_mem hx
        obtain ⟨m, _, ⟨y, h1, h2⟩, h3⟩ := first_of (P := fun k => ∃ x, xs[k]? = some x ∧ S i x) ⟨x, hk, hS⟩
        exact ⟨y, List.mem_of_getElem? h1,
          (H _ _ (.contains m xs i y hi h1 fun k' y' a b c => h3 k' a ⟨y', b, c⟩)).1 h2⟩
      · rintro ⟨x, hx, hT⟩
        obtain ⟨k, hk⟩ := List.getElem?_of_mem hx
        obtain ⟨m, _, ⟨y, h1, h2⟩, h3⟩ := first_of (P := fun k => ∃ x, xs[k]? = some x ∧ T i x) ⟨x, hk, hT⟩
        refine ⟨y, List.mem_of_getElem? h1, (H _ _ (.contains m xs i y hi h1 ?_)).2 h2⟩
        exact contains_before H rfl hi fun k' y' a b c => h3 k' a ⟨y', b, c⟩
  have obj : ObjectRules env S s v ↔ ObjectRules env T s v := by
    unfold ObjectRules
    refine forall₂_congr fun kvs hv => ?_
    subst hv
    refine and_congr Iff.rfl (and_congr Iff.rfl (and_congr ?_ (and_congr ?_ (and_congr ?_ ?_))))
    · exact forall_congr' fun name => forall₂_congr fun i a => forall₂_congr fun x b => H _ _ (.property _ name _ _ a b)
    · exact forall_congr' fun pat => forall₂_congr fun i a => forall_congr' fun k => forall₂_congr fun x b =>
        forall_congr' fun c => H _ _ (.patternProperty _ pat _ k _ a b c)
    · unfold AdditionalRule
      refine forall_congr' fun k => forall₂_congr fun x a => forall₂_congr fun b c => ?_
      unfold ExtraRule
      cases ha : s.additionalProperties with
      | absent => exact Iff.rfl
      | bool b => exact Iff.rfl
      | schema i => exact H _ _ (.additionalProperty _ _ k _ ha a b c)
    · exact forall₂_congr fun i hi => forall₂_congr fun k hk => H _ _ (.propertyName _ _ _ hi hk)
  unfold Keywords
  rw [anyOf, oneOf, allOf, not, deps, ifs, arr, obj]

end

/-! ### A call that returns has made the needed calls -/

/-- The call returns, for some path and context. -/
def Back (rec : Rec) (j : Id) (w : Json) : Prop := ∃ p c r, rec p j w c = .ok r

theorem forEach_each {α : Type} {f : Nat → α → Exec Result} : ∀ {l : List α} {k r}, forEach f k l = .ok r →
    ∀ (m : Nat) x, l[m]? = some x → ∃ r', f (k + m) x = .ok r' := by
  intro l
  induction l with
  | nil => intro k r _ m x h; simp at h
  | cons y ys ih =>
    intro k r h m x hm
    simp only [forEach, Exec.bind_ok] at h
    obtain ⟨r1, h1, r2, h2, _⟩ := h
    cases m with
    | zero => simp at hm; subst hm; exact ⟨r1, h1⟩
    | succ m =>
      obtain ⟨r', h3⟩ := ih h2 m x (by simpa using hm)
      exact ⟨r', by rw [← h3]; congr 1; omega⟩

theorem forEach_each_mem {α : Type} {f : Nat → α → Exec Result} {l : List α} {k r} (h : forEach f k l = .ok r) {x}
    (hx : x ∈ l) : ∃ m r', f m x = .ok r' := by
  obtain ⟨m, hm⟩ := List.getElem?_of_mem hx
  obtain ⟨r', h'⟩ := forEach_each h m x hm
  exact ⟨_, r', h'⟩

section
variable {env : Env} {σ : Sched} {rec : Rec} {Sat : Id → Json → Prop} {s : Sub} {v : Json}
variable (A : Agrees rec Sat)
include A

theorem anyOfLoop_back {p c} : ∀ {l : List Id} {k best o}, anyOfLoop (fun k i => rec (k :: p) i v c) k l false best = .ok o →
    ∀ (m : Nat) i, l[m]? = some i → (∀ (k' : Nat) i', k' < m → l[k']? = some i' → ¬ Sat i' v) → Back rec i v := by
  intro l
  induction l with
  | nil => intro k best o _ m i h; simp at h
  | cons j js ih =>
    intro k best o h m i hm hb
    simp only [anyOfLoop, Bool.not_false, if_true, Exec.bind_ok] at h
    obtain ⟨r, hr, h⟩ := h
    cases m with
    | zero => simp at hm; subst hm; exact ⟨_, _, _, hr⟩
    | succ m =>
      have : r.valid = false := by
        have := hb 0 j (by omega) rfl
        rw [← A _ _ _ _ _ hr] at this
        simpa using this
      rw [this] at h
      exact ih h m i (by simpa using hm) fun k' i' h1 h2 => hb (k' + 1) i' (by omega) (by simpa using h2)

omit A in
theorem oneOfLoop_back {p c} : ∀ {l : List Id} {k n best o}, oneOfLoop (fun k i => rec (k :: p) i v c) k l n best = .ok o →
    ∀ i ∈ l, Back rec i v := by
  intro l
  induction l with
  | nil => intro k n best o _ i h; cases h
  | cons j js ih =>
    intro k n best o h i hi
    simp only [oneOfLoop, Exec.bind_ok] at h
    obtain ⟨r, hr, h⟩ := h
    cases hi with
    | head => exact ⟨_, _, _, hr⟩
    | tail _ hi =>
      split at h
      · exact ih h i hi
      · split at h <;> exact ih h i hi

omit A in
theorem allOfLoop_back {p c} : ∀ {l : List Id} {k o}, allOfLoop (fun k i => rec (k :: p) i v c) k l = .ok o →
    ∀ i ∈ l, Back rec i v := by
  intro l
  induction l with
  | nil => intro k o _ i h; cases h
  | cons j js ih =>
    intro k o h i hi
    simp only [allOfLoop, Exec.bind_ok] at h
    obtain ⟨r, hr, o', h, _⟩ := h
    cases hi with
    | head => exact ⟨_, _, _, hr⟩
    | tail _ hi => exact ih h i hi

theorem containsLoop_back {p : Path} {c : Nat → Ctx} {i} : ∀ {l : List Json} {k best o},
    containsLoop (fun k x => rec (k :: p) i x (c k)) k l best = .ok o →
    ∀ (m : Nat) x, l[m]? = some x → (∀ (k' : Nat) y, k' < m → l[k']? = some y → ¬ Sat i y) → Back rec i x := by
  intro l
  induction l with
  | nil => intro k best o _ m i h; simp at h
  | cons j js ih =>
    intro k best o h m x hm hb
    simp only [containsLoop, Exec.bind_ok] at h
    obtain ⟨r, hr, h⟩ := h
    cases m with
    | zero => simp at hm; subst hm; exact ⟨_, _, _, hr⟩
    | succ m =>
      have : r.valid = false := by
        have := hb 0 j (by omega) rfl
        rw [← A _ _ _ _ _ hr] at this
        simpa using this
      rw [this] at h
      exact ih h m x (by simpa using hm) fun k' i' h1 h2 => hb (k' + 1) i' (by omega) (by simpa using h2)

omit A in
theorem patternLoop_back {p key value c} : ∀ {l : List (String × Id)} {k o}, patternLoop env rec p key value c k l = .ok o →
    ∀ pat i, (pat, i) ∈ l → env.reMatch pat key = true → Back rec i value := by
  intro l
  induction l with
  | nil => intro k o _ pat i h; cases h
  | cons q qs ih =>
    obtain ⟨pat', i'⟩ := q
    intro k o h pat i hi hm
    simp only [patternLoop, Exec.bind_ok] at h
    obtain ⟨r, hr, o', h, _⟩ := h
    cases hi with
    | head =>
      simp only [patternOne, hm, if_true, Exec.bind_ok] at hr
      obtain ⟨r', hr', _⟩ := hr
      exact ⟨_, _, _, hr'⟩
    | tail _ hi => exact ih h pat i hi hm

theorem validateSchema_back {p c r} (h : validateSchema env σ rec p s v c = .ok r) {j w} (hn : Needs env Sat s v j w)
    (hi : (∃ k : Nat, s.anyOf[k]? = some j ∧ w = v ∧ ∀ (k' : Nat) i', k' < k → s.anyOf[k']? = some i' → ¬ Sat i' v) ∨
      (w = v ∧ (j ∈ s.oneOf ∨ j ∈ s.allOf ∨ s.not = some j)) ∨
      (∃ kvs k, v = .obj kvs ∧ w = v ∧ k ∈ kvs.map Prod.fst ∧ getKey k s.dependencies = some (.schema j)) ∨
      (w = v ∧ (s.if_ = some j ∨ ∃ i, s.if_ = some i ∧ (s.then_ = some j ∧ Sat i v ∨ s.else_ = some j ∧ ¬ Sat i v)))) :
    Back rec j w := by
  simp only [validateSchema, Exec.bind_ok] at h
  obtain ⟨r1, h1, r2, h2, r3, h3, r4, h4, r5, h5, r6, h6, _⟩ := h
  rcases hi with ⟨k, a1, rfl, a2⟩ | ⟨rfl, a | a | a⟩ | ⟨kvs, k, rfl, rfl, a1, a2⟩ | ⟨rfl, a⟩
  · unfold checkAnyOf at h1
    have hl : s.anyOf.length > 0 := List.length_pos_of_mem (List.mem_of_getElem? a1)
    rw [if_pos hl] at h1
    obtain ⟨o, ho, _⟩ := Exec.bind_ok.1 h1
    exact anyOfLoop_back A ho k j a1 a2
  · unfold checkOneOf at h2
    rw [if_pos (List.length_pos_of_mem a)] at h2
    obtain ⟨o, ho, _⟩ := Exec.bind_ok.1 h2
    exact oneOfLoop_back ho j a
  · unfold checkAllOf at h3
    rw [if_pos (List.length_pos_of_mem a)] at h3
    obtain ⟨o, ho, _⟩ := Exec.bind_ok.1 h3
    exact allOfLoop_back ho j a
  · simp only [checkNot, a, Exec.bind_ok] at h4
    obtain ⟨r, hr, _⟩ := h4
    exact ⟨_, _, _, hr⟩
  · have hl : s.dependencies.length > 0 := List.length_pos_of_mem (lookup_some_mem a2)
    simp only [checkDependencies, hl, if_true] at h5
    obtain ⟨⟨k', x⟩, hx, rfl⟩ := List.mem_map.1 a1
    obtain ⟨m, r', h'⟩ := forEach_each_mem h5 ((σ.perm _ _).mem_iff.2 hx)
    simp only [checkDependency, a2] at h'
    exact ⟨_, _, _, h'⟩
  · unfold checkIf at h6
    rcases a with a | ⟨i, a, a' | a'⟩
    · simp only [a, Exec.bind_ok] at h6
      obtain ⟨r, hr, _⟩ := h6
      exact ⟨_, _, _, hr⟩
    · simp only [a, Exec.bind_ok] at h6
      obtain ⟨r, hr, ra, ha, rb, hb, _⟩ := h6
      have : r.valid = true := (A _ _ _ _ _ hr).2 a'.2
      simp only [checkBranch, a'.1, this, if_true, Exec.bind_ok] at ha
      obtain ⟨r', hr', _⟩ := ha
      exact ⟨_, _, _, hr'⟩
    · simp only [a, Exec.bind_ok] at h6
      obtain ⟨r, hr, ra, ha, rb, hb, _⟩ := h6
      have : r.valid = false := by
        have := a'.2
        rw [← A _ _ _ _ _ hr] at this
        simpa using this
      simp only [checkBranch, a'.1, this, Bool.not_false, if_true, Exec.bind_ok] at hb
      obtain ⟨r', hr', _⟩ := hb
      exact ⟨_, _, _, hr'⟩

theorem validateNode_back {p c r} (h : validateNode env σ rec p s v c = .ok r) {j w} (hn : Needs env Sat s v j w) :
    Back rec j w := by
  simp only [validateNode, Exec.bind_ok] at h
  obtain ⟨r1, h1, h⟩ := h
  have sch := validateSchema_back A h1 hn
  cases hn with
  | anyOf k i v a b => exact sch (.inl ⟨k, a, rfl, b⟩)
  | oneOf i v a => exact sch (.inr (.inl ⟨rfl, .inl a⟩))
  | allOf i v a => exact sch (.inr (.inl ⟨rfl, .inr (.inl a)⟩))
  | not i v a => exact sch (.inr (.inl ⟨rfl, .inr (.inr a)⟩))
  | dependency kvs k i a b => exact sch (.inr (.inr (.inl ⟨kvs, k, rfl, rfl, a, b⟩)))
  | if_ i v a => exact sch (.inr (.inr (.inr ⟨rfl, .inl a⟩)))
  | then_ i t v a b c => exact sch (.inr (.inr (.inr ⟨rfl, .inr ⟨i, a, .inl ⟨b, c⟩⟩⟩)))
  | else_ i t v a b c => exact sch (.inr (.inr (.inr ⟨rfl, .inr ⟨i, a, .inr ⟨b, c⟩⟩⟩)))
  | items xs i x a b c =>
    simp only [Exec.bind_ok, validateArray, checkItems, a, if_true] at h
    obtain ⟨_, ⟨r2, h2, _⟩, _⟩ := h
    obtain ⟨m, r', h'⟩ := forEach_each_mem h2 c
    cases hc : s.itemsChildren with
    | nil => rw [hc] at b; cases b
    | cons y ys => rw [hc] at b h'; cases b; exact ⟨_, _, _, h'⟩
  | itemAt k xs i x a b c =>
    have hl : s.itemsChildren.length > 0 := List.length_pos_of_mem (List.mem_of_getElem? b)
    simp only [Exec.bind_ok, validateArray, checkItems, a, hl, if_true, Bool.false_eq_true, if_false] at h
    obtain ⟨_, ⟨r2, ⟨r3, h3, _⟩, _⟩, _⟩ := h
    obtain ⟨r', h'⟩ := forEach_each h3 k (j, w) (by rw [List.getElem?_zip_eq_some]; exact ⟨b, c⟩)
    exact ⟨_, _, _, h'⟩
  | additionalItem k xs i x a hne b c d =>
    have hl : s.itemsChildren.length > 0 := List.length_pos_iff.2 hne
    simp only [Exec.bind_ok, validateArray, checkItems, a, hl, if_true, Bool.false_eq_true, if_false] at h
    obtain ⟨_, ⟨r2, ⟨r3, h3, r4, h4, _⟩, _⟩, _⟩ := h
    have hk : k < xs.length := (List.getElem?_eq_some_iff.1 d).1
    have hlt : s.itemsChildren.length < xs.length := by omega
    simp only [checkAdditionalItems, hlt, if_true, b] at h4
    obtain ⟨r', h'⟩ := forEach_each h4 (k - s.itemsChildren.length) w (by
      rw [List.getElem?_drop, show s.itemsChildren.length + (k - s.itemsChildren.length) = k by omega]; exact d)
    exact ⟨_, _, _, h'⟩
  | contains k xs i x a b c =>
    simp only [Exec.bind_ok, validateArray] at h
    obtain ⟨_, ⟨r2, _, r3, _, r4, h4, _⟩, _⟩ := h
    simp only [checkContains, a, Exec.bind_ok] at h4
    obtain ⟨o, ho, _⟩ := h4
    exact containsLoop_back A (c := fun k => toString k :: _) ho k w b c
  | property kvs name i x a b =>
    simp only [Exec.bind_ok] at h
    obtain ⟨_, _, _, _, r4, h4, _⟩ := h
    obtain ⟨m, r', h'⟩ := forEach_each_mem h4 a
    simp only [b] at h'
    exact ⟨_, _, _, h'⟩
  | patternProperty kvs pat i k x a b c =>
    simp only [Exec.bind_ok, validateObject] at h
    obtain ⟨_, ⟨r3, h3, _⟩, _⟩ := h
    obtain ⟨m, r', h'⟩ := forEach_each_mem h3 ((σ.perm _ _).mem_iff.2 b)
    simp only [checkProperty, validatePatternProperty, Exec.bind_ok] at h'
    obtain ⟨_, ⟨o, ho, _⟩, _⟩ := h'
    exact patternLoop_back ho pat j ((σ.perm _ _).mem_iff.2 a) c
  | additionalProperty kvs i k x a b c d =>
    simp only [Exec.bind_ok, validateObject] at h
    obtain ⟨_, ⟨r3, h3, _⟩, _⟩ := h
    obtain ⟨m, r', h'⟩ := forEach_each_mem h3 ((σ.perm _ _).mem_iff.2 b)
    simp only [checkProperty, validatePatternProperty, Exec.bind_ok] at h'
    obtain ⟨⟨b1, r1⟩, ⟨o, ho, h''⟩, h'⟩ := h'
    have ho1 : o.1 = false := by
      have := (patternLoop_valid A _ _ _ ho).1
      cases hb : o.1 with
      | false => rfl
      | true =>
        obtain ⟨⟨pat, i'⟩, hq, hm⟩ := this.1 hb
        rw [d pat i' ((σ.perm _ _).mem_iff.1 hq)] at hm
        cases hm
    rw [ho1] at h''
    cases h''
    have hf : (s.propertiesChildren.any fun q => k == q.1) = false := by
      rw [List.any_eq_false]
      rintro ⟨n, i'⟩ hq he
      have : k = n := by simpa using he
      exact c i' (this ▸ hq)
    simp only [hf, Bool.not_false, Bool.and_self, if_true, a, Exec.bind_ok] at h'
    obtain ⟨r', hr', _⟩ := h'
    exact ⟨_, _, _, hr'⟩
  | propertyName kvs i k a b =>
    simp only [Exec.bind_ok, validateObject] at h
    obtain ⟨_, ⟨r3, h3, r4, h4, _⟩, _⟩ := h
    simp only [checkPropertyNames, a] at h4
    obtain ⟨⟨k', x⟩, hx, rfl⟩ := List.mem_map.1 b
    obtain ⟨m, r', h'⟩ := forEach_each_mem h4 ((σ.perm _ _).mem_iff.2 hx)
    obtain ⟨r'', hr'', _⟩ := Exec.bind_ok.1 h'
    exact ⟨_, _, _, hr''⟩

end

/-! ### A call runs out of fuel only if a needed call does -/

section
variable {env : Env} {σ : Sched} {rec : Rec} {Sat : Id → Json → Prop} {s : Sub} {v : Json}
variable (A : Agrees rec Sat)
variable (N : ∀ p j w c, Needs env Sat s v j w → NE .fuel (rec p j w c))

theorem NE.throw_panic {α : Type} : NE .fuel (throw Abort.panic : Exec α) := by
  simp [NE, throw, throwThe, MonadExceptOf.throw]

theorem NE.forEach_idx {α : Type} {e : Abort} {f : Nat → α → Exec Result} :
    ∀ {l : List α} {k}, (∀ (m : Nat) x, l[m]? = some x → NE e (f (k + m) x)) → NE e (GJS.forEach f k l) := by
  intro l
  induction l with
  | nil => intro k _; exact .ok
  | cons x xs ih =>
    intro k h
    rw [GJS.forEach]
    refine .bind (h 0 x rfl) fun _ _ => .bind (ih fun m y hy => ?_) fun _ _ => .pure
    have := h (m + 1) y (by simpa using hy)
    rwa [show k + (m + 1) = k + 1 + m by omega] at this

include A in
theorem anyOfLoop_needs {p : Path} {c} : ∀ {l : List Id} {k best},
    (∀ (m : Nat) i, l[m]? = some i → (∀ (k' : Nat) i', k' < m → l[k']? = some i' → ¬ Sat i' v) → ∀ p c, NE .fuel (rec p i v c)) →
    NE .fuel (anyOfLoop (fun k i => rec (k :: p) i v c) k l false best) := by
  intro l
  induction l with
  | nil => intros; exact .ok
  | cons i is ih =>
    intro k best h
    simp only [anyOfLoop, Bool.not_false, if_true]
    refine .bind (h 0 i rfl (by omega) _ _) fun r hr => ?_
    cases hv : r.valid with
    | true =>
      have stop : ∀ {l : List Id} {k best}, NE .fuel (anyOfLoop (fun k i => rec (k :: p) i v c) k l true best) := by
        intro l
        induction l with
        | nil => intros; exact .ok
        | cons j js ih' => intro k best; simp only [anyOfLoop, Bool.not_true, Bool.false_eq_true, if_false]; exact ih'
      exact stop
    | false =>
      refine ih fun m j hm hb p c => h (m + 1) j (by simpa using hm) ?_ p c
      intro k' i' h1 h2
      cases k' with
      | zero => simp at h2; subst h2; rw [← A _ _ _ _ _ hr, hv]; simp
      | succ k' => exact hb k' i' (by omega) (by simpa using h2)

include A in
theorem containsLoop_needs {p : Path} {c : Nat → Ctx} {i} : ∀ {l : List Json} {k best},
    (∀ (m : Nat) x, l[m]? = some x → (∀ (k' : Nat) y, k' < m → l[k']? = some y → ¬ Sat i y) → ∀ p c, NE .fuel (rec p i x c)) →
    NE .fuel (containsLoop (fun k x => rec (k :: p) i x (c k)) k l best) := by
  intro l
  induction l with
  | nil => intros; exact .ok
  | cons x xs ih =>
    intro k best h
    rw [containsLoop]
    refine .bind (h 0 x rfl (by omega) _ _) fun r hr => ?_
    cases hv : r.valid with
    | true => exact .pure
    | false =>
      refine ih fun m j hm hb p c => h (m + 1) j (by simpa using hm) ?_ p c
      intro k' i' h1 h2
      cases k' with
      | zero => simp at h2; subst h2; rw [← A _ _ _ _ _ hr, hv]; simp
      | succ k' => exact hb k' i' (by omega) (by simpa using h2)

include A N in
theorem validateSchema_needs {p c} : NE .fuel (validateSchema env σ rec p s v c) := by
  unfold validateSchema
  refine .bind ?_ fun _ _ => .bind ?_ fun _ _ => .bind ?_ fun _ _ => .bind ?_ fun _ _ => .bind ?_ fun _ _ => .bind ?_ fun _ _ => .pure
  · unfold checkAnyOf
    split
    · refine .bind (anyOfLoop_needs A fun m i hm hb p c => N _ _ _ _ (.anyOf m i v hm hb)) ?_
      rintro ⟨b, best⟩ _
      cases b <;> cases best <;> exact .pure
    · exact .pure
  · unfold checkOneOf
    split
    · refine .bind (oneOfLoop_ne fun k i hi => N _ _ _ _ (.oneOf i v hi)) ?_
      rintro ⟨n, best⟩ ho
      simp only
      split
      · split
        · cases best with
          | none => exact .throw_panic
          | some b => exact .pure
        · exact .pure
      · exact .pure
    · exact .pure
  · unfold checkAllOf
    split
    · refine .bind (allOfLoop_ne fun k i hi => N _ _ _ _ (.allOf i v hi)) ?_
      rintro ⟨b, best⟩ _
      simp only
      split <;> exact .pure
    · exact .pure
  · unfold checkNot
    split
    · rename_i i hi
      refine .bind (N _ _ _ _ (.not i v hi)) fun _ _ => ?_
      split <;> exact .pure
    · exact .pure
  · unfold checkDependencies
    split
    · split
      · rename_i kvs
        refine .forEach fun k kv hkv => ?_
        unfold checkDependency
        split
        · refine .forEach fun _ q _ => ?_
          split <;> exact .pure
        · rename_i i hi
          exact N _ _ _ _ (.dependency _ kv.1 i (List.mem_map.2 ⟨kv, (σ.perm _ _).mem_iff.1 hkv, rfl⟩) hi)
        · exact .pure
      · split
        · exact .pure
        · exact .throw_panic
      · exact .pure
    · exact .pure
  · unfold checkIf
    split
    · exact .pure
    · rename_i i hi
      refine .bind (N _ _ _ _ (.if_ i v hi)) fun r hr => .bind ?_ fun _ _ => .bind ?_ fun _ _ => .pure
      · unfold checkBranch
        split
        · rename_i t ht
          split
          · rename_i hon
            refine .bind (N _ _ _ _ (.then_ i t v hi ht ((A _ _ _ _ _ hr).1 hon))) fun _ _ => ?_
            split <;> exact .pure
          · exact .pure
        · exact .pure
      · unfold checkBranch
        split
        · rename_i t ht
          split
          · rename_i hon
            refine .bind (N _ _ _ _ (.else_ i t v hi ht fun hs => ?_)) fun _ _ => ?_
            · rw [(A _ _ _ _ _ hr).2 hs] at hon; simp at hon
            · split <;> exact .pure
          · exact .pure
        · exact .pure

include A N in
theorem validateArray_needs {p c} {xs} (hv : v = .arr xs) : NE .fuel (validateArray env rec p s xs c) := by
  subst hv
  unfold validateArray
  refine .bind ?_ fun _ _ => .bind ?_ fun _ _ => .bind ?_ fun _ _ => .pure
  · unfold checkItems
    split
    · rename_i hs
      refine .forEach fun k x hx => ?_
      split
      · rename_i i is hi
        exact N _ _ _ _ (.items xs i x hs (by rw [hi]; rfl) hx)
      · exact .throw_panic
    · rename_i hs
      have hs : s.itemsChildrenIsSingleSchema = false := by simpa using hs
      split
      · rename_i hl
        refine .bind (.forEach_idx fun m x hx => ?_) fun _ _ => .bind ?_ fun _ _ => .pure
        · rw [List.getElem?_zip_eq_some] at hx
          exact N _ _ _ _ (.itemAt m xs _ _ hs hx.1 hx.2)
        · unfold checkAdditionalItems
          simp only
          split
          · split
            · split <;> exact .pure
            · rename_i i hi
              refine .forEach_idx fun m x hx => ?_
              rw [List.getElem?_drop] at hx
              exact N _ _ _ _ (.additionalItem _ xs i x hs (List.length_pos_iff.1 hl) hi (by omega) hx)
            · exact .pure
          · exact .pure
      · exact .pure
  · unfold checkUnique
    split
    · exact uniqueLoop_ne (by simp)
    · exact .pure
  · unfold checkContains
    split
    · exact .pure
    · rename_i i hi
      refine .bind (containsLoop_needs A (c := fun k => toString k :: c) fun m x hm hb p c => N _ _ _ _ (.contains m xs i x hi hm hb)) ?_
      rintro ⟨b, best⟩ _
      cases b <;> cases best <;> exact .pure

include N in
theorem patternLoop_needs {p c key value} {kvs} (hv : v = .obj kvs) (hm : (key, value) ∈ kvs) :
    ∀ {l : List (String × Id)} {k}, (∀ q ∈ l, q ∈ s.patternProperties) →
    NE .fuel (patternLoop env rec p key value c k l) := by
  subst hv
  intro l
  induction l with
  | nil => intros; exact .ok
  | cons q qs ih =>
    obtain ⟨pat, i⟩ := q
    intro k h
    rw [patternLoop]
    refine .bind ?_ fun _ _ => .bind (ih fun q hq => h q (by simp [hq])) fun _ _ => .pure
    unfold patternOne
    split
    · rename_i he
      exact .bind (N _ _ _ _ (.patternProperty kvs pat i key value (h _ (by simp)) hm he)) fun _ _ => .pure
    · exact .pure

include A N in
theorem validateObject_needs {p c} {kvs} (hv : v = .obj kvs) : NE .fuel (validateObject env σ rec p s kvs c) := by
  unfold validateObject
  refine .bind (.forEach fun k kv hkv => ?_) fun _ _ => .bind ?_ fun _ _ => .pure
  · have hm := (σ.perm _ _).mem_iff.1 hkv
    obtain ⟨key, value⟩ := kv
    unfold checkProperty
    refine .bind ?_ ?_
    · unfold validatePatternProperty
      refine .bind (patternLoop_needs N hv hm fun q hq => (σ.perm _ _).mem_iff.1 hq) ?_
      rintro ⟨b, r⟩ _
      cases b <;> exact .pure
    · rintro ⟨b, r⟩ ho
      simp only
      split
      · rename_i hf
        split
        · split <;> exact .pure
        · rename_i i hi
          subst hv
          refine .bind (N _ _ _ _ (.additionalProperty kvs i key value hi hm ?_ ?_)) fun _ _ => .pure
          · intro i' hin
            have : (s.propertiesChildren.any fun q => key == q.1) = true := List.any_eq_true.2 ⟨_, hin, by simp⟩
            simp [this] at hf
          · intro pat i' hin
            simp only [validatePatternProperty, Exec.bind_ok] at ho
            obtain ⟨o, ho, h2⟩ := ho
            have := (patternLoop_valid A _ _ _ ho).1
            cases he : env.reMatch pat key with
            | false => rfl
            | true =>
              rw [this.2 ⟨(pat, i'), (σ.perm _ _).mem_iff.2 hin, he⟩] at h2
              simp only [Bool.not_true, Bool.false_eq_true, if_false] at h2
              cases h2
              simp at hf
        · exact .pure
      · exact .pure
  · unfold checkPropertyNames
    split
    · exact .pure
    · rename_i i hi
      subst hv
      refine .forEach fun k kv hkv => .bind (N _ _ _ _ (.propertyName kvs i kv.1 hi
        (List.mem_map.2 ⟨kv, (σ.perm _ _).mem_iff.1 hkv, rfl⟩))) fun _ _ => ?_
      split <;> exact .pure

include A N in
theorem validateNode_needs {p c} : NE .fuel (validateNode env σ rec p s v c) := by
  have com : ∀ {v c}, NE .fuel (validateCommon env s v c) := validateCommon_ne (by simp)
  have num : ∀ {v c}, NE .fuel (validateNumber env s v c) := validateNumber_ne (by simp)
  unfold validateNode
  refine .bind (validateSchema_needs A N) fun _ _ => ?_
  cases hv : v with
  | null => exact .bind com fun _ _ => .pure
  | arr xs => subst hv; exact .bind (validateArray_needs A N rfl) fun _ _ => .bind com fun _ _ => .pure
  | obj kvs =>
    subst hv
    refine .bind (validateObject_needs A N rfl) fun _ _ => .bind com fun _ _ => .bind ?_ fun _ _ => .pure
    unfold checkProperties
    refine .forEach fun k q hq => ?_
    split
    · rename_i x hx
      exact N _ _ _ _ (.property kvs q.1 q.2 x hq hx)
    · exact .pure
  | bool b => exact .bind num fun _ _ => .bind com fun _ _ => .pure
  | str b => exact .bind num fun _ _ => .bind com fun _ _ => .pure
  | num b => exact .bind num fun _ _ => .bind com fun _ _ => .pure

end

/-- What is needed is one of the calls. -/
theorem needs_calls {env Sat s v j w} (h : Needs env Sat s v j w) : Calls s v j w := by
  cases h with
  | anyOf k i v a b => exact .inl ⟨by simp [inPlace, List.mem_of_getElem? a], rfl⟩
  | oneOf i v a => exact .inl ⟨by simp [inPlace, a], rfl⟩
  | allOf i v a => exact .inl ⟨by simp [inPlace, a], rfl⟩
  | not i v a => exact .inl ⟨by simp [inPlace, a], rfl⟩
  | dependency kvs k i a b =>
    refine .inl ⟨?_, rfl⟩
    simp only [inPlace, List.mem_append, List.mem_filterMap]
    exact .inr ⟨_, lookup_some_mem b, rfl⟩
  | if_ i v a => exact .inl ⟨by simp [inPlace, a], rfl⟩
  | then_ i t v a b c => exact .inl ⟨by simp [inPlace, b], rfl⟩
  | else_ i t v a b c => exact .inl ⟨by simp [inPlace, b], rfl⟩
  | items xs i x a b c =>
    refine .inr ⟨?_, .inl ⟨xs, rfl, c⟩⟩
    have := List.mem_of_mem_head? (by rw [b]; rfl : j ∈ s.itemsChildren.head?)
    simp [nested, this]
  | itemAt k xs i x a b c =>
    exact .inr ⟨by simp [nested, List.mem_of_getElem? b], .inl ⟨xs, rfl, List.mem_of_getElem? c⟩⟩
  | additionalItem k xs i x a hne b c d =>
    exact .inr ⟨by simp [nested, b, extraId], .inl ⟨xs, rfl, List.mem_of_getElem? d⟩⟩
  | contains k xs i x a b c => exact .inr ⟨by simp [nested, a], .inl ⟨xs, rfl, List.mem_of_getElem? b⟩⟩
  | property kvs name i x a b =>
    refine .inr ⟨?_, .inr ⟨kvs, rfl, .inl ⟨name, lookup_some_mem b⟩⟩⟩
    have : j ∈ s.propertiesChildren.map Prod.snd := List.mem_map.2 ⟨_, a, rfl⟩
    simp only [nested, List.mem_append]
    tauto
  | patternProperty kvs pat i k x a b c =>
    refine .inr ⟨?_, .inr ⟨kvs, rfl, .inl ⟨k, b⟩⟩⟩
    have : j ∈ s.patternProperties.map Prod.snd := List.mem_map.2 ⟨_, a, rfl⟩
    simp only [nested, List.mem_append]
    tauto
  | additionalProperty kvs i k x a b c d => exact .inr ⟨by simp [nested, a, extraId], .inr ⟨kvs, rfl, .inl ⟨k, b⟩⟩⟩
  | propertyName kvs i k a b => exact .inr ⟨by simp [nested, a], .inr ⟨kvs, rfl, .inr ⟨k, b, rfl⟩⟩⟩

/-- The values a node may ask about, listed. -/
def partsOf (v : Json) : List Json :=
  v :: match v with
    | .arr xs => xs
    | .obj kvs => kvs.map Prod.snd ++ kvs.map fun q => .str q.1
    | _ => []

theorem calls_listed {s v j w} (h : Calls s v j w) : j ∈ inPlace s ++ nested s ∧ w ∈ partsOf v := by
  rcases h with ⟨h, rfl⟩ | ⟨h, ⟨xs, rfl, hx⟩ | ⟨kvs, rfl, ⟨k, hk⟩ | ⟨k, hk, rfl⟩⟩⟩
  · exact ⟨by simp [h], by simp [partsOf]⟩
  · exact ⟨by simp [h], by simp [partsOf, hx]⟩
  · exact ⟨by simp [h], .tail _ (List.mem_append.2 (.inl (List.mem_map.2 ⟨_, hk, rfl⟩)))⟩
  · obtain ⟨q, hq, rfl⟩ := List.mem_map.1 hk
    exact ⟨by simp [h], .tail _ (List.mem_append.2 (.inr (List.mem_map.2 ⟨_, hq, rfl⟩)))⟩

/-- Finitely many bounds have a common one. -/
theorem common_bound {α : Type} {P : α → Prop} {Q : α → Nat → Prop} (mono : ∀ a n m, n ≤ m → Q a n → Q a m) :
    ∀ (L : List α), (∀ a ∈ L, P a → ∃ n, Q a n) → ∃ n, ∀ a ∈ L, P a → Q a n
  | [], _ => ⟨0, by simp⟩
  | a :: L, h => by
    obtain ⟨n, hn⟩ := common_bound mono L fun b hb => h b (.tail _ hb)
    by_cases hp : P a
    · obtain ⟨m, hm⟩ := h a (.head _) hp
      refine ⟨max n m, ?_⟩
      intro b hb pb
      cases hb with
      | head => exact mono _ _ _ (by omega) hm
      | tail _ hb => exact mono _ _ _ (by omega) (hn b hb pb)
    · refine ⟨n, ?_⟩
      intro b hb pb
      cases hb with
      | head => exact absurd pb hp
      | tail _ hb => exact hn b hb pb

/-- A run that returns is an answer. -/
theorem answers_of_ok {env : Env} {σ : Sched} {h : Heap} : ∀ {n p i v c r}, validateRecursive env σ h n p i v c = .ok r →
    Answers env h i v r.valid := by
  intro n
  induction n with
  | zero => intro p i v c r hr; simp [validateRecursive] at hr
  | succ n ih =>
    intro p i v c r hr
    have A := validateRecursive_agrees env σ h (fun _ _ => True) n
    have hr : validateStep env σ h (validateRecursive env σ h n) p i v c = .ok r := hr
    unfold validateStep at hr
    cases hi : h[i]? with
    | none => simp [hi] at hr
    | some s =>
      simp only [hi] at hr
      cases hp : s.pass with
      | some b =>
        have : r.valid = b := by cases b <;> simp [hp] at hr <;> subst hr <;> rfl
        rw [this]
        exact .pass i v s b hi hp
      | none =>
        simp only [hp] at hr
        cases hf : s.refSchema with
        | some j => simp only [hf] at hr; exact .ref i v s j _ hi hp hf (ih hr)
        | none =>
          simp only [hf] at hr
          cases ht : typeError env s.types v with
          | some g =>
            simp only [ht] at hr
            have : r.valid = false := by simp at hr; subst hr; rfl
            rw [this]
            exact .type i v s hi hp hf (by rw [← typeError_none, ht]; simp)
          | none =>
            simp only [ht, Exec.bind_ok, Exec.pure_ok] at hr
            obtain ⟨r', hr', rfl⟩ := hr
            classical
            have e : (fun j w => decide (Spec.unfold env h (fun _ _ => True) n j w) = true) = Spec.unfold env h (fun _ _ => True) n := by
              funext j w; simp
            refine .node i v s _ (fun j w => decide (Spec.unfold env h (fun _ _ => True) n j w)) hi hp hf (typeError_none.1 ht) ?_ ?_
            · intro j w hn
              rw [e] at hn
              obtain ⟨p', c', r'', h''⟩ := validateNode_back A hr' hn
              have := ih h''
              rwa [show r''.valid = decide (Spec.unfold env h (fun _ _ => True) n j w) by
                rw [Bool.eq_iff_iff, A _ _ _ _ _ h'']; simp] at this
            · rw [e]
              simpa using validateNode_valid A hr' (typeError_none.1 ht)

/-- An answer is given by every run with enough fuel. -/
theorem ok_of_answers {env : Env} {h : Heap} (hh : HeapOK h) {i v b} (ha : Answers env h i v b) (hi : i < h.length)
    (hv : InRange env v) : ∃ N, ∀ n, N ≤ n → ∀ (σ : Sched) p c, ∃ r, validateRecursive env σ h n p i v c = .ok r ∧ r.valid = b := by
  induction ha with
  | pass i v s b h1 h2 =>
    refine ⟨1, fun n hn σ p c => ?_⟩
    obtain ⟨n, rfl⟩ : ∃ m, n = m + 1 := ⟨n - 1, by omega⟩
    show ∃ r, validateStep _ _ _ _ _ _ _ _ = .ok r ∧ _
    cases b <;> simp [validateStep, h1, h2] <;> rfl
  | ref i v s j b h1 h2 h3 _ ih =>
    obtain ⟨N, hN⟩ := ih ((hh s (List.mem_of_getElem? h1)).1 j (by simp [inPlace, h3])) hv
    refine ⟨N + 1, fun n hn σ p c => ?_⟩
    obtain ⟨n, rfl⟩ : ∃ m, n = m + 1 := ⟨n - 1, by omega⟩
    obtain ⟨r, hr⟩ := hN n (by omega) σ (20 :: p) c
    refine ⟨r, ?_, hr.2⟩
    rw [← hr.1]
    show validateStep _ _ _ _ _ _ _ _ = _
    simp only [validateStep, h1, h2, h3]
  | type i v s h1 h2 h3 h4 =>
    refine ⟨1, fun n hn σ p c => ?_⟩
    obtain ⟨n, rfl⟩ : ∃ m, n = m + 1 := ⟨n - 1, by omega⟩
    show ∃ r, validateStep _ _ _ _ _ _ _ _ = .ok r ∧ _
    cases ht : typeError env s.types v with
    | none => exact absurd (typeError_none.1 ht) h4
    | some g => simp only [validateStep, h1, h2, h3, ht]; exact ⟨_, rfl, rfl⟩
  | node i v s b d h1 h2 h3 h4 _ h5 ih =>
    have hs := hh s (List.mem_of_getElem? h1)
    have key : ∀ q ∈ (inPlace s ++ nested s).flatMap (fun j => (partsOf v).map fun w => (j, w)),
        Needs env (fun j w => d j w = true) s v q.1 q.2 →
        ∃ N, ∀ n, N ≤ n → ∀ (σ : Sched) p c, ∃ r, validateRecursive env σ h n p q.1 q.2 c = .ok r ∧ r.valid = d q.1 q.2 := by
      rintro ⟨j, w⟩ _ hn
      refine ih j w hn (hs.1 j (calls_listed (needs_calls hn)).1) ?_
      rcases needs_calls hn with ⟨_, rfl⟩ | ⟨_, hw⟩
      · exact hv
      · exact inside_inRange hv hw
    obtain ⟨N, hN⟩ := common_bound (fun q a b hab hq n hn => hq n (by omega)) _ key
    refine ⟨N + 1, fun n hn σ p c => ?_⟩
    obtain ⟨n, rfl⟩ : ∃ m, n = m + 1 := ⟨n - 1, by omega⟩
    have A := validateRecursive_agrees env σ h (fun _ _ => True) n
    have got : ∀ j w, Needs env (fun j w => d j w = true) s v j w → ∀ p c, ∃ r, validateRecursive env σ h n p j w c = .ok r ∧ r.valid = d j w := by
      intro j w hn'
      obtain ⟨a1, a2⟩ := calls_listed (needs_calls hn')
      exact hN (j, w) (List.mem_flatMap.2 ⟨j, a1, List.mem_map.2 ⟨w, a2, rfl⟩⟩) hn' n (by omega) σ
    have H : ∀ j w, Needs env (fun j w => d j w = true) s v j w → (d j w = true ↔ Spec.unfold env h (fun _ _ => True) n j w) := by
      intro j w hn'
      obtain ⟨r, hr, hd⟩ := got j w hn' [] []
      rw [← hd]
      exact A _ _ _ _ _ hr
    have nf : NE .fuel (validateNode env σ (validateRecursive env σ h n) p s v c) := validateNode_needs A fun p j w c hn' => by
      obtain ⟨r, hr, _⟩ := got j w (needs_back H hn') p c
      rw [hr]; exact .ok
    have np := no_panic (env := env) (σ := σ) hh (n + 1) i v p c hi hv
    change NE .panic (validateStep _ _ _ _ _ _ _ _) at np
    show ∃ r, validateStep _ _ _ _ _ _ _ _ = .ok r ∧ _
    simp only [validateStep, h1, h2, h3, typeError_none.2 h4] at np ⊢
    cases hx : validateNode env σ (validateRecursive env σ h n) p s v c with
    | error e =>
      cases e with
      | fuel => exact absurd hx nf
      | panic => rw [hx] at np; exact absurd rfl np
    | ok r =>
      refine ⟨_, rfl, ?_⟩
      rw [Bool.eq_iff_iff, h5, keywords_needs H]
      simpa using validateNode_valid A hx h4

/-- After enough unfoldings the rules give the answer. -/
theorem unfold_of_answers {env : Env} {h : Heap} (P : Id → Json → Prop) {i v b} (ha : Answers env h i v b) :
    ∃ N, ∀ n, N ≤ n → (Spec.unfold env h P n i v ↔ b = true) := by
  induction ha with
  | pass i v s b h1 h2 =>
    refine ⟨1, fun n hn => ?_⟩
    obtain ⟨n, rfl⟩ : ∃ m, n = m + 1 := ⟨n - 1, by omega⟩
    simp [Spec.unfold, NodeRules, h1, h2]
  | ref i v s j b h1 h2 h3 _ ih =>
    obtain ⟨N, hN⟩ := ih
    refine ⟨N + 1, fun n hn => ?_⟩
    obtain ⟨n, rfl⟩ : ∃ m, n = m + 1 := ⟨n - 1, by omega⟩
    rw [← hN n (by omega)]
    simp [Spec.unfold, NodeRules, h1, h2, h3]
  | type i v s h1 h2 h3 h4 =>
    refine ⟨1, fun n hn => ?_⟩
    obtain ⟨n, rfl⟩ : ∃ m, n = m + 1 := ⟨n - 1, by omega⟩
    simp [Spec.unfold, NodeRules, Keywords, h1, h2, h3, h4]
  | node i v s b d h1 h2 h3 h4 _ h5 ih =>
    have key : ∀ q ∈ (inPlace s ++ nested s).flatMap (fun j => (partsOf v).map fun w => (j, w)),
        Needs env (fun j w => d j w = true) s v q.1 q.2 →
        ∃ N, ∀ n, N ≤ n → (Spec.unfold env h P n q.1 q.2 ↔ d q.1 q.2 = true) :=
      fun q _ hn => ih q.1 q.2 hn
    obtain ⟨N, hN⟩ := common_bound (fun q a b hab hq n hn => hq n (by omega)) _ key
    refine ⟨N + 1, fun n hn => ?_⟩
    obtain ⟨n, rfl⟩ : ∃ m, n = m + 1 := ⟨n - 1, by omega⟩
    have H : ∀ j w, Needs env (fun j w => d j w = true) s v j w → (d j w = true ↔ Spec.unfold env h P n j w) := by
      intro j w hn'
      obtain ⟨a1, a2⟩ := calls_listed (needs_calls hn')
      exact (hN (j, w) (List.mem_flatMap.2 ⟨j, a1, List.mem_map.2 ⟨w, a2, rfl⟩⟩) hn' n (by omega)).symm
    rw [h5, keywords_needs H]
    simp [Spec.unfold, NodeRules, h1, h2, h3, h4]

end GJS

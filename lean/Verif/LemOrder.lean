import Verif.LemValidate
import Mathlib.Data.List.Forall2
import Mathlib.Data.List.Perm.Basic
/-
Helper lemmas: the validator's result does not depend on the scheduler.
-/
namespace GJS

/-- Same errors up to order, same score. -/
def REq (a b : Result) : Prop := a.errors.Perm b.errors ∧ a.score = b.score

theorem REq.refl (a : Result) : REq a a := ⟨.refl _, rfl⟩
theorem REq.trans {a b c : Result} (h : REq a b) (h' : REq b c) : REq a c :=
  ⟨h.1.trans h'.1, h.2.trans h'.2⟩
theorem REq.append {a b c d : Result} (h : REq a b) (h' : REq c d) : REq (a ++ c) (b ++ d) :=
  ⟨h.1.append h'.1, by simp [h.2, h'.2]⟩
theorem REq.valid {a b : Result} (h : REq a b) : a.valid = b.valid := by
  simp [Result.valid, h.1.length_eq]

/-- Whatever `rec1` returns, `rec2` returns too, up to the order of errors. -/
def Rel (rec1 rec2 : Rec) : Prop :=
  ∀ p p' i v c r, rec1 p i v c = .ok r → ∃ r', rec2 p' i v c = .ok r' ∧ REq r r'

def rsum : List Result → Result
  | [] => {}
  | r :: rs => r ++ rsum rs

theorem rsum_perm {l l' : List Result} (h : l.Perm l') : REq (rsum l) (rsum l') := by
  induction h with
  | nil => exact .refl _
  | cons x _ ih => exact .append (.refl _) ih
  | swap x y l =>
    refine ⟨?_, by simp [rsum]; omega⟩
    simp only [rsum, Result.errors_append, ← List.append_assoc]
    exact (List.perm_append_comm).append_right _
  | trans _ _ ih1 ih2 => exact ih1.trans ih2

theorem forEach_split {α : Type} {f : Nat → α → Exec Result} : ∀ {l : List α} {k r}, forEach f k l = .ok r →
    ∃ rs, List.Forall₂ (fun x a => ∃ k, f k x = .ok a) l rs ∧ r = rsum rs := by
  intro l
  induction l with
  | nil => intro k r h; simp [forEach] at h; exact ⟨[], .nil, by simp [h.symm, rsum]⟩
  | cons x xs ih =>
    intro k r h
    simp only [forEach, Exec.bind_ok, Exec.pure_ok] at h
    obtain ⟨a, ha, b, hb, rfl⟩ := h
    obtain ⟨rs, h1, rfl⟩ := ih hb
    exact ⟨a :: rs, .cons ⟨k, ha⟩ h1, rfl⟩

theorem forEach_rel {α : Type} {f g : Nat → α → Exec Result}
    (hfg : ∀ k k' x a, f k x = .ok a → ∃ b, g k' x = .ok b ∧ REq a b)
    {l l' : List α} (hp : l'.Perm l) {k k' r} (h : forEach f k l = .ok r) :
    ∃ r', forEach g k' l' = .ok r' ∧ REq r r' := by
  obtain ⟨rs, h1, rfl⟩ := forEach_split h
  obtain ⟨rs', h2, h3⟩ := List.perm_comp_forall₂ hp h1
  suffices ∃ r', forEach g k' l' = .ok r' ∧ REq (rsum rs') r' by
    obtain ⟨r', h4, h5⟩ := this
    exact ⟨r', h4, (rsum_perm h3.symm).trans h5⟩
  clear h1 h3 h hp
  induction h2 generalizing k' with
  | nil => exact ⟨{}, rfl, .refl _⟩
  | cons hx _ ih =>
    obtain ⟨r2, h4, h5⟩ := ih (k' := k' + 1)
    obtain ⟨kx, hx⟩ := hx
    obtain ⟨b, hb, hab⟩ := hfg _ k' _ _ hx
    exact ⟨b ++ r2, by simp [forEach, Exec.bind_ok, hb, h4], .append hab h5⟩

/-- Both absent, or both present and equal up to order. -/
def OEq : Option Result → Option Result → Prop
  | none, none => True
  | some a, some b => REq a b
  | _, _ => False

theorem OEq.nil : OEq none none := trivial
theorem OEq.some {a b : Result} (h : REq a b) : OEq (some a) (some b) := h

theorem better_rel {a b : Option Result} {r r' : Result} (h : OEq a b) (h' : REq r r') :
    better a r = better b r' := by
  cases a <;> cases b <;> simp [OEq] at h
  · rfl
  · simp [better, h.2, h'.2]

section
variable {rec1 rec2 : Rec} (H : Rel rec1 rec2)
include H

theorem anyOfLoop_rel {f g : Nat → Path} {v c} : ∀ {l : List Id} {k k' b best best' o}, OEq best best' →
    anyOfLoop (fun k i => rec1 (f k) i v c) k l b best = .ok o →
    ∃ o', anyOfLoop (fun k i => rec2 (g k) i v c) k' l b best' = .ok o' ∧ o.1 = o'.1 ∧ OEq o.2 o'.2 := by
  intro l
  induction l with
  | nil => intro k k' b best best' o hb h; simp [anyOfLoop] at h; subst h; exact ⟨_, rfl, rfl, hb⟩
  | cons i is ih =>
    intro k k' b best best' o hb h
    rw [anyOfLoop] at h ⊢
    cases b with
    | true =>
      simp only [Bool.not_true, Bool.false_eq_true, if_false] at h ⊢
      exact ih hb h
    | false =>
      simp only [Bool.not_false, if_true, Exec.bind_ok] at h ⊢
      obtain ⟨r, hr, h⟩ := h
      obtain ⟨r', hr', he⟩ := H _ (g k') _ _ _ _ hr
      have hv := he.valid
      have hbt := better_rel hb he
      obtain ⟨o', h1, h2⟩ := ih (k' := k' + 1)
        (best' := if !r'.valid && better best' r' then some r' else best') (by
          rw [← hv, ← hbt]
          split
          · exact he
          · exact hb) h
      rw [hv] at h1
      exact ⟨o', ⟨r', hr', h1⟩, h2⟩

theorem checkAnyOf_rel {p p' s v c r} (h : checkAnyOf rec1 p s v c = .ok r) :
    ∃ r', checkAnyOf rec2 p' s v c = .ok r' ∧ REq r r' := by
  unfold checkAnyOf at h ⊢
  split at h
  · rename_i hl
    simp only [hl, if_true, Exec.bind_ok] at h ⊢
    obtain ⟨⟨b, best⟩, h1, h2⟩ := h
    obtain ⟨⟨b', best'⟩, h3, rfl, h4⟩ := anyOfLoop_rel H (f := fun k => k :: 1 :: p) (g := fun k => k :: 1 :: p')
      (k' := 0) (best' := none) OEq.nil h1
    simp only at h4
    cases b
    · cases best <;> cases best' <;> simp [OEq] at h4 <;> simp at h2 <;> subst h2
      · exact ⟨_, ⟨_, h3, rfl⟩, .refl _⟩
      · exact ⟨_, ⟨_, h3, rfl⟩, .append (.refl _) h4⟩
    · simp at h2; subst h2
      exact ⟨{}, ⟨_, h3, rfl⟩, .refl _⟩
  · rename_i hl
    simp only [hl, if_false]
    exact ⟨r, h, .refl _⟩

theorem oneOfLoop_rel {f g : Nat → Path} {v c} : ∀ {l : List Id} {k k' n best best' o}, OEq best best' →
    oneOfLoop (fun k i => rec1 (f k) i v c) k l n best = .ok o →
    ∃ o', oneOfLoop (fun k i => rec2 (g k) i v c) k' l n best' = .ok o' ∧ o.1 = o'.1 ∧ OEq o.2 o'.2 := by
  intro l
  induction l with
  | nil => intro k k' b best best' o hb h; simp [oneOfLoop] at h; subst h; exact ⟨_, rfl, rfl, hb⟩
  | cons i is ih =>
    intro k k' n best best' o hb h
    simp only [oneOfLoop, Exec.bind_ok] at h ⊢
    obtain ⟨r, hr, h⟩ := h
    obtain ⟨r', hr', he⟩ := H _ (g k') _ _ _ _ hr
    have hv := he.valid
    have hbt := better_rel hb he
    rw [hv, hbt] at h
    split at h
    · rename_i h0
      obtain ⟨o', h1, h2⟩ := ih (k' := k' + 1) hb h
      exact ⟨o', ⟨r', hr', by simp [h0, h1]⟩, h2⟩
    · rename_i h0
      split at h
      · rename_i h3
        obtain ⟨o', h1, h2⟩ := ih (k' := k' + 1) (best' := some r') (OEq.some he) h
        refine ⟨o', ⟨r', hr', ?_⟩, h2⟩
        rw [if_neg h0, if_pos h3]; exact h1
      · rename_i h3
        obtain ⟨o', h1, h2⟩ := ih (k' := k' + 1) hb h
        refine ⟨o', ⟨r', hr', ?_⟩, h2⟩
        rw [if_neg h0, if_neg h3]; exact h1

theorem checkOneOf_rel {p p' s v c r} (h : checkOneOf rec1 p s v c = .ok r) :
    ∃ r', checkOneOf rec2 p' s v c = .ok r' ∧ REq r r' := by
  unfold checkOneOf at h ⊢
  split at h
  · rename_i hl
    simp only [hl, if_true, Exec.bind_ok] at h ⊢
    obtain ⟨⟨n, best⟩, h1, h2⟩ := h
    obtain ⟨⟨n', best'⟩, h3, rfl, h4⟩ := oneOfLoop_rel H (f := fun k => k :: 2 :: p) (g := fun k => k :: 2 :: p')
      (k' := 0) (best' := none) OEq.nil h1
    simp only at h4 h2
    by_cases hn : n = 1
    · subst hn; simp at h2; subst h2; exact ⟨{}, ⟨_, h3, by simp⟩, .refl _⟩
    · by_cases h0 : n = 0
      · subst h0
        cases best <;> cases best' <;> simp [OEq] at h4 <;> simp at h2; subst h2
        exact ⟨_, ⟨_, h3, by simp only; rfl⟩, .append (.refl _) h4⟩
      · simp [hn, h0] at h2; subst h2
        exact ⟨_, ⟨_, h3, by simp only [bne_iff_ne, ne_eq, hn, not_false_eq_true, if_true, beq_iff_eq, h0, if_false]; rfl⟩, .refl _⟩
  · rename_i hl
    simp only [hl, if_false]
    exact ⟨r, h, .refl _⟩

theorem allOfLoop_rel {f g : Nat → Path} {v c} : ∀ {l : List Id} {k k' o},
    allOfLoop (fun k i => rec1 (f k) i v c) k l = .ok o →
    ∃ o', allOfLoop (fun k i => rec2 (g k) i v c) k' l = .ok o' ∧ o.1 = o'.1 ∧ REq o.2 o'.2 := by
  intro l
  induction l with
  | nil => intro k k' o h; simp [allOfLoop] at h; subst h; exact ⟨_, rfl, rfl, .refl _⟩
  | cons i is ih =>
    intro k k' o h
    simp only [allOfLoop, Exec.bind_ok, Exec.pure_ok] at h ⊢
    obtain ⟨r, hr, ⟨nb, rs⟩, hrs, rfl⟩ := h
    obtain ⟨r', hr', he⟩ := H _ (g k') _ _ _ _ hr
    obtain ⟨⟨nb', rs'⟩, h1, h2, h3⟩ := ih (k' := k' + 1) hrs
    simp only at h2 h3
    exact ⟨_, ⟨r', hr', _, h1, rfl⟩, by simp [he.valid, h2], .append he h3⟩

theorem checkAllOf_rel {p p' s v c r} (h : checkAllOf rec1 p s v c = .ok r) :
    ∃ r', checkAllOf rec2 p' s v c = .ok r' ∧ REq r r' := by
  unfold checkAllOf at h ⊢
  split at h
  · rename_i hl
    simp only [hl, if_true, Exec.bind_ok] at h ⊢
    obtain ⟨⟨n, rs⟩, h1, h2⟩ := h
    obtain ⟨⟨n', rs'⟩, h3, rfl, h4⟩ := allOfLoop_rel H (f := fun k => k :: 3 :: p) (g := fun k => k :: 3 :: p')
      (k' := 0) h1
    simp only at h4 h2
    split at h2
    · rename_i hn
      simp at h2; subst h2
      refine ⟨_, ⟨_, h3, ?_⟩, .append h4 (.refl _)⟩
      simp only [hn, if_true]; rfl
    · rename_i hn
      simp at h2; subst h2
      refine ⟨_, ⟨_, h3, ?_⟩, h4⟩
      rw [if_neg hn]; rfl
  · rename_i hl
    simp only [hl, if_false]
    exact ⟨r, h, .refl _⟩

theorem checkNot_rel {p p' s v c r} (h : checkNot rec1 p s v c = .ok r) :
    ∃ r', checkNot rec2 p' s v c = .ok r' ∧ REq r r' := by
  unfold checkNot at h ⊢
  cases hs : s.not with
  | none => simp [hs] at h; subst h; exact ⟨{}, rfl, .refl _⟩
  | some i =>
    simp only [hs, Exec.bind_ok] at h ⊢
    obtain ⟨a, ha, h2⟩ := h
    obtain ⟨a', ha', he⟩ := H _ (4 :: p') _ _ _ _ ha
    rw [he.valid] at h2
    exact ⟨r, ⟨a', ha', h2⟩, .refl _⟩

theorem checkDependency_rel {p p' s kvs c key r} (h : checkDependency rec1 p s kvs c key = .ok r) :
    ∃ r', checkDependency rec2 p' s kvs c key = .ok r' ∧ REq r r' := by
  unfold checkDependency at h ⊢
  cases hs : getKey key s.dependencies with
  | none => simp [hs] at h; subst h; exact ⟨{}, rfl, .refl _⟩
  | some d =>
    cases d with
    | keys ks => simp only [hs] at h ⊢; exact ⟨r, h, .refl _⟩
    | schema i => simp only [hs] at h ⊢; exact H _ _ _ _ _ _ h

theorem checkDependencies_rel {env σ1 σ2 p p' s v c r} (h : checkDependencies env σ1 rec1 p s v c = .ok r) :
    ∃ r', checkDependencies env σ2 rec2 p' s v c = .ok r' ∧ REq r r' := by
  unfold checkDependencies at h ⊢
  split at h
  · rename_i hl
    simp only [hl, if_true]
    cases v with
    | obj kvs =>
      simp only at h ⊢
      refine forEach_rel ?_ (((σ2.perm _ _)).trans (σ1.perm _ _).symm) h
      intro k k' x a ha
      exact checkDependency_rel H ha
    | _ => exact ⟨r, h, .refl _⟩
  · rename_i hl
    simp only [hl, if_false]
    exact ⟨r, h, .refl _⟩

theorem checkBranch_rel {p p' o on kind v c r} (h : checkBranch rec1 p o on kind v c = .ok r) :
    ∃ r', checkBranch rec2 p' o on kind v c = .ok r' ∧ REq r r' := by
  unfold checkBranch at h ⊢
  cases o with
  | none => exact ⟨r, h, .refl _⟩
  | some t =>
    cases on with
    | false => exact ⟨r, h, .refl _⟩
    | true =>
      simp only [if_true, Exec.bind_ok] at h ⊢
      obtain ⟨a, ha, h2⟩ := h
      obtain ⟨a', ha', he⟩ := H _ p' _ _ _ _ ha
      rw [he.valid] at h2
      cases hv : a'.valid <;> simp [hv] at h2 <;> subst h2
      · exact ⟨_, ⟨a', ha', by rw [hv]; rfl⟩, .append (.refl _) he⟩
      · exact ⟨_, ⟨a', ha', by rw [hv]; rfl⟩, .refl _⟩

theorem checkIf_rel {p p' s v c r} (h : checkIf rec1 p s v c = .ok r) :
    ∃ r', checkIf rec2 p' s v c = .ok r' ∧ REq r r' := by
  unfold checkIf at h ⊢
  cases hs : s.if_ with
  | none => simp [hs] at h; subst h; exact ⟨{}, rfl, .refl _⟩
  | some i =>
    simp only [hs, Exec.bind_ok, Exec.pure_ok] at h ⊢
    obtain ⟨ri, hri, a, ha, b, hb, rfl⟩ := h
    obtain ⟨ri', hri', he⟩ := H _ (7 :: p') _ _ _ _ hri
    rw [he.valid] at ha hb
    obtain ⟨a', ha', hae⟩ := checkBranch_rel H (p' := 8 :: p') ha
    obtain ⟨b', hb', hbe⟩ := checkBranch_rel H (p' := 9 :: p') hb
    exact ⟨_, ⟨ri', hri', a', ha', b', hb', rfl⟩, .append hae hbe⟩

theorem validateSchema_rel {env σ1 σ2 p p' s v c r} (h : validateSchema env σ1 rec1 p s v c = .ok r) :
    ∃ r', validateSchema env σ2 rec2 p' s v c = .ok r' ∧ REq r r' := by
  simp only [validateSchema, Exec.bind_ok, Exec.pure_ok] at h ⊢
  obtain ⟨r1, h1, r2, h2, r3, h3, r4, h4, r5, h5, r6, h6, rfl⟩ := h
  obtain ⟨r1', h1', e1⟩ := checkAnyOf_rel H (p' := p') h1
  obtain ⟨r2', h2', e2⟩ := checkOneOf_rel H (p' := p') h2
  obtain ⟨r3', h3', e3⟩ := checkAllOf_rel H (p' := p') h3
  obtain ⟨r4', h4', e4⟩ := checkNot_rel H (p' := p') h4
  obtain ⟨r5', h5', e5⟩ := checkDependencies_rel H (σ2 := σ2) (p' := p') h5
  obtain ⟨r6', h6', e6⟩ := checkIf_rel H (p' := p') h6
  exact ⟨_, ⟨r1', h1', r2', h2', r3', h3', r4', h4', r5', h5', r6', h6', rfl⟩,
    .append (.append (.append (.append (.append (.append e1 e2) e3) e4) e5) e6) (.refl _)⟩

omit H in
theorem forEach_rel_idx {α : Type} {f g : Nat → α → Exec Result}
    (hfg : ∀ k x a, f k x = .ok a → ∃ b, g k x = .ok b ∧ REq a b) :
    ∀ {l : List α} {k r}, forEach f k l = .ok r → ∃ r', forEach g k l = .ok r' ∧ REq r r' := by
  intro l
  induction l with
  | nil => intro k r h; exact ⟨r, h, .refl _⟩
  | cons x l ih =>
    intro k r h
    simp only [forEach, Exec.bind_ok, Exec.pure_ok] at h ⊢
    obtain ⟨a, ha, b, hb, rfl⟩ := h
    obtain ⟨a', ha', e1⟩ := hfg _ _ _ ha
    obtain ⟨b', hb', e2⟩ := ih hb
    exact ⟨_, ⟨a', ha', b', hb', rfl⟩, .append e1 e2⟩

theorem checkAdditionalItems_rel {p p' s xs c r} (h : checkAdditionalItems rec1 p s xs c = .ok r) :
    ∃ r', checkAdditionalItems rec2 p' s xs c = .ok r' ∧ REq r r' := by
  unfold checkAdditionalItems at h ⊢
  simp only at h ⊢
  split at h
  · rename_i hl
    simp only [hl, if_true]
    cases ha : s.additionalItems with
    | absent => simp only [ha] at h ⊢; exact ⟨r, h, .refl _⟩
    | bool b => simp only [ha] at h ⊢; exact ⟨r, h, .refl _⟩
    | schema i =>
      simp only [ha] at h ⊢
      exact forEach_rel_idx (fun k x a ha => H _ _ _ _ _ _ ha) h
  · rename_i hl
    simp only [hl, if_false]
    exact ⟨r, h, .refl _⟩

theorem checkItems_rel {p p' s xs c r} (h : checkItems rec1 p s xs c = .ok r) :
    ∃ r', checkItems rec2 p' s xs c = .ok r' ∧ REq r r' := by
  unfold checkItems at h ⊢
  split at h
  · rename_i hs
    simp only [hs, if_true]
    refine forEach_rel_idx ?_ h
    intro k x a ha
    cases hc : s.itemsChildren with
    | nil => simp [hc] at ha
    | cons i is => simp only [hc] at ha ⊢; exact H _ _ _ _ _ _ ha
  · rename_i hs
    simp only [hs, Bool.false_eq_true, if_false]
    split at h
    · rename_i hl
      simp only [hl, if_true, Exec.bind_ok, Exec.pure_ok] at h ⊢
      obtain ⟨r1, h1, r2, h2, rfl⟩ := h
      obtain ⟨r2', h2', e2⟩ := checkAdditionalItems_rel H (p' := p') h2
      obtain ⟨r1', h1', e1⟩ := forEach_rel_idx (g := fun k (ix : Id × Json) => rec2 (k :: 10 :: p') ix.1 ix.2 (toString k :: c))
        (fun k x a ha => H _ _ _ _ _ _ ha) h1
      exact ⟨_, ⟨r1', h1', r2', h2', rfl⟩, .append e1 e2⟩
    · rename_i hl
      simp only [hl, if_false]
      exact ⟨r, h, .refl _⟩

theorem containsLoop_rel {f g : Nat → Path} {i c} : ∀ {l : List Json} {k best best' o}, OEq best best' →
    containsLoop (fun k x => rec1 (f k) i x (toString k :: c)) k l best = .ok o →
    ∃ o', containsLoop (fun k x => rec2 (g k) i x (toString k :: c)) k l best' = .ok o' ∧ o.1 = o'.1 ∧ OEq o.2 o'.2 := by
  intro l
  induction l with
  | nil => intro k best best' o hb h; simp [containsLoop] at h; subst h; exact ⟨_, rfl, rfl, hb⟩
  | cons x xs ih =>
    intro k best best' o hb h
    simp only [containsLoop, Exec.bind_ok] at h ⊢
    obtain ⟨r, hr, h⟩ := h
    obtain ⟨r', hr', he⟩ := H _ (g k) _ _ _ _ hr
    have hv := he.valid
    have hbt := better_rel hb he
    rw [hv, hbt] at h
    split at h
    · rename_i h0
      simp at h; subst h
      exact ⟨(true, best'), ⟨r', hr', by simp [h0]⟩, rfl, hb⟩
    · rename_i h0
      obtain ⟨o', h1, h2⟩ := ih (best' := if better best' r' then some r' else best') (by
          split
          · exact he
          · exact hb) h
      exact ⟨o', ⟨r', hr', by rw [if_neg h0]; exact h1⟩, h2⟩

theorem checkContains_rel {p p' s xs c r} (h : checkContains rec1 p s xs c = .ok r) :
    ∃ r', checkContains rec2 p' s xs c = .ok r' ∧ REq r r' := by
  unfold checkContains at h ⊢
  cases hs : s.contains with
  | none => simp only [hs] at h ⊢; exact ⟨r, h, .refl _⟩
  | some i =>
    simp only [hs, Exec.bind_ok] at h ⊢
    obtain ⟨⟨b, best⟩, h1, h2⟩ := h
    obtain ⟨⟨b', best'⟩, h3, rfl, h4⟩ := containsLoop_rel H (f := fun k => k :: 12 :: p) (g := fun k => k :: 12 :: p')
      (best' := none) OEq.nil h1
    simp only at h4
    cases b
    · cases best <;> cases best' <;> simp [OEq] at h4 <;> simp at h2 <;> subst h2
      · exact ⟨_, ⟨_, h3, rfl⟩, .refl _⟩
      · exact ⟨_, ⟨_, h3, rfl⟩, .append (.refl _) h4⟩
    · simp at h2; subst h2
      exact ⟨{}, ⟨_, h3, rfl⟩, .refl _⟩

theorem validateArray_rel {env p p' s xs c r} (h : validateArray env rec1 p s xs c = .ok r) :
    ∃ r', validateArray env rec2 p' s xs c = .ok r' ∧ REq r r' := by
  simp only [validateArray, Exec.bind_ok, Exec.pure_ok] at h ⊢
  obtain ⟨r1, h1, r3, h3, r4, h4, rfl⟩ := h
  obtain ⟨r1', h1', e1⟩ := checkItems_rel H (p' := p') h1
  obtain ⟨r4', h4', e4⟩ := checkContains_rel H (p' := p') h4
  exact ⟨_, ⟨r1', h1', r3, h3, r4', h4', rfl⟩,
    .append (.append (.append (.append e1 (.refl _)) (.refl _)) e4) (.refl _)⟩

omit H in
theorem patternLoop_eq {env rec p key value c} : ∀ {l : List (String × Id)} {k o},
    patternLoop env rec p key value c k l = .ok o ↔
    o.1 = l.any (fun q => env.reMatch q.1 key) ∧
    forEach (fun k (q : String × Id) =>
      if env.reMatch q.1 key then rec (k :: 15 :: p) q.2 value (key :: c) else return {}) k l = .ok o.2 := by
  intro l
  induction l with
  | nil =>
    rintro k ⟨b, r⟩
    simp only [patternLoop, forEach, List.any_nil, Except.ok.injEq, Prod.mk.injEq]
    constructor
    · rintro ⟨rfl, rfl⟩; exact ⟨rfl, rfl⟩
    · rintro ⟨rfl, rfl⟩; exact ⟨rfl, rfl⟩
  | cons q qs ih =>
    obtain ⟨pat, i⟩ := q
    rintro k ⟨b, r⟩
    simp only [patternLoop, forEach, Exec.bind_ok, Exec.pure_ok, List.any_cons, patternOne]
    cases hm : env.reMatch pat key with
    | false =>
      simp only [Bool.false_eq_true, if_false, Exec.pure_ok]
      constructor
      · rintro ⟨_, rfl, rs, hrs, h⟩
        have := ih.1 hrs
        cases h
        exact ⟨by simp [this.1], _, rfl, _, this.2, rfl⟩
      · rintro ⟨hb, _, rfl, rs, hrs, h⟩
        exact ⟨_, rfl, (qs.any (fun q => env.reMatch q.1 key), rs), ih.2 ⟨rfl, hrs⟩, by simp [hb, h]⟩
    | true =>
      simp only [if_true, Exec.bind_ok, Exec.pure_ok]
      constructor
      · rintro ⟨_, ⟨a, ha, rfl⟩, rs, hrs, h⟩
        have := ih.1 hrs
        cases h
        exact ⟨by simp, _, ha, _, this.2, rfl⟩
      · rintro ⟨hb, a, ha, rs, hrs, h⟩
        exact ⟨_, ⟨a, ha, rfl⟩, (qs.any (fun q => env.reMatch q.1 key), rs), ih.2 ⟨rfl, hrs⟩, by simp [hb, h]⟩

omit H in
theorem any_perm {α : Type} {f : α → Bool} {l l' : List α} (h : l.Perm l') : l.any f = l'.any f := by
  rw [Bool.eq_iff_iff, List.any_eq_true, List.any_eq_true]
  constructor
  · rintro ⟨x, hx, hf⟩; exact ⟨x, h.mem_iff.1 hx, hf⟩
  · rintro ⟨x, hx, hf⟩; exact ⟨x, h.mem_iff.2 hx, hf⟩

theorem validatePatternProperty_rel {env σ1 σ2 p p' s key value c o}
    (h : validatePatternProperty env σ1 rec1 p s key value c = .ok o) :
    ∃ o', validatePatternProperty env σ2 rec2 p' s key value c = .ok o' ∧ o.1 = o'.1 ∧ REq o.2 o'.2 := by
  simp only [validatePatternProperty, Exec.bind_ok] at h ⊢
  obtain ⟨⟨b, r⟩, h1, h2⟩ := h
  obtain ⟨hb, hr⟩ := patternLoop_eq.1 h1
  simp only at hb hr h2
  obtain ⟨r', hr', he⟩ := forEach_rel (l' := σ2.order (14 :: p') s.patternProperties) (k' := 0)
    (g := fun k (q : String × Id) =>
      if env.reMatch q.1 key then rec2 (k :: 15 :: p') q.2 value (key :: c) else return {}) (by
      intro k k' x a ha
      split at ha
      · rename_i hm; simp only [hm, if_true]; exact H _ _ _ _ _ _ ha
      · rename_i hm; simp only [hm]; exact ⟨a, ha, .refl _⟩)
    ((σ2.perm _ _).trans (σ1.perm (14 :: p) _).symm) hr
  have hb' : b = (σ2.order (14 :: p') s.patternProperties).any (fun q => env.reMatch q.1 key) := by
    rw [hb]; exact any_perm ((σ1.perm _ _).trans (σ2.perm _ _).symm)
  have h3 := (patternLoop_eq (o := (b, r'))).2 ⟨hb', hr'⟩
  cases b
  · simp at h2; subst h2
    exact ⟨_, ⟨_, h3, rfl⟩, rfl, he⟩
  · simp at h2; subst h2
    exact ⟨_, ⟨_, h3, rfl⟩, rfl, .append he (.refl _)⟩

theorem checkProperty_rel {env σ1 σ2 p p' s key value c r}
    (h : checkProperty env σ1 rec1 p s key value c = .ok r) :
    ∃ r', checkProperty env σ2 rec2 p' s key value c = .ok r' ∧ REq r r' := by
  simp only [checkProperty, Exec.bind_ok] at h ⊢
  obtain ⟨⟨b, r1⟩, h1, h2⟩ := h
  obtain ⟨⟨b', r1'⟩, h3, rfl, he⟩ := validatePatternProperty_rel H (σ2 := σ2) (p' := p') h1
  simp only at he h2
  split at h2
  · rename_i hc
    cases ha : s.additionalProperties with
    | absent =>
      simp only [ha, Exec.pure_ok] at h2 ⊢; subst h2
      exact ⟨_, ⟨_, h3, by simp only [hc, if_true]; rfl⟩, he⟩
    | bool b =>
      cases b <;> simp [ha] at h2 <;> subst h2
      · exact ⟨_, ⟨_, h3, by simp only [hc, if_true]; rfl⟩, .append he (.refl _)⟩
      · exact ⟨_, ⟨_, h3, by simp only [hc, if_true]; rfl⟩, he⟩
    | schema i =>
      simp only [ha, Exec.bind_ok, Exec.pure_ok] at h2 ⊢
      obtain ⟨a, ha, rfl⟩ := h2
      obtain ⟨a', ha', hae⟩ := H _ (16 :: p') _ _ _ _ ha
      exact ⟨_, ⟨_, h3, by simp only [hc, if_true, Exec.bind_ok]; exact ⟨_, ha', rfl⟩⟩, .append he hae⟩
  · rename_i hc
    simp at h2; subst h2
    exact ⟨_, ⟨_, h3, by simp only; rw [if_neg hc]; rfl⟩, he⟩

theorem checkPropertyNames_rel {σ1 σ2 p p' s kvs c r} (h : checkPropertyNames σ1 rec1 p s kvs c = .ok r) :
    ∃ r', checkPropertyNames σ2 rec2 p' s kvs c = .ok r' ∧ REq r r' := by
  unfold checkPropertyNames at h ⊢
  cases hs : s.propertyNames with
  | none => simp only [hs] at h ⊢; exact ⟨r, h, .refl _⟩
  | some i =>
    simp only [hs] at h ⊢
    refine forEach_rel ?_ (((σ2.perm _ _)).trans (σ1.perm _ _).symm) h
    intro k k' x a ha
    simp only [Exec.bind_ok] at ha ⊢
    obtain ⟨b, hb, h2⟩ := ha
    obtain ⟨b', hb', he⟩ := H _ (k' :: 18 :: p') _ _ _ _ hb
    rw [he.valid] at h2
    cases hv : b'.valid <;> simp [hv] at h2 <;> subst h2
    · exact ⟨_, ⟨_, hb', by rw [hv]; rfl⟩, .append (.refl _) he⟩
    · exact ⟨_, ⟨_, hb', by rw [hv]; rfl⟩, .refl _⟩

theorem validateObject_rel {env σ1 σ2 p p' s kvs c r} (h : validateObject env σ1 rec1 p s kvs c = .ok r) :
    ∃ r', validateObject env σ2 rec2 p' s kvs c = .ok r' ∧ REq r r' := by
  simp only [validateObject, Exec.bind_ok, Exec.pure_ok] at h ⊢
  obtain ⟨r3, h3, r4, h4, rfl⟩ := h
  obtain ⟨r3', h3', e3⟩ := forEach_rel (k' := 0)
    (g := fun k (kv : String × Json) => checkProperty env σ2 rec2 (k :: 13 :: p') s kv.1 kv.2 c)
    (fun k k' x a ha => checkProperty_rel H ha) ((σ2.perm (13 :: p') kvs).trans (σ1.perm (13 :: p) kvs).symm) h3
  obtain ⟨r4', h4', e4⟩ := checkPropertyNames_rel H (σ2 := σ2) (p' := p') h4
  exact ⟨_, ⟨r3', h3', r4', h4', rfl⟩, .append (.append (.append (.append (.refl _) (.refl _)) e3) e4) (.refl _)⟩

theorem checkProperties_rel {p p' s kvs c r} (h : checkProperties rec1 p s kvs c = .ok r) :
    ∃ r', checkProperties rec2 p' s kvs c = .ok r' ∧ REq r r' := by
  refine forEach_rel_idx ?_ h
  intro k q a ha
  cases hg : getKey q.1 kvs with
  | none => simp only [hg] at ha ⊢; exact ⟨a, ha, .refl _⟩
  | some x => simp only [hg] at ha ⊢; exact H _ _ _ _ _ _ ha

theorem validateNode_rel {env σ1 σ2 p p' s v c r} (h : validateNode env σ1 rec1 p s v c = .ok r) :
    ∃ r', validateNode env σ2 rec2 p' s v c = .ok r' ∧ REq r r' := by
  simp only [validateNode, Exec.bind_ok] at h ⊢
  obtain ⟨r1, h1, h⟩ := h
  obtain ⟨r1', h1', e1⟩ := validateSchema_rel H (σ2 := σ2) (p' := p') h1
  cases v with
  | arr xs =>
    simp only [Exec.bind_ok, Exec.pure_ok] at h ⊢
    obtain ⟨r2, h2, r3, h3, rfl⟩ := h
    obtain ⟨r2', h2', e2⟩ := validateArray_rel H (p' := p') h2
    exact ⟨_, ⟨r1', h1', r2', h2', r3, h3, rfl⟩, .append (.append e1 e2) (.refl _)⟩
  | obj kvs =>
    simp only [Exec.bind_ok, Exec.pure_ok] at h ⊢
    obtain ⟨r2, h2, r3, h3, r4, h4, rfl⟩ := h
    obtain ⟨r2', h2', e2⟩ := validateObject_rel H (σ2 := σ2) (p' := p') h2
    obtain ⟨r4', h4', e4⟩ := checkProperties_rel H (p' := p') h4
    exact ⟨_, ⟨r1', h1', r2', h2', r3, h3, r4', h4', rfl⟩, .append (.append (.append e1 e2) (.refl _)) e4⟩
  | null =>
    simp only [Exec.bind_ok, Exec.pure_ok] at h ⊢
    obtain ⟨r2, h2, rfl⟩ := h
    exact ⟨_, ⟨r1', h1', r2, h2, rfl⟩, .append e1 (.refl _)⟩
  | bool _ | str _ | num _ =>
    simp only [Exec.bind_ok, Exec.pure_ok] at h ⊢
    obtain ⟨r2, h2, r3, h3, rfl⟩ := h
    exact ⟨_, ⟨r1', h1', r2, h2, r3, h3, rfl⟩, .append (.append (.append e1 (.refl _)) (.refl _)) (.refl _)⟩

theorem validateStep_rel {env σ1 σ2 h} : Rel (validateStep env σ1 h rec1) (validateStep env σ2 h rec2) := by
  intro p p' i v c r hr
  unfold validateStep at hr ⊢
  cases hi : h[i]? with
  | none => simp [hi] at hr
  | some s =>
    simp only [hi] at hr ⊢
    cases hp : s.pass with
    | some b => simp only [hp] at hr ⊢; exact ⟨r, hr, .refl _⟩
    | none =>
      simp only [hp] at hr ⊢
      cases hf : s.refSchema with
      | some j => simp only [hf] at hr ⊢; exact H _ _ _ _ _ _ hr
      | none =>
        simp only [hf] at hr ⊢
        cases ht : typeError env s.types v with
        | some g => simp only [ht] at hr ⊢; exact ⟨r, hr, .refl _⟩
        | none =>
          simp only [ht, Exec.bind_ok, Exec.pure_ok] at hr ⊢
          obtain ⟨a, ha, rfl⟩ := hr
          obtain ⟨a', ha', he⟩ := validateNode_rel H (σ2 := σ2) (p' := p') ha
          exact ⟨_, ⟨a', ha', rfl⟩, .append he (.refl _)⟩

end

theorem validateRecursive_rel {env σ1 σ2 h} : ∀ n m, n ≤ m →
    Rel (validateRecursive env σ1 h n) (validateRecursive env σ2 h m) := by
  intro n
  induction n with
  | zero => intro m _ p p' i v c r hr; simp [validateRecursive] at hr
  | succ n ih =>
    intro m hm
    cases m with
    | zero => omega
    | succ m => exact validateStep_rel (ih m (by omega))

end GJS

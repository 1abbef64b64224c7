import Verif.SpecAgain
import Verif.LemVisit
import Verif.PropVisit
/-
Helper lemmas: rewriting a rewritten document.
-/
namespace GJS
open Spec

section
variable {w : World}

theorem absRefs_rw (b : String) (D : Json) : RwStrict w b D (absRefs w b D) := by
  obtain ⟨D', h⟩ := rw_exists (w := w) (T := False) D b
  rw [← rwStrict_eq h]; exact h

theorem rwStrict_iff {b D D'} : RwStrict w b D D' ↔ D' = absRefs w b D :=
  ⟨rwStrict_eq, fun h => h ▸ absRefs_rw b D⟩

theorem getKey_mapped {k : String} {f : String → Json → Json} : ∀ {m : List (String × Json)},
    getKey k (m.map fun e => (e.1, f e.1 e.2)) = (getKey k m).map (f k)
  | [] => rfl
  | (k', v) :: m => by
    have ih := getKey_mapped (k := k) (f := f) (m := m)
    unfold getKey at ih ⊢
    rw [List.map_cons, List.lookup_cons, List.lookup_cons]
    cases h : k == k' with
    | true => rw [beq_iff_eq] at h; subst h; rfl
    | false => exact ih

theorem getKey_absM {b k m} : getKey k (absM w b m) = (getKey k m).map (absMember w b k) := by
  rw [absM_eq]; exact getKey_mapped

/-- Texts other than references are unchanged, and nothing becomes a text. -/
theorem absMember_str {b k v t} (hk : k ≠ "$ref") : absMember w b k v = .str t ↔ v = .str t := by
  unfold absMember
  cases v <;> simp only [absRefs] <;> (repeat' split) <;> simp_all

theorem idOf_absM {b m} : idOf (absM w b m) = idOf m := by
  have key : ∀ k, k ≠ "$ref" → (match getKey k (absM w b m) with | some (.str t) => some t | _ => none) =
      match getKey k m with | some (.str t) => some t | _ => none := by
    intro k hk
    rw [getKey_absM]
    cases h : getKey k m with
    | none => rfl
    | some v =>
      simp only [Option.map_some]
      cases hv : absMember w b k v with
      | str t => rw [absMember_str hk] at hv; subst hv; rfl
      | _ =>
        cases v with
        | str t => rw [(absMember_str hk).2 rfl] at hv; cases hv
        | _ => rfl
  unfold idOf
  have e : (getKey "id" (absM w b m)).isSome = (getKey "id" m).isSome := by rw [getKey_absM]; simp
  rw [e]
  cases (getKey "id" m).isSome with
  | true => exact key "id" (by decide)
  | false => exact key "$id" (by decide)

theorem scopeOf_absM {b b' m} : scopeOf w b' (absM w b m) = scopeOf w b' m := by
  unfold scopeOf; rw [idOf_absM]

theorem scopeOf_eq {b m} : scopeOf w b m = match idOf m with | none => b | some t => (resolved w b t).getD b := rfl

theorem firm_scope {S} (hS : Firm w S) {b b' m} (h : S b b') : S (scopeOf w b m) (scopeOf w b' m) := by
  rw [scopeOf_eq, scopeOf_eq]
  cases idOf m with
  | none => exact h
  | some t => exact hS.scope b b' t h

theorem entry_corr {i : Nat} {k : String} {v : Json} {m m' : List (String × Json)} (hk : m.map Prod.fst = m'.map Prod.fst)
    (h : m'[i]? = some (k, v)) : ∃ v0, m[i]? = some (k, v0) := by
  have e : (m'.map Prod.fst)[i]? = some k := by rw [List.getElem?_map, h]; rfl
  rw [← hk, List.getElem?_map] at e
  cases hj : m[i]? with
  | none => rw [hj] at e; cases e
  | some kv => obtain ⟨k', v'⟩ := kv; rw [hj] at e; cases e; exact ⟨v', rfl⟩

/-- Rewriting a rewritten document changes nothing. -/
theorem rw_again {S} (hS : Firm w S) {b D D'} (h : RwStrict w b D D') : ∀ b', S b b' → RwStrict w b' D' D' := by
  refine RwT.rec (motive_1 := fun b D D' _ => ∀ b', S b b' → RwStrict w b' D' D')
    (motive_2 := fun b k v v' _ => ∀ b', S b b' → RwMemberT w False b' k v' v') ?_ ?_ ?_ ?_ ?_ ?_ ?_ ?_ ?_ ?_ h
  · intro b v h1 h2 b' _; exact .scalar _ _ h1 h2
  · intro b xs ys hl _ ih b' hb
    refine .arr _ _ _ rfl fun i x y h1 h2 => ?_
    rw [h1] at h2
    cases h2
    obtain ⟨x0, h0⟩ := elem_corr (v := x) hl.symm h1
    exact ih i x0 x h0 h1 b' hb
  · intro b m m' hk hm ih b' hb
    have e := rwStrict_eq (RwT.obj b m m' hk hm)
    rw [absRefs] at e
    injection e with e
    refine .obj _ _ _ rfl fun i k v v' h1 h2 => ?_
    rw [h1] at h2
    cases h2
    obtain ⟨v0, h0⟩ := entry_corr hk h1
    have : scopeOf w b' m' = scopeOf w b' m := by rw [e]; exact scopeOf_absM
    rw [this]
    exact ih i k v0 v h0 h1 _ (firm_scope hS hb)
  · intro _ _ _ h _; exact h.elim
  · intro b k v h b' _; exact .literal _ _ _ h
  · intro b t t' h b' hb; exact .ref _ _ _ (hS.again b b' t t' hb h)
  · intro b t h b' hb; exact .badRef _ _ (hS.fails b b' t hb h)
  · intro b k c c' h hk _ ih b' hb
    refine .map _ _ _ _ h rfl fun i n x x' h1 h2 => ?_
    rw [h1] at h2
    cases h2
    obtain ⟨x0, h0⟩ := entry_corr hk h1
    exact ih i n x0 x h0 h1 b' hb
  · intro b k v h hc b' _; exact .noMap _ _ _ h hc
  · intro b k v v' h1 h2 h3 hr ih b' hb
    refine .sub _ _ _ _ h1 h2 (fun e t ht => ?_) (ih b' hb)
    have := rwStrict_eq hr
    rw [ht] at this
    cases v with
    | str s => exact h3 e s rfl
    | _ => simp [absRefs] at this

theorem absRefs_again {S} (hS : Firm w S) {b b'} (h : S b b') (D : Json) : absRefs w b' (absRefs w b D) = absRefs w b D :=
  (rwStrict_eq (rw_again hS (absRefs_rw b D) b' h)).symm

/-! ### The schemas in a rewritten document -/

theorem schemaAt_str {b t b' m} (h : SchemaAt w b (.str t) b' (.obj m)) : False := by
  generalize hv : Json.str t = v at h
  generalize hX : Json.obj m = X at h
  cases h with
  | here => rw [← hv] at hX; cases hX
  | _ => cases hv

theorem schemaAt_abs {b D b' m} (h : SchemaAt w b D b' (.obj m)) :
    SchemaAt w b (absRefs w b D) b' (.obj (absM w (scopeOf w b' m) m)) := by
  generalize hX : Json.obj m = X at h
  induction h with
  | here b D => subst hX; rw [absRefs]; exact .here _ _
  | elem b xs x b' X hx _ ih =>
    rw [absRefs, absL_eq]
    exact .elem _ _ _ _ _ (List.mem_map.2 ⟨x, hx, rfl⟩) (ih hX)
  | member b m0 k v b' X hv hl hm hs ih =>
    subst hX
    rw [absRefs]
    refine .member _ _ k (absMember w (scopeOf w b m0) k v) _ _ (by rw [absM_eq]; exact List.mem_map.2 ⟨_, hv, rfl⟩) hl hm ?_
    rw [scopeOf_absM]
    unfold absMember
    rw [if_neg (show ¬ (k = "const" ∨ k = "enum") from hl),
      if_neg (show ¬ (k = "properties" ∨ k = "dependencies" ∨ k = "patternProperties") from hm)]
    split
    · exact (schemaAt_str hs).elim
    · exact ih rfl
  | named b m0 c k n x b' X hv hm hx _ ih =>
    subst hX
    rw [absRefs]
    refine .named _ _ (c.map fun e => (e.1, absRefs w (scopeOf w b m0) e.2)) k n (absRefs w (scopeOf w b m0) x) _ _ ?_ hm ?_ ?_
    · rw [absM_eq]
      refine List.mem_map.2 ⟨_, hv, ?_⟩
      unfold absMember
      rw [if_neg (show ¬ (k = "const" ∨ k = "enum") from fun h => literal_not_map h hm),
        if_pos (show k = "properties" ∨ k = "dependencies" ∨ k = "patternProperties" from hm)]
    · exact List.mem_map.2 ⟨_, hx, rfl⟩
    · rw [scopeOf_absM]; exact ih rfl

theorem schemaAt_of_abs {b E b' Y} (h : SchemaAt w b E b' Y) : ∀ D m', E = absRefs w b D → Y = .obj m' →
    ∃ m, SchemaAt w b D b' (.obj m) ∧ m' = absM w (scopeOf w b' m) m := by
  induction h with
  | here b E =>
    rintro D m' h1 h2
    subst h1
    cases D with
    | obj m => rw [absRefs] at h2; injection h2 with h2; exact ⟨m, .here _ _, h2.symm⟩
    | _ => simp [absRefs] at h2
  | elem b ys y b' Y hy _ ih =>
    rintro D m' h1 h2
    cases D with
    | arr xs =>
      rw [absRefs, absL_eq] at h1
      injection h1 with h1
      subst h1
      obtain ⟨x, hx, rfl⟩ := List.mem_map.1 hy
      obtain ⟨m, g1, g2⟩ := ih x m' rfl h2
      exact ⟨m, .elem _ _ _ _ _ hx g1, g2⟩
    | _ => simp [absRefs] at h1
  | member b n k v b' Y hv hl hm hs ih =>
    rintro D m' h1 h2
    cases D with
    | obj m0 =>
      rw [absRefs] at h1
      injection h1 with h1
      subst h1
      rw [scopeOf_absM] at hs ih
      rw [absM_eq] at hv
      obtain ⟨⟨k0, v0⟩, hx, e⟩ := List.mem_map.1 hv
      simp only [Prod.mk.injEq] at e
      obtain ⟨rfl, rfl⟩ := e
      unfold absMember at hs ih
      rw [if_neg (show ¬ (k0 = "const" ∨ k0 = "enum") from hl),
        if_neg (show ¬ (k0 = "properties" ∨ k0 = "dependencies" ∨ k0 = "patternProperties") from hm)] at hs ih
      subst h2
      cases v0 with
      | str t => exact (schemaAt_str hs).elim
      | _ =>
        obtain ⟨m, g1, g2⟩ := ih _ m' rfl rfl
        exact ⟨m, .member _ _ _ _ _ _ hx hl hm g1, g2⟩
    | _ => simp [absRefs] at h1
  | named b n c k a x b' Y hv hm hx _ ih =>
    rintro D m' h1 h2
    cases D with
    | obj m0 =>
      rw [absRefs] at h1
      injection h1 with h1
      subst h1
      rw [scopeOf_absM] at ih
      rw [absM_eq] at hv
      obtain ⟨⟨k0, v0⟩, hx0, e⟩ := List.mem_map.1 hv
      simp only [Prod.mk.injEq] at e
      obtain ⟨rfl, e⟩ := e
      unfold absMember at e
      rw [if_neg (show ¬ (k0 = "const" ∨ k0 = "enum") from fun h => literal_not_map h hm),
        if_pos (show k0 = "properties" ∨ k0 = "dependencies" ∨ k0 = "patternProperties" from hm)] at e
      cases v0 with
      | obj c0 =>
        simp only at e
        injection e with e
        subst e
        obtain ⟨⟨a0, x0⟩, hx1, e⟩ := List.mem_map.1 hx
        simp only [Prod.mk.injEq] at e
        obtain ⟨rfl, rfl⟩ := e
        obtain ⟨m, g1, g2⟩ := ih x0 m' rfl h2
        exact ⟨m, .named _ _ _ _ _ _ _ _ hx0 hm hx1 g1, g2⟩
      | _ => simp at e
    | _ => simp [absRefs] at h1

theorem declares_absM {b b' m k} : Declares w b (absM w b' m) k ↔ Declares w b m k := by
  unfold Declares; rw [idOf_absM]

/-! ### The documents mean the same -/

/-- All identifiers, as a membership. -/
theorem ids_iff {b D k} : k ∈ idsIn w b D ↔ ∃ b' m, SchemaAt w b D b' (.obj m) ∧ Declares w b' m k :=
  ⟨fun h => by
    obtain ⟨b', m, h1, h2⟩ := ids_schemaAt _ (Nat.le_refl _) h
    exact ⟨b', m, h1, declares_iff.2 h2⟩,
   fun ⟨b', m, h1, h2⟩ => schemaAt_ids h1 rfl (declares_iff.1 h2)⟩

theorem flatMap_pointwise {α β : Type} {f g : α → List β} : ∀ {xs ys : List α}, xs.length = ys.length →
    (∀ (i : Nat) x y, xs[i]? = some x → ys[i]? = some y → g y = f x) → ys.flatMap g = xs.flatMap f
  | [], [], _, _ => rfl
  | [], _ :: _, h, _ => by simp at h
  | _ :: _, [], h, _ => by simp at h
  | x :: xs, y :: ys, h, hp => by
    simp only [List.length_cons, Nat.add_right_cancel_iff] at h
    rw [List.flatMap_cons, List.flatMap_cons,
      flatMap_pointwise h fun i a b h1 h2 => hp (i + 1) a b (by simpa using h1) (by simpa using h2), hp 0 x y (by simp) (by simp)]

theorem entry_pointwise {Q : String × Json → String × Json → Prop} {m m' : List (String × Json)} (hk : m.map Prod.fst = m'.map Prod.fst)
    (h : ∀ (i : Nat) k v v', m[i]? = some (k, v) → m'[i]? = some (k, v') → Q (k, v) (k, v')) :
    m.length = m'.length ∧ ∀ (i : Nat) x y, m[i]? = some x → m'[i]? = some y → Q x y := by
  refine ⟨by simpa using congrArg List.length hk, fun i x y h1 h2 => ?_⟩
  obtain ⟨k, v⟩ := x
  obtain ⟨k', v'⟩ := y
  obtain ⟨v0, h0⟩ := entry_corr hk h2
  rw [h1] at h0
  cases h0
  exact h i k v v' h1 h2

/-- Rewriting does not touch identifiers. -/
theorem rw_ids {b D D'} (h : RwStrict w b D D') : ∀ c, idsIn w c D' = idsIn w c D := by
  refine RwT.rec (motive_1 := fun b D D' _ => ∀ c, idsIn w c D' = idsIn w c D)
    (motive_2 := fun b k v v' _ => ∀ c, memberIds w c k v' = memberIds w c k v) ?_ ?_ ?_ ?_ ?_ ?_ ?_ ?_ ?_ ?_ h
  · intros; rfl
  · intro b xs ys hl _ ih c
    rw [idsIn, idsIn, idsInL_eq, idsInL_eq]
    exact flatMap_pointwise hl fun i x y h1 h2 => ih i x y h1 h2 c
  · intro b m m' hk hm ih c
    have e := rwStrict_eq (RwT.obj b m m' hk hm)
    rw [absRefs] at e
    injection e with e
    have hs : scopeOf w c m' = scopeOf w c m := by rw [e]; exact scopeOf_absM
    have ha : absId w c m' = absId w c m := by unfold absId; rw [e, idOf_absM]
    rw [idsIn, idsIn, idsInM_eq, idsInM_eq, hs, ha]
    congr 1
    obtain ⟨h1, h2⟩ := entry_pointwise (Q := fun x y => memberIds w (scopeOf w c m) y.1 y.2 = memberIds w (scopeOf w c m) x.1 x.2) hk
      fun i k v v' h1 h2 => ih i k v v' h1 h2 _
    exact flatMap_pointwise h1 h2
  · intro _ _ _ h; exact h.elim
  · intros; rfl
  · intro b t t' h c; unfold memberIds; simp [idsIn]
  · intros; rfl
  · intro b k c c' h hk _ ih d
    unfold memberIds
    simp only [if_neg (show ¬ (k = "const" ∨ k = "enum") from fun hl => literal_not_map hl h),
      if_pos (show k = "properties" ∨ k = "dependencies" ∨ k = "patternProperties" from h)]
    obtain ⟨h1, h2⟩ := entry_pointwise (Q := fun x y => idsIn w d y.2 = idsIn w d x.2) hk
      fun i k v v' h1 h2 => ih i k v v' h1 h2 _
    exact flatMap_pointwise h1 h2
  · intros; rfl
  · intro b k v v' h1 h2 h3 _ ih c
    unfold memberIds
    simp only [if_neg (show ¬ (k = "const" ∨ k = "enum") from h1),
      if_neg (show ¬ (k = "properties" ∨ k = "dependencies" ∨ k = "patternProperties") from h2)]
    exact ih c

theorem rw_declared {b D D'} (h : RwStrict w b D D') : declaredDraft w D' = declaredDraft w D := by
  rw [rwStrict_eq h]
  cases D with
  | obj m =>
    rw [absRefs]
    unfold declaredDraft
    simp only
    rw [getKey_absM]
    cases hg : getKey "$schema" m with
    | none => rfl
    | some v =>
      simp only [Option.map_some]
      cases hv : absMember w (scopeOf w b m) "$schema" v with
      | str t => rw [absMember_str (by decide)] at hv; subst hv; rfl
      | _ =>
        cases v with
        | str t => rw [(absMember_str (by decide)).2 rfl] at hv; cases hv
        | _ => rfl
  | _ => rfl

theorem rw_schemaRead {b D D'} (h : RwStrict w b D D') : SchemaRead w D' ↔ SchemaRead w D := by
  rw [rwStrict_eq h]
  cases D with
  | obj m =>
    rw [absRefs]
    unfold SchemaRead Kw
    constructor
    · intro g m1 v e hv
      cases e
      obtain ⟨t, h1, h2⟩ := g _ (absMember w (scopeOf w b m) "$schema" v) rfl (by rw [getKey_absM, hv]; rfl)
      exact ⟨t, (absMember_str (by decide)).1 h1, h2⟩
    · intro g m1 v e hv
      cases e
      rw [getKey_absM] at hv
      cases hg : getKey "$schema" m with
      | none => rw [hg] at hv; cases hv
      | some v0 =>
        rw [hg] at hv
        cases hv
        obtain ⟨t, h1, h2⟩ := g _ v0 rfl hg
        exact ⟨t, (absMember_str (by decide)).2 h1, h2⟩
  | _ => simp [absRefs, SchemaRead]

/-- A document and what rewriting makes of it. -/
structure Reread (w : World) (D0 D1 : Json) : Prop where
  rw : ∀ X, RwStrict w "" D1 X ↔ RwStrict w "" D0 X
  own : ∀ k X, Own w D1 k X ↔ Own w D0 k X
  declares : ∀ k, (∃ b m, SchemaAt w "" D1 b (.obj m) ∧ Declares w b m k) ↔ ∃ b m, SchemaAt w "" D0 b (.obj m) ∧ Declares w b m k
  draft : declaredDraft w D1 = declaredDraft w D0
  ids : idsIn w "" D1 = idsIn w "" D0

theorem reread_of {D0 D1} (hs : Lasting w "") (h : RwStrict w "" D0 D1) : Reread w D0 D1 := by
  obtain ⟨P, hP, hS⟩ := hs
  have scopeP : ∀ {b D b' X}, SchemaAt w b D b' X → P b → P b' := by
    intro b D b' X h
    have step : ∀ {b m}, P b → P (scopeOf w b m) := fun hb => (firm_scope (m := _) hS ⟨rfl, hb⟩).2
    induction h with
    | here => exact id
    | elem _ _ _ _ _ _ _ ih => exact ih
    | member _ _ _ _ _ _ _ _ _ _ ih => exact fun hb => ih (step hb)
    | named _ _ _ _ _ _ _ _ _ _ _ _ ih => exact fun hb => ih (step hb)
  have again : ∀ {b} D, P b → absRefs w b (absRefs w b D) = absRefs w b D := fun D hb => absRefs_again hS ⟨rfl, hb⟩ D
  rw [rwStrict_iff] at h
  subst h
  refine ⟨fun X => ?_, fun k X => ?_, fun k => ?_, rw_declared (absRefs_rw _ _), rw_ids (absRefs_rw _ _) _⟩
  · rw [rwStrict_iff, rwStrict_iff, again _ hP]
  · unfold Own
    refine or_congr ?_ ?_
    · rw [rwStrict_iff, rwStrict_iff, again _ hP]
    · refine and_congr Iff.rfl ⟨?_, ?_⟩
      · rintro ⟨b, m', h1, h2, h3⟩
        obtain ⟨m, g1, rfl⟩ := schemaAt_of_abs h1 _ _ rfl rfl
        rw [declares_absM] at h2
        refine ⟨b, m, g1, h2, ?_⟩
        rw [rwStrict_iff] at h3 ⊢
        have := again (.obj m) (scopeP g1 hP)
        rw [absRefs] at this
        rw [h3, this, absRefs]
      · rintro ⟨b, m, h1, h2, h3⟩
        refine ⟨b, _, schemaAt_abs h1, declares_absM.2 h2, ?_⟩
        rw [rwStrict_iff] at h3 ⊢
        have := again (.obj m) (scopeP h1 hP)
        rw [absRefs] at this
        rw [h3, this, absRefs]
  · rw [← ids_iff, ← ids_iff, rw_ids (absRefs_rw _ _)]

section
variable {D0 D1 : Json} {l : LState} (S : Reread w D0 D1)
include S

theorem Reread.symm : Reread w D1 D0 :=
  ⟨fun X => (S.rw X).symm, fun k X => (S.own k X).symm, fun k => (S.declares k).symm, S.draft.symm, S.ids.symm⟩

theorem Reread.place {k e} (h : Place w l D1 k e) : Place w l D0 k e := by
  cases h with
  | own X h =>
    have : draftOf w l.autoDetect D1 = draftOf w l.autoDetect D0 := by unfold draftOf; rw [S.draft]
    rw [this]
    exact .own X ((S.own k X).1 h)
  | before e h1 h2 h3 =>
    refine .before e h1 (fun b m g1 g2 => ?_) h3
    obtain ⟨b', m', g1', g2'⟩ := (S.declares k).2 ⟨b, m, g1, g2⟩
    exact h2 b' m' g1' g2'

theorem Reread.stands {u o X} (h : StandsFor w l D1 u o X) : StandsFor w l D0 u o X := by
  cases h with
  | whole e h => exact .whole e (S.place h)
  | part e X h1 h2 => exact .part e X (S.place h1) h2

theorem Reread.met {X} (h : Met w l D1 X) : Met w l D0 X := by
  induction h with
  | root D h => exact .root D ((S.rw D).1 h)
  | inside D x _ h ih => exact .inside D x ih h
  | ref m t u o X _ h1 h2 h3 ih => exact .ref m t u o X ih h1 h2 (S.stands h3)

theorem Reread.refers {u} (h : RefersTo w l D1 u) : RefersTo w l D0 u := by
  obtain ⟨m, t, h1, h2, h3⟩ := h
  exact ⟨m, t, S.met h1, h2, h3⟩

theorem Reread.visited {d X} (h : Visited w l d D1 X) : Visited w l d D0 X := by
  induction h with
  | root D h => exact .root D ((S.rw D).1 h)
  | sub m X _ h ih => exact .sub m X ih h
  | definition m ps k X _ h1 h2 ih => exact .definition m ps k X ih h1 h2
  | ref m t u o X _ h1 h2 h3 ih => exact .ref m t u o X ih h1 h2 (S.stands h3)

theorem Reread.follows {d resolve} (h : Follows w l d D0 resolve) : Follows w l d D1 resolve :=
  fun m t u o X h1 h2 h3 h4 => h m t u o X (S.met h1) h2 h3 (S.stands h4)

theorem Reread.draftFor : draftFor w l D1 = draftFor w l D0 := by unfold GJS.Spec.draftFor; rw [S.draft]

theorem Reread.closed {d} (h : Closed w l d D0) : Closed w l d D1 where
  distinct := by rw [S.ids]; exact h.distinct
  new := by
    intro b m k h1 h2
    obtain ⟨b', m', g1, g2⟩ := (S.declares k).1 ⟨b, m, h1, h2⟩
    exact h.new b' m' k g1 g2
  known := by
    intro u hu
    obtain ⟨e, he⟩ := h.known u (S.refers hu)
    exact ⟨e, he.imp S.symm.place S.symm.place⟩
  one := fun u hu o o' X X' h1 h2 => h.one u (S.refers hu) o o' X X' (S.stands h1) (S.stands h2)
  draft := fun u hu x X h1 => h.draft u (S.refers hu) x X (S.stands h1)

theorem Reread.alone {d} (h : Alone w l d D0) : Alone w l d D1 := fun m v hm hk => h m v (S.visited hm) hk

theorem Reread.intact {d X} (h : Intact w l d D0 X) : Intact w l d D1 X := by
  cases h with
  | bool b h => exact .bool b h
  | obj m h1 h2 =>
    refine .obj m h1 fun v hv => ?_
    obtain ⟨t, u, o, X, g1, g2, g3⟩ := h2 v hv
    exact ⟨t, u, o, X, g1, g2, S.symm.stands g3⟩
end

end

end GJS

import Verif.LemClosed
import Verif.LemFuel
import Verif.LemReject
import Verif.LemNoFault
import Verif.LemAcceptRoot
import Verif.PropPanic
import Verif.SpecVisit
/-
Helper lemmas: acceptance of closed documents (C64).
-/
namespace GJS
open Spec

section
variable {w : World} {l : LState} {D0 : Json} {d : Draft}

theorem visited_met {X} (h : Visited w l d D0 X) : Met w l D0 X := by
  induction h with
  | root D h => exact .root _ h
  | sub m X _ hs ih => exact .inside _ _ ih (subSchema_within hs)
  | definition m ps k X _ hk hm ih =>
    exact .inside _ _ ih (.member _ _ _ _ (lookup_some_mem hk) (.member _ _ _ _ hm (.self _)))
  | ref m t u o X _ hk hn hs ih => exact .ref m t u o _ ih hk hn hs

theorem compiled_visited {l' : LState} {D} (hb : ∀ r, w.base (w.base r) = w.base r) (H : Held w l D0 l') (hc : Closed w l d D0)
    (hD : RwStrict w "" D0 D) {d' X} (h : Compiled w l' d D d' X) : d' = d ∧ Visited w l d D0 X := by
  induction h with
  | root => exact ⟨rfl, .root _ hD⟩
  | sub d' m D' _ hs ih => obtain ⟨rfl, ih⟩ := ih; exact ⟨rfl, .sub _ _ ih hs⟩
  | definition d' m ps k D' _ hk hm ih => exact ⟨ih.1, .definition m ps k _ ih.2 hk hm⟩
  | ref d' m t u o D' _ hk hn hr ih =>
    have hs := resolvedAs_stands hb H hr
    refine ⟨?_, .ref m t u o _ ih.2 hk hn hs⟩
    cases o with
    | none => exact ih.1
    | some x => exact hc.draft u ⟨m, t, visited_met ih.2, hk, hn⟩ x _ hs

theorem intact_kind {X} (h : Intact w l d D0 X) : ¬ NoSchema X := by
  rintro ⟨h1, h2⟩
  cases h with
  | bool b _ => exact h1 b rfl
  | obj m _ _ => exact h2 m rfl

/-- What is well-formed has no fault. -/
theorem intact_fine {l' : LState} (hi : ∀ a b, w.inherits a b ≠ none) (hb : ∀ r, w.base (w.base r) = w.base r)
    (H : Held w l D0 l') (hc : Closed w l d D0) (ha : ∀ X, Visited w l d D0 X → Intact w l d D0 X) {X e}
    (hv : Visited w l d D0 X) (h : Malformed w l' d X e) : False := by
  cases h with
  | kind _ h => exact intact_kind (ha _ hv) h
  | bool b h => cases ha _ hv with | bool _ h' => exact h h'
  | fault m e h =>
    cases ha _ hv with
    | obj _ hS hR =>
      refine no_fault hi hS (fun D hs => intact_kind (ha _ (.sub m _ hv hs)))
        (fun ps k D hk hm => intact_kind (ha _ (.definition m ps k _ hv hk hm))) (fun v hk => ?_) h
      obtain ⟨t, u, o, Y, rfl, hn, hs⟩ := hR v hk
      refine ⟨t, u, rfl, hn, fun e he => ?_, fun o D hr => intact_kind (ha _ (.ref m t u o _ hv hk hn (resolvedAs_stands hb H hr)))⟩
      cases he with
      | relative h1 h2 _ =>
        obtain ⟨e, he | he⟩ := hc.known u ⟨m, t, visited_met hv, hk, hn⟩
        · rw [H.places _ _ he] at h1; cases h1
        · rw [H.places _ _ he] at h2; cases h2
      | unloaded n f hl _ => rw [H.log] at hl; cases hl
      | inside e h1 h2 h3 =>
        cases hs with
        | whole e' hp =>
          rcases h3 with h3 | ⟨f, h3⟩
          · rw [H.places _ _ hp] at h3; cases h3
          · rw [H.log] at h3; cases h3
        | part e' _ hp hx =>
          rw [H.places _ _ hp] at h1
          cases h1
          rw [h2] at hx; cases hx
      | loaded n f doc _ hl _ _ => rw [H.log] at hl; cases hl

/-! ### Where the parts come from -/

theorem place_within {D k e} (hD : RwStrict w "" D0 D) (h : Place w l D0 k e) :
    Within D e.doc ∨ ∃ k' e', getKey k' l.pool = some e' ∧ Within e'.doc e.doc := by
  cases h with
  | own X hX => exact .inl (own_within hD hX)
  | before _ _ _ hk => exact .inr ⟨k, e, hk, .self _⟩

theorem met_origin {D X} (hp : ∀ r D d, w.pointer r D = some d → Within D d) (hD : RwStrict w "" D0 D) (h : Met w l D0 X) :
    Within D X ∨ ∃ k e, getKey k l.pool = some e ∧ Within e.doc X := by
  induction h with
  | root D' h => left; rw [rwStrict_eq hD, rwStrict_eq h]; exact .self _
  | inside _ _ _ h ih =>
    rcases ih with ih | ⟨k, e, h1, h2⟩
    · exact .inl (within_trans ih h)
    · exact .inr ⟨k, e, h1, within_trans h2 h⟩
  | ref m t u o X _ hk hn hs ih =>
    cases hs with
    | whole e h => exact place_within hD h
    | part e _ h hx =>
      rcases place_within hD h with h1 | ⟨k, e', h1, h2⟩
      · exact .inl (within_trans h1 (hp _ _ _ hx))
      · exact .inr ⟨k, e', h1, within_trans h2 (hp _ _ _ hx)⟩

/-- The documents a compilation can meet are parts of finitely many. -/
theorem met_parts {D} (hp : ∀ r D d, w.pointer r D = some d → Within D d) (hD : RwStrict w "" D0 D) :
    ∃ Ds : List Json, ∀ X, Met w l D0 X → ∃ Y ∈ Ds, Within Y X := by
  refine ⟨D :: l.pool.map fun x => x.2.doc, fun X h => ?_⟩
  rcases met_origin hp hD h with h | ⟨k, e, h1, h2⟩
  · exact ⟨D, by simp, h⟩
  · exact ⟨e.doc, List.mem_cons_of_mem _ (List.mem_map.2 ⟨(k, e), lookup_some_mem h1, rfl⟩), h2⟩

theorem parts_bound (w : World) : ∀ Ds : List Json, ∃ (S : Nat) (rs : List String), ∀ Y ∈ Ds, Y.size ≤ S ∧
    ∀ r, Refers w Y r → r ∈ rs
  | [] => ⟨0, [], by simp⟩
  | D :: Ds => by
    obtain ⟨S, rs, h⟩ := parts_bound w Ds
    obtain ⟨R, hR⟩ := texts_raw D
    refine ⟨max D.size S, R.filterMap w.norm ++ rs, ?_⟩
    rintro Y hY
    rcases List.mem_cons.1 hY with rfl | hY
    · refine ⟨Nat.le_max_left _ _, ?_⟩
      rintro r ⟨m, t, h1, h2, h3⟩
      refine List.mem_append_left _ (List.mem_filterMap.2 ⟨t, hR t ?_, h3⟩)
      exact within_trans h1 (within_get h2)
    · obtain ⟨h1, h2⟩ := h Y hY
      exact ⟨Nat.le_trans h1 (Nat.le_max_right _ _), fun r hr => List.mem_append_right _ (h2 r hr)⟩

/-- A bound on the depth of the calls that compile a closed document. -/
theorem closed_bound (hp : ∀ r D d, w.pointer r D = some d → Within D d) (hc : Closed w l d D0) :
    ∃ n, ∀ (σ : Sched) (fuel : Fuel) (p : Path) (ref : String) (D : Json) (dr : Draft) (l' : LState), n ≤ fuel.parse →
      RwStrict w "" D0 D → Held w l D0 l' → (runParse w σ fuel p ref D dr l').1 ≠ .error .fuel := by
  obtain ⟨D, hD⟩ := rw_exists (w := w) (T := False) D0 ""
  obtain ⟨Ds, hDs⟩ := met_parts (l := l) hp hD
  obtain ⟨S, rs, hS⟩ := parts_bound w Ds
  have fine : ∀ X, Met w l D0 X → PoolFine w S (fun r => r ∈ rs ∧ RefersTo w l D0 r) X := by
    intro X hX
    obtain ⟨Y, h1, h2⟩ := hDs X hX
    obtain ⟨h3, h4⟩ := hS Y h1
    refine ⟨Nat.le_trans (within_size h2) h3, fun r hr => ⟨h4 r (refers_within h2 hr), ?_⟩⟩
    obtain ⟨m, t, g1, g2, g3⟩ := hr
    exact ⟨m, t, .inside _ _ hX g1, g2, g3⟩
  refine ⟨rs.length * (S + 1) + S, fun σ fuel p ref D' dr l' hn hD' H he => ?_⟩
  have lead : Leads (Held w l D0) w σ S (fun r => r ∈ rs ∧ RefersTo w l D0 r) := by
    rintro r ⟨_, hr⟩ p
    refine (held_get errFine_fuel (hc.known r hr)).mono fun e he => ?_
    obtain ⟨m, t, h1, h2, h3⟩ := hr
    exact fine _ (.ref m t r _ _ h1 h2 h3 he)
  have := runParse_fuel (P := Held w l D0) (w := w) (σ := σ) (p := p) (ref := ref) (d := dr) (rs := rs) (fun r hr => hr.1) lead hn
    (fine D' (.root _ hD')) l' H
  exact this.2.2 .fuel _ (Prod.ext he rfl) rfl

/-- Compiling a closed document without panicking places does not panic. -/
theorem closed_calm (hp : ∀ r D d, w.pointer r D = some d → Within D d) (hc : Closed w l d D0)
    (hl : PoolAll (Harmless w.env) l) (hD0 : Harmless w.env D0) {σ : Sched} {fuel : Fuel} {p ref D dr l'}
    (hD : RwStrict w "" D0 D) (H : Held w l D0 l') : (runParse w σ fuel p ref D dr l').1 ≠ .error .panic := by
  have hfD : Fine w.env False D := (fine_false.2 hD0).like (rw_blank hD)
  have fine : ∀ X, Met w l D0 X → Fine w.env False X := by
    intro X hX
    rcases met_origin hp hD hX with h | ⟨k, e, h1, h2⟩
    · exact hfD.within h
    · exact (fine_false.2 (hl k e h1)).within h2
  have docs : DocsFine IsPanic w (Met w l D0) := {
    top := fun m h => docsFine_fine.top m (fine _ h)
    self := fun v h => docsFine_fine.self v (fine _ h)
    member := fun m k v hm hv => .inside _ _ hm (within_get hv)
    entry := fun m kv hm hv => .inside _ _ hm (within_member hv)
    elem := fun xs x hm hx => .inside _ _ hm (within_elem hx) }
  have key := parseRoot_on (P := Held w l D0) (B := IsPanic) (w := w) (σ := σ) (N := Met w l D0) (p := p) (d := dr)
    (n := fuel.parse) (docRef := ref) (doc := D) errFine_panic.fine (fun h => by cases h) docs (.root _ hD)
    (fun m r hm hr p => by
      obtain ⟨t, ht, hn⟩ := hr
      exact (held_get errFine_panic (hc.known r ⟨m, t, hm, ht, hn⟩)).mono fun e he => .ref m t r _ _ hm ht hn he)
    { l := l' } H
  intro he
  unfold runParse at he
  cases hx : parseRoot w σ fuel.parse p ref D dr { l := l' } with
  | mk r s =>
    rw [hx] at he
    cases r with
    | ok c => simp at he
    | error e =>
      simp only [Except.error.injEq] at he
      exact key.2.2 _ _ hx he

/-! ### `$schema` -/

theorem schemaRead_rw {b D D'} (hD : D.WF) (h : RwStrict w b D D') : SchemaRead w D' ↔ SchemaRead w D := by
  cases D with
  | obj m =>
    obtain ⟨m', rfl, hk⟩ : ∃ m', D' = .obj m' ∧ m.map Prod.fst = m'.map Prod.fst := by
      cases h with
      | scalar _ _ _ h => exact absurd rfl (h m)
      | obj _ _ m' h1 _ => exact ⟨m', rfl, h1⟩
      | taken _ _ _ h => exact h.elim
    have kw := fun t => rw_kw (k := "$schema") (v := .str t) hD h (by simp) (by simp [Scalar])
    have iso : (getKey "$schema" m).isSome = (getKey "$schema" m').isSome := by
      have e : ∀ m : List (String × Json), (getKey "$schema" m).isSome = decide ("$schema" ∈ m.map Prod.fst) := by
        intro m
        rw [Bool.eq_iff_iff, decide_eq_true_iff]
        exact lookup_isSome_iff
      rw [e, e, hk]
    constructor
    · intro hr m1 v e1 hv
      cases e1
      unfold Kw at hv
      rw [hv] at iso
      obtain ⟨v', hv'⟩ := Option.isSome_iff_exists.1 iso.symm
      obtain ⟨t, rfl, ht⟩ := hr m' v' rfl hv'
      have := (kw t).1 hv'
      unfold Kw at this
      rw [hv] at this
      cases this
      exact ⟨t, rfl, ht⟩
    · intro hr m1 v e1 hv
      cases e1
      unfold Kw at hv
      rw [hv] at iso
      obtain ⟨v', hv'⟩ := Option.isSome_iff_exists.1 iso
      obtain ⟨t, rfl, ht⟩ := hr m v' rfl hv'
      have := (kw t).2 hv'
      unfold Kw at this
      rw [hv] at this
      cases this
      exact ⟨t, rfl, ht⟩
  | arr xs =>
    have e : ∀ xs, SchemaRead w (.arr xs) := fun _ _ _ h => by cases h
    cases h <;> exact ⟨fun _ => e _, fun _ => e _⟩
  | _ => cases h <;> exact Iff.rfl

/-! ### Acceptance -/

/-- `Compile` of a closed document without panicking places returns a schema or an error. -/
theorem closed_returns (hw : Setting w l) (hq : Idling l) (hs : Standard w) (hl : PoolAll (Harmless w.env) l)
    (hD : Harmless w.env D0) (hc : Closed w l (draftFor w l D0) D0) :
    ∃ n, ∀ (σ : Sched) (fuel : Fuel) (p : Path), n ≤ fuel.parse → ∀ f l',
      compile w σ fuel p (.direct (some D0)) l = (.error f, l') → ∃ e, f = .err e := by
  obtain ⟨n, hn⟩ := closed_bound hs.pointer hc
  refine ⟨n, fun σ fuel p hle f l' hx => ?_⟩
  suffices hf : ¬ (IsPanic f ∨ IsFuel f) by
    cases f with
    | err e => exact ⟨e, rfl⟩
    | panic => exact absurd (.inl rfl) hf
    | fuel => exact absurd (.inr rfl) hf
  unfold compile compileG at hx
  simp only [LoaderArg.ref, hw.root] at hx
  rcases M.bind_error.1 hx with h | ⟨_, l1, h1, h⟩
  · simp [M.modify] at h
  rw [M.modify_ok] at h1
  rcases M.bind_error.1 h with h2 | ⟨D, l2, h2, h⟩
  · unfold rootDocument at h2
    simp only [bne_self_eq_false, Bool.false_eq_true, if_false] at h2
    rcases M.bind_error.1 h2 with h2 | ⟨D1, l3, h3, h2⟩
    · simp [loadJSON] at h2
    simp only [loadJSON, Prod.mk.injEq, Except.ok.injEq] at h3
    obtain ⟨g1, g2⟩ := h3
    subst g1 g2
    rintro (hp | hp)
    · rcases M.bind_error.1 h2 with h3 | ⟨x, l3, _, h3⟩
      · exact (parseReferences_noPanic (σ := σ) (V := False) hs (fine_false.2 hD) l1 trivial).2.2 _ _ h3 hp
      · exact (failIf_safe (P := fun _ => True) (N := fun _ => True) errFine_panic trivial l3 trivial).2.2 _ _ h3 hp
    · rcases M.bind_error.1 h2 with h3 | ⟨x, l3, _, h3⟩
      · exact parseReferences_noFuel _ _ _ h3 hp
      · exact (failIf_safe (P := fun _ => True) (N := fun _ => True) errFine_fuel trivial l3 trivial).2.2 _ _ h3 hp
  have R := closed_root hw hq hD.1 hc (by rw [← h1]) (by rw [← h1]) (by rw [← h1]) (by rw [← h1]) (by rw [← h1]) h2
  rcases M.bind_error.1 h with h3 | ⟨_, l3, h3, h⟩
  · rw [whenValidate_off R.validate] at h3; cases h3
  rw [whenValidate_off R.validate] at h3
  cases h3
  rcases M.bind_error.1 h with h3 | ⟨dr, l3, h3, h⟩
  · rintro (hp | hp)
    · unfold rootDraft at h3
      rcases M.bind_error.1 h3 with h4 | ⟨l4, l5, h4, h3⟩
      · simp [M.get] at h4
      rw [M.get_ok] at h4
      obtain ⟨rfl, rfl⟩ := h4
      split at h3
      · rcases M.bind_error.1 h3 with h5 | ⟨_, _, _, h5⟩
        · exact (parseSchemaURL_safe (P := fun _ => True) errFine_panic (docsFine_fine (V := False))
            ((fine_false.2 hD).like (rw_blank R.strict)) _ trivial).2.2 _ _ h5 hp
        · simp [M.pure_def] at h5
      · simp [M.pure_def] at h3
    · exact (rootDraft_fuel (P := fun _ => True) l2 trivial).2.2 _ _ h3 hp
  obtain ⟨rfl, rfl⟩ := rootDraft_ok h3
  rintro (hp | hp)
  · exact closed_calm hs.pointer hc hl hD R.strict R.held ((congrArg Prod.fst h).trans (by rw [hp]))
  · exact hn σ fuel (62 :: p) "" D _ l3 hle R.strict R.held ((congrArg Prod.fst h).trans (by rw [hp]))

/-- There is no reason to refuse a well-formed closed document. -/
theorem closed_no_err (hw : Setting w l) (hq : Idling l) (hs : Standard w) (hb : ∀ r, w.base (w.base r) = w.base r)
    (hf : FmtOK w.env.fmtF64) (hu : Unnamed l) (hD : D0.WF) (hc : Closed w l (draftFor w l D0) D0)
    (ha : AllIntact w l (draftFor w l D0) D0) {σ : Sched} {fuel p e l'} :
    compile w σ fuel p (.direct (some D0)) l ≠ (.error (.err e), l') := by
  intro hx
  obtain ⟨DA, hDA⟩ := rw_exists (w := w) (T := False) D0 ""
  have kind : ¬ NoSchema D0 := by
    rintro ⟨h1, h2⟩
    have := ha.all _ (.root _ hDA)
    cases hDA with
    | scalar _ _ _ _ =>
      cases this with
      | bool b _ => exact h1 b rfl
      | obj m _ _ => exact h2 m rfl
    | arr _ xs ys _ _ => cases this
    | obj _ m m' _ _ => exact h2 m rfl
    | taken _ _ _ h => exact h.elim
  unfold compile compileG at hx
  simp only [LoaderArg.ref, hw.root] at hx
  rcases M.bind_error.1 hx with h | ⟨_, l1, h1, h⟩
  · simp [M.modify] at h
  rw [M.modify_ok] at h1
  have e1 : l1.pool = l.pool := by rw [← h1]
  have e2 : l1.autoDetect = l.autoDetect := by rw [← h1]
  rcases M.bind_error.1 h with h2 | ⟨D, l2, h2, h⟩
  · unfold rootDocument at h2
    simp only [bne_self_eq_false, Bool.false_eq_true, if_false] at h2
    rcases M.bind_error.1 h2 with h2 | ⟨D1, l3, h3, h2⟩
    · simp [loadJSON] at h2
    simp only [loadJSON, Prod.mk.injEq, Except.ok.injEq] at h3
    obtain ⟨g1, g2⟩ := h3
    subst g1 g2
    rcases parseReferences_blame h2 with ⟨h4, h5⟩ | ⟨_, h4, _⟩ | ⟨m, t, u, k, h3, h4, h5, h6, h7, _⟩
    · have hr := ha.schema (e2 ▸ h4)
      cases h5 with
      | kind _ g => exact kind g
      | text m v g1 g2 => obtain ⟨t, g3, _⟩ := hr m v rfl g1; exact g2 t g3
      | url m t g1 g2 => obtain ⟨t', g3, g4⟩ := hr m _ rfl g1; cases g3; exact g4 g2
    · rw [e1, hu] at h4; cases h4
    · subst h3
      rw [e1, hc.new "" m k (.here _ _) ⟨t, u, h4, h5, h6⟩] at h7
      cases h7
  have R := closed_root hw hq hD hc e1 e2 (by rw [← h1]) (by rw [← h1]) (by rw [← h1]) h2
  rcases M.bind_error.1 h with h3 | ⟨_, l3, h3, h⟩
  · rw [whenValidate_off R.validate] at h3; cases h3
  rw [whenValidate_off R.validate] at h3
  cases h3
  have hk : (∃ b, D = .bool b) ∨ ∃ m, D = .obj m := by
    cases ha.all _ (.root _ R.strict) with
    | bool b _ => exact .inl ⟨b, rfl⟩
    | obj m _ _ => exact .inr ⟨m, rfl⟩
  have run := rootDraft_run (w := w) (D := D) (l := l2) fun h =>
    ⟨hk, (schemaRead_rw hD R.strict).2 (ha.schema (R.detect ▸ h))⟩
  rcases M.bind_error.1 h with h3 | ⟨_, l3, h3, h⟩
  · rw [run] at h3; cases h3
  rw [run] at h3
  cases h3
  obtain ⟨d', X, hX, hm⟩ := runParse_err hw.lawful hf R.pool R.wf h
  have H := (held_parse (σ := σ) (fuel := fuel) (p := 62 :: p) (ref := "") (dr := draftFor w l2 D) hc (.root _ R.strict) l2 R.held).1
  rw [h] at H
  rw [R.draft] at hX
  obtain ⟨rfl, hv⟩ := compiled_visited hb H hc R.strict hX
  exact intact_fine hs.inherits hb H hc ha.all hv hm

/-- Reading a node with success, references alone. -/
theorem closed_visited {l' s D} (hb : ∀ r, w.base (w.base r) = w.base r) (H : Held w l D0 l')
    (hc : Closed w l d D0) (hA : Alone w l d D0) (hD : RwStrict w "" D0 D) (g : Good w l' s d D) {X} (h : Visited w l d D0 X) :
    Reached (resolveIn w s.heap s.refs) d D d X := by
  induction h with
  | root D' h => rw [rwStrict_eq h, ← rwStrict_eq hD]; exact .root
  | sub m X hm hs ih =>
    refine .sub _ m _ ih ?_ hs
    cases hk : getKey "$ref" m with
    | none => rfl
    | some v =>
      exfalso
      have no := hA m v hm hk
      cases hs with
      | property ps k D h1 _ => rw [Kw, no "properties" (by decide)] at h1; cases h1
      | pattern ps k D h1 _ => rw [Kw, no "patternProperties" (by decide)] at h1; cases h1
      | additional A h1 => rw [Kw, no "additionalProperties" (by decide)] at h1; cases h1
      | name D _ h1 => rw [Kw, no "propertyNames" (by decide)] at h1; cases h1
      | dependency ps k D h1 _ _ => rw [Kw, no "dependencies" (by decide)] at h1; cases h1
      | items D h1 _ => rw [Kw, no "items" (by decide)] at h1; cases h1
      | item Ds D h1 _ => rw [Kw, no "items" (by decide)] at h1; cases h1
      | additionalItems A h1 => rw [Kw, no "additionalItems" (by decide)] at h1; cases h1
      | contains D _ h1 => rw [Kw, no "contains" (by decide)] at h1; cases h1
      | oneOf Ds D h1 _ => rw [Kw, no "oneOf" (by decide)] at h1; cases h1
      | anyOf Ds D h1 _ => rw [Kw, no "anyOf" (by decide)] at h1; cases h1
      | allOf Ds D h1 _ => rw [Kw, no "allOf" (by decide)] at h1; cases h1
      | not D h1 => rw [Kw, no "not" (by decide)] at h1; cases h1
      | if_ D _ h1 => rw [Kw, no "if" (by decide)] at h1; cases h1
      | then_ D _ h1 => rw [Kw, no "then" (by decide)] at h1; cases h1
      | else_ D _ h1 => rw [Kw, no "else" (by decide)] at h1; cases h1
  | definition m ps k X _ hk hm ih => exact .definition _ m ps k _ ih hk hm
  | ref m t u o X hm hk hn hs ih =>
    obtain ⟨u', o', Y, h1, h2, h3⟩ := closed_resolve hb H hc hD g (g.reached ih) hk
    rw [hn] at h1
    cases h1
    rw [hc.one u ⟨m, t, visited_met hm, hk, hn⟩ _ _ _ _ hs h2]
    exact .ref _ m t _ _ ih hk h3

/-- The shape of an object in which a reference stands alone. -/
theorem shape_alone {m} (h : Head w d m) (no : ∀ k ∈ laterKeys, getKey k m = none) : Shape w d m := by
  have n : ∀ {k v}, k ∈ laterKeys → Kw m k v → False := fun hk h => by rw [Kw, no _ hk] at h; cases h
  exact {
    id := h.id, title := h.title, description := h.description, definitions := h.definitions
    type := fun v h => (n (by decide) h).elim
    properties := fun v h => (n (by decide) h).elim
    additionalProperties := fun v h => (n (by decide) h).elim
    patternProperties := fun v h => (n (by decide) h).elim
    dependencies := fun v h => (n (by decide) h).elim
    additionalItems := fun v h => (n (by decide) h).elim
    multipleOf := fun v h => (n (by decide) h).elim
    minimum := fun v h => (n (by decide) h).elim
    exclusiveMinimum := fun v h => (n (by decide) h).elim
    maximum := fun v h => (n (by decide) h).elim
    exclusiveMaximum := fun v h => (n (by decide) h).elim
    minLength := fun v h => (n (by decide) h).elim
    maxLength := fun v h => (n (by decide) h).elim
    lengths := fun a b h _ => (n (by decide) h).elim
    pattern := fun v h => (n (by decide) h).elim
    format := fun v h => (n (by decide) h).elim
    minProperties := fun v h => (n (by decide) h).elim
    maxProperties := fun v h => (n (by decide) h).elim
    propertyCounts := fun a b h _ => (n (by decide) h).elim
    required := fun v h => (n (by decide) h).elim
    minItems := fun v h => (n (by decide) h).elim
    maxItems := fun v h => (n (by decide) h).elim
    uniqueItems := fun v h => (n (by decide) h).elim
    const := fun _ v h => (n (by decide) h).elim
    enum := fun v h => (n (by decide) h).elim
    oneOf := fun v h => (n (by decide) h).elim
    anyOf := fun v h => (n (by decide) h).elim
    allOf := fun v h => (n (by decide) h).elim }

/-- Accepted closed documents are well-formed. -/
theorem closed_accepted (hw : Setting w l) (hq : Idling l) (hb : ∀ r, w.base (w.base r) = w.base r)
    (hf : FmtOK w.env.fmtF64) (hD : D0.WF) (hc : Closed w l (draftFor w l D0) D0) (hA : Alone w l (draftFor w l D0) D0)
    {σ : Sched} {fuel p s l'} (h : compile w σ fuel p (.direct (some D0)) l = (.ok s, l')) :
    AllIntact w l (draftFor w l D0) D0 := by
  obtain ⟨D, hst, H, g⟩ := closed_compile hw hq hD hc h
  refine ⟨fun hd => ?_, fun X hX => ?_⟩
  · unfold compile compileG at h
    simp only [LoaderArg.ref, hw.root] at h
    obtain ⟨_, l1, h1, h⟩ := M.bind_ok.1 h
    obtain ⟨D, l2, h2, h⟩ := M.bind_ok.1 h
    obtain ⟨_, l3, h3, h⟩ := M.bind_ok.1 h
    obtain ⟨dr, l4, h4, h5⟩ := M.bind_ok.1 h
    rw [M.modify_ok] at h1
    have R := closed_root hw hq hD hc (by rw [← h1]) (by rw [← h1]) (by rw [← h1]) (by rw [← h1]) (by rw [← h1]) h2
    rw [whenValidate_off R.validate] at h3
    cases h3
    exact (schemaRead_rw hD R.strict).1 (rootDraft_read h4 (by rw [R.detect, hd]))
  · have hr := closed_visited hb H hc hA hst g hX
    cases g.readable hf _ _ hr with
    | bool b h => exact .bool b h
    | plain m h1 h2 => exact .obj m h2 fun v hv => by rw [Kw, h1] at hv; cases hv
    | ref m t h1 _ h2 =>
      refine .obj m (shape_alone h2 (hA m _ hX h1)) fun v hv => ?_
      rw [Kw, h1] at hv
      cases hv
      obtain ⟨u, o, Y, h4, h5, _⟩ := closed_resolve hb H hc hst g (g.reached hr) h1
      exact ⟨t, u, o, Y, rfl, h4, h5⟩

end
end GJS

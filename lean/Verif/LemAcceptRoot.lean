import Verif.LemTotal
import Verif.LemCompile
/-
Helper lemmas: exactly when `Compile` succeeds on a document without references.
-/
namespace GJS
open Spec

variable {w : World} {σ : Sched}

theorem parseSchemaURL_acc {C : Prop} {τ : Type} {D} :
    Acc C (parseSchemaURL w D : M τ _) (((∃ b, D = .bool b) ∨ ∃ m, D = .obj m) ∧ SchemaRead w D) Any := by
  have hr : (((∃ b, D = .bool b) ∨ ∃ m, D = .obj m) ∧ SchemaRead w D) → RatOK w D := by
    rintro ⟨⟨b, rfl⟩ | ⟨b, rfl⟩, _⟩ n hn <;> cases hn
  unfold parseSchemaURL
  refine isKind_bind hr ?_
  cases D with
  | bool b => exact Acc.ret.cond ⟨fun _ => ⟨.inl ⟨b, rfl⟩, by intro m v h; cases h⟩, fun _ => trivial⟩
  | obj m =>
    refine isKind_bind hr ?_
    show Acc C (match getKey "$schema" m with | none => _ | some v => _) _ _
    have e : (((∃ b, Json.obj m = .bool b) ∨ ∃ m', Json.obj m = .obj m') ∧ SchemaRead w (.obj m)) ↔
        ∀ v, getKey "$schema" m = some v → ∃ t, v = .str t ∧ w.norm t ≠ none := by
      constructor
      · rintro ⟨_, h⟩ v hv; exact h m v rfl hv
      · intro h; exact ⟨.inr ⟨m, rfl⟩, by intro m' v hm hv; cases hm; exact h v hv⟩
    rw [e]
    cases hv : getKey "$schema" m with
    | none => exact Acc.ret.cond (by simp)
    | some v =>
      refine Acc.cond (P := ∃ t, v = .str t ∧ w.norm t ≠ none) (isKind_bind ?_ ?_) (by simp)
      · rintro ⟨t, rfl, _⟩ n hn; cases hn
      cases v with
      | str t =>
        show Acc C (match w.norm t with | none => _ | some u => _) _ _
        cases hn : w.norm t with
        | none => exact Acc.err.cond (by simp [hn])
        | some u => exact Acc.ret.cond (by simp [hn])
      | _ => exact Acc.err.cond (by simp)
  | _ => exact isKind_bind hr (Acc.err.cond (by simp))

/-- An error of `parseReferencesRecursive` means that something was in the pool. -/
theorem rewrite_emptyPool {draft n p ref doc} {l : LState} {x l'} (hp : l.pool = [])
    (h : rewrite w σ draft n p ref doc l = (.ok x, l')) : x.2 = none := by
  cases n with
  | zero => simp [rewrite] at h
  | succ n =>
    unfold rewrite at h
    cases doc with
    | arr xs =>
      obtain ⟨ys, s1, _, h⟩ := M.bind_ok.1 h
      rw [M.pure_ok] at h
      rw [← h.1]
    | obj m =>
      simp only [rewriteObj] at h
      obtain ⟨id, s1, h1, h⟩ := M.bind_ok.1 h
      obtain ⟨sc, s2, h2, h⟩ := M.bind_ok.1 h
      obtain ⟨t, s3, h3, h⟩ := M.bind_ok.1 h
      have e1 := idText_still.ok h1
      have e2 := idScope_still.ok h2
      subst e1; subst e2
      have ht : t = false := by
        have := taken_ok h3
        cases hs : sc.2 with
        | none =>
          rw [hs] at h3
          simp only [taken, M.pure_ok] at h3
          exact h3.1.symm
        | some k =>
          rw [hs] at h3
          simp only [taken] at h3
          have := (inPool_ok.1 h3).2
          rw [this, hp]; rfl
      subst ht
      simp only [Bool.false_eq_true, if_false] at h
      obtain ⟨_, _, _, h⟩ := M.bind_ok.1 h
      obtain ⟨_, _, _, h⟩ := M.bind_ok.1 h
      obtain ⟨_, _, _, h⟩ := M.bind_ok.1 h
      obtain ⟨_, _, _, h⟩ := M.bind_ok.1 h
      rw [M.pure_ok] at h
      rw [← h.1]
    | _ =>
      simp only [M.pure_ok] at h
      rw [← h.1]

theorem detectDraft_iff {D} {l : LState} : (∃ o l', detectDraft w D l = (.ok o, l')) ↔
    (l.autoDetect = true → ((∃ b, D = .bool b) ∨ ∃ m, D = .obj m) ∧ SchemaRead w D) := by
  unfold detectDraft
  simp only [M.bind_ok, M.get_ok]
  constructor
  · rintro ⟨o, l', _, _, ⟨rfl, rfl⟩, h⟩ ha
    rw [ha] at h
    simp only [if_true, M.bind_ok] at h
    obtain ⟨x, s1, h1, _⟩ := h
    exact (parseSchemaURL_acc.iff _).1 ⟨x, s1, h1⟩
  · intro h
    by_cases ha : l.autoDetect = true
    · obtain ⟨x, s1, h1⟩ := (parseSchemaURL_acc.iff l).2 (h ha)
      exact ⟨_, _, l, l, ⟨rfl, rfl⟩, by rw [ha]; simp only [if_true, M.bind_ok]; exact ⟨x, s1, h1, rfl⟩⟩
    · exact ⟨_, _, l, l, ⟨rfl, rfl⟩, by rw [if_neg ha]; rfl⟩

/-- `parseReferences` returns if the rewriting does. -/
theorem parseReferences_run (hi : ∀ a b, w.inherits a b ≠ none) {p D ref} {l : LState} (hr : NumsRat w.env D)
    (hp : l.pool = []) (hs : l.autoDetect = true → ((∃ b, D = .bool b) ∨ ∃ m, D = .obj m) ∧ SchemaRead w D) :
    ∃ x l', parseReferences w σ p D ref true l = (.ok x, l') ∧ x.2 = none := by
  obtain ⟨o, l1, h1⟩ := detectDraft_iff.2 hs
  have e1 := detectDraft_still.ok h1
  subst e1
  obtain ⟨x, l2, h2⟩ := ((rewrite_total (σ := σ) hi D.size p ref D hr (Nat.le_refl _) (draft := o)).iff l1).2 trivial
  refine ⟨x, { l2 with pool := putKey ref ⟨x.1, o⟩ l2.pool }, ?_, rewrite_emptyPool hp h2⟩
  unfold parseReferences
  refine M.bind_ok.2 ⟨false, l1, inPool_ok.2 ⟨rfl, by rw [hp]; rfl⟩, ?_⟩
  simp only [Bool.and_false, Bool.false_eq_true, if_false]
  exact M.bind_ok.2 ⟨o, l1, h1, M.bind_ok.2 ⟨x, l2, h2, M.bind_ok.2 ⟨(), _, rfl, rfl⟩⟩⟩

theorem parseReferences_noRef {p D ref} {l l' : LState} {x} (hd : D.WF) (hn : NoRef D)
    (h : parseReferences w σ p D ref true l = (.ok x, l')) : x.1 = D := by
  rcases parseReferences_rw hd h with ⟨h, _⟩ | h
  · exact h
  · exact rw_noRef h hn

theorem runParse_iff (hi : ∀ a b, w.inherits a b ≠ none) (hf : FmtOK w.env.fmtF64) {fuel : Fuel} {p ref D d} {l : LState}
    (h : Small (fuel.parse + 1) D) :
    (∃ s l', runParse w σ fuel p ref D d l = (.ok s, l')) ↔ WellFormed w d D := by
  rw [← (parseRoot_acc (σ := σ) (p := p) (docRef := ref) (d := d) (fun _ => hi) hf h).iff { l := l }]
  unfold runParse
  constructor
  · rintro ⟨s, l', h⟩
    cases hx : parseRoot w σ fuel.parse p ref D d { l := l } with
    | mk r st =>
      rw [hx] at h
      cases r with
      | error e => simp at h
      | ok c => exact ⟨c, st, rfl⟩
  · rintro ⟨c, st, h⟩
    rw [h]
    exact ⟨_, _, rfl⟩

theorem whenValidate_off {hook : M LState Unit} {l : LState} (h : l.validate = false) :
    whenValidate hook l = (.ok (), l) := by
  unfold whenValidate
  refine M.bind_ok.2 ⟨l, l, rfl, ?_⟩
  rw [h]; rfl

theorem rootDraft_run {D} {l : LState} (hs : l.autoDetect = true → ((∃ b, D = .bool b) ∨ ∃ m, D = .obj m) ∧ SchemaRead w D) :
    rootDraft w D l = (.ok (draftFor w l D), l) := by
  have : ∃ d l', rootDraft w D l = (.ok d, l') := by
    unfold rootDraft
    by_cases ha : l.autoDetect = true
    · obtain ⟨x, s1, h1⟩ := (parseSchemaURL_acc.iff l).2 (hs ha)
      exact ⟨_, _, M.bind_ok.2 ⟨l, l, rfl, by rw [if_pos ha]; exact M.bind_ok.2 ⟨x, s1, h1, rfl⟩⟩⟩
    · exact ⟨_, _, M.bind_ok.2 ⟨l, l, rfl, by rw [if_neg ha]; rfl⟩⟩
  obtain ⟨d, l', h⟩ := this
  obtain ⟨rfl, rfl⟩ := rootDraft_ok h
  exact h

theorem rootDraft_read {D} {l l' : LState} {d} (h : rootDraft w D l = (.ok d, l')) (ha : l.autoDetect = true) :
    SchemaRead w D := by
  unfold rootDraft at h
  obtain ⟨x, s1, h1, h⟩ := M.bind_ok.1 h
  rw [M.get_ok] at h1
  obtain ⟨rfl, rfl⟩ := h1
  rw [if_pos ha] at h
  obtain ⟨y, s2, h2, h⟩ := M.bind_ok.1 h
  exact ((parseSchemaURL_acc.iff _).1 ⟨y, s2, h2⟩).2

/-- A successful `Compile` of a document without references. -/
theorem compile_sound (hw0 : w.norm "#" = some "") (hi : ∀ a b, w.inherits a b ≠ none) (hf : FmtOK w.env.fmtF64)
    {fuel : Fuel} {p D s} {l l' : LState} (hd : D.WF) (hn : NoRef D) (hsz : D.size ≤ fuel.parse + 1)
    (h : compile w σ fuel p (.direct (some D)) l = (.ok s, l')) :
    (l.autoDetect = true → SchemaRead w D) ∧ WellFormed w (draftFor w l D) D := by
  unfold compile compileG at h
  have hr : (LoaderArg.direct (some D)).ref w = some "" := hw0
  rw [hr] at h
  simp only at h
  obtain ⟨_, l1, h1, h⟩ := M.bind_ok.1 h
  obtain ⟨D', l2, h2, h⟩ := M.bind_ok.1 h
  obtain ⟨_, l3, h3, h⟩ := M.bind_ok.1 h
  obtain ⟨d, l4, h4, h5⟩ := M.bind_ok.1 h
  rw [M.modify_ok] at h1
  have set1 : SameSettings l l1 := by rw [← h1]; exact ⟨rfl, rfl⟩
  have set2 := (rootDocument_safe (p := p) (ref := "") (a := .direct (some D)) (settings_inv w σ l) (fun _ => argOK_true) trivial l1 set1).1
  rw [h2] at set2
  have set3 := (whenValidate_safe (validateMetaschema_safe (doc := D') (fuel := fuel) (p := p) (settings_inv w σ l) id
    (fun _ _ _ _ _ _ => trivial) trivial) l2 set2).1
  rw [h3] at set3
  have hD : D' = D := by
    unfold rootDocument at h2
    simp only [bne_self_eq_false, Bool.false_eq_true, if_false, M.bind_ok] at h2
    obtain ⟨D0, s1, g1, x, s2, g2, g3⟩ := h2
    simp only [loadJSON, Prod.mk.injEq, Except.ok.injEq] at g1
    obtain ⟨rfl, rfl⟩ := g1
    obtain ⟨_, rfl, _⟩ := failIf_ok g3
    exact parseReferences_noRef hd hn g2
  subst hD
  have hread : l.autoDetect = true → SchemaRead w D' := fun ha => rootDraft_read h4 (set3.1.trans ha)
  obtain ⟨rfl, rfl⟩ := rootDraft_ok h4
  refine ⟨hread, ?_⟩
  have e : draftFor w l D' = draftFor w l4 D' := by unfold draftFor; rw [set3.1, set3.2]
  rw [e]
  exact (runParse_iff hi hf ⟨hd, hn, hsz⟩).1 ⟨s, l', h5⟩

/-- `Compile` succeeds on a well-formed document without references. -/
theorem compile_complete (hw0 : w.norm "#" = some "") (hi : ∀ a b, w.inherits a b ≠ none) (hf : FmtOK w.env.fmtF64)
    {fuel : Fuel} {p D} {l : LState} (hd : D.WF) (hn : NoRef D) (hsz : D.size ≤ fuel.parse + 1)
    (hr : NumsRat w.env D) (hp : l.pool = []) (hv : l.validate = false)
    (h1 : l.autoDetect = true → SchemaRead w D) (h2 : WellFormed w (draftFor w l D) D) :
    ∃ s l', compile w σ fuel p (.direct (some D)) l = (.ok s, l') := by
  have hs : l.autoDetect = true → ((∃ b, D = .bool b) ∨ ∃ m, D = .obj m) ∧ SchemaRead w D := by
    intro ha
    refine ⟨?_, h1 ha⟩
    cases h2 with
    | bool b => exact .inl ⟨b, rfl⟩
    | obj m => exact .inr ⟨m, rfl⟩
  obtain ⟨x, l2, g2, hx⟩ := parseReferences_run (σ := σ) (p := 61 :: p) (ref := "") hi hr
    (l := { l with factory := 0 }) hp hs
  obtain ⟨inv, _⟩ := parseReferences_tri (W := False) (w := w) (σ := σ) (p := 61 :: p) (doc := D) (ref := "")
    (pooled := true) (l0 := { l with factory := 0 }) False.elim False.elim
  rw [g2] at inv
  have hD := parseReferences_noRef hd hn g2
  have hs2 : l2.autoDetect = true → ((∃ b, D = .bool b) ∨ ∃ m, D = .obj m) ∧ SchemaRead w D :=
    fun ha => hs (inv.cfg.2.1.symm.trans ha)
  have e : draftFor w l D = draftFor w l2 D := by
    have a1 : l2.autoDetect = l.autoDetect := inv.cfg.2.1
    have a2 : l2.draft = l.draft := inv.cfg.2.2.2
    unfold draftFor; rw [a1, a2]
  rw [e] at h2
  obtain ⟨s, l', g5⟩ := (runParse_iff (σ := σ) (p := 62 :: p) (ref := "") (l := l2) hi hf ⟨hd, hn, hsz⟩).2 h2
  refine ⟨s, l', ?_⟩
  unfold compile compileG
  have hr : (LoaderArg.direct (some D)).ref w = some "" := hw0
  rw [hr]
  refine M.bind_ok.2 ⟨(), _, rfl, M.bind_ok.2 ⟨D, l2, ?_, M.bind_ok.2 ⟨(), l2, ?_, M.bind_ok.2 ⟨_, l2, rootDraft_run hs2, g5⟩⟩⟩⟩
  · unfold rootDocument
    simp only [bne_self_eq_false, Bool.false_eq_true, if_false, M.bind_ok]
    refine ⟨D, _, rfl, x, l2, g2, ?_⟩
    unfold failIf
    rw [hx, hD]; rfl
  · exact whenValidate_off (inv.cfg.2.2.1.trans hv)

end GJS

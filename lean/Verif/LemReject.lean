import Verif.LemBlame
import Verif.LemAcceptRoot
import Verif.LemHistory
/-
Helper lemmas: why `Compile`, `AddSchema` and `AddSchemas` return errors.
-/
namespace GJS
open Spec

variable {w : World} {σ : Sched}

theorem parseSchemaURL_err {τ : Type} {D} {s : τ} {e s'} (h : (parseSchemaURL w D : M τ _) s = (.error (.err e), s')) :
    SchemaFault w D e := by
  unfold parseSchemaURL at h
  rcases M.bind_error.1 h with h1 | ⟨b, s1, h1, h2⟩
  · exact absurd h1 isKind_notErr
  have e1 := isKind_ok h1
  subst e1
  have other : (∀ m, D ≠ .obj m) → kindIn D [.bool] = false → SchemaFault w D e := by
    intro ho hb
    rw [hb] at h2
    simp only [Bool.false_eq_true, if_false] at h2
    rcases M.bind_error.1 h2 with h3 | ⟨b, s2, h3, h4⟩
    · exact absurd h3 isKind_notErr
    have e2 := isKind_ok h3
    subst e2
    have hm : kindIn D [.map] = false := by
      cases hk : kindIn D [.map] with
      | false => rfl
      | true => obtain ⟨m, hm⟩ := kind_map hk; exact absurd hm (ho m)
    rw [hm] at h4
    simp only [Bool.not_false, if_true, M.err, M.fail, Prod.mk.injEq, Except.error.injEq, Fail.err.injEq] at h4
    rw [← h4.1]
    exact .kind D ⟨not_bool_of (by rw [hb]; simp), ho⟩
  cases D with
  | bool b => simp [kindIn, rawKind, M.pure_def] at h2
  | obj m =>
    have hb : kindIn (.obj m) [.bool] = false := rfl
    rw [hb] at h2
    simp only [Bool.false_eq_true, if_false] at h2
    rcases M.bind_error.1 h2 with h3 | ⟨b, s2, h3, h4⟩
    · exact absurd h3 isKind_notErr
    have e2 := isKind_ok h3
    subst e2
    have hm : kindIn (.obj m) [.map] = true := rfl
    rw [hm] at h4
    simp only [Bool.not_true, Bool.false_eq_true, if_false] at h4
    cases hk : getKey "$schema" m with
    | none => rw [hk] at h4; simp [M.pure_def] at h4
    | some v =>
      rw [hk] at h4
      simp only at h4
      rcases M.bind_error.1 h4 with h5 | ⟨b, s3, h5, h6⟩
      · exact absurd h5 isKind_notErr
      have e3 := isKind_ok h5
      subst e3
      split at h6
      · rename_i hs
        simp only [M.err, M.fail, Prod.mk.injEq, Except.error.injEq, Fail.err.injEq] at h6
        rw [← h6.1]
        exact .text m v hk (not_str_of hs)
      · split at h6
        · rename_i t _
          cases hn : w.norm t with
          | none =>
            rw [hn] at h6
            simp only [M.err, M.fail, Prod.mk.injEq, Except.error.injEq, Fail.err.injEq] at h6
            rw [← h6.1]
            exact .url m t hk hn
          | some u => rw [hn] at h6; simp [M.pure_def] at h6
        · simp [M.fail] at h6
  | null => exact other (by simp) rfl
  | num n => exact other (by simp) rfl
  | str n => exact other (by simp) rfl
  | arr n => exact other (by simp) rfl

theorem detectDraft_err {D l e l'} (h : detectDraft w D l = (.error (.err e), l')) : l.autoDetect = true ∧ SchemaFault w D e := by
  unfold detectDraft at h
  rcases M.bind_error.1 h with h1 | ⟨x, s1, h1, h2⟩
  · simp [M.get] at h1
  rw [M.get_ok] at h1
  obtain ⟨rfl, rfl⟩ := h1
  split at h2
  · rename_i ha
    rcases M.bind_error.1 h2 with h3 | ⟨_, _, _, h3⟩
    · exact ⟨ha, parseSchemaURL_err h3⟩
    · simp [M.pure_def] at h3
  · simp [M.pure_def] at h2

theorem idScope_some {τ : Type} {ref o} {s : τ} {x s' k} (h : (idScope w ref o : M τ _) s = (.ok x, s')) (hk : x.2 = some k) :
    ∃ t u, o = some t ∧ w.norm t = some u ∧ w.inherits ref u = some k ∧ x.1 = k := by
  unfold idScope at h
  cases o with
  | none => simp only [M.pure_ok] at h; rw [← h.1] at hk; cases hk
  | some t =>
    simp only at h
    cases hn : w.norm t with
    | none => rw [hn] at h; simp only [M.pure_ok] at h; rw [← h.1] at hk; cases hk
    | some u =>
      rw [hn] at h
      simp only at h
      cases hi : w.inherits ref u with
      | none => rw [hi] at h; simp at h
      | some k' =>
        rw [hi] at h
        simp only [M.pure_ok] at h
        rw [← h.1] at hk
        cases hk
        exact ⟨t, u, rfl, hn, hi, by rw [← h.1]⟩

/-- The error returned by the rewriting: the identifier of the document itself is taken. -/
theorem rewrite_taken {draft n p ref D} {l : LState} {x l' e} (h : rewrite w σ draft n p ref D l = (.ok x, l'))
    (he : x.2 = some e) : ∃ m t u k, D = .obj m ∧ idOf m = some t ∧ w.norm t = some u ∧ w.inherits ref u = some k ∧
      (getKey k l.pool).isSome ∧ e = .referenceAlreadyExists k := by
  cases n with
  | zero => simp [rewrite] at h
  | succ n =>
    unfold rewrite at h
    cases D with
    | arr xs =>
      obtain ⟨ys, s1, _, h⟩ := M.bind_ok.1 h
      rw [M.pure_ok] at h
      rw [← h.1] at he; cases he
    | obj m =>
      simp only [rewriteObj] at h
      obtain ⟨id, s1, h1, h⟩ := M.bind_ok.1 h
      obtain ⟨sc, s2, h2, h⟩ := M.bind_ok.1 h
      obtain ⟨t, s3, h3, h⟩ := M.bind_ok.1 h
      have e1 := idText_still.ok h1
      have e2 := idScope_still.ok h2
      subst e1; subst e2
      have e3 := idText_eq h1
      subst e3
      obtain ⟨rfl, h4⟩ := taken_ok h3
      cases t with
      | true =>
        simp only [if_true, M.pure_ok] at h
        rw [← h.1] at he
        cases he
        cases hs : sc.2 with
        | none => rw [hs] at h3; simp [taken, M.pure_ok] at h3
        | some k =>
          obtain ⟨t, u, g1, g2, g3, g4⟩ := idScope_some h2 hs
          refine ⟨m, t, u, k, rfl, g1, g2, g3, ?_, by rw [g4]⟩
          have := h4 k hs
          cases hg : getKey k s3.pool with
          | some _ => rfl
          | none => rw [existsMapKey_false.2 hg] at this; cases this
      | false =>
        simp only [Bool.false_eq_true, if_false] at h
        obtain ⟨_, _, _, h⟩ := M.bind_ok.1 h
        obtain ⟨_, _, _, h⟩ := M.bind_ok.1 h
        obtain ⟨_, _, _, h⟩ := M.bind_ok.1 h
        obtain ⟨_, _, _, h⟩ := M.bind_ok.1 h
        rw [M.pure_ok] at h
        rw [← h.1] at he; cases he
    | _ =>
      simp only [M.pure_ok] at h
      rw [← h.1] at he; cases he

/-- Errors of `parseReferences`. -/
theorem parseReferences_blame {p D ref pooled l e l'}
    (h : (parseReferences w σ p D ref pooled >>= fun x => failIf x : M LState Json) l = (.error (.err e), l')) :
    (l.autoDetect = true ∧ SchemaFault w D e) ∨
    (pooled = true ∧ (getKey ref l.pool).isSome ∧ e = .referenceAlreadyExists ref) ∨
    (∃ m t u k, D = .obj m ∧ idOf m = some t ∧ w.norm t = some u ∧ w.inherits ref u = some k ∧
      (getKey k l.pool).isSome ∧ e = .referenceAlreadyExists k) := by
  rcases M.bind_error.1 h with h1 | ⟨x, l1, h1, h2⟩
  · unfold parseReferences at h1
    rcases M.bind_error.1 h1 with h3 | ⟨b, l2, h3, h4⟩
    · simp [inPool, M.bind_def, M.get, M.pure_def] at h3
    obtain ⟨rfl, rfl⟩ := inPool_ok.1 h3
    split at h4
    · simp [M.pure_def] at h4
    rcases M.bind_error.1 h4 with h5 | ⟨dr, l3, h5, h6⟩
    · exact .inl (detectDraft_err h5)
    rcases M.bind_error.1 h6 with h7 | ⟨y, l4, h7, h8⟩
    · exact absurd ⟨e, rfl⟩ (rewrite_noErr _ _ _ _ _ _ _ h7)
    rcases M.bind_error.1 h8 with h9 | ⟨y, l4, h9, h10⟩
    · unfold putIf at h9
      split at h9
      · simp [putPool, M.modify] at h9
      · simp [M.pure_def] at h9
    · simp [M.pure_def] at h10
  · have h3 := h2
    · unfold failIf at h3
      cases hx : x.2 with
      | none => rw [hx] at h3; simp [M.pure_def] at h3
      | some e' =>
        rw [hx] at h3
        simp only [M.err, M.fail, Prod.mk.injEq, Except.error.injEq, Fail.err.injEq] at h3
        obtain ⟨rfl, _⟩ := h3
        unfold parseReferences at h1
        obtain ⟨b, l2, h3, h4⟩ := M.bind_ok.1 h1
        obtain ⟨rfl, rfl⟩ := inPool_ok.1 h3
        split at h4
        · rename_i hb
          simp only [M.pure_ok] at h4
          rw [← h4.1] at hx
          cases hx
          simp only [Bool.and_eq_true] at hb
          refine .inr (.inl ⟨hb.1, ?_, rfl⟩)
          cases hg : getKey ref l.pool with
          | some _ => rfl
          | none => rw [existsMapKey_false.2 hg] at hb; cases hb.2
        · obtain ⟨dr, l3, h5, h6⟩ := M.bind_ok.1 h4
          have e1 := detectDraft_still.ok h5
          subst e1
          obtain ⟨y, l4, h7, h8⟩ := M.bind_ok.1 h6
          obtain ⟨_, l5, _, h9⟩ := M.bind_ok.1 h8
          rw [M.pure_ok] at h9
          obtain ⟨rfl, _⟩ := h9
          exact .inr (.inr (rewrite_taken h7 hx))

theorem loadJSON_err {a l e l'} (h : loadJSON w a l = (.error (.err e), l')) :
    (a = .direct none ∧ e = .load "#") ∨ ∃ n s f, a = .reference s f ∧ loadReference w n f s = none ∧ e = .load s := by
  unfold loadJSON at h
  split at h
  · simp at h
  · simp only [Prod.mk.injEq, Except.error.injEq, Fail.err.injEq] at h
    exact .inl ⟨rfl, h.1.symm⟩
  · rename_i s f
    cases hl : loadReference w l.clock f s with
    | some d => rw [hl] at h; simp at h
    | none =>
      rw [hl] at h
      simp only [Prod.mk.injEq, Except.error.injEq, Fail.err.injEq] at h
      exact .inr ⟨_, s, f, rfl, hl, h.1.symm⟩

/-- Errors before there is a document. -/
theorem rootDocument_err {p a ref l e l'} (hr : a.ref w = some ref) (h : rootDocument w σ p a ref l = (.error (.err e), l')) :
    Rejected w l l' a e := by
  unfold rootDocument at h
  split at h
  · rename_i hne
    rcases M.bind_error.1 h with h1 | ⟨_, _, _, h1⟩
    · exact .notThere ref e hr (by simpa using hne) (getDocument_err h1)
    · simp [M.pure_def] at h1
  · rename_i hne
    have he : ref = "" := by simpa using hne
    subst he
    rcases M.bind_error.1 h with h1 | ⟨D, l1, h1, h2⟩
    · rcases loadJSON_err h1 with ⟨rfl, rfl⟩ | ⟨n, s, f, rfl, h3, rfl⟩
      · exact .noDocument hr rfl
      · exact .notLoaded n s f hr rfl h3
    · obtain ⟨g1, g2⟩ := loadJSON_ok h1
      have ga : l1.autoDetect = l.autoDetect := by
        unfold loadJSON at h1
        split at h1
        · simp only [Prod.mk.injEq] at h1; rw [← h1.2]
        · simp at h1
        · simp only at h1
          split at h1
          · simp only [Prod.mk.injEq] at h1; rw [← h1.2]
          · simp at h1
      rcases parseReferences_blame h2 with ⟨h4, h5⟩ | ⟨_, h4, rfl⟩ | ⟨m, t, u, k, rfl, h4, h5, h6, h7, rfl⟩
      · rw [ga] at h4
        exact .schema D e h4 (.inl ⟨hr, g1⟩) h5
      · rw [g2] at h4
        exact .second hr h4
      · rw [g2] at h7
        exact .taken m t u k hr g1 h4 h5 h6 h7

theorem rootDraft_err {D l e l'} (h : rootDraft w D l = (.error (.err e), l')) : l.autoDetect = true ∧ SchemaFault w D e := by
  unfold rootDraft at h
  rcases M.bind_error.1 h with h1 | ⟨x, s1, h1, h2⟩
  · simp [M.get] at h1
  rw [M.get_ok] at h1
  obtain ⟨rfl, rfl⟩ := h1
  split at h2
  · rename_i ha
    rcases M.bind_error.1 h2 with h3 | ⟨_, _, _, h3⟩
    · exact ⟨ha, parseSchemaURL_err h3⟩
    · simp [M.pure_def] at h3
  · simp [M.pure_def] at h2

theorem runParse_err {fuel p ref D d l e l'} (hw : Lawful w) (hf : FmtOK w.env.fmtF64) (hl : PoolWF l) (hD : D.WF)
    (h : runParse w σ fuel p ref D d l = (.error (.err e), l')) : Blamed w d D l' e := by
  unfold runParse at h
  have inv : PInv w { l := l } := ⟨hl, by intro i s h; simp at h, by intro r j h; simp [getKey] at h,
    by intro i s h; simp at h⟩
  cases hx : parseRoot w σ fuel.parse p ref D d { l := l } with
  | mk r st =>
    rw [hx] at h
    cases r with
    | ok c => simp at h
    | error e' =>
      simp only [Prod.mk.injEq, Except.error.injEq] at h
      obtain ⟨rfl, rfl⟩ := h
      exact parseRoot_bl hw hf inv hD rfl hx

theorem Spec.Rejected.congr {l1 l l' : LState} {a e} (h : Rejected w l1 l' a e) (h1 : l1.pool = l.pool)
    (h2 : l1.autoDetect = l.autoDetect) (h3 : l1.draft = l.draft) : Rejected w l l' a e := by
  have hd : ∀ D, draftFor w l1 D = draftFor w l D := by intro D; unfold draftFor; rw [h2, h3]
  cases h with
  | source h => exact .source h
  | notThere ref e g1 g2 g3 => exact .notThere ref e g1 g2 g3
  | noDocument g1 g2 => exact .noDocument g1 g2
  | notLoaded n s f g1 g2 g3 => exact .notLoaded n s f g1 g2 g3
  | second g1 g2 => exact .second g1 (by rw [← h1]; exact g2)
  | taken m t u k g1 g2 g3 g4 g5 g6 => exact .taken m t u k g1 g2 g3 g4 g5 (by rw [← h1]; exact g6)
  | schema D e g1 g2 g3 => exact .schema D e (by rw [← h2]; exact g1) g2 g3
  | fault D d' D' e g1 g2 g3 => exact .fault D d' D' e g1 (by rw [← hd]; exact g2) g3

/-- Errors of `Compile`, whatever validates against the meta-schema. -/
theorem compileG_err {fuel hook p a l e l'} (hw : Lawful w) (hf : FmtOK w.env.fmtF64) (hk : HookOK w σ hook) (hl : PoolWF l)
    (ha : ∀ D, a = .direct (some D) → D.WF) (h : compileG w σ fuel hook p a l = (.error (.err e), l')) :
    Rejected w l l' a e ∨ ∃ D l1, l.validate = true ∧ RootDoc w l1 a D ∧ D.WF ∧ PoolWF l1 ∧ SameSettings l l1 ∧ Keeps l l1 ∧
      hook p D l1 = (.error (.err e), l') ∧
      ∃ ref, a.ref w = some ref ∧ rootDocument w σ p a ref { l with factory := a.factory } = (.ok D, l1) := by
  have ha := argOK_wf hw ha
  unfold compileG at h
  cases hr : a.ref w with
  | none =>
    rw [hr] at h
    simp only [M.err, M.fail, Prod.mk.injEq, Except.error.injEq, Fail.err.injEq] at h
    rw [← h.1]
    exact .inl (.source hr)
  | some ref =>
    rw [hr] at h
    simp only at h
    rcases M.bind_error.1 h with h1 | ⟨_, l1, h1, h2⟩
    · simp [M.modify] at h1
    rw [M.modify_ok] at h1
    rcases M.bind_error.1 h2 with h3 | ⟨D, l2, h3, h4⟩
    · subst h1
      exact .inl ((rootDocument_err hr h3).congr rfl rfl rfl)
    have wf1 : PoolWF l1 := by rw [← h1]; exact hl
    have set1 : SameSettings l l1 := by rw [← h1]; exact ⟨rfl, rfl⟩
    have R2 := rootDocument_safe (p := p) (ref := ref) (poolWF_inv hw σ) (fun _ => ha) trivial l1 wf1
    rw [h3] at R2
    have hD := R2.2.1 _ _ rfl
    have set2 := (rootDocument_safe (p := p) (ref := ref) (a := a) (settings_inv w σ l) (fun _ => argOK_true) trivial l1 set1).1
    rw [h3] at set2
    have k2 := (rootDocument_safe (p := p) (ref := ref) (a := a) (since_inv w l1 σ) (fun _ => argOK_true) trivial l1
      (since_refl w l1)).1
    rw [h3] at k2
    have keep2 : Keeps l l2 := by have := k2.keeps; rw [← h1] at this; exact this
    have v2 : l2.validate = l.validate := by
      have := rootDocument_keep (w := w) (σ := σ) (p := p) (a := a) (ref := ref) l1
      rw [h3] at this
      rw [this, ← h1]
    have hroot : RootDoc w l2 a D := ⟨ref, hr, by
      rcases rootDocument_ok hw wf1 ha h3 with g | g
      · exact .inl g
      · exact .inr g⟩
    have R3 := whenValidate_safe (hk _ _ (poolWF_inv hw σ) (refsOK_wf hw) p D hD) l2 R2.1
    have set3 := (whenValidate_safe (hk _ _ (settings_inv w σ l) (fun _ _ _ _ _ _ => trivial) p D trivial) l2 set2).1
    have k3 := (whenValidate_safe (hk _ _ (since_inv w l2 σ) (fun _ _ _ _ _ _ => trivial) p D trivial) l2 (since_refl w l2)).1
    rcases M.bind_error.1 h4 with h5 | ⟨_, l3, h5, h6⟩
    · refine .inr ⟨D, l2, ?_⟩
      unfold whenValidate at h5
      rcases M.bind_error.1 h5 with h6 | ⟨x, l4, h6, h7⟩
      · simp [M.get] at h6
      rw [M.get_ok] at h6
      obtain ⟨rfl, rfl⟩ := h6
      split at h7
      · rename_i hv
        exact ⟨by rw [← v2]; exact hv, hroot, hD, R2.1, set2, keep2, h7, ref, rfl, by rw [h1]; exact h3⟩
      · simp [M.pure_def] at h7
    rw [h5] at R3 set3 k3
    have log3 : l2.log <+: l3.log := by obtain ⟨new, e, _⟩ := k3.log; rw [e]; exact List.prefix_append _ _
    refine .inl ?_
    rcases M.bind_error.1 h6 with h7 | ⟨d, l4, h7, h8⟩
    · obtain ⟨h8, h9⟩ := rootDraft_err h7
      have e4 : l3 = l' := by
        have := rootDraft_still (w := w) (doc := D) l3
        rw [h7] at this
        exact this.symm
      subst e4
      rw [set3.1] at h8
      exact .schema D e h8 (.inr (hroot.mono k3.keeps log3)) h9
    · obtain ⟨rfl, rfl⟩ := rootDraft_ok h7
      have k5 := (runParse_keeps (w := w) (σ := σ) (fuel := fuel) (p := 62 :: p) (ref := ref) (doc := D)
        (draft := draftFor w l4 D) l2 l4 k3).1
      rw [h8] at k5
      obtain ⟨d', D', h9, h10⟩ := runParse_err hw hf R3.1 hD h8
      have hd : draftFor w l D = draftFor w l4 D := by
        unfold draftFor; rw [set3.1, set3.2]
      have log5 : l2.log <+: l'.log := by obtain ⟨new, e, _⟩ := k5.log; rw [e]; exact List.prefix_append _ _
      refine .fault D d' D' e (hroot.mono k5.keeps log5) ?_ h10
      rw [hd]; exact h9

/-- Which reference `metaSchemaURL` returns. -/
theorem metaSchemaURL_ref {D l u l'} (h : metaSchemaURL w D l = (.ok (some u), l')) : MetaRef w l D u := by
  unfold metaSchemaURL at h
  obtain ⟨x, l1, h1, h5⟩ := M.bind_ok.1 h
  clear h
  obtain ⟨y, l2, h2, h⟩ := M.bind_ok.1 h5
  clear h5
  rw [M.get_ok] at h2
  obtain ⟨rfl, rfl⟩ := h2
  have hx : l1 = l ∧ ((l.autoDetect = true ∧ ∃ m t, D = .obj m ∧ Kw m "$schema" (.str t) ∧ w.norm t = some x) ∨
      (x = "" ∧ (l.autoDetect = true → ∀ m t, D = .obj m → ¬ Kw m "$schema" (.str t)))) := by
    unfold detectedURL at h1
    obtain ⟨y, l2, h2, h1⟩ := M.bind_ok.1 h1
    rw [M.get_ok] at h2
    obtain ⟨rfl, rfl⟩ := h2
    split at h1
    · rename_i ha
      obtain ⟨z, l3, h3, h4⟩ := M.bind_ok.1 h1
      have e := parseSchemaURL_still.ok h3
      subst e
      rw [M.pure_ok] at h4
      obtain ⟨rfl, rfl⟩ := h4
      refine ⟨rfl, ?_⟩
      rcases parseSchemaURL_url h3 with h | ⟨h, h'⟩
      · exact .inl ⟨ha, h⟩
      · exact .inr ⟨h, fun _ => h'⟩
    · rename_i ha
      rw [M.pure_ok] at h1
      exact ⟨h1.2.symm, .inr ⟨h1.1.symm, fun h => absurd h ha⟩⟩
  obtain ⟨rfl, hx⟩ := hx
  by_cases he : x = ""
  · subst he
    simp only [beq_self_eq_true, if_true] at h
    split at h
    · rw [M.pure_ok] at h; cases h.1
    · rename_i hh
      have hh : l1.draft ≠ Hybrid := by simpa using hh
      rw [M.pure_ok] at h
      cases h.1
      by_cases hu : getSchemaURL l1.draft = ""
      · refine .inr ⟨hu, hh, fun u' hk => ?_⟩
        have := (C40_url u' l1.draft).2 hk
        exact this.2 (by rw [← this.1, hu])
      · refine .inl (.default _ ?_ hh ((C40_url _ l1.draft).1 ⟨rfl, hu⟩))
        intro ha m t u' hm hk hn
        rcases hx with ⟨_, m', t', hm', hk', hn'⟩ | ⟨_, hx⟩
        · subst hm
          cases hm'
          rw [Kw] at hk hk'
          rw [hk] at hk'
          cases hk'
          rw [hn] at hn'
          exact Option.some.inj hn'
        · exact absurd hk (hx ha m t hm)
  · have hb : (x == "") = false := by simpa using he
    rw [hb] at h
    simp only [Bool.false_eq_true, if_false, M.pure_ok] at h
    cases h.1
    rcases hx with ⟨ha, m, t, hm, hk, hn⟩ | ⟨h0, _⟩
    · exact .inl (.declared m t _ ha hm hk hn he)
    · exact absurd h0 he

theorem metaSchemaURL_err {D l e l'} (h : metaSchemaURL w D l = (.error (.err e), l')) : l.autoDetect = true ∧ SchemaFault w D e := by
  unfold metaSchemaURL at h
  rcases M.bind_error.1 h with h1 | ⟨x, l1, h1, h2⟩
  · unfold detectedURL at h1
    rcases M.bind_error.1 h1 with h2 | ⟨y, l2, h2, h3⟩
    · simp [M.get] at h2
    rw [M.get_ok] at h2
    obtain ⟨rfl, rfl⟩ := h2
    split at h3
    · rename_i ha
      rcases M.bind_error.1 h3 with h4 | ⟨_, _, _, h4⟩
      · exact ⟨ha, parseSchemaURL_err h4⟩
      · simp [M.pure_def] at h4
    · simp [M.pure_def] at h3
  · rcases M.bind_error.1 h2 with h3 | ⟨y, l2, h3, h4⟩
    · simp [M.get] at h3
    · split at h4
      · split at h4 <;> simp [M.pure_def] at h4
      · simp [M.pure_def] at h4

theorem hookOK_pure : HookOK w σ (fun _ _ => return ()) := fun _ _ _ _ _ _ _ => .pure trivial

/-- Errors of the check against the meta-schema. -/
theorem validateMetaschema_err {fuel p D l e l'} (hw : Lawful w) (hf : FmtOK w.env.fmtF64) (hl : PoolWF l)
    (h : validateMetaschema w σ fuel p D l = (.error (.err e), l')) : MetaRejected w l l' D e := by
  unfold validateMetaschema at h
  rcases M.bind_error.1 h with h1 | ⟨o, l1, h1, h2⟩
  · obtain ⟨g1, g2⟩ := metaSchemaURL_err h1
    exact .schema e g1 g2
  have e1 := metaSchemaURL_still.ok h1
  subst e1
  cases o with
  | none => simp [M.pure_def] at h2
  | some u =>
    simp only at h2
    have hu := metaSchemaURL_ref h1
    rcases M.bind_error.1 h2 with h3 | ⟨_, l2, h3, h4⟩
    · simp [M.modify] at h3
    rw [M.modify_ok] at h3
    have wf2 : PoolWF l2 := by rw [← h3]; exact hl
    rcases M.bind_error.1 h4 with h5 | ⟨s, l3, h5, h6⟩
    · rcases compileG_err hw hf hookOK_pure wf2 (by intro D h; cases h) h5 with g | ⟨D', l4, g, _⟩
      · exact .compile u l2 e hu ⟨by rw [← h3], by rw [← h3], by rw [← h3], by rw [← h3]⟩ g
      · rw [← h3] at g; cases g
    rcases M.bind_error.1 h6 with h7 | ⟨_, l4, h7, h8⟩
    · simp [M.modify] at h7
    rw [M.modify_ok] at h7
    have st := (compileInner_safe (σ := σ) (fuel := fuel) (p := 63 :: p) (a := .reference u 0) (settings_inv w σ l1)
      (fun _ => argOK_true) trivial l2 (by rw [← h3]; exact ⟨rfl, rfl⟩)).1
    rw [h5] at st
    obtain ⟨Mt, k1, k2, g⟩ := compileInner_good hw wf2 (by intro D h; cases h) h5
    have e5 : l4 = l' := by
      have := checkDocument_still (w := w) (σ := σ) (fuel := fuel) (s := s) (doc := D) l4
      rw [h8] at this
      exact this.symm
    subst e5
    have same : SameSettings l2 l4 := by
      rw [← h3, ← h7]; exact ⟨st.1, st.2⟩
    have ed : draftFor w l4 Mt = draftFor w l2 Mt := by unfold draftFor; rw [same.1, same.2]
    have kp : Keeps l3 l4 := by rw [← h7]; exact .refl _
    have kl : l3.log <+: l4.log := by rw [← h7]
    unfold checkDocument at h8
    cases hr : validateDocument w.env σ s.heap fuel.validate s.root D with
    | error e => rw [hr] at h8; cases e <;> simp [M.fail] at h8
    | ok r =>
      rw [hr] at h8
      simp only at h8
      cases hv : r.valid with
      | true => rw [hv] at h8; simp [M.pure_def] at h8
      | false =>
        rw [hv] at h8
        simp only [Bool.false_eq_true, if_false, M.err, M.fail, Prod.mk.injEq, Except.error.injEq, Fail.err.injEq] at h8
        obtain ⟨rfl, _⟩ := h8
        refine .invalid u r.errors hu ?_ ⟨Mt, resolveIn w s.heap s.refs, fuel.validate, k1.mono kp kl, ?_, ?_, ?_⟩
        · intro he
          simp [Result.valid, he] at hv
        · intro t d' D' ht
          obtain ⟨u', h5, h6⟩ := g.resolve ht
          rw [ed]
          exact ⟨u', h5, h6.mono kp kl⟩
        · intro d' m t hU hk
          rw [ed] at hU
          exact g.resolves hU hk
        · intro P hP
          rw [ed] at hP
          have := (g.verdict hr P).2 hP
          rw [hv] at this; cases this

theorem hookOK_meta {fuel} : HookOK w σ (validateMetaschema w σ fuel) :=
  fun _ _ hi hr _ _ hd => validateMetaschema_safe hi id hr hd

theorem Spec.MetaRejected.congr {l l1 l' : LState} {D e} (h : MetaRejected w l l' D e) (h1 : l1 = l) : MetaRejected w l1 l' D e := by
  rw [h1]; exact h

/-- Errors of `Compile`. -/
theorem compile_err {fuel p a l e l'} (hw : Lawful w) (hf : FmtOK w.env.fmtF64) (hl : PoolWF l)
    (ha : ∀ D, a = .direct (some D) → D.WF) (h : compile w σ fuel p a l = (.error (.err e), l')) :
    CompileRejected w l l' a e := by
  rcases compileG_err hw hf hookOK_meta hl ha h with g | ⟨D, l1, h1, h2, h3, h4, h5, h6, h7, _⟩
  · exact .plain e g
  · have k := (validateMetaschema_safe (doc := D) (fuel := fuel) (p := p) (since_inv w l1 σ) id
      (fun _ _ _ _ _ _ => trivial) trivial trivial l1 (since_refl w l1)).1
    rw [h7] at k
    obtain ⟨new, el, _⟩ := k.log
    exact .check l1 D e h1 (h2.mono k.keeps (by rw [el]; exact List.prefix_append _ _)) h5.1 h5.2 h6
      (validateMetaschema_err hw hf h4 h7)

/-- Errors of the common part of `AddSchema` and of one round of `AddSchemas`. -/
theorem add_err {fuel p p' a ref pooled l e l' url} (hw : Lawful w) (hf : FmtOK w.env.fmtF64) (hl : PoolWF l)
    (ha : ∀ D, a = .direct (some D) → D.WF)
    (hu : (∃ t, url = some t ∧ w.norm t = some ref ∧ pooled = true) ∨ (url = none ∧ ref = "" ∧ pooled = false))
    (h : (do let doc ← loadJSON w a
             whenValidate (validateMetaschema w σ fuel p doc)
             let x ← parseReferences w σ p' doc ref pooled
             let _ ← failIf x
             return () : M LState Unit) l = (.error (.err e), l')) : AddRejected w l l' url a e := by
  have ha' := argOK_wf hw ha
  rcases M.bind_error.1 h with h1 | ⟨D, l1, h1, h2⟩
  · rcases loadJSON_err h1 with ⟨rfl, rfl⟩ | ⟨n, s, f, rfl, h3, rfl⟩
    · exact .noDocument rfl
    · exact .notLoaded n s f rfl h3
  obtain ⟨g1, g2⟩ := loadJSON_ok h1
  have gs : SameSettings l l1 ∧ l1.validate = l.validate := by
    unfold loadJSON at h1
    split at h1
    · simp only [Prod.mk.injEq] at h1; rw [← h1.2]; exact ⟨⟨rfl, rfl⟩, rfl⟩
    · simp at h1
    · simp only at h1
      split at h1
      · simp only [Prod.mk.injEq] at h1; rw [← h1.2]; exact ⟨⟨rfl, rfl⟩, rfl⟩
      · simp at h1
  have wf1 : PoolWF l1 := by intro k e hk; rw [g2] at hk; exact hl k e hk
  have keep1 : Keeps l l1 := by intro k e hk; rw [g2]; exact hk
  have hD := loads_wf ha' g1
  rcases M.bind_error.1 h2 with h3 | ⟨_, l2, h3, h4⟩
  · unfold whenValidate at h3
    rcases M.bind_error.1 h3 with h6 | ⟨x, l4, h6, h7⟩
    · simp [M.get] at h6
    rw [M.get_ok] at h6
    obtain ⟨rfl, rfl⟩ := h6
    split at h7
    · rename_i hv
      exact .check l1 D e (by rw [← gs.2]; exact hv) g1 gs.1.1 gs.1.2 keep1 (validateMetaschema_err hw hf wf1 h7)
    · simp [M.pure_def] at h7
  have k2 := (whenValidate_safe (validateMetaschema_safe (doc := D) (fuel := fuel) (p := p) (since_inv w l1 σ) id
    (fun _ _ _ _ _ _ => trivial) trivial) l1 (since_refl w l1)).1
  rw [h3] at k2
  have set2 := (whenValidate_safe (validateMetaschema_safe (doc := D) (fuel := fuel) (p := p) (settings_inv w σ l1) id
    (fun _ _ _ _ _ _ => trivial) trivial) l1 ⟨rfl, rfl⟩).1
  rw [h3] at set2
  have p2 : l.validate = false → l2.pool = l.pool := by
    intro hv
    have := whenValidate_off (hook := validateMetaschema w σ fuel p D) (gs.2.trans hv)
    rw [h3] at this
    simp only [Prod.mk.injEq] at this
    rw [this.2, g2]
  have h5 : (parseReferences w σ p' D ref pooled >>= fun x => failIf x : M LState Json) l2 = (.error (.err e), l') := by
    rcases M.bind_error.1 h4 with h5 | ⟨x, l3, h5, h6⟩
    · exact M.bind_error.2 (.inl h5)
    · rcases M.bind_error.1 h6 with h7 | ⟨_, _, _, h7⟩
      · exact M.bind_error.2 (.inr ⟨x, l3, h5, h7⟩)
      · simp [M.pure_def] at h7
  have keep2 : Keeps l2 l' := by
    have hs : Safe (Since w l2) (fun _ => False) (parseReferences w σ p' D ref pooled >>= fun x => failIf x : M LState Json)
        (fun _ => True) := by
      have hr := (since_inv w l2 σ).refs p' D ref pooled
      refine .bind (hr trivial trivial) fun x _ => ?_
      unfold failIf
      split
      · exact .err (fun h => h)
      · exact .pure trivial
    have := (hs l2 (since_refl w l2)).1
    rw [h5] at this
    exact this.keeps
  have hc : Checked l l2 l' := ⟨keep1.trans k2.keeps, keep2, p2⟩
  rcases parseReferences_blame h5 with ⟨h6, h7⟩ | ⟨hp, h6, rfl⟩ | ⟨m, t, u, k, rfl, h6, h7, h8, h9, rfl⟩
  · exact .schema D e (by rw [← gs.1.1, ← set2.1]; exact h6) g1 h7
  · rcases hu with ⟨t, h7, h8, _⟩ | ⟨_, _, h7⟩
    · exact .second l2 t ref hc h7 h8 h6
    · rw [h7] at hp; cases hp
  · refine .taken l2 m t u k ref hc g1 ?_ ?_ h6 h7 h8 h9
    · rintro rfl
      rcases hu with ⟨t, h7, _⟩ | ⟨_, h7, _⟩
      · cases h7
      · exact h7
    · rintro t rfl
      rcases hu with ⟨t', h7, h8, _⟩ | ⟨h7, _⟩
      · cases h7; exact h8
      · cases h7

/-- Errors of `AddSchema`. -/
theorem addSchema_err {fuel p url a l e l'} (hw : Lawful w) (hf : FmtOK w.env.fmtF64) (hl : PoolWF l)
    (ha : ∀ D, a = .direct (some D) → D.WF) (h : addSchema w σ fuel p url a l = (.error (.err e), l')) :
    AddRejected w l l' (some url) a e := by
  unfold addSchema at h
  cases hn : w.norm url with
  | none =>
    rw [hn] at h
    simp only [M.err, M.fail, Prod.mk.injEq, Except.error.injEq, Fail.err.injEq] at h
    rw [← h.1]
    exact .url url rfl hn
  | some ref =>
    rw [hn] at h
    exact add_err hw hf hl ha (.inl ⟨url, rfl, hn, rfl⟩) h

/-- Errors of one round of `AddSchemas`. -/
theorem addSchemaById_err {fuel p a l e l'} (hw : Lawful w) (hf : FmtOK w.env.fmtF64) (hl : PoolWF l)
    (ha : ∀ D, a = .direct (some D) → D.WF) (h : addSchemaById w σ fuel p a l = (.error (.err e), l')) :
    AddRejected w l l' none a e := add_err hw hf hl ha (.inr ⟨rfl, rfl, rfl⟩) h

/-- Errors of `AddSchemas`. -/
theorem addSchemas_err {w : World} (hw : Lawful w) (hf : FmtOK w.env.fmtF64) {σ : Sched} {fuel : Fuel} {p : Path} {e l'} :
    ∀ (as : List LoaderArg) (k : Nat) (l : LState), PoolWF l → (∀ a ∈ as, ∀ D, a = .direct (some D) → D.WF) →
      mapL (fun k a => addSchemaById w σ fuel (k :: p) a) k as l = (.error (.err e), l') →
      ∃ as1 a as2 l1 ys, as = as1 ++ a :: as2 ∧ mapL (fun k a => addSchemaById w σ fuel (k :: p) a) k as1 l = (.ok ys, l1) ∧
        Keeps l l1 ∧ SameSettings l l1 ∧ l1.validate = l.validate ∧ AddRejected w l1 l' none a e := by
  intro as
  induction as with
  | nil => intro k l _ _ h; simp [mapL, M.pure_def] at h
  | cons a as ih =>
    intro k l hl ha h
    unfold mapL at h
    rcases M.bind_error.1 h with h1 | ⟨y, l2, h2, h1⟩
    · exact ⟨[], a, as, l, [], rfl, rfl, .refl _, ⟨rfl, rfl⟩, rfl, addSchemaById_err hw hf hl (ha a (by simp)) h1⟩
    · have R := (addSchemaById_safe (fuel := fuel) (p := k :: p) (poolWF_inv hw σ) id (refsOK_wf hw)
        (argOK_wf hw (ha a (by simp))) trivial l hl).1
      have st := (addSchemaById_safe (fuel := fuel) (p := k :: p) (a := a) (settings_inv w σ l) id (fun _ _ _ _ _ _ => trivial)
        argOK_true trivial l ⟨rfl, rfl⟩).1
      have kp := (addSchemaById_safe (fuel := fuel) (p := k :: p) (a := a) (since_inv w l σ) id (fun _ _ _ _ _ _ => trivial)
        argOK_true trivial l (since_refl w l)).1
      have v := addSchemaById_v (w := w) (σ := σ) (fuel := fuel) (p := k :: p) (a := a) l
      rw [h2] at R st kp v
      have v : l2.validate = l.validate := by
        rcases v with v | v
        · exact v
        · obtain ⟨_, _, e, he, _⟩ := v
          cases he
      rcases M.bind_error.1 h1 with h3 | ⟨_, l3, _, h3⟩
      · obtain ⟨as1, b, as2, l1, ys, g1, g2, g3, g4, g5, g6⟩ := ih (k + 1) l2 R (fun a h => ha a (by simp [h])) h3
        refine ⟨a :: as1, b, as2, l1, y :: ys, by rw [g1]; rfl, ?_, kp.keeps.trans g3, ⟨g4.1.trans st.1, g4.2.trans st.2⟩,
          g5.trans v, g6⟩
        unfold mapL
        exact M.bind_ok.2 ⟨y, l2, h2, M.bind_ok.2 ⟨ys, l1, g2, by rw [M.pure_ok]; exact ⟨rfl, rfl⟩⟩⟩
      · simp [M.pure_def] at h3

end GJS

import Verif.SpecMeta
import Verif.PropDraft
import Verif.LemHistory
/-
Helper lemmas: what it means that a document passed `validateMetaschema`.
-/
namespace GJS
open Spec

theorem Spec.Compiled.mono {w : World} {l l' d D d' D'} (h : Compiled w l d D d' D') (hk : Keeps l l')
    (hl : l.log <+: l'.log) : Compiled w l' d D d' D' := by
  induction h with
  | root => exact .root
  | sub d' m D' _ hs ih => exact .sub d' m D' ih hs
  | definition d' m ps k D' _ h1 h2 ih => exact .definition d' m ps k D' ih h1 h2
  | ref d' m t u o D' _ h1 h2 h3 ih => exact .ref d' m t u o D' ih h1 h2 (h3.mono hk hl)

theorem Spec.ReadAs.mono {w : World} {l l' d D u d' D'} (h : ReadAs w l d D u d' D') (hk : Keeps l l')
    (hl : l.log <+: l'.log) : ReadAs w l' d D u d' D' := by
  obtain ⟨o, h1, h2, h3⟩ := h
  refine ⟨o, h1.mono hk hl, h2, fun ho => ?_⟩
  obtain ⟨m, t, h4, h5⟩ := h3 ho
  exact ⟨m, t, h4.mono hk hl, h5⟩

theorem Spec.RootDoc.mono {w : World} {l l' a D} (h : RootDoc w l a D) (hk : Keeps l l')
    (hl : l.log <+: l'.log) : RootDoc w l' a D := by
  obtain ⟨ref, h1, h2⟩ := h
  refine ⟨ref, h1, ?_⟩
  rcases h2 with ⟨h2, h3⟩ | h2
  · exact .inl ⟨h2, h3.mono hk hl⟩
  · exact .inr h2

theorem Spec.Conforms.mono {w : World} {l l' u D} (h : Conforms w l u D) (hk : Keeps l l')
    (hl : l.log <+: l'.log) (hs : SameSettings l l') : Conforms w l' u D := by
  obtain ⟨M, resolve, n, h1, h2, h3, h4⟩ := h
  have e : draftFor w l' M = draftFor w l M := by unfold draftFor; rw [hs.1, hs.2]
  refine ⟨M, resolve, n, h1.mono hk hl, ?_, ?_, ?_⟩
  · intro t d' D' h
    obtain ⟨u', h5, h6⟩ := h2 t d' D' h
    rw [e]
    exact ⟨u', h5, h6.mono hk hl⟩
  · rw [e]; exact h3
  · rw [e]; exact h4

/-- A good schema that accepts an instance. -/
theorem Good.verdict {w : World} {l s d D} (g : Good w l s d D) {σ n v r}
    (h : validateDocument w.env σ s.heap n s.root v = .ok r) (P) :
    r.valid = true ↔ docUnfold w.env (resolveIn w s.heap s.refs) P n d D v := by
  rw [C02_verdict_unfold _ _ _ _ _ _ _ h (satNode s.heap P), g.unfold P n]
  exact g.root.satNode

theorem Good.resolves {w : World} {l s d D} (g : Good w l s d D) {d' m t}
    (hu : Used (resolveIn w s.heap s.refs) d D d' (.obj m)) (hk : Kw m "$ref" (.str t)) :
    resolveIn w s.heap s.refs t ≠ none := by
  intro hn
  obtain ⟨i, hi⟩ := g.used hu
  obtain ⟨d2, D2, _, h2, _⟩ := g.ref hi hk
  rw [hn] at h2; cases h2

/-- The URL `parseSchemaURL` returns. -/
theorem parseSchemaURL_url {w : World} {doc} {s s' : σ} {x} (h : (parseSchemaURL w doc : M σ _) s = (.ok x, s')) :
    (∃ m t, doc = .obj m ∧ Kw m "$schema" (.str t) ∧ w.norm t = some x.1) ∨
    (x.1 = "" ∧ ∀ m t, doc = .obj m → ¬ Kw m "$schema" (.str t)) := by
  unfold parseSchemaURL at h
  obtain ⟨b, s1, h1, h⟩ := M.bind_ok.1 h
  have := isKind_ok h1
  subst this
  cases doc with
  | bool b =>
    have hc : kindIn (.bool b) [.bool] = true := rfl
    rw [hc] at h
    simp only [if_true, M.pure_ok] at h
    exact .inr ⟨by rw [← h.1], by intro m t h; cases h⟩
  | obj m =>
    have hc : kindIn (.obj m) [.bool] = false := rfl
    have hc2 : kindIn (.obj m) [.map] = true := rfl
    rw [hc] at h
    simp only [Bool.false_eq_true, if_false] at h
    obtain ⟨b, s2, h2, h⟩ := M.bind_ok.1 h
    have := isKind_ok h2
    subst this
    rw [hc2] at h
    simp only [Bool.not_true, Bool.false_eq_true, if_false] at h
    cases hk : getKey "$schema" m with
    | none =>
      rw [hk] at h
      simp only [M.pure_ok] at h
      refine .inr ⟨by rw [← h.1], fun m' t e hk' => ?_⟩
      cases e
      rw [Kw, hk] at hk'
      cases hk'
    | some v =>
      rw [hk] at h
      simp only at h
      obtain ⟨b, s3, h3, h⟩ := M.bind_ok.1 h
      have := isKind_ok h3
      subst this
      cases v with
      | str t =>
        have hc : kindIn (.str t) [.string] = true := rfl
        rw [hc] at h
        simp only [Bool.not_true, Bool.false_eq_true, if_false] at h
        cases hn : w.norm t with
        | none => rw [hn] at h; simp at h
        | some u =>
          rw [hn] at h
          simp only [M.pure_ok] at h
          exact .inl ⟨m, t, rfl, hk, by rw [hn, ← h.1]⟩
      | _ => simp [kindIn, rawKind] at h
  | _ =>
    simp only [kindIn, rawKind] at h
    simp at h

theorem metaSchemaURL_ok {w : World} {D l o l' u} (h : metaSchemaURL w D l = (.ok o, l')) (hu : MetaFor w l D u) :
    o = some u := by
  unfold metaSchemaURL at h
  obtain ⟨x, l1, h1, h⟩ := M.bind_ok.1 h
  obtain ⟨y, l2, h2, h⟩ := M.bind_ok.1 h
  rw [M.get_ok] at h2
  obtain ⟨rfl, rfl⟩ := h2
  have hx : l1 = l ∧ ((l.autoDetect = true ∧ ∃ m t, D = .obj m ∧ Kw m "$schema" (.str t) ∧ w.norm t = some x) ∨
      (x = "" ∧ (l.autoDetect = true → ∀ m t, D = .obj m → ¬ Kw m "$schema" (.str t)))) := by
    unfold detectedURL at h1
    obtain ⟨y, l2, h2, h1⟩ := M.bind_ok.1 h1
    rw [M.get_ok] at h2
    obtain ⟨rfl, rfl⟩ := h2
    split at h1
    · rename_i ha
      obtain ⟨z, l3, h3, h4⟩ := M.bind_ok.1 h1
      have e := parseSchemaURL_still.ok h3
      subst e
      rw [M.pure_ok] at h4
      obtain ⟨rfl, rfl⟩ := h4
      refine ⟨rfl, ?_⟩
      rcases parseSchemaURL_url h3 with h | ⟨h, h'⟩
      · exact .inl ⟨ha, h⟩
      · exact .inr ⟨h, fun _ => h'⟩
    · rename_i ha
      rw [M.pure_ok] at h1
      exact ⟨h1.2.symm, .inr ⟨h1.1.symm, fun h => absurd h ha⟩⟩
  obtain ⟨rfl, hx⟩ := hx
  cases hu with
  | declared m t u ha hm hk hn he =>
    rcases hx with ⟨_, m', t', hm', hk', hn'⟩ | ⟨_, hx⟩
    · subst hm
      cases hm'
      rw [Kw] at hk hk'
      rw [hk] at hk'
      cases hk'
      rw [hn] at hn'
      cases hn'
      have : (u == "") = false := by simpa using he
      rw [this] at h
      simp only [Bool.false_eq_true, if_false, M.pure_ok] at h
      exact h.1.symm
    · exact absurd hk (hx ha m t hm)
  | default u hd hh hk =>
    have hx : x = "" := by
      rcases hx with ⟨ha, m, t, hm, hk, hn⟩ | ⟨h, _⟩
      · exact hd ha m t x hm hk hn
      · exact h
    subst hx
    have : (l1.draft == Hybrid) = false := by simpa using hh
    simp only [beq_self_eq_true, if_true, this, Bool.false_eq_true, if_false, M.pure_ok] at h
    rw [← h.1, ((C40_url u l1.draft).2 hk).1]

/-- What passed `validateMetaschema` conforms to its meta-schema. -/
theorem validateMetaschema_conforms {w : World} {σ : Sched} {fuel p D l l' u} (hw : Lawful w) (hl : PoolWF l)
    (h : validateMetaschema w σ fuel p D l = (.ok (), l')) (hu : MetaFor w l D u) : Conforms w l' u D := by
  unfold validateMetaschema at h
  obtain ⟨o, l1, h1, h⟩ := M.bind_ok.1 h
  have e := metaSchemaURL_still.ok h1
  subst e
  cases metaSchemaURL_ok h1 hu
  simp only at h
  obtain ⟨_, l2, h2, h⟩ := M.bind_ok.1 h
  obtain ⟨s, l3, h3, h⟩ := M.bind_ok.1 h
  obtain ⟨_, l4, h4, h⟩ := M.bind_ok.1 h
  rw [M.modify_ok] at h2 h4
  obtain ⟨M, k1, k2, g⟩ := compileInner_good hw (by rw [← h2]; exact hl) (by intro D h; cases h) h3
  have st := (compileInner_safe (σ := σ) (fuel := fuel) (p := 63 :: p) (a := .reference u 0) (settings_inv w σ l1)
    (fun _ => argOK_true) trivial l2 (by rw [← h2]; exact ⟨rfl, rfl⟩)).1
  rw [h3] at st
  have e := checkDocument_still.ok h
  subst e
  have same : SameSettings l2 l' := by
    rw [← h2, ← h4]; exact ⟨st.1, st.2⟩
  have ed : draftFor w l' M = draftFor w l2 M := by unfold draftFor; rw [same.1, same.2]
  have kp : Keeps l3 l' := by rw [← h4]; exact .refl _
  have kl : l3.log <+: l'.log := by rw [← h4]
  refine ⟨M, resolveIn w s.heap s.refs, fuel.validate, k1.mono kp kl, ?_, ?_, ?_⟩
  · intro t d' D' ht
    obtain ⟨u', h5, h6⟩ := g.resolve ht
    rw [ed]
    exact ⟨u', h5, h6.mono kp kl⟩
  · intro d' m t hU hk
    rw [ed] at hU
    exact g.resolves hU hk
  · intro P
    unfold checkDocument at h
    cases hr : validateDocument w.env σ s.heap fuel.validate s.root D with
    | ok r =>
      rw [hr] at h
      simp only at h
      cases hv : r.valid with
      | true => rw [ed]; exact (g.verdict hr P).1 hv
      | false => rw [hv] at h; simp at h
    | error e => rw [hr] at h; cases e <;> simp at h

theorem Spec.MetaFor.same {w : World} {l l' D u} (h : MetaFor w l D u) (hs : SameSettings l l') : MetaFor w l' D u := by
  cases h with
  | declared m t u h1 h2 h3 h4 h5 => exact .declared m t u (by rw [hs.1]; exact h1) h2 h3 h4 h5
  | default u h1 h2 h3 => exact .default u (by rw [hs.1]; exact h1) (by rw [hs.2]; exact h2) (by rw [hs.2]; exact h3)

theorem whenValidate_on {hook : M LState Unit} {l l' : LState} (hv : l.validate = true)
    (h : whenValidate hook l = (.ok (), l')) : hook l = (.ok (), l') := by
  unfold whenValidate at h
  obtain ⟨x, l1, h1, h⟩ := M.bind_ok.1 h
  rw [M.get_ok] at h1
  obtain ⟨rfl, rfl⟩ := h1
  rw [hv] at h
  exact h

/-- The common part of `AddSchema` and of one round of `AddSchemas`. -/
theorem add_conforms {w : World} (hw : Lawful w) {σ : Sched} {fuel : Fuel} {p : Path} {a : LoaderArg} {ref : String}
    {pooled : Bool} {l l' : LState} (hl : PoolWF l) (hv : l.validate = true) (ha : ∀ D, a = .direct (some D) → D.WF)
    (h : (do let doc ← loadJSON w a
             whenValidate (validateMetaschema w σ fuel p doc)
             let x ← parseReferences w σ (64 :: p) doc ref pooled
             let _ ← failIf x
             return () : M LState Unit) l = (.ok (), l')) :
    (∃ D, Loads w a D ∧ ∀ u, MetaFor w l D u → Conforms w l' u D) ∧
    PoolWF l' ∧ SameSettings l l' ∧ Since w l l' ∧ l'.validate = true := by
  have ha' := argOK_wf hw ha
  obtain ⟨D, l2, h2, h⟩ := M.bind_ok.1 h
  obtain ⟨_, l3, h3, h⟩ := M.bind_ok.1 h
  obtain ⟨x, l4, h4, h⟩ := M.bind_ok.1 h
  obtain ⟨_, l5, h5, h⟩ := M.bind_ok.1 h
  rw [M.pure_ok] at h
  obtain ⟨_, rfl⟩ := h
  obtain ⟨rfl, _, _⟩ := failIf_ok h5
  have R2 := loadJSON_safe (poolWF_inv hw σ) ha' l hl
  rw [h2] at R2
  have hD := R2.2.1 _ _ rfl
  have set2 := (loadJSON_safe (a := a) (settings_inv w σ l) argOK_true l ⟨rfl, rfl⟩).1
  have k2 := (loadJSON_safe (a := a) (since_inv w l σ) argOK_true l (since_refl w l)).1
  rw [h2] at set2 k2
  have v2 : l2.validate = true := by
    have := loadJSON_keep (w := w) (a := a) l
    rw [h2] at this
    rw [this]; exact hv
  have R3 := whenValidate_safe (validateMetaschema_safe (doc := D) (fuel := fuel) (p := p) (poolWF_inv hw σ) id
    (refsOK_wf hw) hD) l2 R2.1
  have set3 := (whenValidate_safe (validateMetaschema_safe (doc := D) (fuel := fuel) (p := p) (settings_inv w σ l) id
    (fun _ _ _ _ _ _ => trivial) trivial) l2 set2).1
  have k3 := (whenValidate_safe (validateMetaschema_safe (doc := D) (fuel := fuel) (p := p) (since_inv w l σ) id
    (fun _ _ _ _ _ _ => trivial) trivial) l2 k2).1
  rw [h3] at R3 set3 k3
  have v3 : l3.validate = true := by
    rcases validateMetaschema_v (w := w) (σ := σ) (fuel := fuel) (p := p) (doc := D) l2 v2 with h | ⟨_, e, h, _⟩
    · rw [whenValidate_on v2 h3] at h; exact h
    · rw [whenValidate_on v2 h3] at h; cases h
  have R4 := ((poolWF_inv hw σ).refs (64 :: p) D ref pooled trivial hD l3 R3.1).1
  have set4 := ((settings_inv w σ l).refs (64 :: p) D ref pooled trivial trivial l3 set3).1
  have set4' := ((settings_inv w σ l3).refs (64 :: p) D ref pooled trivial trivial l3 ⟨rfl, rfl⟩).1
  have k4 := ((since_inv w l σ).refs (64 :: p) D ref pooled trivial trivial l3 k3).1
  have k4' := ((since_inv w l3 σ).refs (64 :: p) D ref pooled trivial trivial l3 (since_refl w l3)).1
  have v4 := parseReferences_keep (w := w) (σ := σ) (p := 64 :: p) (doc := D) (ref := ref) (pooled := pooled) l3
  rw [h4] at R4 set4 set4' k4 k4' v4
  refine ⟨⟨D, (loadJSON_ok h2).1, fun u hu => ?_⟩, R4, set4, k4, v4.trans v3⟩
  obtain ⟨new, e, _⟩ := k4'.log
  exact (validateMetaschema_conforms hw R2.1 (whenValidate_on v2 h3) (hu.same set2)).mono k4'.keeps
    (by rw [e]; exact List.prefix_append _ _) set4'

end GJS

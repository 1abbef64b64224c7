import Verif.LemMetaUse
import Verif.LemFuel
/-
Helper lemmas: only the check by a meta-schema fails with its errors.
-/
namespace GJS
open Spec

/-- The failure is that of a check by a meta-schema. -/
def IsMeta (f : Fail) : Prop := ∃ es, f = .err (.metaSchema es)

theorem errFine_meta : ErrFine IsMeta := by
  rintro e h ⟨es, h'⟩
  cases h'
  exact h es rfl

theorem panicFine_meta : ¬ IsMeta .panic := by rintro ⟨_, h⟩; cases h
theorem fuelFine_meta : ¬ IsMeta .fuel := by rintro ⟨_, h⟩; cases h

/-- An error of another kind. -/
theorem notMeta {e : CErr} (h : ∀ es, e ≠ .metaSchema es := by intro _ h; cases h) : ¬ IsMeta (.err e) := errFine_meta e h

section
variable {w : World} {σ : Sched}

theorem isKind_noMeta {v ks} : Avoid IsMeta (isKind w.env v ks : M τ Bool) := by
  unfold isKind
  split
  · split
    · exact .pure
    · exact .fail panicFine_meta
  · exact .pure

theorem parseSchemaURL_noMeta {doc} : Avoid IsMeta (parseSchemaURL w doc : M τ _) := by
  unfold parseSchemaURL
  refine .bind isKind_noMeta fun b => ?_
  split
  · exact .pure
  · refine .bind isKind_noMeta fun b => ?_
    split
    · exact .err notMeta
    · split
      · split
        · exact .pure
        · refine .bind isKind_noMeta fun b => ?_
          split
          · exact .err notMeta
          · split
            · split
              · exact .err notMeta
              · exact .pure
            · exact .fail panicFine_meta
      · exact .fail panicFine_meta

theorem idText_noMeta {m} : Avoid IsMeta (idText w m : M τ _) := by
  unfold idText
  simp only
  split
  · exact .pure
  · refine .bind isKind_noMeta fun b => ?_
    split <;> exact .pure

theorem idScope_noMeta {ref id} : Avoid IsMeta (idScope w ref id : M τ _) := by
  unfold idScope
  split
  · exact .pure
  · split
    · exact .pure
    · split
      · exact .fail panicFine_meta
      · exact .pure

theorem rewriteRef_noMeta {ref m} : Avoid IsMeta (rewriteRef w ref m : M τ _) := by
  unfold rewriteRef
  split
  · exact .pure
  · refine .bind isKind_noMeta fun b => ?_
    split
    · split <;> exact .pure
    · exact .pure

theorem rewriteMember_noMeta {rec : Path → String → Json → M LState Json} {p r k v}
    (h : ∀ p r v, Avoid IsMeta (rec p r v)) : Avoid IsMeta (rewriteMember σ rec p r k v) := by
  unfold rewriteMember
  split
  · exact .pure
  · split
    · split
      · exact .bind (rangeKV_avoid fun i k x hx => h _ _ _) fun _ => .pure
      · exact .pure
    · exact h _ _ _

theorem rewrite_noMeta {draft} : ∀ n p ref doc, Avoid IsMeta (rewrite w σ draft n p ref doc) := by
  intro n
  induction n with
  | zero => intro p ref doc; exact .fail fuelFine_meta
  | succ n ih =>
    intro p ref doc
    unfold rewrite
    cases doc with
    | arr xs => exact .bind (.mapL fun k x hx => .bind (ih _ _ _) fun _ => .pure) fun _ => .pure
    | obj m =>
      show Avoid _ (rewriteObj _ _ _ _ _ _ _)
      unfold rewriteObj
      refine .bind idText_noMeta fun id => .bind idScope_noMeta fun sc => .bind taken_total.avoid fun t => ?_
      split
      · exact .pure
      · exact .bind register_total.avoid fun _ => .bind rewriteRef_noMeta fun m1 =>
          .bind (rangeKV_avoid fun i k v hkv => rewriteMember_noMeta fun _ _ _ => .bind (ih _ _ _) fun _ => .pure) fun _ =>
          .bind register_total.avoid fun _ => .pure
    | _ => exact .pure

/-- The error that rewriting returns along with a document. -/
theorem rewrite_soft {draft n p ref doc} {l l' : LState} {x} (h : rewrite w σ draft n p ref doc l = (.ok x, l')) :
    ∀ es, x.2 ≠ some (.metaSchema es) := by
  cases n with
  | zero => cases h
  | succ n =>
    unfold rewrite at h
    cases doc with
    | arr xs =>
      obtain ⟨ys, l1, _, h⟩ := M.bind_ok.1 h
      rw [M.pure_ok] at h
      intro es; rw [← h.1]; simp
    | obj m =>
      replace h : rewriteObj w σ (rewrite w σ draft n) p ref draft m l = (.ok x, l') := h
      unfold rewriteObj at h
      obtain ⟨_, _, _, h⟩ := M.bind_ok.1 h
      obtain ⟨_, _, _, h⟩ := M.bind_ok.1 h
      obtain ⟨t, _, _, h⟩ := M.bind_ok.1 h
      cases t with
      | true =>
        simp only [if_true, M.pure_ok] at h
        intro es; rw [← h.1]; simp
      | false =>
        simp only [Bool.false_eq_true, if_false] at h
        obtain ⟨_, _, _, h⟩ := M.bind_ok.1 h
        obtain ⟨_, _, _, h⟩ := M.bind_ok.1 h
        obtain ⟨_, _, _, h⟩ := M.bind_ok.1 h
        obtain ⟨_, _, _, h⟩ := M.bind_ok.1 h
        rw [M.pure_ok] at h
        intro es; rw [← h.1]; simp
    | _ => rw [M.pure_ok] at h; intro es; rw [← h.1]; simp

theorem detectDraft_noMeta {doc} : Avoid IsMeta (detectDraft w doc) := by
  unfold detectDraft
  refine .bind .get fun l => ?_
  split
  · exact .bind parseSchemaURL_noMeta fun _ => .pure
  · exact .pure

theorem parseReferences_noMeta {p doc ref pooled} : Avoid IsMeta (parseReferences w σ p doc ref pooled) := by
  unfold parseReferences
  refine .bind inPool_total.avoid fun there => ?_
  split
  · exact .pure
  · refine .bind detectDraft_noMeta fun o => .bind (rewrite_noMeta _ _ _ _) fun x => .bind ?_ fun _ => .pure
    unfold putIf
    split
    · exact .modify
    · exact .pure

theorem parseReferences_soft {p doc ref pooled} {l l' : LState} {x} (h : parseReferences w σ p doc ref pooled l = (.ok x, l')) :
    ∀ es, x.2 ≠ some (.metaSchema es) := by
  unfold parseReferences at h
  obtain ⟨t, _, _, h⟩ := M.bind_ok.1 h
  split at h
  · rw [M.pure_ok] at h
    intro es; rw [← h.1]; simp
  · obtain ⟨_, _, _, h⟩ := M.bind_ok.1 h
    obtain ⟨y, _, hy, h⟩ := M.bind_ok.1 h
    obtain ⟨_, _, _, h⟩ := M.bind_ok.1 h
    rw [M.pure_ok] at h
    rw [← h.1]
    exact rewrite_soft hy

theorem loadJSON_noMeta {a} : Avoid IsMeta (loadJSON w a) := by
  intro l e l' h
  unfold loadJSON at h
  split at h
  · simp at h
  · simp only [Prod.mk.injEq, Except.error.injEq] at h
    rw [← h.1]; exact notMeta
  · simp only at h
    split at h
    · simp at h
    · simp only [Prod.mk.injEq, Except.error.injEq] at h
      rw [← h.1]; exact notMeta

theorem failIf_noMeta {x} (hx : ∀ es, x.2 ≠ some (.metaSchema es)) : Avoid IsMeta (failIf x) := by
  unfold failIf
  split
  · rename_i e he
    exact .err (errFine_meta _ fun es h => hx es (by rw [he, h]))
  · exact .pure

/-- Rewriting followed by the test of the error returned. -/
theorem rewritten_noMeta {p doc ref pooled} : Avoid IsMeta (do
    let x ← parseReferences w σ p doc ref pooled
    failIf x) := by
  refine .bindQ parseReferences_noMeta (Q := fun x => ∀ es, x.2 ≠ some (.metaSchema es)) (fun _ _ _ => parseReferences_soft) fun x hx =>
    failIf_noMeta hx

theorem getDocument_noMeta {p ref} : Avoid IsMeta (getDocument w σ p ref) := by
  have hptr : ∀ D, Avoid IsMeta (pointerGet w ref D) := by
    intro D
    unfold pointerGet
    split
    · exact .pure
    · exact .err notMeta
  have hget : ∀ k, Avoid IsMeta (poolGet k) := fun k => .bind .get fun _ => .pure
  unfold getDocument
  refine .bind (hget _) fun e1 => ?_
  split
  · exact .pure
  · refine .bind (hget _) fun e2 => ?_
    split
    · unfold getCached
      exact .bind (hptr _) fun d => .bind .modify fun _ => .pure
    · unfold getRemote
      split
      · exact .err notMeta
      · refine .bind ?_ fun doc => .bind ?_ fun doc' => .bind ?_ fun dr => .bind (hptr _) fun d => .pure
        · intro l e l' h
          unfold fetch at h
          simp only at h
          cases hlr : loadReference w l.clock l.factory ref with
          | none => rw [hlr] at h; simp at h; rw [← h.1]; exact notMeta
          | some d => rw [hlr] at h; simp at h
        · intro l e l' h
          unfold parseReferencesIgnore at h
          cases hx : parseReferences w σ p doc (w.base ref) true l with
          | mk r l1 =>
            rw [hx] at h
            cases r with
            | ok x => simp at h
            | error e1 =>
              cases e1 with
              | err e => simp at h
              | panic => simp at h; rw [← h.1]; exact panicFine_meta
              | fuel => simp at h; rw [← h.1]; exact fuelFine_meta
        · intro l e l' h
          unfold schemaDraftIgnore at h
          cases hx : parseSchemaURL w doc' l with
          | mk r l1 =>
            rw [hx] at h
            cases r with
            | ok x => simp at h
            | error e1 =>
              cases e1 with
              | err e => simp at h
              | panic => simp at h; rw [← h.1]; exact panicFine_meta
              | fuel => simp at h; rw [← h.1]; exact fuelFine_meta

theorem rootDocument_noMeta {p a ref} : Avoid IsMeta (rootDocument w σ p a ref) := by
  unfold rootDocument
  split
  · exact .bind getDocument_noMeta fun _ => .pure
  · refine .bind loadJSON_noMeta fun D => ?_
    exact rewritten_noMeta

theorem rootDraft_noMeta {doc} : Avoid IsMeta (rootDraft w doc) := by
  unfold rootDraft
  refine .bind .get fun l => ?_
  split
  · exact .bind parseSchemaURL_noMeta fun _ => .pure
  · exact .pure

theorem docsFine_meta : DocsFine IsMeta w (fun _ => True) where
  top := fun _ _ => ⟨fun _ _ _ _ _ => .inr panicFine_meta, fun _ _ => panicFine_meta, fun _ _ _ _ => panicFine_meta,
    fun _ _ _ _ _ _ _ => .inr panicFine_meta, fun _ _ _ _ _ _ _ => .inr panicFine_meta, fun _ _ _ _ _ _ _ _ _ => .inr panicFine_meta⟩
  self := fun _ _ _ _ => .inr panicFine_meta
  member := fun _ _ _ _ _ => trivial
  entry := fun _ _ _ _ => trivial
  elem := fun _ _ _ _ => trivial

theorem runParse_noMeta {fuel p ref doc draft} : Avoid IsMeta (runParse w σ fuel p ref doc draft) := by
  intro l e l' h
  have h3 := (parseRoot_safe (P := fun _ => True) (σ := σ) (p := p) (d := draft) (n := fuel.parse) (docRef := ref) (doc := doc)
    (w := w) (N := fun _ => True) errFine_meta fuelFine_meta docsFine_meta trivial
    (fun p ref l _ => ⟨trivial, fun _ _ _ => trivial, getDocument_noMeta l⟩) { l := l } trivial).2.2
  unfold runParse at h
  cases hx : parseRoot w σ fuel.parse p ref doc draft { l := l } with
  | mk r s =>
    rw [hx] at h
    cases r with
    | ok c => simp at h
    | error e' =>
      simp only [Prod.mk.injEq, Except.error.injEq] at h
      rw [← h.1]; exact h3 _ _ hx

theorem compileInner_noMeta {fuel p a} : Avoid IsMeta (compileInner w σ fuel p a) := by
  unfold compileInner compileG
  split
  · exact .err notMeta
  · refine .bind .modify fun _ => .bind rootDocument_noMeta fun D => .bind ?_ fun _ => .bind rootDraft_noMeta fun _ => runParse_noMeta
    unfold whenValidate
    refine .bind .get fun l => ?_
    split <;> exact .pure

theorem metaSchemaURL_noMeta {doc} : Avoid IsMeta (metaSchemaURL w doc) := by
  unfold metaSchemaURL
  refine .bind ?_ fun s => .bind .get fun l => ?_
  · unfold detectedURL
    refine .bind .get fun l => ?_
    split
    · exact .bind parseSchemaURL_noMeta fun _ => .pure
    · exact .pure
  · split
    · split <;> exact .pure
    · exact .pure

/-- What the check by the built-in meta-schema refuses does not have the shape of a schema. -/
theorem refused_shape {u d l} (hw : Lawful w) (hm : MetaWorld w u) (hk : Known u d) (hA : Apart w u) (hf : FmtOK w.env.fmtF64)
    {fuel p D es l'} (hl : PoolWF l) (hc : Clean w u d l) (hM : MetaFor w l D u)
    (h : validateMetaschema w σ fuel p D l = (.error (.err (.metaSchema es)), l')) : ¬ MetaValid w.env d D := by
  intro hS
  unfold validateMetaschema at h
  rcases M.bind_error.1 h with h | ⟨o, l1, h1, h⟩
  · exact metaSchemaURL_noMeta _ _ _ h ⟨_, rfl⟩
  have e := metaSchemaURL_still.ok h1
  subst e
  cases metaSchemaURL_ok h1 hM
  simp only at h
  rcases M.bind_error.1 h with h | ⟨_, l2, h2, h⟩
  · exact Avoid.modify (B := IsMeta) _ _ _ h ⟨_, rfl⟩
  rcases M.bind_error.1 h with h | ⟨s, l3, h3, h⟩
  · exact compileInner_noMeta _ _ _ h ⟨_, rfl⟩
  rcases M.bind_error.1 h with h | ⟨_, l4, h4, h⟩
  · exact Avoid.modify (B := IsMeta) _ _ _ h ⟨_, rfl⟩
  rw [M.modify_ok] at h2 h4
  obtain ⟨M, k1, k2, g⟩ := compileInner_good hw (by rw [← h2]; exact hl) (by intro D h; cases h) h3
  have c := (compileInner_safe (σ := σ) (fuel := fuel) (p := 63 :: p) (a := .reference u 0) (clean_inv hw hm hk hA)
    (fun e n D hld => clean_refsOK hw hm hA n 0 u D e hld) hm.root l2 (by rw [← h2]; exact hc)).1
  rw [h3] at c
  have hd : draftFor w l2 M = d := by
    rw [meta_root hm hk c k1]
    exact meta_draft hm hk hM (by rw [← h2]; exact ⟨rfl, rfl⟩)
  rw [hd] at g
  obtain ⟨r, hr, hv⟩ := checkDocument_meta h
  rw [good_complete hm hk hf c k1 g hr hS] at hv
  cases hv

/-- The common part of `AddSchema` and of one round of `AddSchemas`. -/
theorem add_refused {u d l} (hw : Lawful w) (hm : MetaWorld w u) (hk : Known u d) (hA : Apart w u) (hf : FmtOK w.env.fmtF64)
    {fuel p a ref pooled es l'} (hl : PoolWF l) (hc : Clean w u d l) (ha : ForeignArg w u a)
    (h : (do let doc ← loadJSON w a
             whenValidate (validateMetaschema w σ fuel p doc)
             let x ← parseReferences w σ (64 :: p) doc ref pooled
             let _ ← failIf x
             return () : M LState Unit) l = (.error (.err (.metaSchema es)), l')) :
    ∃ D, Loads w a D ∧ (MetaFor w l D u → ¬ MetaValid w.env d D) := by
  have ha' := argOK_wf hw fun D e => (ha.1 D e).1
  rcases M.bind_error.1 h with h | ⟨D, l2, h2, h⟩
  · exact absurd ⟨_, rfl⟩ (loadJSON_noMeta _ _ _ h)
  have R2 := loadJSON_safe (poolWF_inv hw σ) ha' l hl
  have set2 := (loadJSON_safe (a := a) (settings_inv w σ l) argOK_true l ⟨rfl, rfl⟩).1
  have c2 := (loadJSON_safe (a := a) (clean_inv (σ := σ) hw hm hk hA) (argOK_foreign hw hA ha) l hc).1
  rw [h2] at R2 set2 c2
  refine ⟨D, (loadJSON_ok h2).1, fun hM => ?_⟩
  rcases M.bind_error.1 h with h | ⟨_, l3, h3, h⟩
  · unfold whenValidate at h
    rcases M.bind_error.1 h with h | ⟨x, l4, h4, h⟩
    · exact absurd ⟨_, rfl⟩ (Avoid.get (B := IsMeta) _ _ _ h)
    rw [M.get_ok] at h4
    obtain ⟨rfl, rfl⟩ := h4
    split at h
    · exact refused_shape hw hm hk hA hf R2.1 c2 (hM.same set2) h
    · exact absurd ⟨_, rfl⟩ (Avoid.pure (B := IsMeta) _ _ _ h)
  · have key : Avoid IsMeta (do
        let x ← parseReferences w σ (64 :: p) D ref pooled
        let _ ← failIf x
        return () : M LState Unit) := by
      refine .bindQ parseReferences_noMeta (Q := fun x => ∀ es, x.2 ≠ some (.metaSchema es)) (fun _ _ _ => parseReferences_soft)
        fun x hx => .bind (failIf_noMeta hx) fun _ => .pure
    exact absurd ⟨_, rfl⟩ (key _ _ _ h)

end
end GJS

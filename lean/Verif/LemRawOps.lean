import Verif.LemRawParse
import Verif.RawLoader
/-
Helper lemmas: histories of a loader over documents and over what they decode to.
-/
namespace GJS.RawS
open GJS Spec

variable {w : Outside} {σ : Sched}

theorem register_doc_sim (hσ : σ.Natural) {p v r b} :
    Sim Decoded Eq (do let x ← GJS.parseReferences w.toWorld σ p v r b; let _ ← GJS.failIf x; return ())
      (do let x ← parseReferences w σ p (ofJson v) r b; let _ ← failIf x; return ()) := by
  refine .bind (parseReferences_sim hσ) fun x _ e => ?_
  subst e
  exact .bind failIf_sim fun _ _ _ => .pureEq

theorem addSchema_sim (hσ : σ.Natural) (hw : LooksAlike w) (hf : FormatsAlike w.raw) {fuel : Fuel} {p url v} :
    Sim Decoded Eq (GJS.addSchema w.toWorld σ fuel p url (.direct (some v))) (addSchema w σ fuel p url (ofJson v)) := by
  unfold addSchema GJS.addSchema
  cases w.norm url with
  | none => exact .err
  | some r =>
    show Sim Decoded Eq (GJS.whenValidate (GJS.validateMetaschema w.toWorld σ fuel p v) >>= fun _ => _) _
    exact .bindEq (whenValidate_sim (validateMetaschema_sim hσ hw hf)) fun _ => register_doc_sim hσ

theorem addSchemaById_sim (hσ : σ.Natural) (hw : LooksAlike w) (hf : FormatsAlike w.raw) {fuel : Fuel} {p v} :
    Sim Decoded Eq (GJS.addSchemaById w.toWorld σ fuel p (.direct (some v))) (addSchemaById w σ fuel p (ofJson v)) := by
  unfold addSchemaById GJS.addSchemaById
  show Sim Decoded Eq (GJS.whenValidate (GJS.validateMetaschema w.toWorld σ fuel p v) >>= fun _ => _) _
  exact .bindEq (whenValidate_sim (validateMetaschema_sim hσ hw hf)) fun _ => register_doc_sim hσ

theorem addSchemas_sim (hσ : σ.Natural) (hw : LooksAlike w) (hf : FormatsAlike w.raw) {fuel : Fuel} {p} {vs : List Json} :
    Sim Decoded Eq (GJS.addSchemas w.toWorld σ fuel p (vs.map fun v => .direct (some v))) (addSchemas w σ fuel p (vs.map ofJson)) := by
  unfold addSchemas GJS.addSchemas
  have : ∀ k, Sim Decoded Eq (mapL (fun k a => GJS.addSchemaById w.toWorld σ fuel (k :: p) a) k (vs.map fun v => .direct (some v)))
      (mapL (fun k g => addSchemaById w σ fuel (k :: p) g) k (vs.map ofJson)) := by
    induction vs with
    | nil => intro k; exact .pure rfl
    | cons x xs ih => intro k; exact .bindEq (addSchemaById_sim hσ hw hf) fun a => .bindEq (ih _) fun as => .pureEq
  exact .bindEq (this 0) fun _ => .pureEq

theorem Op.run_sim (hσ : σ.Natural) (hw : LooksAlike w) (hf : FormatsAlike w.raw) {fuel : Fuel} {p} (o : Op Json) :
    Sim Decoded Eq (o.direct.run w.toWorld σ fuel p) (o.decoded.run w σ fuel p) := by
  cases o with
  | addSchema url a => exact .bindEq (addSchema_sim hσ hw hf) fun _ => .pureEq
  | addSchemas as => exact .bindEq (addSchemas_sim hσ hw hf) fun _ => .pureEq
  | compile a => exact .bindEq (compile_sim hσ hw hf (.raw a)) fun _ => .pureEq
  | compileRef source fs => exact .bindEq (compile_sim hσ hw hf (.reference source fs)) fun _ => .pureEq
  | setAutoDetect b =>
    exact .bindEq (.modify fun l s h => ⟨h.pool, h.factory, rfl, h.draft, h.log, h.own, h.validate⟩) fun _ => .pureEq
  | setValidate b =>
    exact .bindEq (.modify fun l s h => ⟨h.pool, h.factory, h.autoDetect, h.draft, h.log, h.own, rfl⟩) fun _ => .pureEq
  | setDraft d =>
    exact .bindEq (.modify fun l s h => ⟨h.pool, h.factory, h.autoDetect, rfl, h.log, h.own, h.validate⟩) fun _ => .pureEq

theorem runOps_sim (hσ : σ.Natural) (hw : LooksAlike w) (hf : FormatsAlike w.raw) {fuel : Fuel} : ∀ (os : List (Op Json)) (k : Nat) {l s}, Decoded l s →
    (runOps w σ fuel k (os.map Op.decoded) s).1 = (GJS.runOps w.toWorld σ fuel k (os.map Op.direct) l).1 ∧
      Decoded (GJS.runOps w.toWorld σ fuel k (os.map Op.direct) l).2 (runOps w σ fuel k (os.map Op.decoded) s).2
  | [], _, _, _, h => ⟨rfl, h⟩
  | o :: os, k, l, s, h => by
    obtain ⟨h1, h2⟩ := (o.run_sim (fuel := fuel) (p := [k]) hσ hw hf).run l s h
    obtain ⟨h3, h4⟩ := runOps_sim hσ hw hf os (k + 1) h1
    have e : (o.decoded.run w σ fuel [k] s).1 = (o.direct.run w.toWorld σ fuel [k] l).1 := by
      rcases h2 with ⟨a, b, h5, h6, rfl⟩ | ⟨e, h5, h6⟩
      · rw [h5, h6]
      · rw [h5, h6]
    refine ⟨?_, h4⟩
    show _ :: _ = _ :: _
    rw [e, h3]

end GJS.RawS

import Verif.LemIds
import Verif.PropRewrite
/-
Lemmas for C52: `AddSchema` and `AddSchemas` with `Validate` off.
-/
namespace GJS
open Spec

theorem detectDraft_eq {w : World} {D} {l l' : LState} {o} (h : detectDraft w D l = (.ok o, l')) :
    o = Spec.draftOf w l.autoDetect D := by
  unfold detectDraft at h
  obtain ⟨l0, l1, h1, h2⟩ := M.bind_ok.1 h
  rw [M.get_ok] at h1
  obtain ⟨rfl, rfl⟩ := h1
  unfold draftOf
  split at h2
  · rename_i ha
    obtain ⟨x, l2, h3, h4⟩ := M.bind_ok.1 h2
    rw [M.pure_ok] at h4
    rw [if_pos ha, ← h4.1]
    exact parseSchemaURL_ok h3
  · rename_i ha
    rw [M.pure_ok] at h2
    rw [if_neg ha]; exact h2.1.symm

theorem not_declared_ids {w : World} {ref D k} (h : ∀ b m, SchemaAt w ref D b (.obj m) → ¬ Declares w b m k) :
    k ∉ idsIn w ref D := by
  intro hk
  obtain ⟨b, m, h1, h2⟩ := ids_schemaAt _ (Nat.le_refl _) hk
  exact h b m h1 (declares_iff.2 h2)

theorem addSchemaById_ok {w : World} {σ : Sched} {fuel : Fuel} {p : Path} {D : Json} {l l' : LState} (hv : l.validate = false)
    (h : addSchemaById w σ fuel p (.direct (some D)) l = (.ok (), l')) :
    ∃ x, parseReferences w σ (64 :: p) D "" false l = (.ok x, l') ∧ x.2 = none := by
  unfold addSchemaById at h
  obtain ⟨doc, s1, h1, h'⟩ := M.bind_ok.1 h; clear h
  simp only [loadJSON, Prod.mk.injEq, Except.ok.injEq] at h1
  obtain ⟨rfl, rfl⟩ := h1
  obtain ⟨_, s2, h2, h⟩ := M.bind_ok.1 h'; clear h'
  simp only [whenValidate, M.bind_def, M.get, hv, Bool.false_eq_true, if_false, M.pure_def, Prod.mk.injEq, true_and] at h2
  subst h2
  obtain ⟨x, s3, h3, h'⟩ := M.bind_ok.1 h; clear h
  obtain ⟨y, s4, h4, h⟩ := M.bind_ok.1 h'
  rw [M.pure_ok] at h
  obtain ⟨rfl, _, hx⟩ := failIf_ok h4
  obtain ⟨_, rfl⟩ := h
  exact ⟨x, h3, hx⟩

/-- Since `l0` no entry changed, and new entries have keys in `S`. -/
structure Adds (S : String → Prop) (l0 l : LState) : Prop where
  keeps : Keeps l0 l
  keys : KeysIn S l0 l
  validate : l.validate = false

theorem Adds.refl {S} {l : LState} (h : l.validate = false) : Adds S l l := ⟨.refl _, fun _ h => .inl h, h⟩

theorem Adds.same {S} {l0 l : LState} {k} (h : Adds S l0 l) (hk : ¬ S k) : getKey k l.pool = getKey k l0.pool := by
  cases he : getKey k l0.pool with
  | some e => exact h.keeps _ _ he
  | none =>
    cases hg : getKey k l.pool with
    | none => rfl
    | some e =>
      rcases h.keys k (by rw [hg]; simp) with hn | hn
      · exact absurd he hn
      · exact absurd hn hk

section
variable {w : World} {σ : Sched} {fuel : Fuel} {S : String → Prop} {l0 : LState}

theorem parseReferences_adds {p D ref pooled} (hs : ∀ x ∈ idsIn w ref D, S x) (hp : pooled = true → S ref) (hd : D.WF) :
    Tri (Adds S l0) (parseReferences w σ p D ref pooled) (fun _ => True) := by
  intro l hl
  have hk := (parseReferences_keys (σ := σ) (p := p) hs hp hd l hl.keys).1
  have hc := (parseReferences_tri (W := False) (w := w) (σ := σ) (p := p) (doc := D) (ref := ref)
      (pooled := pooled) (l0 := l) False.elim False.elim).1
  exact ⟨⟨hl.keeps.trans hc.keeps, hk, by rw [← hl.validate]; exact hc.cfg.2.2.1⟩, fun _ _ _ => trivial⟩

theorem loadJSON_adds {a} : Tri (Adds S l0) (loadJSON w a) (fun doc => ∀ D, a = .direct (some D) → doc = D) := by
  intro l hl
  refine ⟨?_, ?_⟩
  · obtain ⟨h1, h2, h3⟩ := hl
    unfold loadJSON
    repeat' split
    all_goals exact ⟨h1, h2, h3⟩
  · rintro doc l' h D rfl
    simp only [loadJSON, Prod.mk.injEq, Except.ok.injEq] at h
    exact h.1.symm

theorem whenValidate_adds {x : M LState Unit} : Tri (Adds S l0) (whenValidate x) (fun _ => True) := by
  intro l hl
  have : whenValidate x l = (.ok (), l) := by simp [whenValidate, M.bind_def, M.get, hl.validate, M.pure_def]
  rw [this]
  exact ⟨hl, fun _ _ _ => trivial⟩

theorem addSchema_adds {p url ref D} (hr : w.norm url = some ref) (hs : ∀ x ∈ idsIn w ref D, S x) (hp : S ref) (hd : D.WF) :
    Tri (Adds S l0) (addSchema w σ fuel p url (.direct (some D))) (fun _ => True) := by
  unfold addSchema
  rw [hr]
  refine .bind loadJSON_adds fun doc hdoc => ?_
  cases hdoc _ rfl
  exact .bind whenValidate_adds fun _ _ => .bind (parseReferences_adds hs (fun _ => hp) hd) fun _ _ =>
    .bind failIf_still.tri fun _ _ => .pure trivial

theorem addSchemas_adds {p} {Ds : List Json} (hs : ∀ D ∈ Ds, ∀ x ∈ idsIn w "" D, S x) (hd : ∀ D ∈ Ds, D.WF) :
    Tri (Adds S l0) (addSchemas w σ fuel p (Ds.map fun D => .direct (some D))) (fun _ => True) := by
  unfold addSchemas
  refine .bind (Tri.mapL (Q := fun _ _ => True) fun k a ha => ?_) fun _ _ => .pure trivial
  obtain ⟨D, hD, rfl⟩ := List.mem_map.1 ha
  unfold addSchemaById
  refine .bind loadJSON_adds fun doc hdoc => ?_
  cases hdoc _ rfl
  exact .bind whenValidate_adds fun _ _ => .bind (parseReferences_adds (hs D hD) (by simp) (hd D hD)) fun _ _ =>
    .bind failIf_still.tri fun _ _ => .pure trivial

end

end GJS

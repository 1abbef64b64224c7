import Verif.LemAdds
import Verif.PropCompile
import Verif.DemoCheck
/-
C52: which identifiers become known to a loader.
-/
namespace GJS
open Spec

/-- C52.  `AddSchema` of a document whose identifiers are distinct and new to the loader, with
`Validate` off: every schema in it that declares an identifier is known to the loader under this
identifier, with its references made absolute, and with the draft of the whole document; no other
entry of the loader but the one for the URL changes. -/
theorem C52_registered (w : World) (σ : Sched) (fuel : Fuel) (p : Path) (url : String) (D : Json) (hD : D.WF)
    (l l' : LState) (hv : l.validate = false) (ref : String) (hr : w.norm url = some ref)
    (hi : (idsIn w ref D).Nodup) (hf : ∀ k ∈ idsIn w ref D, getKey k l.pool = none)
    (h : addSchema w σ fuel p url (.direct (some D)) l = (.ok (), l')) :
    (∀ b m k, SchemaAt w ref D b (.obj m) → Declares w b m k → k ≠ ref →
      ∃ e, getKey k l'.pool = some e ∧ RwStrict w b (.obj m) e.doc ∧ e.draft = draftOf w l.autoDetect D) ∧
    ∀ k, k ≠ ref → (∀ b m, SchemaAt w ref D b (.obj m) → ¬ Declares w b m k) → getKey k l'.pool = getKey k l.pool := by
  obtain ⟨ref', l1, x, draft, h1, h2, h3, h4, _⟩ := addSchema_ok h
  rw [hr] at h1
  cases h1
  simp only [whenValidate, M.bind_def, M.get, hv, Bool.false_eq_true, if_false, M.pure_def, Prod.mk.injEq, true_and] at h2
  subst h2
  obtain ⟨dr, l0, k0, _, k2, k3⟩ := parseReferences_regs hD hi hf h3 h4
  rw [detectDraft_eq k0] at k3
  exact ⟨fun b m k hm hk hne => k3 b m k hm (declares_iff.1 hk) fun _ => hne,
    fun k hne hk => k2 k (not_declared_ids hk) fun _ => hne⟩

/-- C52 for `AddSchemas`: its documents are known by their identifiers only. -/
theorem C52_registered_by_id (w : World) (σ : Sched) (fuel : Fuel) (p : Path) (D : Json) (hD : D.WF)
    (l l' : LState) (hv : l.validate = false)
    (hi : (idsIn w "" D).Nodup) (hf : ∀ k ∈ idsIn w "" D, getKey k l.pool = none)
    (h : addSchemas w σ fuel p [.direct (some D)] l = (.ok (), l')) :
    (∀ b m k, SchemaAt w "" D b (.obj m) → Declares w b m k →
      ∃ e, getKey k l'.pool = some e ∧ RwStrict w b (.obj m) e.doc ∧ e.draft = draftOf w l.autoDetect D) ∧
    ∀ k, (∀ b m, SchemaAt w "" D b (.obj m) → ¬ Declares w b m k) → getKey k l'.pool = getKey k l.pool := by
  simp only [addSchemas, mapL, M.bind_ok, M.pure_ok] at h
  obtain ⟨_, _, ⟨_, s1, h1, _, _, ⟨rfl, rfl⟩, rfl, rfl⟩, _, rfl⟩ := h
  obtain ⟨x, h3, h4⟩ := addSchemaById_ok hv h1
  obtain ⟨dr, l0, k0, _, k2, k3⟩ := parseReferences_regs hD hi hf h3 h4
  rw [detectDraft_eq k0] at k3
  exact ⟨fun b m k hm hk => k3 b m k hm (declares_iff.1 hk) (by simp),
    fun k hk => k2 k (not_declared_ids hk) (by simp)⟩

/-- C52, whatever the document.  With `Validate` off, and whether or not it succeeds, `AddSchema`
changes no entry but the one for the URL and those for identifiers declared in the document. -/
theorem C52_only_declared (w : World) (σ : Sched) (fuel : Fuel) (p : Path) (url : String) (D : Json) (hD : D.WF)
    (l : LState) (hv : l.validate = false) (ref : String) (hr : w.norm url = some ref) (k : String) (hk : k ≠ ref)
    (hn : ∀ b m, SchemaAt w ref D b (.obj m) → ¬ Declares w b m k) :
    getKey k (addSchema w σ fuel p url (.direct (some D)) l).2.pool = getKey k l.pool :=
  (addSchema_adds (S := fun x => x ≠ k) hr (fun _ hx he => not_declared_ids hn (he ▸ hx)) (Ne.symm hk) hD l (.refl hv)).1.same
    (fun h => h rfl)

/-- C52, whatever the documents.  With `Validate` off, and whether or not it succeeds, `AddSchemas`
changes no entry but those for identifiers declared in the documents. -/
theorem C52_only_declared_by_id (w : World) (σ : Sched) (fuel : Fuel) (p : Path) (Ds : List Json) (hD : ∀ D ∈ Ds, D.WF)
    (l : LState) (hv : l.validate = false) (k : String)
    (hn : ∀ D ∈ Ds, ∀ b m, SchemaAt w "" D b (.obj m) → ¬ Declares w b m k) :
    getKey k (addSchemas w σ fuel p (Ds.map fun D => .direct (some D)) l).2.pool = getKey k l.pool :=
  (addSchemas_adds (S := fun x => x ≠ k) (fun D hd _ hx he => not_declared_ids (hn D hd) (he ▸ hx)) hD l (.refl hv)).1.same
    (fun h => h rfl)

namespace Demo

/-- Two schemas, one of them nested in the other's scope, with identifiers. -/
def identified : Json := .obj [("$id", .str "http://h/root.json"), ("definitions", .obj [
  ("a", .obj [("$id", .str "http://h/a.json"), ("properties", .obj [("x", .obj [("$ref", .str "#/definitions/y")])])])])]

/-- Two schemas with the same identifier. -/
def sameId : Json := .obj [("definitions", .obj [
    ("a", .obj [("$id", .str "http://h/x"), ("type", .str "string")]),
    ("b", .obj [("$id", .str "http://h/x"), ("type", .str "integer")])]),
  ("allOf", .arr [.obj [("$ref", .str "http://h/x")]])]

/-- What is found under a key after an operation. -/
def found (w : World) (o : Op) (k : String) : Option (Json × Option Draft) :=
  (getKey k (o.run w Sched.id ⟨20, 20⟩ [] newSchemaLoader).2.pool).map fun e => (e.doc, e.draft)

end Demo

/-! The hypotheses of `C52_registered` and `C52_registered_by_id` in a case with two identifiers, and what
is known afterwards. -/
example : Demo.identified.WF ∧ idsIn (Demo.world []) "http://h/s.json" Demo.identified =
    ["http://h/root.json", "http://h/a.json"] ∧
    ((addSchema (Demo.world []) Sched.id ⟨20, 20⟩ [] "http://h/s.json" (.direct (some Demo.identified)) newSchemaLoader).1).isOk = true := by
  refine ⟨Demo.wf_of _ (by decide +kernel), by decide +kernel, by decide +kernel⟩
example : Demo.found (Demo.world []) (.addSchema "http://h/s.json" (.direct (some Demo.identified))) "http://h/a.json" =
    some (.obj [("$id", .str "http://h/a.json"), ("properties", .obj [("x", .obj [("$ref", .str "http://h/a.json#/definitions/y")])])],
      none) := by rfl
example : (Demo.found (Demo.world []) (.addSchemas [.direct (some Demo.identified)]) "http://h/a.json").isSome = true ∧
    (Demo.found (Demo.world []) (.addSchemas [.direct (some Demo.identified)]) "").isSome = false := by decide +kernel
/-! A key that the document does not declare. -/
example : ∀ b m, SchemaAt (Demo.world []) "" (.obj [("type", .str "string")]) b (.obj m) →
    ¬ Declares (Demo.world []) b m "http://h/x" := by
  intro b m hm hd
  have := schemaAt_ids hm rfl (declares_iff.1 hd)
  revert this
  decide +kernel

/-- C52, negative part.  If two schemas of a document declare the same identifier, the document
still compiles, and the iteration order over a map decides which of the two a reference means. -/
theorem C52_duplicate_order : ∃ (D v : Json), D.WF ∧
    Demo.verdict (Demo.world []) Sched.id D v = some true ∧ Demo.verdict (Demo.world []) Sched.rev D v = some false :=
  ⟨Demo.sameId, .str "s", Demo.wf_of _ (by decide +kernel), by decide +kernel, by decide +kernel⟩

end GJS

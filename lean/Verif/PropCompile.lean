import Verif.LemCompile
import Verif.PropValidate
import Verif.LemWitness
/-
Properties of compilation and validation together: C01, C05, C06.
-/
namespace GJS
open Spec

/-! ### C01: the verdict follows the rules for schema documents -/

/-- C01.  Suppose `Compile` accepts a schema on a loader in any state whose documents are
well-formed.  There are a document `D`, which is what the loader argument stands for, and a
reading `resolve` of `$ref` texts by documents of the loader and their drafts, such that whatever `Validate` then
returns on any instance agrees with the keyword rules of `Verif.SpecDoc`: for every relation
`Sat` that obeys the rules, the instance is valid exactly if `Sat` says so, and without assuming
that such a relation exists, exactly if the rules unfolded to the depth of the execution say so,
whatever they are unfolded from. -/
theorem C01_verdict (w : World) (hw : Lawful w) (σ : Sched) (fuel : Fuel) (p : Path) (a : LoaderArg)
    (l l' : LState) (s : Schema) (hl : PoolWF l) (ha : ∀ D, a = .direct (some D) → D.WF)
    (hc : compile w σ fuel p a l = (.ok s, l')) :
    ∃ (D : Json) (resolve : String → Option (Draft × Json)),
      RootDoc w l' a D ∧
      (∀ t d' D', resolve t = some (d', D') → ∃ u, w.norm t = some u ∧
        ReadAs w l' (draftFor w l D) D u d' D') ∧
      (∀ d' m t, Used resolve (draftFor w l D) D d' (.obj m) → Kw m "$ref" (.str t) → resolve t ≠ none) ∧
      ∀ (σ' : Sched) (n : Nat) (v : Json) (r : Result),
        validateDocument w.env σ' s.heap n s.root v = .ok r →
          (∀ Sat, IsDocMeaning w.env resolve Sat → (r.valid = true ↔ Sat (draftFor w l D) D v)) ∧
          (∀ P, r.valid = true ↔ docUnfold w.env resolve P n (draftFor w l D) D v) := by
  obtain ⟨D, h1, _, g⟩ := compile_good hw hl ha hc
  refine ⟨D, resolveIn w s.heap s.refs, h1, fun t d' D' h => g.resolve h, ?_, ?_⟩
  · intro d' m t hu hk hn
    obtain ⟨i, hi⟩ := g.used hu
    obtain ⟨d2, D2, _, h2, _⟩ := g.ref hi hk
    rw [hn] at h2; cases h2
  · intro σ' n v r hr
    constructor
    · intro Sat hm
      exact (C02_verdict _ _ _ _ _ _ _ hr _ (g.meaning hm)).trans g.root.satNode
    · intro P
      rw [C02_verdict_unfold _ _ _ _ _ _ _ hr (satNode s.heap P), g.unfold P n]
      exact g.root.satNode

/-- Operations whose documents are maps with distinct keys. -/
def Spec.GoodArg (a : LoaderArg) : Prop := ∀ D, a = .direct (some D) → D.WF

/-- Operations with such arguments. -/
def Spec.GoodOp : Op → Prop
  | .addSchema _ a => GoodArg a
  | .addSchemas as => ∀ a ∈ as, GoodArg a
  | .compile a => GoodArg a
  | _ => True

theorem opOK_wf {w : World} (hw : Lawful w) {o : Op} (ho : GoodOp o) : OpOK w IsWF o := by
  cases o with
  | addSchema url a => exact argOK_wf hw ho
  | addSchemas as => exact fun a ha => argOK_wf hw (ho a ha)
  | compile a => exact fun _ => argOK_wf hw ho
  | _ => trivial

/-- The hypothesis of `C01_verdict` on the loader holds after any history of operations on a
new `SchemaLoader`, failing ones included. -/
theorem C01_history (w : World) (hw : Lawful w) (σ : Sched) (fuel : Fuel) (ops : List Op)
    (ho : ∀ o ∈ ops, GoodOp o) : PoolWF (runOps w σ fuel 0 ops newSchemaLoader).2 :=
  runOps_inv (poolWF_inv hw σ) id (refsOK_wf hw) (fun _ _ _ h => h) trivial (fun o h => opOK_wf hw (ho o h))
    (by intro k e h; simp [newSchemaLoader, getKey] at h)

namespace Demo

/-- A recursive schema document with a definition. -/
def treeDoc : Json := .obj
  [ ("definitions", .obj [("name", .obj [("type", .str "string"), ("minLength", int 1)])]),
    ("type", .str "object"),
    ("properties", .obj [("name", .obj [("$ref", .str "#/definitions/name")]),
      ("children", .obj [("type", .str "array"), ("items", .obj [("$ref", .str "#")])])]),
    ("required", .arr [.str "name"]) ]

/-- An instance. -/
def tree : Json := .obj [("name", .str "a"), ("children", .arr [.obj [("name", .str "b")]])]
/-- An instance with an empty name inside. -/
def treeBad : Json := .obj [("name", .str "a"), ("children", .arr [.obj [("name", .str "")]])]

/-- Compile and validate. -/
def verdict (w : World) (σ : Sched) (D v : Json) : Option Bool :=
  match newSchema w σ ⟨20, 20⟩ (.direct (some D)) with
  | .ok s =>
    match validateDocument w.env σ s.heap 20 s.root v with
    | .ok r => some r.valid
    | .error _ => none
  | .error _ => none

end Demo

example : Lawful (Demo.world []) := Demo.world_lawful (by intro k d h; simp [getKey] at h)
example : Demo.verdict (Demo.world []) Sched.id Demo.treeDoc Demo.tree = some true := by decide +kernel
example : Demo.verdict (Demo.world []) Sched.rev Demo.treeDoc Demo.treeBad = some false := by decide +kernel

/-! ### C06: compiled schemas do not make `Validate` panic -/

/-- C06, end to end: after `Compile` accepted a schema, `Validate` does not panic on any instance
whose numbers are in range. -/
theorem C06_compiled_no_panic (w : World) (hw : Lawful w) (σ : Sched) (fuel : Fuel) (p : Path) (a : LoaderArg)
    (l l' : LState) (s : Schema) (hl : PoolWF l) (ha : ∀ D, a = .direct (some D) → D.WF)
    (hc : compile w σ fuel p a l = (.ok s, l')) (σ' : Sched) (n : Nat) (v : Json) (hv : InRange w.env v) :
    validateDocument w.env σ' s.heap n s.root v ≠ .error .panic := by
  obtain ⟨D, _, _, g⟩ := compile_good hw hl ha hc
  exact C06_no_panic w.env σ' s.heap g.heapOK s.root g.root.lt v hv n

/-- C04 and C06, end to end: if in addition no chain of in-place sub-schemas of the compiled
schema is cyclic, `Validate` returns. -/
theorem C06_compiled_total (w : World) (hw : Lawful w) (σ : Sched) (fuel : Fuel) (p : Path) (a : LoaderArg)
    (l l' : LState) (s : Schema) (hl : PoolWF l) (ha : ∀ D, a = .direct (some D) → D.WF)
    (hc : compile w σ fuel p a l = (.ok s, l')) (hac : Acyclic s.heap) (σ' : Sched) (v : Json)
    (hv : InRange w.env v) (n : Nat) (hn : v.size * (s.heap.length + 1) + s.heap.length + 1 ≤ n) :
    ∃ r, validateDocument w.env σ' s.heap n s.root v = .ok r := by
  obtain ⟨D, _, _, g⟩ := compile_good hw hl ha hc
  exact C06_total w.env σ' s.heap g.heapOK hac s.root g.root.lt v hv n hn

/-! ### C05: `{"$ref":"#"}` -/

/-- C05.  `NewSchema` accepts `{"$ref":"#"}`, and no validation against the result ever returns,
however many nested calls are allowed. -/
theorem C05_compile_diverges (w : World) (h1 : w.norm "#" = some "") (h2 : w.norm "" = some "")
    (h3 : w.inherits "" "" = some "") (σ : Sched) (k m : Nat) :
    ∃ s, newSchema w σ ⟨k + 2, m⟩ (.direct (some Demo.loopDoc)) = .ok s ∧
      ∀ σ' n v, validateDocument w.env σ' s.heap n s.root v = .error .fuel := by
  refine ⟨_, loop_new h1 h2 h3 σ k m, ?_⟩
  intro σ' n v
  refine C05_ref_chain_diverges w.env σ' _ (fun k => match k with | 0 => 0 | _ + 1 => 1) (fun k => ?_) n v
  cases k <;> exact ⟨_, rfl, rfl, rfl⟩

example : (Demo.world []).norm "#" = some "" ∧ (Demo.world []).norm "" = some "" ∧
    (Demo.world []).inherits "" "" = some "" := by decide

end GJS

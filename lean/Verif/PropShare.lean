import Verif.PropDraft
import Verif.PropTerm
/-
The draft under which a referenced document is read: C47.
-/
namespace GJS
open Spec

/-- Only draft `d` is declared or remembered in the pool. -/
def Spec.OneDraft (w : World) (l : LState) (d : Draft) : Prop :=
  ∀ k e, getKey k l.pool = some e → (∀ x, e.draft = some x → x = d) ∧ (∀ x, declaredDraft w e.doc = some x → x = d)

theorem compiled_oneDraft {w : World} {l : LState} {d : Draft} {D : Json} (h : OneDraft w l d) {d' D'}
    (hc : Compiled w l d D d' D') : d' = d := by
  induction hc with
  | root => rfl
  | sub d' m D' _ _ ih => exact ih
  | definition d' m ps k D' _ _ _ ih => exact ih
  | ref d' m t u o D' _ _ _ hr ih =>
    cases ho : o with
    | none => exact ih
    | some x =>
      show x = d
      cases hr with
      | entry e he => exact (h _ _ he).1 x ho
      | inside e D he _ => exact (h _ _ he).1 x ho
      | fetched n f doc e D _ _ he _ => exact (h _ _ he).2 x ho
      | loaded => cases ho

/-- C47, positive part.  If the documents of the loader after a successful `Compile` neither declare
nor are registered with a draft other than the one in force at the root, then everything the schema
refers to is read under that one draft: the verdict is that of the keyword rules of one draft. -/
theorem C47_one_draft (w : World) (hw : Lawful w) (σ : Sched) (fuel : Fuel) (p : Path) (a : LoaderArg)
    (l l' : LState) (s : Schema) (hl : PoolWF l) (ha : ∀ D, a = .direct (some D) → D.WF)
    (hc : compile w σ fuel p a l = (.ok s, l')) :
    ∃ D, RootDoc w l' a D ∧ (OneDraft w l' (draftFor w l D) →
      (∀ (i : Id) (n : Sub), s.heap[i]? = some n → n.draft = draftFor w l D) ∧
      ∃ resolve : String → Option Json,
        (∀ t D', resolve t = some D' → ∃ u, w.norm t = some u ∧ Resolved w l' u D') ∧
        ∀ (σ' : Sched) (n : Nat) (v : Json) (r : Result),
          validateDocument w.env σ' s.heap n s.root v = .ok r →
          ∀ P, r.valid = true ↔
            docUnfold w.env (fun t => (resolve t).map fun D' => (draftFor w l D, D')) P n (draftFor w l D) D v) := by
  obtain ⟨D, h1, _, g⟩ := compile_good hw hl ha hc
  refine ⟨D, h1, fun hd => ?_⟩
  have hn : ∀ (i : Id) (n : Sub), s.heap[i]? = some n → n.draft = draftFor w l D :=
    fun i n hi => compiled_oneDraft hd (g.made i n hi)
  refine ⟨hn, fun t => (resolveIn w s.heap s.refs t).map Prod.snd, ?_, ?_⟩
  · intro t D' h
    obtain ⟨x, hx, rfl⟩ := Option.map_eq_some_iff.1 h
    obtain ⟨u, h2, h3⟩ := g.resolve hx
    exact ⟨u, h2, h3.resolved⟩
  · intro σ' n v r hr P
    have e : (fun t => ((resolveIn w s.heap s.refs t).map Prod.snd).map fun D' => (draftFor w l D, D')) =
        resolveIn w s.heap s.refs := by
      funext t
      cases hx : resolveIn w s.heap s.refs t with
      | none => rfl
      | some x =>
        obtain ⟨d', D'⟩ := x
        obtain ⟨u, _, o, _, h3, h4⟩ := g.resolve hx
        have : d' = draftFor w l D := by
          unfold resolveIn at hx
          split at hx
          · cases hx
          · split at hx
            · cases hx
            · obtain ⟨n, hn', hx⟩ := Option.map_eq_some_iff.1 hx
              cases hx
              exact hn _ n hn'
        simp [this]
    rw [e, C02_verdict_unfold _ _ _ _ _ _ _ hr (satNode s.heap P), g.unfold P n]
    exact g.root.satNode

/-- C47, without references the order of maps during compilation has no influence on verdicts. -/
theorem C47_noRef (w : World) (l l' : LState) (hw : Setting w l) (hw' : Setting w l') (D : Json)
    (hm : D.WF) (hn : NoRef D) (hd : draftFor w l D = draftFor w l' D) (v : Json) (b b' : Bool)
    (h : Gives w l D v b) (h' : Gives w l' D v b') : b = b' := by
  obtain ⟨n1, h1⟩ := C01_noRef w l hw _ hm hn v b h
  obtain ⟨n2, h2⟩ := C01_noRef w l' hw' _ hm hn v b' h'
  rw [Bool.eq_iff_iff, h1 (max n1 n2) (Nat.le_max_left ..) (fun _ => none) (fun _ _ _ => True),
    h2 (max n1 n2) (Nat.le_max_right ..) (fun _ => none) (fun _ _ _ => True), ← hd]

namespace Demo

/-- A draft-04 document that refers to `c`. -/
def docA : Json := .obj [("$schema", .str "http://json-schema.org/draft-04/schema#"), ("allOf", .arr [.obj [("$ref", .str "c")]])]
/-- A draft-07 document that refers to `c`. -/
def docB : Json := .obj [("$schema", .str "http://json-schema.org/draft-07/schema#"), ("allOf", .arr [.obj [("$ref", .str "c")]])]
/-- A document without `$schema` whose keyword draft-04 does not have. -/
def docC : Json := .obj [("const", int 1)]
/-- The root: two properties, which refer to `a` and `b`. -/
def docRoot : Json := .obj [("properties", .obj [("x", .obj [("$ref", .str "a")]), ("y", .obj [("$ref", .str "b")])])]
/-- The documents. -/
def sharing : World := world [("a", docA), ("b", docB), ("c", docC)]

end Demo

/-- C47, negative part.  A document without `$schema` that a draft-04 and a draft-07 document refer
to is read under the draft of whichever is compiled first: the same documents, in the same new
loader, give a schema that accepts `{"x": 2}` with one map order and one that rejects it with
another. -/
theorem C47_order_matters : ∃ (w : World) (D v : Json), Lawful w ∧ D.WF ∧
    Demo.verdict w .id D v = some true ∧ Demo.verdict w .rev D v = some false := by
  refine ⟨Demo.sharing, Demo.docRoot, .obj [("x", Demo.int 2)], ?_, Demo.wf_of _ (by decide +kernel), ?_, ?_⟩
  · refine Demo.world_lawful fun k d h => ?_
    have := lookup_some_mem h
    simp only [List.mem_cons, List.not_mem_nil, or_false, Prod.mk.injEq] at this
    rcases this with ⟨_, rfl⟩ | ⟨_, rfl⟩ | ⟨_, rfl⟩ <;> exact Demo.wf_of _ (by decide +kernel)
  · decide +kernel
  · decide +kernel

/-- The hypothesis of `C47_one_draft` can be checked. -/
theorem oneDraft_of {w : World} {l : LState} {d : Draft}
    (h : (l.pool.all fun ke => (ke.2.draft.all (· == d)) && (declaredDraft w ke.2.doc).all (· == d)) = true) :
    OneDraft w l d := by
  intro k e he
  have := List.all_eq_true.1 h (k, e) (lookup_some_mem he)
  simp only [Bool.and_eq_true] at this
  constructor
  · intro x hx
    have := this.1
    rw [hx] at this
    simpa using this
  · intro x hx
    have := this.2
    rw [hx] at this
    simpa using this

/-- `C47_one_draft` at work: a recursive document with a definition, compiled by a new loader. -/
example : (compile (Demo.world []) Sched.id ⟨20, 20⟩ [] (.direct (some Demo.treeDoc)) newSchemaLoader).1.isOk = true ∧
    OneDraft (Demo.world [])
      (compile (Demo.world []) Sched.id ⟨20, 20⟩ [] (.direct (some Demo.treeDoc)) newSchemaLoader).2
      (draftFor (Demo.world []) newSchemaLoader Demo.treeDoc) ∧
    Demo.verdict (Demo.world []) Sched.id Demo.treeDoc Demo.tree = some true :=
  ⟨by decide +kernel, oneDraft_of (by decide +kernel), by decide +kernel⟩

/-- The hypothesis fails for the documents of the negative part. -/
example : ¬ OneDraft Demo.sharing
      (compile Demo.sharing Sched.id ⟨20, 20⟩ [] (.direct (some Demo.docRoot)) newSchemaLoader).2 Hybrid := by
  intro h
  have : (getKey "a" (compile Demo.sharing Sched.id ⟨20, 20⟩ [] (.direct (some Demo.docRoot)) newSchemaLoader).2.pool).map
      PoolDoc.draft = some (some Draft4) := by decide +kernel
  obtain ⟨e, h1, h2⟩ := Option.map_eq_some_iff.1 this
  exact absurd ((h _ _ h1).1 _ h2) (by decide)

end GJS

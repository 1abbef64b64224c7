import Verif.LemDocFault
import Verif.PropCompile
/-
C50: the error report of a compiled schema in terms of the schema document.
-/
namespace GJS
open Spec

/-- C50.  Suppose `Compile` accepts a schema (as in `C01_verdict`).  There are the document `D` and
the reading `resolve` of `$ref` texts by documents of the loader such that whatever `Validate` then
returns on any instance, its error report and the document correspond.  Truth: every reported
error is a fault that the keywords of `D`, or of a sub-schema rightly applied, name, at the context
that spells the way into the instance, with the value found there.  Completeness: every fault of
`D`, or of a sub-schema that has to be applied, is reported. -/
theorem C50_report (w : World) (hw : Lawful w) (σ : Sched) (fuel : Fuel) (p : Path) (a : LoaderArg)
    (l l' : LState) (s : Schema) (hl : PoolWF l) (ha : ∀ D, a = .direct (some D) → D.WF)
    (hc : compile w σ fuel p a l = (.ok s, l')) :
    ∃ (D : Json) (resolve : String → Option (Draft × Json)),
      RootDoc w l' a D ∧
      (∀ t d' D', resolve t = some (d', D') → ∃ u, w.norm t = some u ∧
        ReadAs w l' (draftFor w l D) D u d' D') ∧
      (∀ d' m t, Used resolve (draftFor w l D) D d' (.obj m) → Kw m "$ref" (.str t) → resolve t ≠ none) ∧
      ∀ (σ' : Sched) (n : Nat) (v : Json) (r : Result),
        validateDocument w.env σ' s.heap n s.root v = .ok r →
          (∀ e ∈ r.errors, ∃ path, e.ctx = path.reverse ++ ["(root)"] ∧
            MayReport w.env resolve (draftFor w l D) D v path e.kind e.value) ∧
          (∀ path k x, MustReport w.env resolve (draftFor w l D) D v path k x →
            ⟨k, path.reverse ++ ["(root)"], x⟩ ∈ r.errors) := by
  obtain ⟨D, h1, _, g⟩ := compile_good hw hl ha hc
  refine ⟨D, resolveIn w s.heap s.refs, h1, fun t d' D' h => g.resolve h, ?_, ?_⟩
  · intro d' m t hu hk hn
    obtain ⟨i, hi⟩ := g.used hu
    obtain ⟨d2, D2, _, h2, _⟩ := g.ref hi hk
    rw [hn] at h2; cases h2
  · intro σ' n v r hr
    obtain ⟨s0, r1, r2, r3⟩ := g.root
    constructor
    · intro e he
      obtain ⟨path, j, x, sj, e1, e2, e3, e4⟩ := validateRecursive_blame (g.settles σ') n _ _ _ _ _ hr e he
      refine ⟨path, e1, sj.draft, sj.doc, x, ?_, (corr_fault (g.docs _ _ e3) (g.nodes _ _ e3)).1 e4⟩
      have := g.reach_may e2 r1 e3
      rw [r2, r3] at this
      exact this
    · rintro path k x ⟨d', D', y, e1, e2⟩
      obtain ⟨j, ⟨sj, f1, f2, f3⟩, f4⟩ := g.reach_must e1 g.root
      subst f2 f3
      exact validateRecursive_reports (g.settles σ') f4 f1 ((corr_fault (g.docs _ _ f1) (g.nodes _ _ f1)).2 e2) n _ _ _ hr

namespace Demo

/-- A schema document. -/
def countDoc : Json := .obj
  [ ("type", .str "object"), ("required", .arr [.str "id"]),
    ("properties", .obj [("count", .obj [("maximum", int 3)])]) ]

/-- Compile and validate. -/
def report (w : World) (σ : Sched) (D v : Json) : Option (List Err) :=
  match newSchema w σ ⟨20, 20⟩ (.direct (some D)) with
  | .ok s =>
    match validateDocument w.env σ s.heap 20 s.root v with
    | .ok r => some r.errors
    | .error _ => none
  | .error _ => none

end Demo

/-- The count has to be reported, whatever references stand for. -/
example (env : Env) (resolve : String → Option (Draft × Json)) (d : Draft) :
    MustReport env resolve d Demo.countDoc (.obj [("count", Demo.int 5)]) ["count"] (.numberLTE 3) (Demo.int 5) := by
  refine ⟨d, .obj [("maximum", Demo.int 3)], Demo.int 5, ?_, ?_⟩
  · refine .step d _ _ (some "count") d _ _ [] _ _ _ ?_ (.here _ _ _)
    refine .property _ _ "count" _ _ ⟨fun t h => ?_, ?_⟩ rfl rfl (List.mem_cons_self ..) rfl
    · simp [Kw, getKey, List.lookup] at h
    · exact ⟨fun t h => by cases h; exact .obj _, fun ts h => by cases h⟩
  · have h3 : NumLit.val ⟨false, 3, [], none⟩ = 3 := by decide +kernel
    refine .keyword _ _ _ (fun t h => by simp [Kw, getKey, List.lookup] at h) ⟨fun t h => (by cases h), fun ts h => (by cases h)⟩ ?_
    rw [← h3]
    exact .maximum _ _ rfl rfl (by simp [Kw, getKey, List.lookup]) (by decide +kernel)

example : Demo.report (Demo.world []) Sched.id Demo.countDoc (.obj [("count", Demo.int 5)]) =
    some [⟨.required "id", ["(root)"], .obj [("count", Demo.int 5)]⟩, ⟨.numberLTE 3, ["count", "(root)"], Demo.int 5⟩] := by
  rfl

/-- Through references: the empty name of the child. -/
example : (Demo.report (Demo.world []) Sched.id Demo.treeDoc Demo.treeBad).map (·.map fun e => (e.kind, e.ctx)) =
    some [(.stringGTE 1, ["name", "0", "children", "(root)"])] := by
  decide +kernel

end GJS

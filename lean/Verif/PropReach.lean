import Verif.LemReach
import Verif.PropAccept
import Verif.LemPanic
import Verif.LemDraft
/-
Properties of what `Compile` lets through, references included: C56.
-/
namespace GJS
open Spec

/-- C56.  Suppose `Compile` accepts a schema, on a loader in any state and with `Validate` on or off.
The argument stands for a document `D`, and `$ref` texts can be read as documents of the loader, such
that everything reached from `D` (sub-schemas, definitions, targets of references) is well-formed under
the draft in force there, and every reference that is reached resolves. -/
theorem C56_compile (w : World) (hw : Lawful w) (hf : FmtOK w.env.fmtF64) (σ : Sched) (fuel : Fuel) (p : Path)
    (a : LoaderArg) (l l' : LState) (s : Schema) (hl : PoolWF l) (ha : ∀ D, a = .direct (some D) → D.WF)
    (hc : compile w σ fuel p a l = (.ok s, l')) :
    ∃ (D : Json) (resolve : String → Option (Draft × Json)),
      RootDoc w l' a D ∧
      (∀ t d' D', resolve t = some (d', D') → ∃ u, w.norm t = some u ∧ ReadAs w l' (draftFor w l D) D u d' D') ∧
      AllReadable w resolve (draftFor w l D) D := by
  obtain ⟨D, h1, _, g⟩ := compile_good hw hl ha hc
  exact ⟨D, resolveIn w s.heap s.refs, h1, fun t d' D' h => g.resolve h, g.readable hf⟩

/-- C56 for `NewSchema`. -/
theorem C56_newSchema (w : World) (hw : Lawful w) (hf : FmtOK w.env.fmtF64) (σ : Sched) (fuel : Fuel)
    (a : LoaderArg) (s : Schema) (ha : ∀ D, a = .direct (some D) → D.WF) (hc : newSchema w σ fuel a = .ok s) :
    ∃ (l' : LState) (D : Json) (resolve : String → Option (Draft × Json)),
      RootDoc w l' a D ∧
      (∀ t d' D', resolve t = some (d', D') → ∃ u, w.norm t = some u ∧
        ReadAs w l' ((declaredDraft w D).getD Hybrid) D u d' D') ∧
      AllReadable w resolve ((declaredDraft w D).getD Hybrid) D :=
  ⟨_, C56_compile w hw hf σ fuel [] a newSchemaLoader _ s (by intro k e h; cases h) ha (Prod.ext hc rfl)⟩

/-- In a document without `$ref`, everything reached is well-formed exactly if the document is
well-formed in the sense of C15, however references are read. -/
theorem C56_noRef (w : World) (resolve : String → Option (Draft × Json)) (d : Draft) (D : Json) (hn : NoRef D) :
    AllReadable w resolve d D ↔ WellFormed w d D := by
  have sub : ∀ m D', (Within D (.obj m) ∧ (SubSchema d m D' ∨ ∃ ps k, Kw m "definitions" (.obj ps) ∧ (k, D') ∈ ps)) →
      Within D D' := by
    rintro m D' ⟨h, h1 | ⟨ps, k, h1, h2⟩⟩
    · exact within_trans h (subSchema_within h1)
    · exact within_trans h (.member _ _ _ _ (lookup_some_mem h1) (.member _ _ _ _ h2 (.self _)))
  have nr : ∀ {m v}, Within D (.obj m) → Kw m "$ref" v → False := fun h1 h2 =>
    hn _ h1 (List.mem_map.2 ⟨_, lookup_some_mem h2, rfl⟩)
  constructor
  · intro h
    have key : ∀ (n : Nat) D', D'.size ≤ n → Within D D' → Reached resolve d D d D' → WellFormed w d D' := by
      intro n
      induction n with
      | zero => intro D' h1; exact absurd D'.size_pos (by omega)
      | succ n ih =>
        intro D' h1 h2 h3
        cases h _ _ h3 with
        | bool b hb => exact .bool b hb
        | plain m h4 h5 =>
          refine .obj m h5 ?_ ?_
          · intro ds k D2 h6 h7
            have := Json.size_lt_of_mem_kv h7
            have := Json.size_lt_of_mem_kv (lookup_some_mem h6)
            exact ih D2 (by omega) (sub m D2 ⟨h2, .inr ⟨_, _, h6, h7⟩⟩) (.definition _ m _ _ _ h3 h6 h7)
          · intro D2 h6
            have := subSchema_size h6
            exact ih D2 (by omega) (sub m D2 ⟨h2, .inl h6⟩) (.sub _ m _ h3 h4 h6)
        | ref m t h4 _ _ => exact (nr h2 h4).elim
    exact key D.size D (Nat.le_refl _) (.self D) .root
  · intro h
    have key : ∀ d' D', Reached resolve d D d' D' → d' = d ∧ Within D D' ∧ WellFormed w d D' := by
      intro d' D' hr
      induction hr with
      | root => exact ⟨rfl, .self _, h⟩
      | sub d' m D' _ _ hs ih =>
        obtain ⟨rfl, h1, h2⟩ := ih
        cases h2 with
        | obj _ _ _ h3 => exact ⟨rfl, sub m D' ⟨h1, .inl hs⟩, h3 D' hs⟩
      | definition d' m ps k D' _ hk hD ih =>
        obtain ⟨rfl, h1, h2⟩ := ih
        cases h2 with
        | obj _ _ h3 _ => exact ⟨rfl, sub m D' ⟨h1, .inr ⟨ps, k, hk, hD⟩⟩, h3 ps k D' hk hD⟩
      | ref d' m t d'' D'' _ hk _ ih => exact (nr ih.2.1 hk).elim
    intro d' D' hr
    obtain ⟨rfl, h1, h2⟩ := key d' D' hr
    cases h2 with
    | bool b hb => exact .bool b hb
    | obj m h3 _ _ =>
      refine .plain m ?_ h3
      cases hk : getKey "$ref" m with
      | none => rfl
      | some x => exact (nr h1 hk).elim

/-- The size keywords of everything that is reached are literals without fraction and exponent, not
negative and below 2^63. -/
theorem C56_sizes (w : World) (resolve : String → Option (Draft × Json)) (d d' : Draft) (D : Json)
    (m : List (String × Json)) (h : AllReadable w resolve d D) (hr : Reached resolve d D d' (.obj m))
    (hk : getKey "$ref" m = none) (key : String) (hs : key ∈ sizeKeys) (v : Json) (hv : Kw m key v) :
    ∃ n, v = .num n ∧ SizeLit n := by
  cases h _ _ hr with
  | plain _ _ h =>
    have : SizeValue w.env v := by
      simp only [sizeKeys, List.mem_cons, List.not_mem_nil, or_false] at hs
      rcases hs with rfl | rfl | rfl | rfl | rfl | rfl
      · exact h.minLength v hv
      · exact h.maxLength v hv
      · exact h.minItems v hv
      · exact h.maxItems v hv
      · exact h.minProperties v hv
      · exact h.maxProperties v hv
    obtain ⟨n, hn, _, hs⟩ := this
    exact ⟨n, hn, hs⟩
  | ref _ t h1 _ _ => exact absurd (hk.symm.trans h1) (by simp)

/-! ### Examples -/

/-- The hypotheses of `C56_newSchema` hold of a recursive document with a definition, so the theorem
says something about it. -/
example : ∃ s, newSchema (Demo.world []) .id ⟨40, 40⟩ (.direct (some Demo.treeDoc)) = .ok s ∧
    ∃ (l' : LState) (D : Json) (resolve : String → Option (Draft × Json)),
      RootDoc (Demo.world []) l' (.direct (some Demo.treeDoc)) D ∧
      AllReadable (Demo.world []) resolve ((declaredDraft (Demo.world []) D).getD Hybrid) D := by
  obtain ⟨s, hs⟩ := Demo.accepts_iff.1 (show Demo.accepts .id Demo.treeDoc = true by decide +kernel)
  obtain ⟨l', D, resolve, h1, _, h2⟩ := C56_newSchema (Demo.world []) (Demo.world_lawful (by intro k d h; simp [getKey] at h))
    Demo.fmtOK .id ⟨40, 40⟩ (.direct (some Demo.treeDoc)) s (by intro D h; cases h; exact Demo.wf_of _ (by decide +kernel)) hs
  exact ⟨s, hs, l', D, resolve, h1, h2⟩

/-- Malformed places that are reached only as a definition, only through a reference, or beside
`$ref` in one of the keywords that are read there. -/
example : Demo.accepts .id (.obj [("definitions", .obj [("a", .obj [("minLength", .str "x")])])]) = false := by
  decide +kernel
example : Demo.accepts .id (.obj [("x", .obj [("minLength", .str "x")]), ("not", .obj [("$ref", .str "#/x")])]) = false := by
  decide +kernel
example : Demo.accepts .id (.obj [("$ref", .str "#/x"), ("title", .bool true), ("x", .obj [])]) = false := by
  decide +kernel
/-- Not reached, so not read. -/
example : Demo.accepts .id (.obj [("x", .obj [("minLength", .str "x")])]) = true := by decide +kernel

end GJS

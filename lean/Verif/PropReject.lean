import Verif.LemReject
import Verif.LemReach
import Verif.LemNoFault
import Verif.PropPanic
import Verif.PropTerm
import Verif.PropReach
/-
Properties of the errors of the compiler: C57.
-/
namespace GJS
open Spec

/-- C57.  An error of `Compile`, on a loader in any state and with `Validate` on or off, is justified:
`CompileRejected` lists the errors with what is wrong in each case. -/
theorem C57_compile (w : World) (hw : Lawful w) (hf : FmtOK w.env.fmtF64) (σ : Sched) (fuel : Fuel) (p : Path)
    (a : LoaderArg) (l l' : LState) (e : CErr) (hl : PoolWF l) (ha : ∀ D, a = .direct (some D) → D.WF)
    (h : compile w σ fuel p a l = (.error (.err e), l')) : CompileRejected w l l' a e :=
  compile_err hw hf hl ha h

/-- C57 with `Validate` off: the source, its `$schema` or something reached is at fault. -/
theorem C57_compile_off (w : World) (hw : Lawful w) (hf : FmtOK w.env.fmtF64) (σ : Sched) (fuel : Fuel) (p : Path)
    (a : LoaderArg) (l l' : LState) (e : CErr) (hv : l.validate = false) (hl : PoolWF l)
    (ha : ∀ D, a = .direct (some D) → D.WF) (h : compile w σ fuel p a l = (.error (.err e), l')) :
    Rejected w l l' a e := by
  cases compile_err hw hf hl ha h with
  | plain _ g => exact g
  | check _ _ _ g => rw [hv] at g; cases g

/-- C57 for `NewSchema`. -/
theorem C57_newSchema (w : World) (hw : Lawful w) (hf : FmtOK w.env.fmtF64) (σ : Sched) (fuel : Fuel)
    (a : LoaderArg) (e : CErr) (ha : ∀ D, a = .direct (some D) → D.WF) (h : newSchema w σ fuel a = .error (.err e)) :
    ∃ l', Rejected w newSchemaLoader l' a e :=
  ⟨_, C57_compile_off w hw hf σ fuel [] a newSchemaLoader _ e rfl (by intro k e h; cases h) ha (Prod.ext h rfl)⟩

/-- C57 for `AddSchema`. -/
theorem C57_addSchema (w : World) (hw : Lawful w) (hf : FmtOK w.env.fmtF64) (σ : Sched) (fuel : Fuel) (p : Path)
    (url : String) (a : LoaderArg) (l l' : LState) (e : CErr) (hl : PoolWF l) (ha : ∀ D, a = .direct (some D) → D.WF)
    (h : addSchema w σ fuel p url a l = (.error (.err e), l')) : AddRejected w l l' (some url) a e :=
  addSchema_err hw hf hl ha h

/-- C57 for `AddSchemas`: the error is about one of the documents; those before it were added. -/
theorem C57_addSchemas (w : World) (hw : Lawful w) (hf : FmtOK w.env.fmtF64) (σ : Sched) (fuel : Fuel) (p : Path)
    (as : List LoaderArg) (l l' : LState) (e : CErr) (hl : PoolWF l) (ha : ∀ a ∈ as, ∀ D, a = .direct (some D) → D.WF)
    (h : addSchemas w σ fuel p as l = (.error (.err e), l')) :
    ∃ as1 a as2 l1, as = as1 ++ a :: as2 ∧ (∃ q, addSchemas w σ fuel q as1 l = (.ok (), l1)) ∧
      Keeps l l1 ∧ SameSettings l l1 ∧ l1.validate = l.validate ∧ AddRejected w l1 l' none a e := by
  unfold addSchemas at h
  rcases M.bind_error.1 h with h1 | ⟨ys, l1, _, h1⟩
  swap
  · simp [M.pure_def] at h1
  obtain ⟨as1, a, as2, l1, ys, h2, h3, h4⟩ := addSchemas_err hw hf as 0 l hl ha h1
  exact ⟨as1, a, as2, l1, h2, ⟨p, M.bind_ok.2 ⟨ys, l1, h3, by rw [M.pure_ok]; exact ⟨rfl, rfl⟩⟩⟩, h4⟩

/-! ### No errors without reason -/

/-- If there is no reason for an error, `Compile` accepts: it does not panic on tame documents (C16)
and it ends if finitely many documents are involved (C17). -/
theorem C57_accept (w : World) (hw : Lawful w) (hs : Standard w) (hf : FmtOK w.env.fmtF64)
    (hb : Brings w (Harmless w.env)) (hp : PointersInside w) (L : List (String × Json)) (hL : ClosedSet w L) :
    ∃ n, ∀ (σ : Sched) (fuel : Fuel) (p : Path) (a : LoaderArg) (l : LState), n ≤ fuel.parse → l.validate = false →
      PoolWF l → PoolAll (Harmless w.env) l → PoolFrom w L l → Covered w L (.compile a) →
      (∀ D, a = .direct (some D) → Harmless w.env D) →
      (∀ e, ¬ Rejected w l (compile w σ fuel p a l).2 a e) →
      ∃ s, (compile w σ fuel p a l).1 = .ok s := by
  obtain ⟨n, hn⟩ := C17_compile w hp L hL
  refine ⟨n, ?_⟩
  intro σ fuel p a l h1 hv hl h2 h3 h4 h5 h6
  have g1 := hn σ fuel p a l h1 hv h3 h4
  have g2 := C16_compile w hs hb σ fuel p a l hv h2 h5
  cases hx : (compile w σ fuel p a l).1 with
  | ok s => exact ⟨s, rfl⟩
  | error f =>
    cases f with
    | err e =>
      exact absurd (C57_compile_off w hw hf σ fuel p a l _ e hv hl (fun D hD => (h5 D hD).1) (Prod.ext hx rfl)) (h6 e)
    | panic => exact absurd hx g2
    | fuel => exact absurd hx g1

/-! ### The reasons are faults -/

theorem not_noSchema_obj {m} (h : NoSchema (.obj m)) : False := h.2 m rfl

/-- A fault in an object without `$ref` keeps it from being well-formed: what C57 blames for errors is
what C56 excludes after success. -/
theorem C57_faults (w : World) (hi : ∀ a b, w.inherits a b ≠ none) (l : LState)
    (resolve : String → Option (Draft × Json)) (d : Draft) (m : List (String × Json)) (e : CErr)
    (hk : getKey "$ref" m = none) (h : FaultIn w l d m e) : ¬ AllReadable w resolve d (.obj m) := by
  intro ha
  have hS : Shape w d m := by
    cases ha _ _ .root with
    | plain _ _ h => exact h
    | ref _ t h1 _ _ => exact absurd (hk.symm.trans h1) (by simp)
  have noref : ∀ {v}, Kw m "$ref" v → False := fun h => absurd (hk.symm.trans h) (by simp)
  have kind : ∀ {D}, Reached resolve d (.obj m) d D → NoSchema D → False := by
    intro D h1 h2
    cases ha _ _ h1 with
    | bool b _ => exact h2.1 b rfl
    | plain m' _ _ => exact h2.2 m' rfl
    | ref m' _ _ _ _ => exact h2.2 m' rfl
  have sub : ∀ {D}, SubSchema d m D → NoSchema D → False := fun h1 h2 => kind (.sub _ m _ .root hk h1) h2
  exact no_fault hi hS (fun D h1 h2 => sub h1 h2) (fun ps k D h1 h2 h3 => kind (.definition _ m ps k D .root h1 h2) h3)
    (fun v h => (noref h).elim) h

/-- The names under which a schema is registered are free. -/
def Spec.Free (w : World) (l : LState) (D : Json) : Prop :=
  getKey "" l.pool = none ∧ ∀ m t u k, D = .obj m → idOf m = some t → w.norm t = some u → w.inherits "" u = some k →
    getKey k l.pool = none

/-- For a document without `$ref` that is well-formed in the sense of C15 there is no reason to refuse
it on a new loader. -/
theorem C57_wellFormed (w : World) (h0 : w.norm "#" = some "") (hi : ∀ a b, w.inherits a b ≠ none) (l l' : LState)
    (D : Json) (hp : Free w l D) (hn : NoRef D) (hs : l.autoDetect = true → SchemaRead w D)
    (hD : WellFormed w (draftFor w l D) D) (e : CErr) : ¬ Rejected w l l' (.direct (some D)) e := by
  have ref : (LoaderArg.direct (some D)).ref w = some "" := h0
  have root : ∀ {D'}, RootDoc w l' (.direct (some D)) D' → D' = D := by
    rintro D' ⟨ref', h1, ⟨h2, _⟩ | ⟨_, D0, h3, h4⟩⟩
    · rw [ref] at h1; cases h1; exact absurd rfl h2
    · cases h3; exact rw_noRef h4 hn
  have kind : ∀ {D}, WellFormed w (draftFor w l D) D → ¬ NoSchema D := by
    intro D h1 h2
    cases h1 with
    | bool b _ => exact h2.1 b rfl
    | obj m _ _ _ => exact h2.2 m rfl
  intro h
  cases h with
  | source h => rw [ref] at h; cases h
  | notThere r e h h1 _ => rw [ref] at h; cases h; exact h1 rfl
  | noDocument _ h => cases h
  | notLoaded n s f _ h _ => cases h
  | second _ h => rw [hp.1] at h; cases h
  | taken m t u k _ h1 h2 h3 h4 h => cases h1; rw [hp.2 m t u k rfl h2 h3 h4] at h; cases h
  | schema D' e h1 h2 h3 =>
    have : D' = D := by
      rcases h2 with ⟨_, h2⟩ | h2
      · cases h2; rfl
      · exact root h2
    subst this
    cases h3 with
    | kind _ h => exact kind hD h
    | text m v h4 h5 => obtain ⟨t, h6, _⟩ := hs h1 m v rfl h4; exact h5 t h6
    | url m t h4 h5 => obtain ⟨t', h6, h7⟩ := hs h1 m _ rfl h4; cases h6; exact h7 h5
  | fault D1 d' D' e h1 h2 h3 =>
    have := root h1
    subst this
    have key : d' = draftFor w l D1 ∧ Within D1 D' ∧ WellFormed w (draftFor w l D1) D' := by
      clear h3
      induction h2 with
      | root => exact ⟨rfl, .self _, hD⟩
      | sub d' m D' _ hs ih =>
        obtain ⟨rfl, g1, g2⟩ := ih
        cases g2 with
        | obj _ _ _ g3 => exact ⟨rfl, within_trans g1 (subSchema_within hs), g3 D' hs⟩
      | definition d' m ps k D' _ hk hd ih =>
        obtain ⟨rfl, g1, g2⟩ := ih
        cases g2 with
        | obj _ _ g3 _ =>
          exact ⟨rfl, within_trans g1 (.member _ _ _ _ (lookup_some_mem hk) (.member _ _ _ _ hd (.self _))), g3 ps k D' hk hd⟩
      | ref d' m t u o D' _ hk _ _ ih =>
        exact absurd (List.mem_map.2 ⟨_, lookup_some_mem hk, rfl⟩) (hn m ih.2.1)
    obtain ⟨rfl, g1, g2⟩ := key
    cases h3 with
    | kind _ h =>
      cases g2 with
      | bool b _ => exact h.1 b rfl
      | obj m _ _ _ => exact h.2 m rfl
    | bool b h =>
      cases g2 with
      | bool _ h' => exact h h'
    | fault m e h =>
      have n' := noRef_within hn g1
      exact C57_faults w hi l' (fun _ => none) _ m e (noRef_get n' rfl) h ((C56_noRef w _ _ _ n').2 g2)

/-! ### Two errors name another keyword -/

/-- The error `NewSchema` returns. -/
def Demo.refusal (D : Json) : Option CErr :=
  match newSchema (Demo.world []) .id ⟨40, 40⟩ (.direct (some D)) with
  | .error (.err e) => some e
  | _ => none

theorem refusal_some {D e} (h : Demo.refusal D = some e) :
    newSchema (Demo.world []) .id ⟨40, 40⟩ (.direct (some D)) = .error (.err e) := by
  unfold Demo.refusal at h
  split at h
  · cases h; assumption
  · cases h

/-- C57, a finding: a malformed `allOf` is reported as a malformed `anyOf`, and a malformed
`propertyNames` as a malformed `patternProperties`. -/
theorem C57_misnamed :
    newSchema (Demo.world []) .id ⟨40, 40⟩ (.direct (some (.obj [("allOf", .bool true)]))) =
      .error (.err (.mustBeOfAn "anyOf" "array")) ∧
    newSchema (Demo.world []) .id ⟨40, 40⟩ (.direct (some (.obj [("propertyNames", .str "x")]))) =
      .error (.err (.invalidType "valid schema" "patternProperties")) :=
  ⟨refusal_some rfl, refusal_some rfl⟩

/-! ### Examples -/

namespace Demo

/-- A fault in a definition that is only reached through references. -/
def deepBad : Json := .obj
  [ ("definitions", .obj [("a", .obj [("items", .obj [("$ref", .str "#/definitions/b")])]),
      ("b", .obj [("enum", .arr [int 1, .str "x", int 1])])]),
    ("$ref", .str "#/definitions/a") ]

end Demo

set_option maxRecDepth 20000 in
/-- The hypotheses of `C57_newSchema` hold of `Demo.deepBad`: it is refused. -/
example : ∃ l', Rejected (Demo.world []) newSchemaLoader l' (.direct (some Demo.deepBad)) (.keyItemsMustBeUnique "enum") :=
  C57_newSchema (Demo.world []) (Demo.world_lawful (by intro k d h; simp [getKey] at h)) Demo.fmtOK .id ⟨40, 40⟩ _ _
    (by intro D h; cases h; exact Demo.wf_of _ (by decide +kernel)) (refusal_some (by rfl))

/-- Further errors. -/
example : Demo.refusal (.arr []) = some .schemaInvalid := by rfl
example : Demo.refusal (.obj [("$schema", Demo.int 1)]) = some (.mustBeOfType "$schema" "string") := by rfl
example : Demo.refusal (.obj [("properties", .obj [("a", Demo.int 1)])]) = some .parseError := by rfl
example : Demo.refusal (.obj [("minLength", Demo.int 2), ("maxLength", Demo.int 1)]) =
    some (.cannotBeGT "minLength" "maxLength") := by rfl
example : Demo.refusal (.obj [("$ref", .str "other")]) = some (.load "other") := by rfl
example : Demo.refusal (.obj [("$ref", .str "#/none")]) = some (.pointer "#/none") := by rfl

/-- The same URL twice. -/
example : (addSchema (Demo.world []) .id ⟨9, 9⟩ [] "u" (.direct (some (.obj [])))
    (addSchema (Demo.world []) .id ⟨9, 9⟩ [] "u" (.direct (some (.obj []))) newSchemaLoader).2).1 =
      .error (.err (.referenceAlreadyExists "u")) := by rfl
/-- The second of two documents. -/
example : (addSchemas (Demo.world []) .id ⟨9, 9⟩ [] [.direct (some (.obj [("$id", .str "u")])), .direct (some (.obj [("$id", .str "u")]))]
    newSchemaLoader).1 = .error (.err (.referenceAlreadyExists "u")) := by rfl

/-- The hypotheses of `C57_accept` hold of a well-formed document, which is therefore accepted. -/
example : ∃ n, ∀ (σ : Sched) (fuel : Fuel), n ≤ fuel.parse →
    ∃ s, newSchema (Demo.world []) σ fuel (.direct (some Demo.goodDoc)) = .ok s := by
  have none_there : ∀ n f r d, loadReference (Demo.world []) n f r = some d → False := by
    intro n f r d h; rw [Demo.load] at h; cases h
  have wf : Demo.goodDoc.WF := Demo.wf_of _ (by decide +kernel)
  have nr : NoRef Demo.goodDoc := Demo.noRef_of _ (by decide +kernel)
  obtain ⟨n, hn⟩ := C57_accept (Demo.world []) (Demo.world_lawful (by intro k d h; cases h)) (Demo.world_standard _) Demo.fmtOK
    (Demo.world_brings (by intro k d h; cases h)) (Demo.world_standard _).pointer [("", Demo.goodDoc)]
    ⟨by intro b D h; simp only [List.mem_singleton, Prod.mk.injEq] at h; rw [h.2]; exact wf,
      fun _ _ _ _ _ _ _ n f d h => (none_there _ _ _ _ h).elim⟩
  refine ⟨n, fun σ fuel hf => hn σ fuel [] (.direct (some Demo.goodDoc)) newSchemaLoader hf rfl (by intro k e h; cases h)
    (by intro k e h; cases h) (by intro k e h; cases h) ?_ ?_ ?_⟩
  · intro ref hr
    refine ⟨fun _ D hD => ?_, fun h => ?_⟩
    · cases hD; simp
    · cases hr; exact absurd rfl h
  · rintro D ⟨⟩; exact ⟨wf, Demo.tame_of (by decide +kernel)⟩
  · obtain ⟨h1, h2⟩ := (C15_newSchema (Demo.world []) (by decide) (by intro a b h; cases h) Demo.fmtOK Sched.id ⟨40, 40⟩ Demo.goodDoc
      wf nr (Demo.numsRat _) (by decide +kernel)).1 (Demo.accepts_iff.1 (by decide +kernel))
    exact C57_wellFormed (Demo.world []) (by decide) (by intro a b h; cases h) newSchemaLoader _ Demo.goodDoc ⟨rfl, fun _ _ _ _ _ _ _ _ => rfl⟩ nr (fun _ => h1) h2

end GJS

import Verif.LemRawOps
import Verif.LemRawReach
import Verif.LemRawTable
import Verif.DemoWorld
/-
C77: schemas that are Go values.
-/
namespace GJS
open Spec

/-- A document as `encoding/json` decodes it compiles, loader state and all, as the document does. -/
theorem C77_json {w : RawS.Outside} {σ : Sched} (hσ : σ.Natural) (hw : LooksAlike w) (hf : FormatsAlike w.raw) {l s} (h : Decoded l s) (fuel : Fuel)
    (p : Path) (D : Json) :
    (RawS.compile w σ fuel p (.raw (RawS.ofJson D)) s).1 = (compile w.toWorld σ fuel p (.direct (some D)) l).1 ∧
      Decoded (compile w.toWorld σ fuel p (.direct (some D)) l).2 (RawS.compile w σ fuel p (.raw (RawS.ofJson D)) s).2 := by
  obtain ⟨h1, h2⟩ := (RawS.compile_sim (w := w) (fuel := fuel) (p := p) hσ hw hf (.raw D)).run l s h
  refine ⟨?_, h1⟩
  rcases h2 with ⟨a, b, h3, h4, rfl⟩ | ⟨e, h3, h4⟩
  · rw [h3, h4]
  · rw [h3, h4]

/-- `NewSchema` of a document as decoded is `NewSchema` of the document. -/
theorem C77_new {w : RawS.Outside} {σ : Sched} (hσ : σ.Natural) (hw : LooksAlike w) (hf : FormatsAlike w.raw) (fuel : Fuel) (D : Json) :
    RawS.newSchema w σ fuel (RawS.ofJson D) = newSchema w.toWorld σ fuel (.direct (some D)) :=
  (C77_json hσ hw hf (l := {}) (s := {}) ⟨rfl, rfl, rfl, rfl, rfl, rfl, rfl⟩ fuel [] D).1

/-- So is `NewSchema` of any value made of the types that `encoding/json` decodes to. -/
theorem C77_plain {w : RawS.Outside} {σ : Sched} (hσ : σ.Natural) (hw : LooksAlike w) (hf : FormatsAlike w.raw) (fuel : Fuel)
    {g : GoVal} {D : Json} (hg : PlainGo g) (hD : g.json = some D) :
    RawS.newSchema w σ fuel g = newSchema w.toWorld σ fuel (.direct (some D)) := by
  rw [RawS.plain_eq hg D hD]
  exact C77_new hσ hw hf fuel D

/-- So does a history of a loader: `AddSchema`, `AddSchemas`, `Compile` and assignments to its fields return the same. -/
theorem C77_history {w : RawS.Outside} {σ : Sched} (hσ : σ.Natural) (hw : LooksAlike w) (hf : FormatsAlike w.raw) (fuel : Fuel) (os : List (RawS.Op Json)) :
    (RawS.runOps w σ fuel 0 (os.map RawS.Op.decoded) {}).1 =
      (runOps w.toWorld σ fuel 0 (os.map RawS.Op.direct) newSchemaLoader).1 :=
  (RawS.runOps_sim hσ hw hf os 0 (l := {}) (s := {}) ⟨rfl, rfl, rfl, rfl, rfl, rfl, rfl⟩).1

/-- A Go value that compiles has the types of a decoded document wherever the compiler looks. -/
theorem C77_strict {w : RawS.Outside} {σ : Sched} {n : Fuel} {p g s S s'} (hw : w.norm "#" = some "") (hd : GoDistinct g)
    (h : RawS.compile w σ n p (.raw g) s = (.ok S, s')) : ∃ d, Strict d g := by
  unfold RawS.compile RawS.compileG at h
  have hr : (RawS.GoArg.raw g).ref w = some "" := hw
  rw [hr] at h
  obtain ⟨_, t1, _, h⟩ := RawS.Ensures.seqOk h
  obtain ⟨doc, t2, h1, h⟩ := RawS.Ensures.seqOk h
  obtain ⟨_, t9, _, h⟩ := RawS.Ensures.seqOk h
  obtain ⟨d, t3, _, h⟩ := RawS.Ensures.seqOk h
  have hs : Strict d doc := by
    unfold RawS.runParse at h
    rcases hr : RawS.parseRoot w σ n.parse (62 :: p) "" doc d { l := t3 } with ⟨r, u⟩
    rw [hr] at h
    cases r with
    | error e => cases h
    | ok c => exact RawS.parseRoot_ok.of _ _ _ hr
  refine ⟨d, ?_⟩
  unfold RawS.rootDocument at h1
  simp only [bne_self_eq_false, Bool.false_eq_true, if_false] at h1
  obtain ⟨y, t10, h0, h1⟩ := RawS.Ensures.seqOk h1
  cases h0
  obtain ⟨x, t4, h2, h3⟩ := RawS.Ensures.seqOk h1
  unfold RawS.parseReferences at h2
  obtain ⟨b, t5, _, h2⟩ := RawS.Ensures.seqOk h2
  cases b with
  | true => cases h2; cases h3
  | false =>
    obtain ⟨dr, t6, _, h2⟩ := RawS.Ensures.seqOk h2
    obtain ⟨⟨g', o⟩, t7, h4, h2⟩ := RawS.Ensures.seqOk h2
    obtain ⟨_, t8, _, h2⟩ := RawS.Ensures.seqOk h2
    cases h2
    have hm := RawS.rewrite_moved _ _ _ _ _ _ _ _ hd h4
    cases o with
    | some e => cases h3
    | none => cases h3; exact hm.strict hs

/-- So has what its references lead to, which is in the pool or was loaded as JSON. -/
theorem C77_reached {w : RawS.Outside} {σ : Sched} {n : Fuel} {p g s S s'} (h : RawS.compile w σ n p (.raw g) s = (.ok S, s')) :
    ∀ r c, (r, c) ∈ S.refs → (∃ f, (f, r) ∈ s'.log) ∨ ∃ e d, getKey r s'.pool = some e ∧ Strict d e.doc := by
  unfold RawS.compile RawS.compileG at h
  cases hr : (RawS.GoArg.raw g).ref w with
  | none => rw [hr] at h; cases h
  | some ref =>
    rw [hr] at h
    obtain ⟨_, t1, _, h⟩ := RawS.Ensures.seqOk h
    obtain ⟨doc, t2, _, h⟩ := RawS.Ensures.seqOk h
    obtain ⟨_, t9, _, h⟩ := RawS.Ensures.seqOk h
    obtain ⟨d, t3, _, h⟩ := RawS.Ensures.seqOk h
    unfold RawS.runParse at h
    rcases hp : RawS.parseRoot w σ n.parse (62 :: p) ref doc d { l := t3 } with ⟨x, u⟩
    rw [hp] at h
    cases x with
    | error e => cases h
    | ok c =>
      cases h
      intro r c hrc
      rcases (RawS.parseRoot_grows.run _ _ _ hp).refs r c hrc with h1 | ⟨e, d, h1 | h1, h2⟩
      · cases h1
      · exact .inr ⟨e, d, h1, h2⟩
      · exact .inl h1

/-- Only a boolean or a `map[string]interface{}` compiles. -/
theorem C77_root {w : RawS.Outside} {σ : Sched} {n : Fuel} {p g s S s'} (hw : w.norm "#" = some "") (hd : GoDistinct g)
    (h : RawS.compile w σ n p (.raw g) s = (.ok S, s')) : (∃ b, g = .bool b) ∨ ∃ m, g = .obj m := by
  obtain ⟨d, hs⟩ := C77_strict hw hd h
  cases hs with
  | bool b _ => exact .inl ⟨b, rfl⟩
  | ref m _ _ _ _ => exact .inr ⟨m, rfl⟩
  | obj m _ _ => exact .inr ⟨m, rfl⟩

/-- With `Validate` on, what is added satisfies the meta-schema of the draft, compiled with `Validate` off. -/
theorem C77_checked {w : RawS.Outside} {σ : Sched} {n : Fuel} {p url g s s'} (hv : s.validate = true) (ha : s.autoDetect = false)
    (hd : s.draft ≠ Hybrid) (h : RawS.addSchema w σ n p url g s = (.ok (), s')) :
    ∃ S t r, RawS.compileInner w σ n (63 :: p) (.reference (getSchemaURL s.draft) 0) { s with validate := false } = (.ok S, t) ∧
      rawDocument w.raw σ S.heap n.validate S.root g = .ok r ∧ r.valid = true := by
  unfold RawS.addSchema at h
  cases hr : w.norm url with
  | none => rw [hr] at h; cases h
  | some ref =>
    rw [hr] at h
    obtain ⟨_, t1, h, _⟩ := RawS.Ensures.seqOk h
    replace h : (if s.validate = true then RawS.validateMetaschema w σ n p g else return ()) s = (.ok (), t1) := h
    rw [if_pos hv] at h
    unfold RawS.validateMetaschema at h
    obtain ⟨u, t2, h1, h⟩ := RawS.Ensures.seqOk h
    obtain ⟨v, t3, h2, h1⟩ := RawS.Ensures.seqOk h1
    replace h2 : (if s.autoDetect = true then (do let x ← RawS.parseSchemaURL w g; return x.1) else
      (return "" : M RawS.State String)) s = (.ok v, t3) := h2
    rw [if_neg (by rw [ha]; simp)] at h2
    cases h2
    replace h1 : (if s.draft == Hybrid then (return none : M RawS.State (Option String)) else return some (getSchemaURL s.draft)) s =
      (.ok u, t2) := h1
    rw [if_neg (by simpa using hd)] at h1
    cases h1
    simp only at h
    obtain ⟨_, t4, h3, h⟩ := RawS.Ensures.seqOk h
    cases h3
    obtain ⟨S, t5, h4, h⟩ := RawS.Ensures.seqOk h
    obtain ⟨_, t6, h5, h⟩ := RawS.Ensures.seqOk h
    refine ⟨S, t5, ?_⟩
    unfold RawS.checkDocument at h
    cases hx : rawDocument w.raw σ S.heap n.validate S.root g with
    | error e => rw [hx] at h; cases e <;> cases h
    | ok r =>
      rw [hx] at h
      refine ⟨r, h4, rfl, ?_⟩
      cases hb : r.valid with
      | true => rfl
      | false =>
        simp only [hb] at h
        cases h

/-- A map as YAML decoders make them panics, whatever is in it, though as an instance it is fine (C53). -/
theorem C77_yaml {w : RawS.Outside} {σ : Sched} {n : Fuel} {p m s} (hw : w.norm "#" = some "") (hs : getKey "" s.pool = none)
    (hv : s.validate = true → s.autoDetect = true) : (RawS.compile w σ n p (.raw (.imap m)) s).1 = .error .panic := by
  have he : existsMapKey s.pool "" = false := by simp [existsMapKey, hs]
  obtain ⟨pool, fa, au, va, dr, lg, ow⟩ := s
  have hin : RawS.inPool "" ⟨pool, 0, au, va, dr, lg, ow⟩ = (.ok false, ⟨pool, 0, au, va, dr, lg, ow⟩) := by
    show (Except.ok (existsMapKey pool ""), _) = _
    rw [he]
  have hstep : ∀ {τ α β} {x : M τ α} {f : α → M τ β} {s a t}, x s = (.ok a, t) → (x >>= f) s = f a t := by
    intro _ _ _ x f s a t h
    show M.seq x f s = _
    rw [M.seq, h]
  have hstop : ∀ {τ α β} {x : M τ α} {f : α → M τ β} {s e t}, x s = (.error e, t) → (x >>= f) s = (.error e, t) := by
    intro _ _ _ x f s a t h
    show M.seq x f s = _
    rw [M.seq, h]
  unfold RawS.compile RawS.compileG
  have hr : (RawS.GoArg.raw (.imap m)).ref w = some "" := hw
  rw [hr]
  simp only
  change ((RawS.rootDocument w σ p (.raw (.imap m)) "" >>= fun doc => RawS.whenValidate (RawS.validateMetaschema w σ n p doc) >>=
    fun _ => RawS.rootDraft w doc >>= fun draft => RawS.runParse w σ n.parse (62 :: p) "" doc draft) ⟨pool, 0, au, va, dr, lg, ow⟩).1 = _
  cases au with
  | true =>
    have h1 : RawS.parseReferences w σ (61 :: p) (.imap m) "" true ⟨pool, 0, true, va, dr, lg, ow⟩ =
        (.error .panic, ⟨pool, 0, true, va, dr, lg, ow⟩) := by
      unfold RawS.parseReferences
      rw [hstep hin]
      rfl
    have h2 : RawS.rootDocument w σ p (.raw (.imap m)) "" ⟨pool, 0, true, va, dr, lg, ow⟩ = (.error .panic, ⟨pool, 0, true, va, dr, lg, ow⟩) :=
      by show (RawS.parseReferences w σ (61 :: p) (.imap m) "" true >>= RawS.failIf) _ = _; exact hstop h1
    rw [hstop h2]
  | false =>
    have hva : va = false := by
      cases va with
      | false => rfl
      | true => exact absurd (hv rfl) (by simp)
    subst hva
    have h1 : RawS.parseReferences w σ (61 :: p) (.imap m) "" true ⟨pool, 0, false, false, dr, lg, ow⟩ =
        (.ok (.imap m, none), ⟨putKey "" ⟨.imap m, none⟩ pool, 0, false, false, dr, lg, ow⟩) := by
      unfold RawS.parseReferences
      rw [hstep hin]
      rfl
    have h2 : RawS.rootDocument w σ p (.raw (.imap m)) "" ⟨pool, 0, false, false, dr, lg, ow⟩ =
        (.ok (.imap m), ⟨putKey "" ⟨.imap m, none⟩ pool, 0, false, false, dr, lg, ow⟩) := hstep h1
    have h0 : RawS.whenValidate (RawS.validateMetaschema w σ n p (.imap m)) ⟨putKey "" ⟨.imap m, none⟩ pool, 0, false, false, dr, lg, ow⟩ =
      (.ok (), ⟨putKey "" ⟨.imap m, none⟩ pool, 0, false, false, dr, lg, ow⟩) := rfl
    rw [hstep h2, hstep h0]
    have h3 : RawS.rootDraft w (.imap m) ⟨putKey "" ⟨.imap m, none⟩ pool, 0, false, false, dr, lg, ow⟩ =
      (.ok dr, ⟨putKey "" ⟨.imap m, none⟩ pool, 0, false, false, dr, lg, ow⟩) := rfl
    rw [hstep h3]
    have h4 : ∀ c s, (RawS.parseStep w σ (RawS.parseSchema w σ n.parse) true (62 :: p) "" "" (.imap m) dr c s).1 = .error .panic := by
      intro c s
      have hb : RawS.isKind w.env (.imap m) [.bool] s = (.ok false, s) := rfl
      unfold RawS.parseStep
      rw [hstep hb, Bool.and_false]
      rfl
    have h5 : ∀ s, (RawS.parseRoot w σ n.parse (62 :: p) "" (.imap m) dr s).1 = .error .panic := by
      intro s
      have := h4 s.heap.length { s with heap := s.heap ++ [{ doc := (GoVal.imap m).view, draft := dr }] }
      unfold RawS.parseRoot
      rcases hr : RawS.parseStep w σ (RawS.parseSchema w σ n.parse) true (62 :: p) "" "" (.imap m) dr s.heap.length
        { s with heap := s.heap ++ [{ doc := (GoVal.imap m).view, draft := dr }] } with ⟨r, t⟩
      rw [hr] at this
      cases this
      have ha : RawS.alloc (.imap m) dr s =
        (.ok s.heap.length, { s with heap := s.heap ++ [{ doc := (GoVal.imap m).view, draft := dr }] }) := rfl
      rw [hstep ha, hstop hr]
    unfold RawS.runParse
    generalize (RawS.State.mk _ _ _ _ _ _ _) = u
    have := h5 { l := u }
    rcases hr : RawS.parseRoot w σ n.parse (62 :: p) "" (.imap m) dr { l := u } with ⟨r, t⟩
    rw [hr] at this
    cases this
    rfl

/-- What comes of a schema with one keyword whose value is of another type, by its kind. -/
theorem C77_kinds {w : RawS.Outside} {σ : Sched} {n m : Nat} {i} (kd : GoKind) (hw : w.norm "#" = some "") :
    ∀ e ∈ kindTable, Comes kd e.2.1 e.2.2 (RawS.newSchema w σ ⟨n + 1, m⟩ (.obj [(e.1, .opaque kd i)])) :=
  RawS.table_all hw

/-- A value of another type under any other name is accepted, whatever it is, and constrains nothing. -/
theorem C77_ignored {w : RawS.Outside} {σ : Sched} {n k kd i} (hw : w.norm "#" = some "") (hk : ∀ e ∈ kindTable, k ≠ e.1)
    (hc : k ≠ "const") : RawS.newSchema w σ n (.obj [(k, .opaque kd i)]) =
      .ok ⟨[{ doc := (GoVal.obj [(k, .opaque kd i)]).view, draft := Hybrid }], 0, []⟩ :=
  RawS.other_one hw hk hc

/-- A `type` of another string type is accepted and constrains nothing. -/
theorem C77_type {w : RawS.Outside} {σ : Sched} {n i} (hw : w.norm "#" = some "") :
    RawS.newSchema w σ n (.obj [("type", .opaque .string i)]) =
      .ok ⟨[{ doc := (GoVal.obj [("type", .opaque .string i)]).view, draft := Hybrid }], 0, []⟩ :=
  RawS.type_one hw

/-- A `const` may be any Go value: what counts is what it marshals to. -/
theorem C77_const {w : RawS.Outside} {σ : Sched} {n g} (hw : w.norm "#" = some "") :
    RawS.newSchema w σ n (.obj [("const", g)]) =
      match w.marshal g with
      | none => .error (.err .marshal)
      | some t => .ok ⟨[{ doc := (GoVal.obj [("const", g)]).view, draft := Hybrid, const := some t }], 0, []⟩ :=
  RawS.const_one hw

namespace Demo

/-- The world of the examples with documents outside; pointers into Go values with JSON counterpart only. -/
def goWorld (docs : List (String × Json)) : RawS.Outside :=
  { world docs with
    look := fun r g =>
      match g.json with
      | none => .error .panic
      | some d =>
        match pointerOf r d with
        | some x => .ok (RawS.ofJson x)
        | none => .error (.err (.pointer r))
    goCanon := fun i => if i = 7 then some (.bool true) else none
    goFormat := fun _ _ => true }

/-- With none. -/
def goOutside : RawS.Outside := goWorld []

example : goOutside.norm "#" = some "" := by decide +kernel

example : LooksAlike goOutside := by
  intro r d
  show (match (RawS.ofJson d).json with | none => _ | some d => _) = _
  rw [RawS.json_ofJson]
  rfl

example : FormatsAlike goOutside.raw := fun _ _ _ _ => rfl

/-- How a compilation ends. -/
def endOf (g : GoVal) : Option Fail :=
  match RawS.newSchema goOutside Sched.id ⟨9, 9⟩ g with
  | .ok _ => none
  | .error e => some e

/-- `{"definitions": {"a": {"type": "string"}}, "properties": {"x": {"$ref": "#/definitions/a"}}}` -/
def goSchema : GoVal := .obj [("definitions", .obj [("a", .obj [("type", .str "string")])]),
  ("properties", .obj [("x", .obj [("$ref", .str "#/definitions/a")])])]

/-- The references of the compiled form, and whether the pool has them. -/
example : (match RawS.compile goOutside Sched.id ⟨9, 9⟩ [] (.raw goSchema) {} with
    | (.ok S, s') => S.refs.map fun e => (e.1, (getKey e.1 s'.pool).isSome)
    | _ => []) = [("#/definitions/a", true)] := by decide +kernel
/-- A history. -/
example : (RawS.runOps goOutside Sched.id ⟨9, 9⟩ 0 ([.addSchema "a" (.obj [("type", .str "null")]), .setDraft Draft7,
      .compile (.obj [("$ref", .str "a")]), .compile (.bool true)].map RawS.Op.decoded) {}).1.map
    (fun r => match r with | .ok _ => true | .error _ => false) = [true, true, true, false] := by decide +kernel
/-- A loader that validates, with a meta-schema in the place of that of draft 7. -/
def metaWorld : RawS.Outside := goWorld [(normOf (getSchemaURL Draft7),
  .obj [("type", .str "object"), ("properties", .obj [("minLength", .obj [("type", .str "integer")])])])]

@[inherit_doc metaWorld] def metaRuns (gs : List (String × GoVal)) : List Bool :=
  (RawS.runOps metaWorld Sched.id ⟨9, 9⟩ 0 ([.setAutoDetect false, .setDraft Draft7, .setValidate true] ++
    gs.map fun g => .addSchema g.1 g.2) {}).1.map fun r => match r with | .ok _ => true | .error _ => false

/-- The text is refused, the Go number is not looked at. -/
example : metaRuns [("a", .obj [("minLength", .num ⟨false, 3, [], none⟩)]), ("b", .obj [("minLength", .str "x")]),
    ("c", .obj [("minLength", .opaque .other 3)]), ("d", .imap [])] = [true, true, true, true, false, true, true] := by decide +kernel
example : endOf goSchema = none := by decide +kernel
example : GoDistinct goSchema := by
  have leaf : ∀ t, GoDistinct (.str t) := fun t => .leaf _ (by simp) (by simp)
  refine .obj _ (by simp) ?_
  simp only [List.mem_cons, List.not_mem_nil, or_false, forall_eq_or_imp, forall_eq]
  refine ⟨.obj _ (by simp) ?_, .obj _ (by simp) ?_⟩ <;>
  · simp only [List.mem_singleton, forall_eq]
    refine .obj _ (by simp) ?_
    simp only [List.mem_singleton, forall_eq]
    exact leaf _

/-- The same with a map as YAML decoders make them in the place of the subschema. -/
example : endOf (.obj [("properties", .obj [("x", .imap [])])]) matches some .panic := by decide +kernel
/-- `map[string]interface{}{"minLength": 3}` with the Go number 3 is refused. -/
example : endOf (.obj [("minLength", .opaque .other 3)]) matches some (.err _) := by decide +kernel
/-- `map[string]interface{}{"required": []string{…}}` panics. -/
example : endOf (.obj [("required", .opaque .slice 0)]) matches some .panic := by decide +kernel
example : endOf (.obj [("const", .opaque .other 7)]) = none := by decide +kernel
example : endOf (.obj [("const", .opaque .other 8)]) matches some (.err .marshal) := by decide +kernel
example : ("required", [], [.slice]) ∈ kindTable := by simp [kindTable]
example : ∀ e ∈ kindTable, "default" ≠ e.1 := by simp [kindTable]

/-- The verdict of a compiled schema. -/
def goVerdict (w : RawS.Outside) (r : Except Fail Schema) (v : Json) : Option Bool :=
  match r with
  | .ok S =>
    match validateDocument w.env Sched.id S.heap 9 S.root v with
    | .ok r => some r.valid
    | .error _ => none
  | .error _ => none

theorem goVerdict_some {w r v b} (h : goVerdict w r v = some b) :
    ∃ S R, r = .ok S ∧ validateDocument w.env Sched.id S.heap 9 S.root v = .ok R ∧ R.valid = b := by
  unfold goVerdict at h
  cases r with
  | error e => cases h
  | ok S =>
    cases hR : validateDocument w.env Sched.id S.heap 9 S.root v with
    | error e => simp only [hR] at h; cases h
    | ok R => simp only [hR] at h; cases h; exact ⟨S, R, rfl, hR, rfl⟩

/-- `{"x": {"$id": "http://h/y", "type": "string"}, "items": {"$ref": "http://h/y"}}`, the value of `x` being a map as YAML
decoders make them. -/
def yamlInside : GoVal := .obj [("x", .imap [(some "$id", .str "http://h/y"), (some "type", .str "string")]),
  ("items", .obj [("$ref", .str "http://h/y")])]

/-- Another document at that URL. -/
def yamlDocs : List (String × Json) := [("http://h/y", .obj [("type", .str "boolean")])]

theorem goWorld_looks (docs) : LooksAlike (goWorld docs) := by
  intro r d
  show (match (RawS.ofJson d).json with | none => _ | some d => _) = _
  rw [RawS.json_ofJson]
  rfl

end Demo

/-- 'A Go value that compiles, compiles as the document it stands for' is false: a map as YAML decoders make them may stand
where the compiler does not look, but identifiers in it are not found. -/
theorem C77_differs : ∃ (w : RawS.Outside) (g : GoVal) (D : Json) (v : Json) (S S' : Schema) (R R' : Result),
    w.norm "#" = some "" ∧ LooksAlike w ∧ FormatsAlike w.raw ∧ g.json = some D ∧
    RawS.newSchema w Sched.id ⟨9, 9⟩ g = .ok S ∧ newSchema w.toWorld Sched.id ⟨9, 9⟩ (.direct (some D)) = .ok S' ∧
    validateDocument w.env Sched.id S.heap 9 S.root v = .ok R ∧ validateDocument w.env Sched.id S'.heap 9 S'.root v = .ok R' ∧
    R.valid = false ∧ R'.valid = true := by
  let D : Json := .obj [("x", .obj [("$id", .str "http://h/y"), ("type", .str "string")]), ("items", .obj [("$ref", .str "http://h/y")])]
  have h1 : Demo.goVerdict (Demo.goWorld Demo.yamlDocs) (RawS.newSchema (Demo.goWorld Demo.yamlDocs) Sched.id ⟨9, 9⟩ Demo.yamlInside)
      (.arr [.str "a"]) = some false := by decide +kernel
  have h2 : Demo.goVerdict (Demo.goWorld Demo.yamlDocs)
      (newSchema (Demo.goWorld Demo.yamlDocs).toWorld Sched.id ⟨9, 9⟩ (.direct (some D))) (.arr [.str "a"]) = some true := by
    decide +kernel
  obtain ⟨S, R, e1, e2, e3⟩ := Demo.goVerdict_some h1
  obtain ⟨S', R', e4, e5, e6⟩ := Demo.goVerdict_some h2
  exact ⟨_, _, _, _, _, _, _, _, by decide +kernel, Demo.goWorld_looks _, fun _ _ _ _ => rfl, rfl, e1, e4, e2, e5, e3, e6⟩

end GJS

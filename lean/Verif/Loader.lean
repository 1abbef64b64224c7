import Verif.Parse
import Verif.Validate
/-
`SchemaLoader` (`/repo/schemaLoader.go`).
-/
namespace GJS

/-- A `JSONLoader` argument.
* `direct`: string, bytes, Go, raw and reader/writer loaders (`/repo/jsonLoader.go` 222-370);
  the argument is what `LoadJSON` returns, `none` being an error.
* `reference`: `NewReferenceLoader(source)` with `fs = 0` (`osFS`) or
  `NewReferenceLoaderFileSystem(source, fs)` (`/repo/jsonLoader.go` 94-220). -/
inductive LoaderArg where
  | direct (doc : Option Json)
  | reference (source : String) (fs : Factory)

/-- `JsonReference()` (`/repo/jsonLoader.go` 106-108, 232-234 and the like). -/
def LoaderArg.ref (w : World) : LoaderArg → Option String
  | .direct _ => w.norm "#"
  | .reference source _ => w.norm source

/-- `LoaderFactory()` (`/repo/jsonLoader.go` 110-114, 236-238 and the like). -/
def LoaderArg.factory : LoaderArg → Factory
  | .direct _ => 0
  | .reference _ fs => fs

/-- `LoadJSON()` called on a loader passed by the user. -/
def loadJSON (w : World) (a : LoaderArg) : M LState Json := fun l =>
  match a with
  | .direct (some d) => (.ok d, l)
  | .direct none => (.error (.err (.load "#")), l)
  | .reference source fs =>
    let l' := { l with own := l.own ++ [(fs, source)] }
    match loadReference w l.clock fs source with
    | some d => (.ok d, l')
    | none => (.error (.err (.load source)), l')

/-- A compiled schema. -/
structure Schema where
  heap : Heap
  root : Id
  refs : List (String × Id)

/-- Bounds on the nesting of calls: of the compiler and of the validator. -/
structure Fuel where
  parse : Nat
  validate : Nat

/-- `err = …parseReferences(…); if err != nil { return err }`. -/
def failIf (x : Json × Option CErr) : M LState Json :=
  match x.2 with
  | some e => M.err e
  | none => return x.1

/-- The document to compile (`/repo/schemaLoader.go` 161-181). -/
def rootDocument (w : World) (σ : Sched) (p : Path) (a : LoaderArg) (ref : String) : M LState Json :=
  if ref != "" then do
    let e ← getDocument w σ (60 :: p) ref
    return e.doc
  else do
    let doc ← loadJSON w a
    let x ← parseReferences w σ (61 :: p) doc ref true
    failIf x

/-- The draft to compile with (`/repo/schemaLoader.go` 189-198). -/
def rootDraft (w : World) (doc : Json) : M LState Draft := do
  let l ← M.get
  if l.autoDetect then do
    let x ← parseSchemaURL w doc
    return x.2.getD l.draft
  else return l.draft

/-- `d.parse(doc, draft)` with a fresh reference pool (`/repo/schemaLoader.go` 155-159, 200). -/
def runParse (w : World) (σ : Sched) (fuel : Fuel) (p : Path) (ref : String) (doc : Json) (draft : Draft) :
    M LState Schema := fun l =>
  match parseRoot w σ fuel.parse p ref doc draft { l := l } with
  | (.ok c, s) => (.ok ⟨s.heap, c, s.refs⟩, s.l)
  | (.error e, s) => (.error e, s.l)

/-- `if sl.Validate { validateMetaschema(doc) }`. -/
def whenValidate (hook : M LState Unit) : M LState Unit := do
  let l ← M.get
  if l.validate then hook else return ()

/-- `Compile` (`/repo/schemaLoader.go` 147-206) over the function that validates against the
meta-schema. -/
def compileG (w : World) (σ : Sched) (fuel : Fuel) (hook : Path → Json → M LState Unit)
    (p : Path) (a : LoaderArg) : M LState Schema :=
  match a.ref w with
  | none => M.err (.badReference "#")
  | some ref => do
    M.modify (fun l => { l with factory := a.factory })
    let doc ← rootDocument w σ p a ref
    whenValidate (hook p doc)
    let draft ← rootDraft w doc
    runParse w σ fuel (62 :: p) ref doc draft

/-- The nested `Compile` of `validateMetaschema`.  It runs with `Validate` off, so its own hook
is never called. -/
def compileInner (w : World) (σ : Sched) (fuel : Fuel) (p : Path) (a : LoaderArg) : M LState Schema :=
  compileG w σ fuel (fun _ _ => return ()) p a

/-- The `$schema` of a document if detection is on (`/repo/schemaLoader.go` 54-59). -/
def detectedURL (w : World) (doc : Json) : M LState String := do
  let l ← M.get
  if l.autoDetect then do
    let x ← parseSchemaURL w doc
    return x.1
  else return ""

/-- Which meta-schema to use (`/repo/schemaLoader.go` 50-67); `none`: nothing to do. -/
def metaSchemaURL (w : World) (doc : Json) : M LState (Option String) := do
  let schema ← detectedURL w doc
  let l ← M.get
  if schema == "" then
    if l.draft == Hybrid then return none
    else return some (getSchemaURL l.draft)
  else return some schema

/-- `validateDocument` and the error made of its result (`/repo/schemaLoader.go` 80-91). -/
def checkDocument (w : World) (σ : Sched) (fuel : Fuel) (s : Schema) (doc : Json) : M LState Unit :=
  match validateDocument w.env σ s.heap fuel.validate s.root doc with
  | .ok r => if r.valid then return () else M.err (.metaSchema r.errors)
  | .error .panic => M.fail .panic
  | .error .fuel => M.fail .fuel

/-- `validateMetaschema` (`/repo/schemaLoader.go` 48-92).  `Validate` is switched off and only
switched on again if the meta-schema compiles. -/
def validateMetaschema (w : World) (σ : Sched) (fuel : Fuel) (p : Path) (doc : Json) : M LState Unit := do
  let u ← metaSchemaURL w doc
  match u with
  | none => return ()
  | some schema => do
    M.modify (fun l => { l with validate := false })
    let s ← compileInner w σ fuel (63 :: p) (.reference schema 0)
    M.modify (fun l => { l with validate := true })
    checkDocument w σ fuel s doc

/-- `Compile` (`/repo/schemaLoader.go` 147-206). -/
def compile (w : World) (σ : Sched) (fuel : Fuel) (p : Path) (a : LoaderArg) : M LState Schema :=
  compileG w σ fuel (validateMetaschema w σ fuel) p a

/-- `AddSchema` (`/repo/schemaLoader.go` 123-144). -/
def addSchema (w : World) (σ : Sched) (fuel : Fuel) (p : Path) (url : String) (a : LoaderArg) :
    M LState Unit :=
  match w.norm url with
  | none => M.err (.badReference url)
  | some ref => do
    let doc ← loadJSON w a
    whenValidate (validateMetaschema w σ fuel p doc)
    let x ← parseReferences w σ (64 :: p) doc ref true
    let _ ← failIf x
    return ()

/-- One round of `AddSchemas` (`/repo/schemaLoader.go` 99-117).  The error of
`NewJsonReference("")` is ignored; `emptyRef` is then the zero value, whose text is empty too. -/
def addSchemaById (w : World) (σ : Sched) (fuel : Fuel) (p : Path) (a : LoaderArg) : M LState Unit := do
  let doc ← loadJSON w a
  whenValidate (validateMetaschema w σ fuel p doc)
  let x ← parseReferences w σ (64 :: p) doc "" false
  let _ ← failIf x
  return ()

/-- `AddSchemas` (`/repo/schemaLoader.go` 96-120). -/
def addSchemas (w : World) (σ : Sched) (fuel : Fuel) (p : Path) (as : List LoaderArg) : M LState Unit := do
  let _ ← mapL (fun k a => addSchemaById w σ fuel (k :: p) a) 0 as
  return ()

/-- Operations on one `SchemaLoader`: its methods, and assignments to its exported fields. -/
inductive Op where
  | addSchema (url : String) (a : LoaderArg)
  | addSchemas (as : List LoaderArg)
  | compile (a : LoaderArg)
  | setAutoDetect (b : Bool)
  | setValidate (b : Bool)
  | setDraft (d : Draft)

/-- Perform one operation. -/
def Op.run (w : World) (σ : Sched) (fuel : Fuel) (p : Path) : Op → M LState (Option Schema)
  | .addSchema url a => do GJS.addSchema w σ fuel p url a; return none
  | .addSchemas as => do GJS.addSchemas w σ fuel p as; return none
  | .compile a => do let s ← GJS.compile w σ fuel p a; return some s
  | .setAutoDetect b => do M.modify (fun l => { l with autoDetect := b }); return none
  | .setValidate b => do M.modify (fun l => { l with validate := b }); return none
  | .setDraft d => do M.modify (fun l => { l with draft := d }); return none

/-- Perform a history of operations, whatever they return (a caller may ignore errors and
recover from panics).  The `k`-th operation runs at execution point `k`. -/
def runOps (w : World) (σ : Sched) (fuel : Fuel) : Nat → List Op → LState → List (Except Fail (Option Schema)) × LState
  | _, [], l => ([], l)
  | k, o :: os, l =>
    let r := o.run w σ fuel [k] l
    let rs := runOps w σ fuel (k + 1) os r.2
    (r.1 :: rs.1, rs.2)

/-- `NewSchemaLoader()` (`/repo/schemaLoader.go` 33-46). -/
def newSchemaLoader : LState := {}

/-- `NewSchema` (`/repo/schema.go` 49-51). -/
def newSchema (w : World) (σ : Sched) (fuel : Fuel) (a : LoaderArg) : Except Fail Schema :=
  (compile w σ fuel [] a newSchemaLoader).1

end GJS

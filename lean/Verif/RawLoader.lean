import Verif.RawSchema
/-
`AddSchema`, `AddSchemas` and histories of one `SchemaLoader` given Go values (`/repo/schemaLoader.go` 94-206).
-/
namespace GJS.RawS
open GJS

/-- `AddSchema(url, NewRawLoader(g))` (`/repo/schemaLoader.go` 123-144). -/
def addSchema (w : Outside) (σ : Sched) (fuel : Fuel) (p : Path) (url : String) (g : GoVal) : M State Unit :=
  match w.norm url with
  | none => M.err (.badReference url)
  | some ref => do
    whenValidate (validateMetaschema w σ fuel p g)
    let x ← parseReferences w σ (64 :: p) g ref true
    let _ ← failIf x
    return ()

/-- One round of `AddSchemas` (`/repo/schemaLoader.go` 99-117). -/
def addSchemaById (w : Outside) (σ : Sched) (fuel : Fuel) (p : Path) (g : GoVal) : M State Unit := do
  whenValidate (validateMetaschema w σ fuel p g)
  let x ← parseReferences w σ (64 :: p) g "" false
  let _ ← failIf x
  return ()

/-- `AddSchemas` (`/repo/schemaLoader.go` 96-120). -/
def addSchemas (w : Outside) (σ : Sched) (fuel : Fuel) (p : Path) (gs : List GoVal) : M State Unit := do
  let _ ← mapL (fun k g => addSchemaById w σ fuel (k :: p) g) 0 gs
  return ()

/-- Operations on one `SchemaLoader` (`GJS.Op`), `α` being what schemas are given as. -/
inductive Op (α : Type) where
  | addSchema (url : String) (a : α)
  | addSchemas (as : List α)
  | compile (a : α)
  | compileRef (source : String) (fs : Factory)
  | setAutoDetect (b : Bool)
  | setValidate (b : Bool)
  | setDraft (d : Draft)

/-- Perform one operation. -/
def Op.run (w : Outside) (σ : Sched) (fuel : Fuel) (p : Path) : Op GoVal → M State (Option Schema)
  | .addSchema url a => do RawS.addSchema w σ fuel p url a; return none
  | .addSchemas as => do RawS.addSchemas w σ fuel p as; return none
  | .compile a => do let s ← RawS.compile w σ fuel p (.raw a); return some s
  | .compileRef source fs => do let s ← RawS.compile w σ fuel p (.reference source fs); return some s
  | .setAutoDetect b => do M.modify (fun l => { l with autoDetect := b }); return none
  | .setValidate b => do M.modify (fun l => { l with validate := b }); return none
  | .setDraft d => do M.modify (fun l => { l with draft := d }); return none

/-- Perform a history of operations, whatever they return (`GJS.runOps`). -/
def runOps (w : Outside) (σ : Sched) (fuel : Fuel) : Nat → List (Op GoVal) → State → List (Except Fail (Option Schema)) × State
  | _, [], l => ([], l)
  | k, o :: os, l =>
    let r := o.run w σ fuel [k] l
    let rs := runOps w σ fuel (k + 1) os r.2
    (r.1 :: rs.1, rs.2)

/-- The operation with the documents as decoded. -/
def Op.decoded : Op Json → Op GoVal
  | .addSchema url D => .addSchema url (ofJson D)
  | .addSchemas Ds => .addSchemas (Ds.map ofJson)
  | .compile D => .compile (ofJson D)
  | .compileRef source fs => .compileRef source fs
  | .setAutoDetect b => .setAutoDetect b
  | .setValidate b => .setValidate b
  | .setDraft d => .setDraft d

/-- The operation of the model on documents. -/
def Op.direct : Op Json → GJS.Op
  | .addSchema url D => .addSchema url (.direct (some D))
  | .addSchemas Ds => .addSchemas (Ds.map fun D => .direct (some D))
  | .compile D => .compile (.direct (some D))
  | .compileRef source fs => .compile (.reference source fs)
  | .setAutoDetect b => .setAutoDetect b
  | .setValidate b => .setValidate b
  | .setDraft d => .setDraft d

end GJS.RawS

import Verif.Loader
/-
Several goroutines calling `Compile` on one `SchemaLoader`.  The code has no lock; a call is cut into the blocks of
statements between which another goroutine may run.

Simplification: blocks are atomic.  Real executions may be cut finer, so what is shown here to happen can happen, but what is
shown not to happen at this grain might.
-/
namespace GJS.Shared
open GJS

/-- How far a call of `Compile` (`/repo/schemaLoader.go` 147-206) is. -/
inductive Stage where
  | ready
  /-- the file system is set (157) -/
  | started
  /-- the document is read (162-181) -/
  | loaded (doc : Json)
  /-- `Validate` is on, and switched off to compile the meta-schema (`validateMetaschema`, 50-70) -/
  | checking (doc : Json) (url : String)
  /-- `Validate` was off, or the check is over (183-187) -/
  | checked (doc : Json)
  | done (r : Except Fail Schema)

/-- A call in progress; the path tells map iterations of different calls apart. -/
structure Call where
  path : Path
  arg : LoaderArg
  stage : Stage := .ready

/-- The call after a block that returned. -/
def Call.after (c : Call) (f : α → Stage) (x : Except Fail α × LState) : Call × LState :=
  match x.1 with
  | .ok a => ({ c with stage := f a }, x.2)
  | .error e => ({ c with stage := .done (.error e) }, x.2)

/-- The second part of `validateMetaschema` (`/repo/schemaLoader.go` 72-91). -/
def check (w : World) (σ : Sched) (fuel : Fuel) (p : Path) (doc : Json) (url : String) : M LState Unit := do
  let s ← compileInner w σ fuel (63 :: p) (.reference url 0)
  M.modify (fun l => { l with validate := true })
  checkDocument w σ fuel s doc

/-- The last part of `Compile` (`/repo/schemaLoader.go` 189-205). -/
def finish (w : World) (σ : Sched) (fuel : Fuel) (p : Path) (ref : String) (doc : Json) : M LState Schema := do
  let draft ← rootDraft w doc
  runParse w σ fuel (62 :: p) ref doc draft

/-- The next block of a call (`/repo/schemaLoader.go` 147-206). -/
def Call.next (w : World) (σ : Sched) (fuel : Fuel) (c : Call) (l : LState) : Call × LState :=
  match c.arg.ref w with
  | none => ({ c with stage := .done (.error (.err (.badReference "#"))) }, l)
  | some ref =>
    match c.stage with
    | .ready => ({ c with stage := .started }, { l with factory := c.arg.factory })
    | .started => c.after .loaded (rootDocument w σ c.path c.arg ref l)
    | .loaded doc =>
      if l.validate then
        match metaSchemaURL w doc l with
        | (.ok (some u), l') => ({ c with stage := .checking doc u }, { l' with validate := false })
        | (.ok none, l') => ({ c with stage := .checked doc }, l')
        | (.error e, l') => ({ c with stage := .done (.error e) }, l')
      else ({ c with stage := .checked doc }, l)
    | .checking doc u => c.after (fun _ => .checked doc) (check w σ fuel c.path doc u l)
    | .checked doc => c.after (fun s => .done (.ok s)) (finish w σ fuel c.path ref doc l)
    | .done _ => (c, l)

/-- One block of one of the calls. -/
def step (w : World) (σ : Sched) (fuel : Fuel) (i : Nat) (x : List Call × LState) : List Call × LState :=
  match x.1[i]? with
  | none => x
  | some c =>
    let y := c.next w σ fuel x.2
    (x.1.set i y.1, y.2)

/-- Blocks of the calls, in this order. -/
def run (w : World) (σ : Sched) (fuel : Fuel) : List Nat → List Call × LState → List Call × LState
  | [], x => x
  | i :: is, x => run w σ fuel is (step w σ fuel i x)

/-- What a call returned, if it did. -/
def Call.result (c : Call) : Option (Except Fail Schema) :=
  match c.stage with
  | .done r => some r
  | _ => none

end GJS.Shared

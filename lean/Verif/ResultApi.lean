import Verif.Context
import Verif.Mon
/-
`Result` as an object with methods, `/repo/result.go`: the slice of errors with its backing array, the
errors and the detail maps as mutable objects.

Simplifications: the values in a detail map are JSON values; of an error only the context, the
format and the description are kept.
-/
namespace GJS.Api
open GJS

/-- A slice of the Go type `[]ResultError` that starts at the beginning of its backing array. The
nil slice is the empty slice of array 0, which has no cells. -/
structure Slice where
  arr : Nat := 0
  len : Nat := 0
deriving DecidableEq, Repr

/-- An error, `ResultErrorFields` (`/repo/result.go` 74-81). -/
structure ErrObj where
  context : Option Ctx
  descriptionFormat : String
  description : String := ""
deriving DecidableEq, Repr

/-- A `Result` (`/repo/result.go` 84-89). -/
structure ResObj where
  errors : Slice := {}
  score : Int := 0
deriving DecidableEq, Repr

/-- A detail map, `ErrorDetails` (`/repo/result.go` 35). -/
abbrev Details := List (String × Json)

/-- The memory: backing arrays (as long as their capacity, unused cells are `none`), errors, detail
maps and results, all of them referred to by position. -/
structure Mem where
  arrays : List (List (Option Nat)) := [[]]
  errs : List ErrObj := []
  maps : List Details := []
  results : List ResObj := []

/-- The Go runtime and `formatErrorDescription`: how many spare cells a new array gets, and the
rendering of a format with details. -/
structure Lib where
  spare : Nat → Nat
  render : String → Details → String

/-- The contents of a slice. -/
def read (arrays : List (List (Option Nat))) (s : Slice) : List (Option Nat) :=
  ((arrays[s.arr]?).getD []).take s.len

/-- Go's `append(s, xs...)`: in place if the capacity suffices, otherwise in a new array. -/
def goAppend (lib : Lib) (arrays : List (List (Option Nat))) (s : Slice) (xs : List (Option Nat)) :
    List (List (Option Nat)) × Slice :=
  let a := (arrays[s.arr]?).getD []
  let n := s.len + xs.length
  if n ≤ a.length then
    (arrays.set s.arr (a.take s.len ++ xs ++ a.drop n), { s with len := n })
  else
    (arrays ++ [a.take s.len ++ xs ++ List.replicate (lib.spare n) none], { arr := arrays.length, len := n })

/-- What a reference points to; a nil pointer panics. -/
def deref (l : List α) (i : Nat) : M Mem α :=
  match l[i]? with
  | some x => return x
  | none => M.fail .panic

/-- The entries of a detail map; a nil map has none. -/
def detailsOf (details : Option Nat) : M Mem Details := do
  let st ← M.get
  match details with
  | none => return []
  | some i => deref st.maps i

/-- `m[k] = v` -/
def mapSet (m : Details) (k : String) (v : Json) : Details := (k, v) :: m.filter (fun kv => !(kv.1 == k))

/-- `Result.Valid` (`/repo/result.go` 185-187). -/
def valid (r : ResObj) : Bool := decide (r.errors.len = 0)

/-- `Result.Errors` (`/repo/result.go` 190-192). -/
def errorsOf (r : ResObj) : Slice := r.errors

/-- `v.errors = append(v.errors, xs...)` -/
def appendTo (lib : Lib) (v : Nat) (xs : List (Option Nat)) : M Mem Unit := do
  let st ← M.get
  let r ← deref st.results v
  let a := goAppend lib st.arrays r.errors xs
  M.modify fun st => { st with arrays := a.1, results := st.results.set v { r with errors := a.2 } }

/-- The context entry of the details, `/repo/result.go` 197-199: added unless it is there or the error
has no context. A nil map cannot be assigned to. -/
def addContext (err : ErrObj) (details : Option Nat) : M Mem Unit := do
  let d ← detailsOf details
  if (getKey "context" d).isNone then
    match err.context with
    | none => return ()
    | some c =>
      match ctxString [] c with
      | .error _ => M.fail .panic
      | .ok text =>
        match details with
        | none => M.fail .panic
        | some i => M.modify fun st => { st with maps := st.maps.set i (mapSet d "context" (.str text)) }
  else return ()

/-- `err.SetDescription(formatErrorDescription(err.DescriptionFormat(), details))`
(`/repo/result.go` 201). -/
def describe (lib : Lib) (e : Nat) (details : Option Nat) : M Mem Unit := do
  let st ← M.get
  let err ← deref st.errs e
  let d ← detailsOf details
  M.modify fun st => { st with errs := st.errs.set e { err with description := lib.render err.descriptionFormat d } }

/-- `Result.AddError` (`/repo/result.go` 196-204). -/
def addError (lib : Lib) (v e : Nat) (details : Option Nat) : M Mem Unit := do
  let st ← M.get
  let err ← deref st.errs e
  addContext err details
  describe lib e details
  appendTo lib v [some e]

/-- `Result.mergeErrors` (`/repo/result.go` 213-216). -/
def mergeErrors (lib : Lib) (v other : Nat) : M Mem Unit := do
  let st ← M.get
  let o ← deref st.results other
  appendTo lib v (read st.arrays (errorsOf o))
  let st ← M.get
  let r ← deref st.results v
  let o ← deref st.results other
  M.modify fun st => { st with results := st.results.set v { r with score := r.score + o.score } }

/-- `Result.incrementScore` (`/repo/result.go` 218-220). -/
def incrementScore (v : Nat) : M Mem Unit := do
  let st ← M.get
  let r ← deref st.results v
  M.modify fun st => { st with results := st.results.set v { r with score := r.score + 1 } }

/-- What a program can do with results, errors and detail maps: create them, call the methods, and
change errors and detail maps at will. -/
inductive Call where
  | newResult
  | newError (o : ErrObj)
  | newDetails (d : Details)
  | setError (e : Nat) (o : ErrObj)
  | setDetails (i : Nat) (d : Details)
  | addError (v e : Nat) (details : Option Nat)
  | mergeErrors (v other : Nat)
  | incrementScore (v : Nat)

/-- One call. -/
def call (lib : Lib) : Call → M Mem Unit
  | .newResult => M.modify fun st => { st with results := st.results ++ [{}] }
  | .newError o => M.modify fun st => { st with errs := st.errs ++ [o] }
  | .newDetails d => M.modify fun st => { st with maps := st.maps ++ [d] }
  | .setError e o => M.modify fun st => { st with errs := st.errs.set e o }
  | .setDetails i d => M.modify fun st => { st with maps := st.maps.set i d }
  | .addError v e details => addError lib v e details
  | .mergeErrors v other => mergeErrors lib v other
  | .incrementScore v => incrementScore v

/-- A program: the calls one after the other; the program goes on after a panic. -/
def runCalls (lib : Lib) : List Call → Mem → Mem
  | [], st => st
  | c :: cs, st => runCalls lib cs (call lib c st).2

end GJS.Api

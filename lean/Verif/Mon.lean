import Verif.Model
/-
The monad of the schema compiler: a state that survives failures, and three ways to fail.
-/
namespace GJS

/-- Errors returned by the compiler and the loader, by the message used (`/repo/locales.go`)
and its details, or by the library that produced them. -/
inductive CErr where
  | parseError
  | invalidType (expected given : String)
  | mustBeOfA (x y : String)
  | mustBeOfAn (x y : String)
  | mustBeOfType (key type : String)
  | mustBeGTEZero (key : String)
  | cannotBeGT (x y : String)
  | keyCannotBeGreaterThan (key y : String)
  | greaterThanZero (number : String)
  | cannotBeUsedWithout (x y : String)
  | regexPattern (pattern : String)
  | mustBeValidRegex (key : String)
  | keyItemsMustBeUnique (key : String)
  | keyItemsMustBeOfType (key type : String)
  | notAValidType (given : String)
  | duplicated (type : String)
  | badReference (text : String)
  | marshal
  | referenceMustBeCanonical (reference : String)
  | referenceAlreadyExists (reference : String)
  | pointer (reference : String)
  | load (reference : String)
  | schemaInvalid
  | metaSchema (errors : List Err)
deriving Repr

/-- How a call can end otherwise than by returning a value: with an error, by a Go panic, or
(in the model only) by running out of fuel. -/
inductive Fail where
  | err (e : CErr)
  | panic
  | fuel
deriving Repr

/-- Computations over a mutable state `σ`; the state is kept when they fail. -/
def M (σ α : Type) : Type := σ → Except Fail α × σ

namespace M

/-- return -/
@[inline] def ret (a : α) : M σ α := fun s => (.ok a, s)
/-- sequencing -/
@[inline] def seq (x : M σ α) (f : α → M σ β) : M σ β := fun s =>
  match x s with
  | (.ok a, s') => f a s'
  | (.error e, s') => (.error e, s')

instance : Monad (M σ) where
  pure := ret
  bind := seq

/-- fail -/
def fail (e : Fail) : M σ α := fun s => (.error e, s)
/-- return an error -/
def err (e : CErr) : M σ α := fail (.err e)
/-- read the state -/
def get : M σ σ := fun s => (.ok s, s)
/-- update the state -/
def modify (f : σ → σ) : M σ Unit := fun s => (.ok (), f s)

end M

/-- `for k, x := range l { r = append(r, f(x)) }`, stopping at the first failure. -/
def mapL (f : Nat → α → M σ β) : Nat → List α → M σ (List β)
  | _, [] => pure []
  | k, x :: xs => do
    let y ← f k x
    let ys ← mapL f (k + 1) xs
    return y :: ys

end GJS

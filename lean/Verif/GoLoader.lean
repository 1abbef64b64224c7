import Verif.Marshal
import Verif.Decode
/-
`json.Marshal`, as the library uses it: by `NewGoLoader` (`/repo/jsonLoader.go` 281-313) and, twice, by
`marshalWithoutNumber` (`/repo/utils.go` 73-104).
-/
namespace GJS.Go
open GJS.Io

/-- A Go value as `json.Marshal` sees it.  Simplifications: strings are valid UTF-8; pointers and interfaces
stand for what they point to or hold; nil pointers, interfaces, slices and maps are `nil`; keys of maps that are
not strings, tags and embedded fields of structs have been turned into names; types with methods
`MarshalJSON` or `MarshalText`, and `[]byte`, are the values they are written as. -/
inductive GoTree where
  | nil
  | bool (b : Bool)
  /-- `json.Number`.  Simplification: its text is a JSON number. -/
  | number (n : NumLit)
  /-- integers of any type -/
  | int (i : Int)
  /-- a finite float64 -/
  | float (f : F64)
  | str (s : String)
  /-- arrays and slices -/
  | arr (xs : List GoTree)
  /-- maps: the entries, in no particular order -/
  | map (kvs : List (String × GoTree))
  /-- structs: the fields, in the order of the type -/
  | record (kvs : List (String × GoTree))
  /-- what has no JSON: infinities and NaN, functions, channels, complex numbers -/
  | none
deriving Repr, Inhabited

/-- How `encoding/json` prints numbers. -/
structure Lib where
  number : NumLit → String
  int : Int → String
  float : F64 → String

/-- Texts with commas between them. -/
def commas : List (List Char) → List Char
  | [] => []
  | [t] => t
  | t :: u :: ts => t ++ ',' :: commas (u :: ts)

/-- A member of an object. -/
def member (e : String × List Char) : List Char := encStr e.1 ++ ':' :: e.2

mutual
/-- `json.Marshal`; `none` is an error.  Maps are written by increasing key, structs in the order of their
fields. -/
def marshal (lib : Lib) : GoTree → Option (List Char)
  | .nil => some "null".toList
  | .bool b => some (if b then "true".toList else "false".toList)
  | .number n => some (lib.number n).toList
  | .int i => some (lib.int i).toList
  | .float f => some (lib.float f).toList
  | .str s => some (encStr s)
  | .arr xs => (marshalL lib xs).map fun ts => '[' :: (commas ts ++ [']'])
  | .map kvs => (marshalKV lib kvs).map fun ts => '{' :: (commas ((ts.mergeSort keyLE).map member) ++ ['}'])
  | .record kvs => (marshalKV lib kvs).map fun ts => '{' :: (commas (ts.map member) ++ ['}'])
  | .none => Option.none
/-- The elements. -/
def marshalL (lib : Lib) : List GoTree → Option (List (List Char))
  | [] => some []
  | x :: xs => do
    let t ← marshal lib x
    let ts ← marshalL lib xs
    some (t :: ts)
/-- The members. -/
def marshalKV (lib : Lib) : List (String × GoTree) → Option (List (String × List Char))
  | [] => some []
  | (k, x) :: xs => do
    let t ← marshal lib x
    let ts ← marshalKV lib xs
    some ((k, t) :: ts)
end

/-- The bytes of a text. -/
def bytes (cs : List Char) : Bytes := cs.flatMap String.utf8EncodeChar

/-- Why `LoadJSON` fails. -/
inductive GoErr where
  | marshal
  | decode (e : Text.DecErr)
deriving DecidableEq, Repr

/-- `jsonGoLoader.LoadJSON` (`/repo/jsonLoader.go` 302-313). -/
def loadGo (lib : Lib) (g : GoTree) : Except GoErr Json :=
  match marshal lib g with
  | Option.none => .error .marshal
  | some t =>
    match Text.decode Text.maxDepth (bytes t) with
    | .ok v => .ok v
    | .error e => .error (.decode e)

/-- `json.Unmarshal` into an `interface{}`, numbers still as they are written: one value, nothing but white
space around it. -/
def unmarshal (d : Nat) (bs : Bytes) : Option Json :=
  match Text.readValue d (bs ++ [0x20]) with
  | .ok v rest => if Text.skip rest = [] then some v else none
  | _ => none

mutual
/-- A decoded document as a Go value. -/
def ofJson : Json → GoTree
  | .null => .nil
  | .bool b => .bool b
  | .num n => .number n
  | .str s => .str s
  | .arr xs => .arr (ofJsonL xs)
  | .obj kvs => .map (ofJsonKV kvs)
/-- Elementwise `ofJson`. -/
def ofJsonL : List Json → List GoTree
  | [] => []
  | x :: xs => ofJson x :: ofJsonL xs
/-- Memberwise `ofJson`. -/
def ofJsonKV : List (String × Json) → List (String × GoTree)
  | [] => []
  | (k, x) :: xs => (k, ofJson x) :: ofJsonKV xs
end

mutual
/-- A document decoded without `UseNumber` as a Go value. -/
def ofCanon : Canon → GoTree
  | .null => .nil
  | .bool b => .bool b
  | .num f => .float f
  | .str s => .str s
  | .arr xs => .arr (ofCanonL xs)
  | .obj kvs => .map (ofCanonKV kvs)
/-- Elementwise `ofCanon`. -/
def ofCanonL : List Canon → List GoTree
  | [] => []
  | x :: xs => ofCanon x :: ofCanonL xs
/-- Memberwise `ofCanon`. -/
def ofCanonKV : List (String × Canon) → List (String × GoTree)
  | [] => []
  | (k, x) :: xs => (k, ofCanon x) :: ofCanonKV xs
end

/-- `marshalWithoutNumber` (`/repo/utils.go` 84-104), as it is written: serialise, decode again without
`UseNumber`, serialise again. -/
def marshalTwice (lib : Lib) (v : Json) : Option String := do
  let t ← marshal lib (ofJson v)
  let v' ← unmarshal Text.maxDepth (bytes t)
  let c ← canon v'
  let t' ← marshal lib (ofCanon c)
  some (String.ofList t')

end GJS.Go

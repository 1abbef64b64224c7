import Verif.Validate
/-
Concrete environments, schemas and instances for the examples beside the theorems.
-/
namespace GJS.Demo
open GJS

/-- An environment: every number is accepted by `big.Rat`, a pattern matches itself only,
all formats hold. -/
def env : Env where
  ratOk := fun _ => true
  reOk := fun _ => true
  reMatch := fun p s => p == s
  isFormat := fun _ _ => true
  fmtF64 := fun f => (if f.neg then "-" else "") ++ toString f.mag.num.natAbs ++ "e" ++ toString f.mag.den

/-- The number literal of an integer. -/
def int (z : Int) : Json := .num ⟨decide (z < 0), z.natAbs, [], none⟩

/-- A recursive compiled schema: an object with a required non-negative integer `value` and
an optional `next` of the same kind. -/
def listHeap : Heap :=
  [ { doc := .null, draft := Draft7, types := ["object"], required := ["value"],
      propertiesChildren := [("value", 1), ("next", 2)] },
    { doc := .null, draft := Draft7, types := ["integer"], minimum := some 0 },
    { doc := .null, draft := Draft7, refSchema := some 0 } ]

/-- A list of two cells. -/
def list2 : Json := .obj [("value", int 1), ("next", .obj [("value", int 2)])]
/-- A list whose second cell has no value. -/
def listBad : Json := .obj [("value", int 1), ("next", .obj [])]

end GJS.Demo

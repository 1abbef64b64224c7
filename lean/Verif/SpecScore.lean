import Verif.SpecFault
/-
The score of a node without sub-schemas, by which the closest branch of anyOf, oneOf and contains
is chosen.
-/
namespace GJS.Spec
open GJS

/-- A node that applies no other node. -/
structure Leaf (s : Sub) : Prop where
  pass : s.pass = none
  ref : s.refSchema = none
  anyOf : s.anyOf = []
  oneOf : s.oneOf = []
  allOf : s.allOf = []
  not : s.not = none
  dependencies : ∀ k i, getKey k s.dependencies ≠ some (.schema i)
  if_ : s.if_ = none
  items : s.itemsChildren = []
  single : s.itemsChildrenIsSingleSchema = false
  contains : s.contains = none
  properties : s.propertiesChildren = []
  patternProperties : s.patternProperties = []
  additionalProperties : ∀ i, s.additionalProperties ≠ .schema i
  propertyNames : s.propertyNames = none

/-- The number of required names that are present. -/
def present (kvs : List (String × Json)) (qs : List String) : Nat := (qs.filter (· ∈ names kvs)).length

/-- What a node without sub-schemas scores on a value of the right type, before deductions. -/
def leafScore (s : Sub) : Json → Int
  | .null => 3
  | .bool _ => 3
  | .str _ => 4
  | .num _ => 4
  | .arr _ => 4
  | .obj kvs => 4 + present kvs s.required

end GJS.Spec

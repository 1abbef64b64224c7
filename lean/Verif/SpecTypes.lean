/-
The JSON types, stated without the compiler.
-/
namespace GJS.Spec

/-- The seven type names of JSON Schema. -/
def IsType (t : String) : Prop :=
  t = "null" ∨ t = "boolean" ∨ t = "object" ∨ t = "array" ∨ t = "number" ∨ t = "integer" ∨ t = "string"

end GJS.Spec

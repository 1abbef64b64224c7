import Verif.SpecClosed
/-
What the compiler reads of a closed document, and when all of it is well-formed.
-/
namespace GJS.Spec
open GJS

/-- What the compiler may read of the document `D0` under the draft `d`: sub-schemas, also those beside a
`$ref`, definitions, and what references stand for. -/
inductive Visited (w : World) (l : LState) (d : Draft) (D0 : Json) : Json → Prop
  | root (D) : RwStrict w "" D0 D → Visited w l d D0 D
  | sub (m X) : Visited w l d D0 (.obj m) → SubSchema d m X → Visited w l d D0 X
  | definition (m ps k X) : Visited w l d D0 (.obj m) → Kw m "definitions" (.obj ps) → (k, X) ∈ ps → Visited w l d D0 X
  | ref (m t u o X) : Visited w l d D0 (.obj m) → Kw m "$ref" (.str t) → w.norm t = some u → StandsFor w l D0 u o X →
      Visited w l d D0 X

/-- One level of a well-formed schema: a boolean from draft-06 on, or an object of the right shape whose
`$ref`, if there is one, is a text that stands for something. -/
inductive Intact (w : World) (l : LState) (d : Draft) (D0 : Json) : Json → Prop
  | bool (b) : Draft6 ≤ d → Intact w l d D0 (.bool b)
  | obj (m) : Shape w d m →
      (∀ v, Kw m "$ref" v → ∃ t u o X, v = .str t ∧ w.norm t = some u ∧ StandsFor w l D0 u o X) → Intact w l d D0 (.obj m)

/-- Everything the compiler may read of `D0` is well-formed; so is its `$schema` if the loader looks at
it. -/
structure AllIntact (w : World) (l : LState) (d : Draft) (D0 : Json) : Prop where
  schema : l.autoDetect = true → SchemaRead w D0
  all : ∀ X, Visited w l d D0 X → Intact w l d D0 X

/-- The keywords that the compiler reads beside a `$ref` only if it has met the reference before. -/
def laterKeys : List String :=
  ["type", "properties", "additionalProperties", "patternProperties", "propertyNames", "dependencies", "items", "additionalItems",
   "contains", "multipleOf", "minimum", "maximum", "exclusiveMinimum", "exclusiveMaximum", "minLength", "maxLength", "pattern",
   "format", "minProperties", "maxProperties", "required", "minItems", "maxItems", "uniqueItems", "const", "enum", "oneOf",
   "anyOf", "allOf", "not", "if", "then", "else"]

/-- References stand alone: no such keyword beside them. -/
def Alone (w : World) (l : LState) (d : Draft) (D0 : Json) : Prop :=
  ∀ m v, Visited w l d D0 (.obj m) → Kw m "$ref" v → ∀ k ∈ laterKeys, getKey k m = none

/-- The name of the anonymous document is free. -/
def Unnamed (l : LState) : Prop := getKey "" l.pool = none

end GJS.Spec

import Verif.SpecCompile
import Verif.SpecEqual
/-
Well-formed schema documents, for one draft, stated without the compiler.
-/
namespace GJS.Spec
open GJS

/-- `x` is the document `D` or stands somewhere inside it. -/
inductive Within : Json → Json → Prop
  | self (D) : Within D D
  | elem (xs y x) : y ∈ xs → Within y x → Within (.arr xs) x
  | member (m k y x) : (k, y) ∈ m → Within y x → Within (.obj m) x

/-- No object in the document has a member `$ref`. -/
def NoRef (D : Json) : Prop := ∀ m, Within D (.obj m) → "$ref" ∉ keysOf m

/-- `big.Rat` accepts every number in the document. -/
def NumsRat (env : Env) (D : Json) : Prop := ∀ n, Within D (.num n) → env.ratOk n = true

/-- Every number in the value fits a float64. -/
def NumsF64 (D : Json) : Prop := ∀ n, Within D (.num n) → n.toF64 ≠ none

/-- The seven type names. -/
def KnownType (t : String) : Prop :=
  t = "array" ∨ t = "boolean" ∨ t = "integer" ∨ t = "number" ∨ t = "null" ∨ t = "object" ∨ t = "string"

/-- The value of `type`: a type name, or a list of different type names. -/
def TypeValue (v : Json) : Prop :=
  (∃ t, v = .str t ∧ KnownType t) ∨
  ∃ ts : List String, v = .arr (ts.map .str) ∧ ts.Nodup ∧ ∀ t ∈ ts, KnownType t

/-- A number. -/
def NumValue (env : Env) (v : Json) : Prop := ∃ n, v = .num n ∧ env.ratOk n = true

/-- A size: a literal without fraction and exponent, not negative, below 2^63. -/
def SizeLit (n : NumLit) : Prop := n.frac = [] ∧ n.exp = none ∧ (n.neg = true → n.ip = 0) ∧ n.ip < 2 ^ 63

/-- The value of a size keyword. -/
def SizeValue (env : Env) (v : Json) : Prop := ∃ n, v = .num n ∧ env.ratOk n = true ∧ SizeLit n

/-- The name of the keyword that gives an identifier: `id` in draft-04, `$id` from draft-06 on; in
hybrid mode `id` if it is there. -/
def idKey (d : Draft) (m : List (String × Json)) : String :=
  if d = Draft4 ∨ (d = Hybrid ∧ (getKey "id" m).isSome) then "id" else "$id"

/-- The value of `exclusiveMinimum` or `exclusiveMaximum`: in draft-04 a boolean next to the
inclusive bound `key`, from draft-06 on a number, in hybrid mode either. -/
def ExclusiveValue (env : Env) (d : Draft) (m : List (String × Json)) (key : String) (v : Json) : Prop :=
  if d = Draft4 then (∃ b, v = .bool b) ∧ (getKey key m).isSome
  else if d = Hybrid then ((∃ b, v = .bool b) ∧ (getKey key m).isSome) ∨ NumValue env v
  else ∃ n, v = .num n

/-- An array of different strings. -/
def NamesValue (v : Json) : Prop := ∃ ts : List String, v = .arr (ts.map .str) ∧ ts.Nodup

/-- An array of values no two of which are equal, all of whose numbers fit a float64. -/
def EnumValue (v : Json) : Prop :=
  ∃ cs, v = .arr cs ∧ (∀ c ∈ cs, NumsF64 c) ∧
    ∀ (i j : Nat) a b, i < j → cs[i]? = some a → cs[j]? = some b → ¬ SameVal a b

/-- Every keyword value of the schema object has the form its draft asks for, sub-schemas
excepted. -/
structure Shape (w : World) (d : Draft) (m : List (String × Json)) : Prop where
  id : ∀ v, Kw m (idKey d m) v → ∃ t, v = .str t ∧ w.norm t ≠ none
  title : ∀ v, Kw m "title" v → ∃ t, v = .str t
  description : ∀ v, Kw m "description" v → ∃ t, v = .str t
  definitions : ∀ v, Kw m "definitions" v → ∃ c, v = .obj c
  type : ∀ v, Kw m "type" v → TypeValue v
  properties : ∀ v, Kw m "properties" v → ∃ c, v = .obj c
  additionalProperties : ∀ v, Kw m "additionalProperties" v → (∃ b, v = .bool b) ∨ ∃ c, v = .obj c
  patternProperties : ∀ v, Kw m "patternProperties" v → ∃ c, v = .obj c ∧ ∀ k ∈ keysOf c, w.env.reOk k = true
  dependencies : ∀ v, Kw m "dependencies" v →
    ∃ c, v = .obj c ∧ ∀ k xs, (k, .arr xs) ∈ c → ∀ x ∈ xs, ∃ t, x = .str t
  additionalItems : ∀ v, Kw m "additionalItems" v → (∃ b, v = .bool b) ∨ ∃ c, v = .obj c
  multipleOf : ∀ v, Kw m "multipleOf" v → ∃ n, v = .num n ∧ w.env.ratOk n = true ∧ 0 < n.val
  minimum : ∀ v, Kw m "minimum" v → NumValue w.env v
  exclusiveMinimum : ∀ v, Kw m "exclusiveMinimum" v → ExclusiveValue w.env d m "minimum" v
  maximum : ∀ v, Kw m "maximum" v → NumValue w.env v
  exclusiveMaximum : ∀ v, Kw m "exclusiveMaximum" v → ExclusiveValue w.env d m "maximum" v
  minLength : ∀ v, Kw m "minLength" v → SizeValue w.env v
  maxLength : ∀ v, Kw m "maxLength" v → SizeValue w.env v
  lengths : ∀ a b, Kw m "minLength" (.num a) → Kw m "maxLength" (.num b) → a.val ≤ b.val
  pattern : ∀ v, Kw m "pattern" v → ∃ t, v = .str t ∧ w.env.reOk t = true
  format : ∀ v, Kw m "format" v → ∃ t, v = .str t
  minProperties : ∀ v, Kw m "minProperties" v → SizeValue w.env v
  maxProperties : ∀ v, Kw m "maxProperties" v → SizeValue w.env v
  propertyCounts : ∀ a b, Kw m "minProperties" (.num a) → Kw m "maxProperties" (.num b) → a.val ≤ b.val
  required : ∀ v, Kw m "required" v → NamesValue v
  minItems : ∀ v, Kw m "minItems" v → SizeValue w.env v
  maxItems : ∀ v, Kw m "maxItems" v → SizeValue w.env v
  uniqueItems : ∀ v, Kw m "uniqueItems" v → ∃ b, v = .bool b
  const : Draft6 ≤ d → ∀ v, Kw m "const" v → NumsF64 v
  enum : ∀ v, Kw m "enum" v → EnumValue v
  oneOf : ∀ v, Kw m "oneOf" v → ∃ Ds, v = .arr Ds
  anyOf : ∀ v, Kw m "anyOf" v → ∃ Ds, v = .arr Ds
  allOf : ∀ v, Kw m "allOf" v → ∃ Ds, v = .arr Ds

/-- Well-formed schema documents without `$ref`, under draft `d`: booleans from draft-06 on, and
objects of the right shape whose sub-schemas (those in `definitions` included) are well-formed. -/
inductive WellFormed (w : World) (d : Draft) : Json → Prop
  | bool (b) : Draft6 ≤ d → WellFormed w d (.bool b)
  | obj (m) : Shape w d m → (∀ ds k D, Kw m "definitions" (.obj ds) → (k, D) ∈ ds → WellFormed w d D) →
      (∀ D, SubSchema d m D → WellFormed w d D) → WellFormed w d (.obj m)

/-- The `$schema` of a document is absent, or a string that is a reference. -/
def SchemaRead (w : World) (D : Json) : Prop :=
  ∀ m v, D = .obj m → Kw m "$schema" v → ∃ t, v = .str t ∧ w.norm t ≠ none

end GJS.Spec

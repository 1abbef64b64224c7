import Verif.SpecNumber
import Verif.SpecWell
/-
Members of schema objects that ask for nothing, and schemas that differ in such members only.
-/
namespace GJS.Spec
open GJS

/-- The keyword can have an influence on a verdict under draft `d`. -/
def Acts (d : Draft) (k : String) : Prop :=
  k ∈ assertions ∧ (k ∈ ["const", "contains", "propertyNames"] → Draft6 ≤ d) ∧ (k ∈ ["if", "then", "else"] → Draft7 ≤ d)

/-- A schema every value satisfies, on its face. -/
def Anything (D : Json) : Prop := D = .bool true ∨ D = .obj []

/-- The member `k` of the schema object `m`, with value `x`, asks for nothing. -/
inductive Idle (d : Draft) (m : List (String × Json)) : String → Json → Prop
  /-- not a keyword of the draft that speaks about instances -/
  | other (k x) : ¬ Acts d k → Idle d m k x
  /-- (*) empty lists: `type`, `enum`, `anyOf` and `oneOf` included -/
  | list (k) : k ∈ ["type", "enum", "anyOf", "oneOf", "allOf", "required", "items"] → Idle d m k (.arr [])
  | map (k) : k ∈ ["properties", "patternProperties", "dependencies"] → Idle d m k (.obj [])
  | any (k D) : k ∈ ["items", "additionalItems", "additionalProperties", "propertyNames"] → Anything D → Idle d m k D
  | off (k) : k ∈ ["uniqueItems", "exclusiveMinimum", "exclusiveMaximum"] → Idle d m k (.bool false)
  | noFormat : Idle d m "format" (.str "")
  | zero (k n) : k ∈ ["minLength", "minItems", "minProperties"] → n.val = 0 → Idle d m k (.num n)
  /-- (*) `additionalItems` where `items` is not a list, or is an empty one -/
  | rest (x) : (∀ D Ds, ¬ Kw m "items" (.arr (D :: Ds))) → Idle d m "additionalItems" x
  | noIf (k x) : k ∈ ["then", "else"] → getKey "if" m = none → Idle d m k x
  | onlyIf (x) : getKey "then" m = none → getKey "else" m = none → Idle d m "if" x

/-- The object without its member `k`. -/
def without (k : String) (m : List (String × Json)) : List (String × Json) := m.filter (fun e => e.1 ≠ k)

/-- Keywords whose value is a schema, a list of schemas, or a map of schemas. -/
def schemaKeywords : List String :=
  ["not", "if", "then", "else", "items", "additionalItems", "contains", "additionalProperties", "propertyNames"]
def listKeywords : List String := ["anyOf", "oneOf", "allOf", "items"]
def mapKeywords : List String := ["properties", "patternProperties", "dependencies", "definitions"]

/-- `Trim d D D'`: `D'` is `D` with one member that asks for nothing taken out, in the schema itself or in one of its
sub-schemas, at any depth. -/
inductive Trim (d : Draft) : Json → Json → Prop
  | here (m k x) : Kw m k x → Idle d m k x → Trim d (.obj m) (.obj (without k m))
  | one (a b k D D') : k ∈ schemaKeywords → Trim d D D' → Trim d (.obj (a ++ (k, D) :: b)) (.obj (a ++ (k, D') :: b))
  | list (a b k xs ys D D') : k ∈ listKeywords → Trim d D D' →
      Trim d (.obj (a ++ (k, .arr (xs ++ D :: ys)) :: b)) (.obj (a ++ (k, .arr (xs ++ D' :: ys)) :: b))
  | map (a b k xs ys q D D') : k ∈ mapKeywords → Trim d D D' →
      Trim d (.obj (a ++ (k, .obj (xs ++ (q, D) :: ys)) :: b)) (.obj (a ++ (k, .obj (xs ++ (q, D') :: ys)) :: b))

/-- Documents that differ in members that ask for nothing: some are taken out, others put in, any number of times. -/
inductive Trims (d : Draft) : Json → Json → Prop
  | refl (D) : Trims d D D
  | out (D D' D'') : Trim d D D' → Trims d D' D'' → Trims d D D''
  | put (D D' D'') : Trim d D' D → Trims d D' D'' → Trims d D D''

/-- `D'` is `D` with members that ask for nothing taken out. -/
inductive Trimmed (d : Draft) : Json → Json → Prop
  | refl (D) : Trimmed d D D
  | out (D D' D'') : Trim d D D' → Trimmed d D' D'' → Trimmed d D D''

/-- Every `$id` in the document is a reference. -/
def IdsRead (w : World) (D : Json) : Prop := ∀ m v, Within D (.obj m) → Kw m "$id" v → ∃ t, v = .str t ∧ w.norm t ≠ none

end GJS.Spec

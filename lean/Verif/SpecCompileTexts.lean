import Verif.CompileTexts
import Verif.SpecMessages
import Verif.SpecContext
import Verif.SpecLoc
import Verif.SpecReject
/-
Vocabulary for C58: what the errors of the compiler say.
-/
namespace GJS.Spec
open GJS Msg

/-- What the text of an error should say; `none` for the report of the check against the
meta-schema. -/
def complaint (out : Outside) : CErr → Option String
  | .parseError => some "Expected: valid schema, given: Invalid JSON"
  | .invalidType e g => some ("Invalid type. Expected: " ++ e ++ ", given: " ++ g)
  | .mustBeOfA x y => some (x ++ " must be of a " ++ y)
  | .mustBeOfAn x y => some (x ++ " must be of an " ++ y)
  | .mustBeOfType k t => some (k ++ " must be of type " ++ t)
  | .mustBeGTEZero k => some (k ++ " must be greater than or equal to 0")
  | .cannotBeGT x y => some (x ++ " cannot be greater than " ++ y)
  | .keyCannotBeGreaterThan k y => some (k ++ " cannot be greater than " ++ y)
  | .greaterThanZero n => some (n ++ " must be strictly greater than 0")
  | .cannotBeUsedWithout x y => some (x ++ " cannot be used without " ++ y)
  | .regexPattern p => some ("Invalid regex pattern '" ++ p ++ "'")
  | .mustBeValidRegex k => some (k ++ " must be a valid regex")
  | .keyItemsMustBeUnique k => some (k ++ " items must be unique")
  | .keyItemsMustBeOfType k t => some (k ++ " items must be " ++ t)
  | .notAValidType t => some ("has a primitive type that is NOT VALID -- given: /" ++ t ++
      "/ Expected valid values are:[array boolean integer number null object string]")
  | .duplicated t => some (t ++ " type is duplicated")
  | .referenceMustBeCanonical r => some ("Reference " ++ r ++ " must be canonical")
  | .referenceAlreadyExists r => some ("Reference already exists: \"" ++ r ++ "\"")
  | .schemaInvalid => some "schema is invalid"
  | .badReference t => some (out.badReference t)
  | .marshal => some out.marshal
  | .pointer r => some (out.pointer r)
  | .load r => some (out.load r)
  | .metaSchema _ => none

/-- The details a format may use, for each error. -/
def compileDetails : CErr → List String
  | .parseError => ["expected"]
  | .invalidType _ _ => ["expected", "given"]
  | .mustBeOfA _ _ => ["x", "y"]
  | .mustBeOfAn _ _ => ["x", "y"]
  | .mustBeOfType _ _ => ["key", "type"]
  | .mustBeGTEZero _ => ["key"]
  | .cannotBeGT _ _ => ["x", "y"]
  | .keyCannotBeGreaterThan _ _ => ["key", "y"]
  | .greaterThanZero _ => ["number"]
  | .cannotBeUsedWithout _ _ => ["x", "y"]
  | .regexPattern _ => ["pattern"]
  | .mustBeValidRegex _ => ["key"]
  | .keyItemsMustBeUnique _ => ["key"]
  | .keyItemsMustBeOfType _ _ => ["key", "type"]
  | .notAValidType _ => ["given", "expected"]
  | .duplicated _ => ["type"]
  | .referenceMustBeCanonical _ => ["reference"]
  | _ => []

/-- A line of the report: the place in the document, a colon, and the description of an error with
that place. -/
def ReportLine (num : Rat → String) (D : Json) (e : Err) (t : String) : Prop :=
  ∃ path v f, At D path v ∧
    f.toList = (if path = [] then "(root)".toList else joined ['.'] (path.map String.toList)) ∧
    t = f ++ ": " ++ message num f e.kind

/-- A text contains a word. -/
def Contains (t word : String) : Prop := ∃ a b, t = a ++ word ++ b

/-- The keywords that can be at fault in themselves. -/
def faultyKeys : List String :=
  ["id", "$id", "definitions", "title", "description", "$ref", "type", "properties", "dependencies", "additionalProperties",
   "additionalItems", "patternProperties", "required", "items", "uniqueItems", "multipleOf", "minimum", "maximum",
   "exclusiveMinimum", "exclusiveMaximum", "minLength", "maxLength", "minItems", "maxItems", "minProperties", "maxProperties",
   "pattern", "format", "enum", "oneOf", "anyOf", "not", "if", "then", "else"]

/-- What the text of an error of the object `m` tells: mostly, the keyword at fault; or the name of
the type or the regular expression at fault.  A bad dependency is only called so.  A bad
`propertyNames` is reported as `patternProperties`, a bad `allOf` as `anyOf`. -/
inductive Tells (w : World) (m : List (String × Json)) (text : String) : CErr → Prop
  | keyword (key e) : key ∈ faultyKeys → getKey key m ≠ none → Contains text key → Tells w m text e
  | type (t v e) : Kw m "type" v → (v = .str t ∨ ∃ vs, v = .arr vs ∧ .str t ∈ vs) → e = .notAValidType t ∨ e = .duplicated t →
      Contains text t → Tells w m text e
  | name (c k D) : Kw m "patternProperties" (.obj c) → (k, D) ∈ c → Contains text k → Tells w m text (.regexPattern k)
  | dependency : getKey "dependencies" m ≠ none → Contains text "dependency" →
      Tells w m text (.mustBeOfType "dependency" "schema or array of strings")
  | propertyNames : getKey "propertyNames" m ≠ none → Contains text "patternProperties" →
      Tells w m text (.invalidType "valid schema" "patternProperties")
  | allOf : getKey "allOf" m ≠ none → Contains text "anyOf" → Tells w m text (.mustBeOfAn "anyOf" "array")
  /-- the text comes from `encoding/json` -/
  | literal : getKey "const" m ≠ none ∨ getKey "enum" m ≠ none → Tells w m text .marshal
  /-- the text comes from `net/url` -/
  | url (key t) : key ∈ ["id", "$id", "$ref"] → Kw m key (.str t) → Tells w m text (.badReference t)
  /-- the reference cannot be followed, or leads to no schema -/
  | reference (t u e) : Kw m "$ref" (.str t) → w.norm t = some u →
      e = .load u ∨ e = .pointer u ∨ e = .referenceMustBeCanonical u ∧ Contains text u ∨
        e = .mustBeOfType "valid schema" "object" → Tells w m text e

end GJS.Spec

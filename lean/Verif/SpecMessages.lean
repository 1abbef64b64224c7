import Verif.Messages
/-
Vocabulary for C51.
-/
namespace GJS.Spec
open Msg

/-- What the description of an error should say, given how numbers are written and the field. -/
def message (num : Rat → String) (field : String) : ErrKind → String
  | .false_ => "False always fails validation"
  | .required p => p ++ " is required"
  | .invalidType e g => "Invalid type. Expected: " ++ e ++ ", given: " ++ g
  | .numberAnyOf => "Must validate at least one schema (anyOf)"
  | .numberOneOf => "Must validate one and only one schema (oneOf)"
  | .numberAllOf => "Must validate all the schemas (allOf)"
  | .numberNot => "Must not validate the schema (not)"
  | .missingDependency d => "Has a dependency on " ++ d
  | .internal => "Internal Error <no value>"
  | .const a => field ++ " does not match: " ++ a
  | .enum a => field ++ " must be one of the following: " ++ a
  | .arrayNoAdditionalItems => "No additional items allowed on array"
  | .arrayMinItems z => "Array must have at least " ++ toString z ++ " items"
  | .arrayMaxItems z => "Array must have at most " ++ toString z ++ " items"
  | .unique i j => "array items[" ++ toString i ++ "," ++ toString j ++ "] must be unique"
  | .contains => "At least one of the items must match"
  | .arrayMinProperties z => "Must have at least " ++ toString z ++ " properties"
  | .arrayMaxProperties z => "Must have at most " ++ toString z ++ " properties"
  | .additionalPropertyNotAllowed p => "Additional property " ++ p ++ " is not allowed"
  | .invalidPropertyPattern => "Property \"<no value>\" does not match pattern <no value>"
  | .invalidPropertyName p => "Property name of \"" ++ p ++ "\" does not match"
  | .stringGTE z => "String length must be greater than or equal to " ++ toString z
  | .stringLTE z => "String length must be less than or equal to " ++ toString z
  | .pattern p => "Does not match pattern '" ++ p ++ "'"
  | .format f => "Does not match format '" ++ f ++ "'"
  | .multipleOf q => "Must be a multiple of " ++ num q
  | .numberGTE q => "Must be greater than or equal to " ++ num q
  | .numberGT q => "Must be greater than " ++ num q
  | .numberLTE q => "Must be less than or equal to " ++ num q
  | .numberLT q => "Must be less than " ++ num q
  | .conditionThen => "Must validate \"then\" as \"if\" was valid"
  | .conditionElse => "Must validate \"else\" as \"if\" was not valid"

/-- The types of errors, as the comments in `/repo/errors.go` 18-209 and `README.md` list them. -/
def errorTypes : List (ErrKind × String) :=
  [(.false_, "false"), (.required "", "required"), (.invalidType "" "", "invalid_type"), (.numberAnyOf, "number_any_of"),
   (.numberOneOf, "number_one_of"), (.numberAllOf, "number_all_of"), (.numberNot, "number_not"),
   (.missingDependency "", "missing_dependency"), (.internal, "internal"), (.const "", "const"), (.enum "", "enum"),
   (.arrayNoAdditionalItems, "array_no_additional_items"), (.arrayMinItems 0, "array_min_items"),
   (.arrayMaxItems 0, "array_max_items"), (.unique 0 0, "unique"), (.contains, "contains"),
   (.arrayMinProperties 0, "array_min_properties"), (.arrayMaxProperties 0, "array_max_properties"),
   (.additionalPropertyNotAllowed "", "additional_property_not_allowed"),
   (.invalidPropertyPattern, "invalid_property_pattern"), (.invalidPropertyName "", "invalid_property_name"),
   (.stringGTE 0, "string_gte"), (.stringLTE 0, "string_lte"), (.pattern "", "pattern"), (.format "", "format"),
   (.multipleOf 0, "multiple_of"), (.numberGTE 0, "number_gte"), (.numberGT 0, "number_gt"), (.numberLTE 0, "number_lte"),
   (.numberLT 0, "number_lt"), (.conditionThen, "condition_then"), (.conditionElse, "condition_else")]

/-- The kind of an error without its details. -/
def bare : ErrKind → ErrKind
  | .required _ => .required ""
  | .invalidType _ _ => .invalidType "" ""
  | .missingDependency _ => .missingDependency ""
  | .const _ => .const ""
  | .enum _ => .enum ""
  | .arrayMinItems _ => .arrayMinItems 0
  | .arrayMaxItems _ => .arrayMaxItems 0
  | .unique _ _ => .unique 0 0
  | .arrayMinProperties _ => .arrayMinProperties 0
  | .arrayMaxProperties _ => .arrayMaxProperties 0
  | .additionalPropertyNotAllowed _ => .additionalPropertyNotAllowed ""
  | .invalidPropertyName _ => .invalidPropertyName ""
  | .stringGTE _ => .stringGTE 0
  | .stringLTE _ => .stringLTE 0
  | .pattern _ => .pattern ""
  | .format _ => .format ""
  | .multipleOf _ => .multipleOf 0
  | .numberGTE _ => .numberGTE 0
  | .numberGT _ => .numberGT 0
  | .numberLTE _ => .numberLTE 0
  | .numberLT _ => .numberLT 0
  | k => k

/-- The details that the comments in `/repo/errors.go` 18-209 promise for the type of the error. -/
def promised (type : String) : List String :=
  match type with
  | "required" => ["property"]
  | "invalid_type" => ["expected", "given"]
  | "missing_dependency" => ["dependency"]
  | "internal" => ["error"]
  | "const" => ["allowed"]
  | "enum" => ["allowed"]
  | "array_min_items" => ["min"]
  | "array_max_items" => ["max"]
  | "unique" => ["type", "i", "j"]
  | "array_min_properties" => ["min"]
  | "array_max_properties" => ["max"]
  | "additional_property_not_allowed" => ["property"]
  | "invalid_property_pattern" => ["property", "pattern"]
  | "invalid_property_name" => ["property"]
  | "string_gte" => ["min"]
  | "string_lte" => ["max"]
  | "pattern" => ["pattern"]
  | "format" => ["format"]
  | "multiple_of" => ["multiple"]
  | "number_gte" => ["min"]
  | "number_gt" => ["min"]
  | "number_lte" => ["max"]
  | "number_lt" => ["max"]
  | _ => []

/-- A format made of text and promised details. -/
inductive Written (names : List String) : String → List Piece → Prop
  | done : Written names "" []
  | text (t s ps) : '{' ∉ t.toList → Written names s ps → Written names (t ++ s) (.text t :: ps)
  | brace (c s ps) : c ≠ '{' → Written names s ps →
      Written names (String.ofList ['{', c] ++ s) (.text (String.ofList ['{', c]) :: ps)
  | field (n s ps) : n ∈ names → n ≠ "" → (∀ c ∈ n.toList, isNameChar c = true) → Written names s ps →
      Written names ("{{." ++ n ++ "}}" ++ s) (.field n :: ps)

/-- The text with the values in place of the details. -/
def filled (value : String → String) : List Piece → String
  | [] => ""
  | .text t :: ps => t ++ filled value ps
  | .field n :: ps => value n ++ filled value ps

end GJS.Spec

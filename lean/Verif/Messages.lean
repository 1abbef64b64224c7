import Verif.Context
/-
Error descriptions: `newError` (`/repo/errors.go` 213-327), the detail maps of `/repo/validation.go`,
the formats of `DefaultLocale` (`/repo/locales.go` 190-472) and `ResultErrorFields.String`
(`/repo/result.go` 158-182).

Of `text/template` the part the formats use is modelled: literal text and actions `{{.name}}`. For
other formats the rendering is a parameter. How `fmt` prints a `*big.Float` is a parameter too. The
cache of parsed templates is in `Verif.Templates`.
-/
namespace GJS.Msg
open GJS

/-- A value in a detail map, by its Go type: `string`, `int`, `*big.Float` (made from a rational),
`*regexp.Regexp` (with its source), `[]string`. -/
inductive DVal where
  | str (s : String)
  | int (z : Int)
  | big (q : Rat)
  | regexp (p : String)
  | strs (l : List String)
deriving DecidableEq, Repr

/-- `ErrorDetails` (`/repo/result.go` 35-36). -/
abbrev Details := List (String × DVal)

/-- `fmt` and the rest of `text/template`. -/
structure Printer where
  big : Rat → String
  other : String → Details → String

/-- `fmt.Fprint` as `text/template` calls it. -/
def Printer.print (pr : Printer) : DVal → String
  | .str s => s
  | .int z => toString z
  | .big q => pr.big q
  | .regexp p => p
  | .strs l => "[" ++ " ".intercalate l ++ "]"

/-- A part of a template. -/
inductive Piece where
  | text (s : String)
  | field (name : String)
deriving DecidableEq, Repr

/-- Letters, digits and `_`. -/
def isNameChar (c : Char) : Bool := c.isAlphanum || c == '_'

/-- Where the parser is: in text, after `{`, after `{{`, in a name, after `}`. -/
inductive PState where
  | text (acc : List Char)
  | brace (acc : List Char)
  | dot
  | name (acc : List Char)
  | close (acc : List Char)

/-- The parser of `text/template`, for text and `{{.name}}`; `none` for everything else. -/
def pieces : PState → List Char → Option (List Piece)
  | .text acc, [] => some [.text (String.ofList acc)]
  | .text acc, c :: cs => if c = '{' then pieces (.brace acc) cs else pieces (.text (acc ++ [c])) cs
  | .brace acc, [] => some [.text (String.ofList (acc ++ ['{']))]
  | .brace acc, c :: cs =>
    if c = '{' then (pieces .dot cs).map (.text (String.ofList acc) :: ·)
    else pieces (.text (acc ++ ['{', c])) cs
  | .dot, [] => none
  | .dot, c :: cs => if c = '.' then pieces (.name []) cs else none
  | .name _, [] => none
  | .name acc, c :: cs =>
    if c = '}' then (if acc = [] then none else pieces (.close acc) cs)
    else if isNameChar c then pieces (.name (acc ++ [c])) cs else none
  | .close _, [] => none
  | .close acc, c :: cs =>
    if c = '}' then (pieces (.text []) cs).map (.field (String.ofList acc) :: ·) else none

/-- `tpl.Parse` -/
def parseFormat (s : String) : Option (List Piece) := pieces (.text []) s.toList

/-- `tpl.Execute` on a detail map: a missing entry prints as `<no value>`. -/
def renderPiece (pr : Printer) (d : Details) : Piece → String
  | .text s => s
  | .field n =>
    match getKey n d with
    | some x => pr.print x
    | none => "<no value>"

/-- `tpl.Execute`, all of it. -/
def renderPieces (pr : Printer) (d : Details) : List Piece → String
  | [] => ""
  | p :: ps => renderPiece pr d p ++ renderPieces pr d ps

/-- `formatErrorDescription` (`/repo/errors.go` 332-364). -/
def formatErrorDescription (pr : Printer) (s : String) (d : Details) : String :=
  match parseFormat s with
  | some ps => renderPieces pr d ps
  | none => pr.other s d

/-- The formats of a `locale` (`/repo/locales.go` 29-188) that `newError` and `String` use. -/
structure Locale where
  false_ : String
  required : String
  invalidType : String
  numberAnyOf : String
  numberOneOf : String
  numberAllOf : String
  numberNot : String
  missingDependency : String
  internal : String
  const : String
  enum : String
  arrayNoAdditionalItems : String
  arrayMinItems : String
  arrayMaxItems : String
  unique : String
  arrayContains : String
  arrayMinProperties : String
  arrayMaxProperties : String
  additionalPropertyNotAllowed : String
  invalidPropertyPattern : String
  invalidPropertyName : String
  stringGTE : String
  stringLTE : String
  doesNotMatchPattern : String
  doesNotMatchFormat : String
  multipleOf : String
  numberGTE : String
  numberGT : String
  numberLTE : String
  numberLT : String
  conditionThen : String
  conditionElse : String
  errorFormat : String

/-- `DefaultLocale` (`/repo/locales.go` 190-458). -/
def defaultLocale : Locale where
  false_ := "False always fails validation"
  required := "{{.property}} is required"
  invalidType := "Invalid type. Expected: {{.expected}}, given: {{.given}}"
  numberAnyOf := "Must validate at least one schema (anyOf)"
  numberOneOf := "Must validate one and only one schema (oneOf)"
  numberAllOf := "Must validate all the schemas (allOf)"
  numberNot := "Must not validate the schema (not)"
  missingDependency := "Has a dependency on {{.dependency}}"
  internal := "Internal Error {{.error}}"
  const := "{{.field}} does not match: {{.allowed}}"
  enum := "{{.field}} must be one of the following: {{.allowed}}"
  arrayNoAdditionalItems := "No additional items allowed on array"
  arrayMinItems := "Array must have at least {{.min}} items"
  arrayMaxItems := "Array must have at most {{.max}} items"
  unique := "{{.type}} items[{{.i}},{{.j}}] must be unique"
  arrayContains := "At least one of the items must match"
  arrayMinProperties := "Must have at least {{.min}} properties"
  arrayMaxProperties := "Must have at most {{.max}} properties"
  additionalPropertyNotAllowed := "Additional property {{.property}} is not allowed"
  invalidPropertyPattern := "Property \"{{.property}}\" does not match pattern {{.pattern}}"
  invalidPropertyName := "Property name of \"{{.property}}\" does not match"
  stringGTE := "String length must be greater than or equal to {{.min}}"
  stringLTE := "String length must be less than or equal to {{.max}}"
  doesNotMatchPattern := "Does not match pattern '{{.pattern}}'"
  doesNotMatchFormat := "Does not match format '{{.format}}'"
  multipleOf := "Must be a multiple of {{.multiple}}"
  numberGTE := "Must be greater than or equal to {{.min}}"
  numberGT := "Must be greater than {{.min}}"
  numberLTE := "Must be less than or equal to {{.max}}"
  numberLT := "Must be less than {{.max}}"
  conditionThen := "Must validate \"then\" as \"if\" was valid"
  conditionElse := "Must validate \"else\" as \"if\" was not valid"
  errorFormat := "{{.field}}: {{.description}}"

/-- The switch of `newError` (`/repo/errors.go` 216-312), its second result. -/
def Locale.format (loc : Locale) : ErrKind → String
  | .false_ => loc.false_
  | .required _ => loc.required
  | .invalidType _ _ => loc.invalidType
  | .numberAnyOf => loc.numberAnyOf
  | .numberOneOf => loc.numberOneOf
  | .numberAllOf => loc.numberAllOf
  | .numberNot => loc.numberNot
  | .missingDependency _ => loc.missingDependency
  | .internal => loc.internal
  | .const _ => loc.const
  | .enum _ => loc.enum
  | .arrayNoAdditionalItems => loc.arrayNoAdditionalItems
  | .arrayMinItems _ => loc.arrayMinItems
  | .arrayMaxItems _ => loc.arrayMaxItems
  | .unique _ _ => loc.unique
  | .contains => loc.arrayContains
  | .arrayMinProperties _ => loc.arrayMinProperties
  | .arrayMaxProperties _ => loc.arrayMaxProperties
  | .additionalPropertyNotAllowed _ => loc.additionalPropertyNotAllowed
  | .invalidPropertyPattern => loc.invalidPropertyPattern
  | .invalidPropertyName _ => loc.invalidPropertyName
  | .stringGTE _ => loc.stringGTE
  | .stringLTE _ => loc.stringLTE
  | .pattern _ => loc.doesNotMatchPattern
  | .format _ => loc.doesNotMatchFormat
  | .multipleOf _ => loc.multipleOf
  | .numberGTE _ => loc.numberGTE
  | .numberGT _ => loc.numberGT
  | .numberLTE _ => loc.numberLTE
  | .numberLT _ => loc.numberLT
  | .conditionThen => loc.conditionThen
  | .conditionElse => loc.conditionElse

/-- The detail maps at the call sites of `addInternalError` in `/repo/validation.go` (85, 104-107,
136-139, 165-168, 188-191, 223-226, 245-248, 294, 320, 343, 350, 367, 385, 392, 418-420, 436-438,
450, 493, 514, 524, 542, 573, 598, 608, 623, 652, 670-672, 733, 743, 755, 786-788, 800-802, 812-814,
826-828, 838-840). The map of an `InternalError` is left empty (the text of the Go error is not
modelled, and the program panics right after). -/
def detailsOf : ErrKind → Details
  | .required p => [("property", .str p)]
  | .invalidType e g => [("expected", .str e), ("given", .str g)]
  | .missingDependency d => [("dependency", .str d)]
  | .const a => [("allowed", .str a)]
  | .enum a => [("allowed", .str a)]
  | .arrayMinItems z => [("min", .int z)]
  | .arrayMaxItems z => [("max", .int z)]
  | .unique i j => [("type", .str "array"), ("i", .int i), ("j", .int j)]
  | .arrayMinProperties z => [("min", .int z)]
  | .arrayMaxProperties z => [("max", .int z)]
  | .additionalPropertyNotAllowed p => [("property", .str p)]
  | .invalidPropertyName p => [("property", .str p)]
  | .stringGTE z => [("min", .int z)]
  | .stringLTE z => [("max", .int z)]
  | .pattern p => [("pattern", .regexp p)]
  | .format f => [("format", .str f)]
  | .multipleOf q => [("multiple", .big q)]
  | .numberGTE q => [("min", .big q)]
  | .numberGT q => [("min", .big q)]
  | .numberLTE q => [("max", .big q)]
  | .numberLT q => [("max", .big q)]
  | .false_ => []
  | .numberAnyOf => []
  | .numberOneOf => []
  | .numberAllOf => []
  | .numberNot => []
  | .internal => []
  | .arrayNoAdditionalItems => []
  | .contains => []
  | .invalidPropertyPattern => []
  | .conditionThen => []
  | .conditionElse => []

/-- `m[k] = v` -/
def put (m : Details) (k : String) (v : DVal) : Details := (k, v) :: m.filter (fun kv => !(kv.1 == k))

/-- The details after `newError` (`/repo/errors.go` 319-324). -/
def fullDetails (k : ErrKind) (c : Ctx) : Exec Details := do
  let f ← fieldOf c
  let d := put (detailsOf k) "field" (.str f)
  match getKey "context" d with
  | some _ => return d
  | none =>
    let t ← ctxString [] c
    return put d "context" (.str t)

/-- The description `newError` sets (`/repo/errors.go` 326). -/
def description (pr : Printer) (loc : Locale) (e : Err) : Exec String := do
  let d ← fullDetails e.kind e.ctx
  return formatErrorDescription pr (loc.format e.kind) d

/-- The value shown by `String` (`/repo/result.go` 160-173): `marshal` is `marshalToJSONString`,
`goStyle` is `fmt.Sprintf("%v", ·)`. -/
def valueString (marshal : Json → Option String) (goStyle : Json → String) (v : Json) : String :=
  match v with
  | .null => "null"
  | v => (marshal v).getD (goStyle v)

/-- `ResultErrorFields.String` (`/repo/result.go` 158-182). -/
def errString (pr : Printer) (loc : Locale) (marshal : Json → Option String) (goStyle : Json → String) (e : Err) : Exec String := do
  let desc ← description pr loc e
  let t ← ctxString [] e.ctx
  let f ← fieldOf e.ctx
  return formatErrorDescription pr loc.errorFormat
    [("context", .str t), ("description", .str desc), ("value", .str (valueString marshal goStyle e.value)), ("field", .str f)]

end GJS.Msg

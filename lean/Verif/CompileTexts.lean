import Verif.Messages
import Verif.Parse
/-
Texts of the errors of the compiler and the loader: the detail maps of `/repo/schema.go`,
`/repo/schemaType.go`, `/repo/schemaPool.go`, `/repo/draft.go`, the formats of `DefaultLocale`
(`/repo/locales.go` 350-446) and the report of the check against the meta-schema
(`/repo/schemaLoader.go` 82-89).

Texts made outside the package (of `net/url`, `encoding/json`, `gojsonpointer`, of files and HTTP)
are parameters.
-/
namespace GJS.Msg
open GJS

/-- Texts of errors that come from other packages, or from loading a document
(`/repo/jsonLoader.go` 132-204). -/
structure Outside where
  badReference : String → String
  marshal : String
  pointer : String → String
  load : String → String

/-- The formats of a `locale` (`/repo/locales.go` 29-188) that the compiler uses. -/
structure CompileLocale where
  invalidType : String
  regexPattern : String
  greaterThanZero : String
  mustBeOfA : String
  mustBeOfAn : String
  cannotBeUsedWithout : String
  cannotBeGT : String
  mustBeOfType : String
  mustBeValidRegex : String
  mustBeGTEZero : String
  keyCannotBeGreaterThan : String
  keyItemsMustBeOfType : String
  keyItemsMustBeUnique : String
  referenceMustBeCanonical : String
  notAValidType : String
  duplicated : String
  parseError : String

/-- `DefaultLocale` (`/repo/locales.go` 205-208, 350-446). -/
def defaultCompileLocale : CompileLocale where
  invalidType := "Invalid type. Expected: {{.expected}}, given: {{.given}}"
  regexPattern := "Invalid regex pattern '{{.pattern}}'"
  greaterThanZero := "{{.number}} must be strictly greater than 0"
  mustBeOfA := "{{.x}} must be of a {{.y}}"
  mustBeOfAn := "{{.x}} must be of an {{.y}}"
  cannotBeUsedWithout := "{{.x}} cannot be used without {{.y}}"
  cannotBeGT := "{{.x}} cannot be greater than {{.y}}"
  mustBeOfType := "{{.key}} must be of type {{.type}}"
  mustBeValidRegex := "{{.key}} must be a valid regex"
  mustBeGTEZero := "{{.key}} must be greater than or equal to 0"
  keyCannotBeGreaterThan := "{{.key}} cannot be greater than {{.y}}"
  keyItemsMustBeOfType := "{{.key}} items must be {{.type}}"
  keyItemsMustBeUnique := "{{.key}} items must be unique"
  referenceMustBeCanonical := "Reference {{.reference}} must be canonical"
  notAValidType := "has a primitive type that is NOT VALID -- given: {{.given}} Expected valid values are:{{.expected}}"
  duplicated := "{{.type}} type is duplicated"
  parseError := "Expected: {{.expected}}, given: Invalid JSON"

/-- The format and the detail map at the places in `/repo/schema.go` (95-100, 128-136, 166-183,
188-196, 201-209, 216-224, 262-284, 307-315, 326-331, 341-348, 360-368, 391-399, 412-419, 434-441,
448-463, 468-473, 480-533, 539-544, 551-604, 612-623, 629-640, 646-650, 656-667, 673-678, 686-724,
732-751, 758-787, 794-798, 829-840, 856-860, 874-878, 892-896, 907-911, 924-928, 940-944, 956-960,
995-999, 1013-1016, 1036-1039, 1054-1061, 1075-1081), `/repo/schemaType.go` (46-52),
`/repo/schemaPool.go` (188-192) and `/repo/draft.go` (103-109) that make the error; `none`: the error
is not made by `formatErrorDescription`. -/
def CompileLocale.formatted (loc : CompileLocale) : CErr → Option (String × Details)
  | .parseError => some (loc.parseError, [("expected", .str "valid schema")])
  | .invalidType e g => some (loc.invalidType, [("expected", .str e), ("given", .str g)])
  | .mustBeOfA x y => some (loc.mustBeOfA, [("x", .str x), ("y", .str y)])
  | .mustBeOfAn x y => some (loc.mustBeOfAn, [("x", .str x), ("y", .str y)])
  | .mustBeOfType k t => some (loc.mustBeOfType, [("key", .str k), ("type", .str t)])
  | .mustBeGTEZero k => some (loc.mustBeGTEZero, [("key", .str k)])
  | .cannotBeGT x y => some (loc.cannotBeGT, [("x", .str x), ("y", .str y)])
  | .keyCannotBeGreaterThan k y => some (loc.keyCannotBeGreaterThan, [("key", .str k), ("y", .str y)])
  | .greaterThanZero n => some (loc.greaterThanZero, [("number", .str n)])
  | .cannotBeUsedWithout x y => some (loc.cannotBeUsedWithout, [("x", .str x), ("y", .str y)])
  | .regexPattern p => some (loc.regexPattern, [("pattern", .str p)])
  | .mustBeValidRegex k => some (loc.mustBeValidRegex, [("key", .str k)])
  | .keyItemsMustBeUnique k => some (loc.keyItemsMustBeUnique, [("key", .str k)])
  | .keyItemsMustBeOfType k t => some (loc.keyItemsMustBeOfType, [("key", .str k), ("type", .str t)])
  | .notAValidType t => some (loc.notAValidType, [("given", .str ("/" ++ t ++ "/")), ("expected", .strs jsonTypes)])
  | .duplicated t => some (loc.duplicated, [("type", .str t)])
  | .referenceMustBeCanonical r => some (loc.referenceMustBeCanonical, [("reference", .str r)])
  | .badReference _ => none
  | .marshal => none
  | .referenceAlreadyExists _ => none
  | .pointer _ => none
  | .load _ => none
  | .schemaInvalid => none
  | .metaSchema _ => none

/-- The loop over the errors of the check against the meta-schema
(`/repo/schemaLoader.go` 83-87). -/
def report (str : Err → Exec String) : List Err → Exec String
  | [] => return ""
  | e :: es => do
    let t ← str e
    let rest ← report str es
    return t ++ "\n" ++ rest

/-- `err.Error()` for the errors of the compiler and the loader; `str` is `ResultError.String`.
(`/repo/schemaPool.go` 57, 101; `/repo/draft.go` 97; `/repo/schemaLoader.go` 82-89 for those
without format.) -/
def errorText (pr : Printer) (out : Outside) (loc : CompileLocale) (str : Err → Exec String) (e : CErr) : Exec String :=
  match loc.formatted e with
  | some (s, d) => return formatErrorDescription pr s d
  | none =>
    match e with
    | .badReference t => return out.badReference t
    | .marshal => return out.marshal
    | .referenceAlreadyExists r => return "Reference already exists: \"" ++ r ++ "\""
    | .pointer r => return out.pointer r
    | .load r => return out.load r
    | .schemaInvalid => return "schema is invalid"
    | .metaSchema es => report str es
    | _ => return ""

end GJS.Msg

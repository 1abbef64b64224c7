import Verif.Json
/-
The meta-schemas of the drafts 4, 6 and 7, as documents.
-/
namespace GJS.Spec.Meta
open GJS

/-- A non-negative integer. -/
def num (n : Nat) : Json := .num ⟨false, n, [], none⟩
/-- A reference. -/
def ref (t : String) : Json := .obj [("$ref", .str t)]
/-- Of one type. -/
def typ (s : String) : Json := .obj [("type", .str s)]

/-- The definitions of the meta-schema of draft 4. -/
def defs4 (self : Json) (defn : String → Json) : List (String × Json) := [
  ("schemaArray", .obj [("type", .str "array"), ("minItems", num 1), ("items", self)]),
  ("positiveInteger", .obj [("type", .str "integer"), ("minimum", num 0)]),
  ("positiveIntegerDefault0", .obj [("allOf", .arr [defn "positiveInteger", .obj [("default", num 0)]])]),
  ("simpleTypes", .obj [
    ("enum", .arr [.str "array", .str "boolean", .str "integer", .str "null", .str "number", .str "object", .str "string"])]),
  ("stringArray", .obj [
    ("type", .str "array"),
    ("items", typ "string"),
    ("minItems", num 1),
    ("uniqueItems", .bool true)])]

/-- Its `properties`, draft 4. -/
def props4 (self : Json) (defn : String → Json) : List (String × Json) := [
  ("id", typ "string"),
  ("$schema", typ "string"),
  ("title", typ "string"),
  ("description", typ "string"),
  ("default", .obj []),
  ("multipleOf", .obj [("type", .str "number"), ("minimum", num 0), ("exclusiveMinimum", .bool true)]),
  ("maximum", typ "number"),
  ("exclusiveMaximum", .obj [("type", .str "boolean"), ("default", .bool false)]),
  ("minimum", typ "number"),
  ("exclusiveMinimum", .obj [("type", .str "boolean"), ("default", .bool false)]),
  ("maxLength", defn "positiveInteger"),
  ("minLength", defn "positiveIntegerDefault0"),
  ("pattern", .obj [("type", .str "string"), ("format", .str "regex")]),
  ("additionalItems", .obj [("anyOf", .arr [typ "boolean", self]), ("default", .obj [])]),
  ("items", .obj [("anyOf", .arr [self, defn "schemaArray"]), ("default", .obj [])]),
  ("maxItems", defn "positiveInteger"),
  ("minItems", defn "positiveIntegerDefault0"),
  ("uniqueItems", .obj [("type", .str "boolean"), ("default", .bool false)]),
  ("maxProperties", defn "positiveInteger"),
  ("minProperties", defn "positiveIntegerDefault0"),
  ("required", defn "stringArray"),
  ("additionalProperties", .obj [("anyOf", .arr [typ "boolean", self]), ("default", .obj [])]),
  ("definitions", .obj [("type", .str "object"), ("additionalProperties", self), ("default", .obj [])]),
  ("properties", .obj [("type", .str "object"), ("additionalProperties", self), ("default", .obj [])]),
  ("patternProperties", .obj [("type", .str "object"), ("additionalProperties", self), ("default", .obj [])]),
  ("dependencies", .obj [
    ("type", .str "object"),
    ("additionalProperties", .obj [("anyOf", .arr [self, defn "stringArray"])])]),
  ("enum", .obj [("type", .str "array"), ("minItems", num 1), ("uniqueItems", .bool true)]),
  ("type", .obj [
    ("anyOf", .arr [defn "simpleTypes", .obj [
        ("type", .str "array"),
        ("items", defn "simpleTypes"),
        ("minItems", num 1),
        ("uniqueItems", .bool true)]])]),
  ("format", typ "string"),
  ("allOf", defn "schemaArray"),
  ("anyOf", defn "schemaArray"),
  ("oneOf", defn "schemaArray"),
  ("not", self)]

/-- The meta-schema of draft 4, where `self` stands for the meta-schema itself and `defn` for its
definitions. -/
def draft4At (self : Json) (defn : String → Json) : Json := .obj [
  ("id", .str "http://json-schema.org/draft-04/schema#"),
  ("$schema", .str "http://json-schema.org/draft-04/schema#"),
  ("description", .str "Core schema meta-schema"),
  ("definitions", .obj (defs4 self defn)),
  ("type", .str "object"),
  ("properties", .obj (props4 self defn)),
  ("dependencies", .obj [
    ("exclusiveMaximum", .arr [.str "maximum"]),
    ("exclusiveMinimum", .arr [.str "minimum"])]),
  ("default", .obj [])]

/-- The definitions of the meta-schemas of drafts 6 and 7. -/
def defs6 (self : Json) (defn : String → Json) : List (String × Json) := [
  ("schemaArray", .obj [("type", .str "array"), ("minItems", num 1), ("items", self)]),
  ("nonNegativeInteger", .obj [("type", .str "integer"), ("minimum", num 0)]),
  ("nonNegativeIntegerDefault0", .obj [("allOf", .arr [defn "nonNegativeInteger", .obj [("default", num 0)]])]),
  ("simpleTypes", .obj [
    ("enum", .arr [.str "array", .str "boolean", .str "integer", .str "null", .str "number", .str "object", .str "string"])]),
  ("stringArray", .obj [
    ("type", .str "array"),
    ("items", typ "string"),
    ("uniqueItems", .bool true),
    ("default", .arr [])])]

/-- Its `properties`, draft 6. -/
def props6 (self : Json) (defn : String → Json) : List (String × Json) := [
  ("$id", .obj [("type", .str "string"), ("format", .str "uri-reference")]),
  ("$schema", .obj [("type", .str "string"), ("format", .str "uri")]),
  ("$ref", .obj [("type", .str "string"), ("format", .str "uri-reference")]),
  ("title", typ "string"),
  ("description", typ "string"),
  ("default", .obj []),
  ("examples", .obj [("type", .str "array"), ("items", .obj [])]),
  ("multipleOf", .obj [("type", .str "number"), ("exclusiveMinimum", num 0)]),
  ("maximum", typ "number"),
  ("exclusiveMaximum", typ "number"),
  ("minimum", typ "number"),
  ("exclusiveMinimum", typ "number"),
  ("maxLength", defn "nonNegativeInteger"),
  ("minLength", defn "nonNegativeIntegerDefault0"),
  ("pattern", .obj [("type", .str "string"), ("format", .str "regex")]),
  ("additionalItems", self),
  ("items", .obj [("anyOf", .arr [self, defn "schemaArray"]), ("default", .obj [])]),
  ("maxItems", defn "nonNegativeInteger"),
  ("minItems", defn "nonNegativeIntegerDefault0"),
  ("uniqueItems", .obj [("type", .str "boolean"), ("default", .bool false)]),
  ("contains", self),
  ("maxProperties", defn "nonNegativeInteger"),
  ("minProperties", defn "nonNegativeIntegerDefault0"),
  ("required", defn "stringArray"),
  ("additionalProperties", self),
  ("definitions", .obj [("type", .str "object"), ("additionalProperties", self), ("default", .obj [])]),
  ("properties", .obj [("type", .str "object"), ("additionalProperties", self), ("default", .obj [])]),
  ("patternProperties", .obj [("type", .str "object"), ("additionalProperties", self), ("default", .obj [])]),
  ("dependencies", .obj [
    ("type", .str "object"),
    ("additionalProperties", .obj [("anyOf", .arr [self, defn "stringArray"])])]),
  ("propertyNames", self),
  ("const", .obj []),
  ("enum", .obj [("type", .str "array"), ("minItems", num 1), ("uniqueItems", .bool true)]),
  ("type", .obj [
    ("anyOf", .arr [defn "simpleTypes", .obj [
        ("type", .str "array"),
        ("items", defn "simpleTypes"),
        ("minItems", num 1),
        ("uniqueItems", .bool true)]])]),
  ("format", typ "string"),
  ("allOf", defn "schemaArray"),
  ("anyOf", defn "schemaArray"),
  ("oneOf", defn "schemaArray"),
  ("not", self)]

/-- The meta-schema of draft 6, where `self` stands for the meta-schema itself and `defn` for its
definitions. -/
def draft6At (self : Json) (defn : String → Json) : Json := .obj [
  ("$schema", .str "http://json-schema.org/draft-06/schema#"),
  ("$id", .str "http://json-schema.org/draft-06/schema#"),
  ("title", .str "Core schema meta-schema"),
  ("definitions", .obj (defs6 self defn)),
  ("type", .arr [.str "object", .str "boolean"]),
  ("properties", .obj (props6 self defn)),
  ("default", .obj [])]

/-- Its `properties`, draft 7. -/
def props7 (self : Json) (defn : String → Json) : List (String × Json) := [
  ("$id", .obj [("type", .str "string"), ("format", .str "uri-reference")]),
  ("$schema", .obj [("type", .str "string"), ("format", .str "uri")]),
  ("$ref", .obj [("type", .str "string"), ("format", .str "uri-reference")]),
  ("$comment", typ "string"),
  ("title", typ "string"),
  ("description", typ "string"),
  ("default", .bool true),
  ("readOnly", .obj [("type", .str "boolean"), ("default", .bool false)]),
  ("examples", .obj [("type", .str "array"), ("items", .bool true)]),
  ("multipleOf", .obj [("type", .str "number"), ("exclusiveMinimum", num 0)]),
  ("maximum", typ "number"),
  ("exclusiveMaximum", typ "number"),
  ("minimum", typ "number"),
  ("exclusiveMinimum", typ "number"),
  ("maxLength", defn "nonNegativeInteger"),
  ("minLength", defn "nonNegativeIntegerDefault0"),
  ("pattern", .obj [("type", .str "string"), ("format", .str "regex")]),
  ("additionalItems", self),
  ("items", .obj [("anyOf", .arr [self, defn "schemaArray"]), ("default", .bool true)]),
  ("maxItems", defn "nonNegativeInteger"),
  ("minItems", defn "nonNegativeIntegerDefault0"),
  ("uniqueItems", .obj [("type", .str "boolean"), ("default", .bool false)]),
  ("contains", self),
  ("maxProperties", defn "nonNegativeInteger"),
  ("minProperties", defn "nonNegativeIntegerDefault0"),
  ("required", defn "stringArray"),
  ("additionalProperties", self),
  ("definitions", .obj [("type", .str "object"), ("additionalProperties", self), ("default", .obj [])]),
  ("properties", .obj [("type", .str "object"), ("additionalProperties", self), ("default", .obj [])]),
  ("patternProperties", .obj [
    ("type", .str "object"),
    ("additionalProperties", self),
    ("propertyNames", .obj [("format", .str "regex")]),
    ("default", .obj [])]),
  ("dependencies", .obj [
    ("type", .str "object"),
    ("additionalProperties", .obj [("anyOf", .arr [self, defn "stringArray"])])]),
  ("propertyNames", self),
  ("const", .bool true),
  ("enum", .obj [
    ("type", .str "array"),
    ("items", .bool true),
    ("minItems", num 1),
    ("uniqueItems", .bool true)]),
  ("type", .obj [
    ("anyOf", .arr [defn "simpleTypes", .obj [
        ("type", .str "array"),
        ("items", defn "simpleTypes"),
        ("minItems", num 1),
        ("uniqueItems", .bool true)]])]),
  ("format", typ "string"),
  ("contentMediaType", typ "string"),
  ("contentEncoding", typ "string"),
  ("if", self),
  ("then", self),
  ("else", self),
  ("allOf", defn "schemaArray"),
  ("anyOf", defn "schemaArray"),
  ("oneOf", defn "schemaArray"),
  ("not", self)]

/-- The meta-schema of draft 7, where `self` stands for the meta-schema itself and `defn` for its
definitions. -/
def draft7At (self : Json) (defn : String → Json) : Json := .obj [
  ("$schema", .str "http://json-schema.org/draft-07/schema#"),
  ("$id", .str "http://json-schema.org/draft-07/schema#"),
  ("title", .str "Core schema meta-schema"),
  ("definitions", .obj (defs6 self defn)),
  ("type", .arr [.str "object", .str "boolean"]),
  ("properties", .obj (props7 self defn)),
  ("default", .bool true)]

/-- The meta-schema of draft 4. -/
def draft4 : Json := draft4At (ref "#") fun s => ref ("#/definitions/" ++ s)
/-- The meta-schema of draft 6. -/
def draft6 : Json := draft6At (ref "#") fun s => ref ("#/definitions/" ++ s)
/-- The meta-schema of draft 7. -/
def draft7 : Json := draft7At (ref "#") fun s => ref ("#/definitions/" ++ s)

end GJS.Spec.Meta

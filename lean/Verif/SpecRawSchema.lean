import Verif.RawSchema
/-
Go values as schemas: what outside the package they depend on.
-/
namespace GJS.Spec
open GJS RawS

/-- JSON pointers find in a decoded document what they find in the document. -/
def LooksAlike (w : Outside) : Prop :=
  ∀ r d, w.look r (ofJson d) = match w.pointer r d with
    | some x => .ok (ofJson x)
    | none => .error (.err (.pointer r))

/-- The loader, and the documents of its pool as decoded. -/
structure Decoded (l : LState) (s : State) : Prop where
  pool : s.pool = l.pool.map fun kv => (kv.1, ⟨ofJson kv.2.doc, kv.2.draft⟩)
  factory : s.factory = l.factory
  autoDetect : s.autoDetect = l.autoDetect
  draft : s.draft = l.draft
  log : s.log = l.log
  own : s.own = l.own
  validate : s.validate = l.validate

/-- A text: a `string`, or a value of another type of kind String. -/
def Textual (v : GoVal) : Prop := (∃ t, v = .str t) ∨ ∃ i, v = .opaque .string i

/-- A `[]interface{}` of `string`s. -/
def Names (v : GoVal) : Prop := ∃ ts : List String, v = .arr (ts.map .str)

/-- The types of the values of keywords. -/
structure GoShape (d : Draft) (k : String) (v : GoVal) : Prop where
  number : k ∈ ["multipleOf", "minimum", "maximum", "minLength", "maxLength", "minProperties", "maxProperties",
    "minItems", "maxItems"] → ∃ n, v = .num n
  string : k ∈ ["pattern", "format"] → ∃ t, v = .str t
  text : k ∈ ["title", "description"] → Textual v
  type : k = "type" → Textual v ∨ Names v
  names : k = "required" → Names v
  map : k ∈ ["definitions", "properties", "patternProperties"] → ∃ m, v = .obj m
  deps : k = "dependencies" → ∃ m, v = .obj m ∧ ∀ n xs, getKey n m = some (.arr xs) → Names (.arr xs)
  list : k ∈ ["enum", "oneOf", "anyOf", "allOf"] → ∃ xs, v = .arr xs
  bool : k = "uniqueItems" → ∃ b, v = .bool b
  exclusive4 : k ∈ ["exclusiveMinimum", "exclusiveMaximum"] → d = Draft4 → ∃ b, v = .bool b
  exclusive : k ∈ ["exclusiveMinimum", "exclusiveMaximum"] → d ≠ Draft4 → (∃ n, v = .num n) ∨ d = Hybrid ∧ ∃ b, v = .bool b

/-- The value `x` is in the place of a schema in the value `v` of keyword `k`. -/
inductive GoHolds (d : Draft) (k : String) : GoVal → GoVal → Prop
  | not (x) : k = "not" → GoHolds d k x x
  | draft6 (x) : k ∈ ["propertyNames", "contains"] → d ≥ Draft6 → GoHolds d k x x
  | draft7 (x) : k ∈ ["if", "then", "else"] → d ≥ Draft7 → GoHolds d k x x
  | extra (x) : k ∈ ["additionalProperties", "additionalItems"] → (∀ b, x ≠ .bool b) → GoHolds d k x x
  | items (x) : k = "items" → (∀ xs, x ≠ .arr xs) → GoHolds d k x x
  | item (xs x) : k ∈ ["items", "oneOf", "anyOf", "allOf"] → x ∈ xs → GoHolds d k (.arr xs) x
  | member (m n x) : k ∈ ["definitions", "properties", "patternProperties"] → getKey n m = some x → GoHolds d k (.obj m) x
  | dep (m n x) : k = "dependencies" → getKey n m = some x → (∀ xs, x ≠ .arr xs) → GoHolds d k (.obj m) x

/-- Wherever the compiler looks, the types are those `encoding/json` decodes to, but for `title`, `description`, `type`,
which may be of other string types, and `const` and the elements of `enum`, which may be anything.  Beside a `$ref` only
`definitions`, `title` and `description` are looked at. -/
inductive Strict (d : Draft) : GoVal → Prop
  | bool (b) : d ≥ Draft6 → Strict d (.bool b)
  | ref (m t) : getKey "$ref" m = some (.str t) →
      (∀ k ∈ ["definitions", "title", "description"], ∀ v, getKey k m = some v → GoShape d k v) →
      (∀ k ∈ ["definitions", "title", "description"], ∀ v, getKey k m = some v → ∀ x, GoHolds d k v x → Strict d x) →
      Strict d (.obj m)
  | obj (m) : (∀ k v, getKey k m = some v → GoShape d k v) → (∀ k v, getKey k m = some v → ∀ x, GoHolds d k v x → Strict d x) →
      Strict d (.obj m)

/-- Maps have distinct keys, as Go maps do. -/
inductive GoDistinct : GoVal → Prop
  | leaf (g) : (∀ xs, g ≠ .arr xs) → (∀ m, g ≠ .obj m) → GoDistinct g
  | arr (xs) : (∀ x ∈ xs, GoDistinct x) → GoDistinct (.arr xs)
  | obj (m) : (m.map Prod.fst).Nodup → (∀ kv ∈ m, GoDistinct kv.2) → GoDistinct (.obj m)

/-- For each keyword, with the draft not known: the kinds of other types whose values are accepted, and those whose values
panic.  All others are refused with an error. -/
def kindTable : List (String × List GoKind × List GoKind) :=
  [("$schema", [], [.string]), ("$id", [], [.string]), ("id", [], [.string]), ("$ref", [], [.string]),
   ("title", [.string], []), ("description", [.string], []), ("type", [.string], [.slice]),
   ("definitions", [], [.map, .bool]), ("properties", [], [.map]), ("patternProperties", [], [.map]),
   ("dependencies", [], [.map]),
   ("additionalProperties", [], [.map, .bool]), ("additionalItems", [], [.map, .bool]),
   ("propertyNames", [], [.map, .bool]), ("contains", [], [.map, .bool]), ("not", [], [.map, .bool]),
   ("if", [], [.map, .bool]), ("then", [], [.map, .bool]), ("else", [], [.map, .bool]),
   ("items", [], [.slice, .map, .bool]),
   ("multipleOf", [], []), ("minimum", [], []), ("maximum", [], []), ("exclusiveMinimum", [], []), ("exclusiveMaximum", [], []),
   ("minLength", [], []), ("maxLength", [], []), ("minProperties", [], []), ("maxProperties", [], []),
   ("minItems", [], []), ("maxItems", [], []), ("format", [], []), ("pattern", [], [.string]),
   ("required", [], [.slice]), ("enum", [], [.slice]), ("oneOf", [], [.slice]), ("anyOf", [], [.slice]), ("allOf", [], [.slice]),
   ("uniqueItems", [], [.bool])]

/-- What comes of a compilation, by the lists of kinds accepted and of kinds that panic. -/
def Comes (kd : GoKind) (fine panics : List GoKind) : Except Fail α → Prop
  | .ok _ => kd ∈ fine
  | .error .panic => kd ∈ panics
  | .error (.err _) => kd ∉ fine ∧ kd ∉ panics
  | .error .fuel => False

end GJS.Spec

import Verif.SpecMetaDocs
import Verif.SpecDraft
/-
What the meta-schemas of the drafts 4, 6 and 7 ask of a schema document, stated without them.
-/
namespace GJS.Spec
open GJS

/-- No two elements are serialised to the same text. -/
def Distinct (env : Env) (xs : List Json) : Prop :=
  ∀ (a b : Nat) x y, a < b → xs[a]? = some x → xs[b]? = some y → env.marshal x ≠ env.marshal y

/-- A list of different strings, in draft 4 not an empty one. -/
def StringList (d : Draft) (v : Json) : Prop :=
  ∃ ts : List String, v = .arr (ts.map .str) ∧ ts.Nodup ∧ (d = Draft4 → ts ≠ [])

/-- What the values of the keywords look like, sub-schemas excepted. -/
structure MetaShape (env : Env) (d : Draft) (m : List (String × Json)) : Prop where
  /-- texts -/
  texts : ∀ k ∈ ["$schema", "title", "description", "pattern", "format"], ∀ v, Kw m k v → ∃ t, v = .str t
  id4 : d = Draft4 → ∀ v, Kw m "id" v → ∃ t, v = .str t
  uris6 : Draft6 ≤ d → ∀ k ∈ ["$id", "$ref"], ∀ v, Kw m k v → ∃ t, v = .str t ∧ env.isFormat "uri-reference" (.str t) = true
  schema6 : Draft6 ≤ d → ∀ v, Kw m "$schema" v → env.isFormat "uri" v = true
  texts7 : Draft7 ≤ d → ∀ k ∈ ["$comment", "contentMediaType", "contentEncoding"], ∀ v, Kw m k v → ∃ t, v = .str t
  pattern : ∀ v, Kw m "pattern" v → env.isFormat "regex" v = true
  patterns7 : Draft7 ≤ d → ∀ ps, Kw m "patternProperties" (.obj ps) → ∀ k ∈ keysOf ps, env.isFormat "regex" (.str k) = true
  /-- numbers -/
  numbers : ∀ k ∈ ["minimum", "maximum"], ∀ v, Kw m k v → ∃ n, v = .num n
  multipleOf : ∀ v, Kw m "multipleOf" v → ∃ n, v = .num n ∧ 0 < n.val
  exclusive4 : d = Draft4 → ∀ e ∈ [("exclusiveMinimum", "minimum"), ("exclusiveMaximum", "maximum")], ∀ v, Kw m e.1 v →
    (∃ b, v = .bool b) ∧ e.2 ∈ keysOf m
  exclusive6 : Draft6 ≤ d → ∀ k ∈ ["exclusiveMinimum", "exclusiveMaximum"], ∀ v, Kw m k v → ∃ n, v = .num n
  sizes : ∀ k ∈ ["minLength", "maxLength", "minItems", "maxItems", "minProperties", "maxProperties"], ∀ v, Kw m k v →
    ∃ n, v = .num n ∧ env.ratOk n = true ∧ ∃ z : Nat, n.val = z
  /-- booleans -/
  uniqueItems : ∀ v, Kw m "uniqueItems" v → ∃ b, v = .bool b
  readOnly7 : Draft7 ≤ d → ∀ v, Kw m "readOnly" v → ∃ b, v = .bool b
  /-- objects -/
  maps : ∀ k ∈ ["definitions", "properties", "patternProperties", "dependencies"], ∀ v, Kw m k v → ∃ c, v = .obj c
  rest : ∀ k ∈ ["additionalItems", "additionalProperties"], ∀ v, Kw m k v → (∃ b, v = .bool b) ∨ ∃ c, v = .obj c
  /-- arrays -/
  lists : ∀ k ∈ ["allOf", "anyOf", "oneOf"], ∀ v, Kw m k v → ∃ Ds, v = .arr Ds ∧ Ds ≠ []
  items : ∀ Ds, Kw m "items" (.arr Ds) → Ds ≠ []
  examples6 : Draft6 ≤ d → ∀ v, Kw m "examples" v → ∃ xs, v = .arr xs
  required : ∀ v, Kw m "required" v → StringList d v
  dependencies : ∀ ds, Kw m "dependencies" (.obj ds) → ∀ k xs, (k, Json.arr xs) ∈ ds → StringList d (.arr xs)
  enum : ∀ v, Kw m "enum" v → ∃ cs, v = .arr cs ∧ cs ≠ [] ∧ Distinct env cs
  type : ∀ v, Kw m "type" v → (∃ t, v = .str t ∧ KnownType t) ∨
    ∃ ts : List String, v = .arr (ts.map .str) ∧ ts ≠ [] ∧ ts.Nodup ∧ ∀ t ∈ ts, KnownType t

/-- What the meta-schema of draft `d` asks of a document: booleans from draft 6 on, and objects of
the right shape, the same for all sub-schemas. -/
inductive MetaValid (env : Env) (d : Draft) : Json → Prop
  | bool (b) : Draft6 ≤ d → MetaValid env d (.bool b)
  | obj (m) : MetaShape env d m → (∀ ds k D, Kw m "definitions" (.obj ds) → (k, D) ∈ ds → MetaValid env d D) →
      (∀ D, SubSchema d m D → MetaValid env d D) → MetaValid env d (.obj m)

end GJS.Spec

import Verif.SpecMetaShape
import Verif.SpecReject
/-
The difference between what the meta-schemas ask of a schema document and what the compiler asks.
-/
namespace GJS.Spec
open GJS

/-- The keywords whose values are sizes. -/
def sizeKeywords : List String := ["minLength", "maxLength", "minItems", "maxItems", "minProperties", "maxProperties"]

/-- What the compiler asks of a schema object beyond its meta-schema. -/
structure Leftover (w : World) (d : Draft) (m : List (String × Json)) : Prop where
  /-- identifiers can be parsed as URLs -/
  id : ∀ t, Kw m (idKey d m) (.str t) → w.norm t ≠ none
  /-- names of `patternProperties` are regular expressions (draft 7 asks that too) -/
  patterns : d < Draft7 → ∀ c, Kw m "patternProperties" (.obj c) → ∀ k ∈ keysOf c, w.env.reOk k = true
  /-- numbers that `big.Rat` takes -/
  numbers : ∀ k ∈ ["multipleOf", "minimum", "maximum"], ∀ n, Kw m k (.num n) → w.env.ratOk n = true
  /-- sizes are written without fraction and exponent, and fit an int64 -/
  sizes : ∀ k ∈ sizeKeywords, ∀ n, Kw m k (.num n) → SizeLit n
  lengths : ∀ a b, Kw m "minLength" (.num a) → Kw m "maxLength" (.num b) → a.val ≤ b.val
  propertyCounts : ∀ a b, Kw m "minProperties" (.num a) → Kw m "maxProperties" (.num b) → a.val ≤ b.val
  /-- numbers in literals fit a float64 -/
  const : Draft6 ≤ d → ∀ v, Kw m "const" v → NumsF64 v
  enum : ∀ cs, Kw m "enum" (.arr cs) → ∀ c ∈ cs, NumsF64 c

/-- What the meta-schema asks of a schema object beyond the compiler. -/
structure Stricter (env : Env) (d : Draft) (m : List (String × Json)) : Prop where
  schema : ∀ v, Kw m "$schema" v → ∃ t, v = .str t
  /-- formats of references and patterns -/
  uris6 : Draft6 ≤ d → ∀ t, Kw m "$id" (.str t) → env.isFormat "uri-reference" (.str t) = true
  ref6 : Draft6 ≤ d → ∀ v, Kw m "$ref" v → ∃ t, v = .str t ∧ env.isFormat "uri-reference" (.str t) = true
  schema6 : Draft6 ≤ d → ∀ v, Kw m "$schema" v → env.isFormat "uri" v = true
  pattern : ∀ v, Kw m "pattern" v → env.isFormat "regex" v = true
  patterns7 : Draft7 ≤ d → ∀ ps, Kw m "patternProperties" (.obj ps) → ∀ k ∈ keysOf ps, env.isFormat "regex" (.str k) = true
  /-- keywords the library does not use -/
  texts7 : Draft7 ≤ d → ∀ k ∈ ["$comment", "contentMediaType", "contentEncoding"], ∀ v, Kw m k v → ∃ t, v = .str t
  readOnly7 : Draft7 ≤ d → ∀ v, Kw m "readOnly" v → ∃ b, v = .bool b
  examples6 : Draft6 ≤ d → ∀ v, Kw m "examples" v → ∃ xs, v = .arr xs
  /-- arrays that must not be empty -/
  nonempty : ∀ k ∈ ["allOf", "anyOf", "oneOf", "items", "enum", "type"], ¬ Kw m k (.arr [])
  required4 : d = Draft4 → ¬ Kw m "required" (.arr [])
  /-- lists of names in `dependencies`: different, in draft 4 not empty -/
  dependencies : ∀ ds, Kw m "dependencies" (.obj ds) → ∀ k xs, (k, Json.arr xs) ∈ ds → xs.Nodup ∧ (d = Draft4 → xs ≠ [])

/-- Something holds for all schema objects of a document, `definitions` included. -/
inductive Everywhere (d : Draft) (P : List (String × Json) → Prop) : Json → Prop
  | other (D) : (∀ m, D ≠ .obj m) → Everywhere d P D
  | obj (m) : P m → (∀ ds k D, Kw m "definitions" (.obj ds) → (k, D) ∈ ds → Everywhere d P D) →
      (∀ D, SubSchema d m D → Everywhere d P D) → Everywhere d P (.obj m)

/-- The faults of a schema object that the check against the meta-schema does not find, with the
error reported. -/
inductive Residue (w : World) (l : LState) (d : Draft) (m : List (String × Json)) : CErr → Prop
  -- identifiers and references
  | idText (t) : Kw m (idKey d m) (.str t) → w.norm t = none → Residue w l d m (.badReference t)
  | idBase (t u base) : Kw m (idKey d m) (.str t) → w.norm t = some u → w.inherits base u = none →
      Residue w l d m (.badReference t)
  | refKind4 (v) : d = Draft4 → Kw m "$ref" v → (∀ t, v ≠ .str t) → Residue w l d m (.invalidType "string" "$ref")
  | refText (t) : Kw m "$ref" (.str t) → w.norm t = none → Residue w l d m (.badReference t)
  | ref (t u e) : Kw m "$ref" (.str t) → w.norm t = some u → NotThere w l u e → Residue w l d m e
  | target (t u o D) : Kw m "$ref" (.str t) → w.norm t = some u → ResolvedAs w l u o D → NoSchema D →
      Residue w l d m (.mustBeOfType "valid schema" "object")
  -- regular expressions
  | patternKey (c k D) : d < Draft7 → Kw m "patternProperties" (.obj c) → (k, D) ∈ c → w.env.reOk k = false →
      Residue w l d m (.regexPattern k)
  -- numbers
  | multipleOf (n) : Kw m "multipleOf" (.num n) → w.env.ratOk n = false → Residue w l d m (.invalidType "number" "multipleOf")
  | bound (key n) : key ∈ ["minimum", "maximum"] → Kw m key (.num n) → w.env.ratOk n = false →
      Residue w l d m (.mustBeOfA key "number")
  | size (key n) (z : Nat) : key ∈ sizeKeywords → Kw m key (.num n) → n.val = z → ¬ IntLit n →
      Residue w l d m (.mustBeOfAn key "integer")
  | lengths (a b) : Kw m "minLength" (.num a) → Kw m "maxLength" (.num b) → b.val < a.val →
      Residue w l d m (.cannotBeGT "minLength" "maxLength")
  | propertyCounts (a b) : Kw m "minProperties" (.num a) → Kw m "maxProperties" (.num b) → b.val < a.val →
      Residue w l d m (.keyCannotBeGreaterThan "minProperties" "maxProperties")
  -- literals
  | const (v) : Draft6 ≤ d → Kw m "const" v → ¬ NumsF64 v → Residue w l d m .marshal
  | enumElem (cs c) : Kw m "enum" (.arr cs) → c ∈ cs → ¬ NumsF64 c → Residue w l d m .marshal

end GJS.Spec

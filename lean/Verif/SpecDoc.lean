import Verif.SpecNode
/-
The keyword rules of JSON Schema, over schema documents.

`DocRules env resolve Sat d D v` says when the value `v` satisfies the schema document `D` read
under draft `d`, given that `Sat d' D' v'` says when `v'` satisfies the sub-schema `D'` under
draft `d'`, and that `resolve r` is the document (with its draft) a `$ref` text `r` stands for.
No compiled schema, validator or loader appears in it.

Points where the library reads JSON Schema in its own way are marked (*).
-/
namespace GJS.Spec
open GJS

/-- `sat D v`: the value satisfies the sub-schema (draft fixed). -/
abbrev SatD := Json → Json → Prop

/-- Names of the members of a JSON object. -/
def keysOf (kvs : List (String × Json)) : List String := kvs.map Prod.fst

/-- The schema object `m` has the keyword `k` with value `x`. -/
def Kw (m : List (String × Json)) (k : String) (x : Json) : Prop := getKey k m = some x

/-- type: one name or several; (*) an empty list is no constraint. -/
def DType (env : Env) (m : List (String × Json)) (v : Json) : Prop :=
  (∀ t, Kw m "type" (.str t) → HasType env v t) ∧
  (∀ ts, Kw m "type" (.arr ts) → ts = [] ∨ ∃ t, Json.str t ∈ ts ∧ HasType env v t)

/-- anyOf: some branch holds; (*) an empty list is no constraint. -/
def DAnyOf (sat : SatD) (m : List (String × Json)) (v : Json) : Prop :=
  ∀ Ds, Kw m "anyOf" (.arr Ds) → Ds = [] ∨ ∃ D ∈ Ds, sat D v

/-- oneOf: exactly one branch holds; (*) an empty list is no constraint. -/
def DOneOf (sat : SatD) (m : List (String × Json)) (v : Json) : Prop :=
  ∀ Ds, Kw m "oneOf" (.arr Ds) → Ds = [] ∨
    ∃ (k : Nat) (D : Json), Ds[k]? = some D ∧ sat D v ∧ ∀ (k' : Nat) (D' : Json), Ds[k']? = some D' → sat D' v → k' = k

/-- allOf -/
def DAllOf (sat : SatD) (m : List (String × Json)) (v : Json) : Prop :=
  ∀ Ds, Kw m "allOf" (.arr Ds) → ∀ D ∈ Ds, sat D v

/-- not -/
def DNot (sat : SatD) (m : List (String × Json)) (v : Json) : Prop :=
  ∀ D, Kw m "not" D → ¬ sat D v

/-- dependencies: an array lists members that must be present too, anything else is a schema
for the whole object. -/
def DDependencies (sat : SatD) (m : List (String × Json)) (v : Json) : Prop :=
  ∀ ds kvs, Kw m "dependencies" (.obj ds) → v = .obj kvs → ∀ k D, (k, D) ∈ ds → k ∈ keysOf kvs →
    match D with
    | .arr qs => ∀ q, Json.str q ∈ qs → q ∈ keysOf kvs
    | D => sat D v

/-- if/then/else, from draft-07 on. -/
def DIf (sat : SatD) (d : Draft) (m : List (String × Json)) (v : Json) : Prop :=
  Draft7 ≤ d → ∀ I, Kw m "if" I →
    (∀ T, Kw m "then" T → sat I v → sat T v) ∧ (∀ E, Kw m "else" E → ¬ sat I v → sat E v)

/-- Equality of values in enum, const and uniqueItems: both are serialised, to the same text
(C11 says what that means). -/
def ValEq (env : Env) (a b : Json) : Prop := ∃ t, env.marshal a = some t ∧ env.marshal b = some t

/-- const, from draft-06 on. -/
def DConst (env : Env) (d : Draft) (m : List (String × Json)) (v : Json) : Prop :=
  Draft6 ≤ d → ∀ c, Kw m "const" c → ValEq env v c

/-- enum; (*) an empty list is no constraint. -/
def DEnum (env : Env) (m : List (String × Json)) (v : Json) : Prop :=
  ∀ cs, Kw m "enum" (.arr cs) → cs = [] ∨ ∃ c ∈ cs, ValEq env v c

/-- format -/
def DFormat (env : Env) (m : List (String × Json)) (v : Json) : Prop :=
  ∀ f, Kw m "format" (.str f) → f = "" ∨ env.isFormat f v = true

/-- items and additionalItems: one schema for all elements, or one per position and
additionalItems for the rest; (*) with an empty list of items, additionalItems is ignored. -/
def DItems (sat : SatD) (m : List (String × Json)) (v : Json) : Prop :=
  ∀ xs I, v = .arr xs → Kw m "items" I →
    match I with
    | .arr Ds =>
      (∀ (k : Nat) D x, Ds[k]? = some D → xs[k]? = some x → sat D x) ∧
      (Ds ≠ [] → (Kw m "additionalItems" (.bool false) → xs.length ≤ Ds.length) ∧
        ∀ A, Kw m "additionalItems" (.obj A) → ∀ (k : Nat) x, Ds.length ≤ k → xs[k]? = some x → sat (.obj A) x)
    | D => ∀ x ∈ xs, sat D x

/-- Two size keywords: inclusive bounds. -/
def DSize (m : List (String × Json)) (mn mx : String) (size : Nat) : Prop :=
  (∀ n, Kw m mn (.num n) → n.val ≤ size) ∧ (∀ n, Kw m mx (.num n) → (size : Rat) ≤ n.val)

/-- minItems, maxItems, uniqueItems, contains (from draft-06 on) -/
def DArray (env : Env) (sat : SatD) (d : Draft) (m : List (String × Json)) (v : Json) : Prop :=
  ∀ xs, v = .arr xs →
    DSize m "minItems" "maxItems" xs.length ∧
    (Kw m "uniqueItems" (.bool true) → ∀ (a b : Nat) x y, a < b → xs[a]? = some x → xs[b]? = some y →
      env.marshal x ≠ env.marshal y) ∧
    (Draft6 ≤ d → ∀ D, Kw m "contains" D → ∃ x ∈ xs, sat D x)

/-- A member whose name neither `properties` lists nor a `patternProperties` pattern matches. -/
def Additional (env : Env) (m : List (String × Json)) (k : String) : Prop :=
  (∀ ps, Kw m "properties" (.obj ps) → k ∉ keysOf ps) ∧
  (∀ ps, Kw m "patternProperties" (.obj ps) → ∀ q ∈ keysOf ps, env.reMatch q k = false)

/-- The object keywords. -/
def DObject (env : Env) (sat : SatD) (d : Draft) (m : List (String × Json)) (v : Json) : Prop :=
  ∀ kvs, v = .obj kvs →
    DSize m "minProperties" "maxProperties" kvs.length ∧
    (∀ qs, Kw m "required" (.arr qs) → ∀ q, Json.str q ∈ qs → q ∈ keysOf kvs) ∧
    (∀ ps, Kw m "properties" (.obj ps) → ∀ k D, (k, D) ∈ ps → ∀ x, getKey k kvs = some x → sat D x) ∧
    (∀ ps, Kw m "patternProperties" (.obj ps) → ∀ q D, (q, D) ∈ ps → ∀ k x, (k, x) ∈ kvs →
      env.reMatch q k = true → sat D x) ∧
    (Kw m "additionalProperties" (.bool false) → ∀ k ∈ keysOf kvs, ¬ Additional env m k) ∧
    (∀ A, Kw m "additionalProperties" (.obj A) → ∀ k x, (k, x) ∈ kvs → Additional env m k → sat (.obj A) x) ∧
    (Draft6 ≤ d → ∀ D, Kw m "propertyNames" D → ∀ k ∈ keysOf kvs, sat D (.str k))

/-- minLength, maxLength (code points) and pattern -/
def DString (env : Env) (m : List (String × Json)) (v : Json) : Prop :=
  ∀ t, v = .str t →
    DSize m "minLength" "maxLength" t.length ∧ (∀ q, Kw m "pattern" (.str q) → env.reMatch q t = true)

/-- The number keywords, on exact values.  An exclusive bound is a number, or `true` next to the
inclusive bound; (*) a numeric exclusive bound that `big.Rat` does not accept is no constraint. -/
def DNumber (env : Env) (m : List (String × Json)) (v : Json) : Prop :=
  ∀ n, v = .num n →
    (∀ q, Kw m "multipleOf" (.num q) → ∃ z : Int, n.val = z * q.val) ∧
    (∀ q, Kw m "minimum" (.num q) → q.val ≤ n.val) ∧
    (∀ q, Kw m "maximum" (.num q) → n.val ≤ q.val) ∧
    (∀ q, Kw m "minimum" (.num q) → Kw m "exclusiveMinimum" (.bool true) → q.val < n.val) ∧
    (∀ q, Kw m "maximum" (.num q) → Kw m "exclusiveMaximum" (.bool true) → n.val < q.val) ∧
    (∀ q, Kw m "exclusiveMinimum" (.num q) → env.ratOk q = true → q.val < n.val) ∧
    (∀ q, Kw m "exclusiveMaximum" (.num q) → env.ratOk q = true → n.val < q.val)

/-- All keywords of a schema object without `$ref`. -/
def DKeywords (env : Env) (sat : SatD) (d : Draft) (m : List (String × Json)) (v : Json) : Prop :=
  DType env m v ∧ DAnyOf sat m v ∧ DOneOf sat m v ∧ DAllOf sat m v ∧ DNot sat m v ∧
  DDependencies sat m v ∧ DIf sat d m v ∧ DConst env d m v ∧ DEnum env m v ∧ DFormat env m v ∧
  DItems sat m v ∧ DArray env sat d m v ∧ DObject env sat d m v ∧ DString env m v ∧ DNumber env m v

/-- When the value `v` satisfies the schema document `D` under draft `d`. -/
def DocRules (env : Env) (resolve : String → Option (Draft × Json)) (Sat : Draft → Json → Json → Prop)
    (d : Draft) (D : Json) (v : Json) : Prop :=
  match D with
  | .bool b => b = true
  | .obj m =>
    match getKey "$ref" m with
    | some (.str r) => ∃ d' D', resolve r = some (d', D') ∧ Sat d' D' v
    | _ => DKeywords env (Sat d) d m v
  | _ => False

/-- `Sat` obeys the rules for every document, draft and value. -/
def IsDocMeaning (env : Env) (resolve : String → Option (Draft × Json))
    (Sat : Draft → Json → Json → Prop) : Prop :=
  ∀ d D v, Sat d D v ↔ DocRules env resolve Sat d D v

/-- `n`-fold unfolding of the rules from an arbitrary interpretation `P`. -/
def docUnfold (env : Env) (resolve : String → Option (Draft × Json)) (P : Draft → Json → Json → Prop) :
    Nat → Draft → Json → Json → Prop
  | 0 => P
  | n + 1 => DocRules env resolve (docUnfold env resolve P n)

end GJS.Spec

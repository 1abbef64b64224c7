import Verif.Model
/-
Declarative keyword rules over a compiled schema.

`NodeRules env h Sat i v` says when node `i` of the heap `h` accepts `v`, given that
`Sat j w` says when node `j` accepts `w`.  It is written without the validator's loops,
result records, scores or error lists.
-/
namespace GJS.Spec
open GJS

/-- The JSON value `v` has the JSON type named `t`. -/
inductive HasType (env : Env) : Json → String → Prop
  | null : HasType env .null "null"
  | bool (b) : HasType env (.bool b) "boolean"
  | str (s) : HasType env (.str s) "string"
  | arr (xs) : HasType env (.arr xs) "array"
  | obj (kvs) : HasType env (.obj kvs) "object"
  | num (n) : HasType env (.num n) "number"
  | int (n) (z : Int) : env.ratOk n = true → n.val = z → HasType env (.num n) "integer"

/-- `type` -/
def TypeRule (env : Env) (ts : List String) (v : Json) : Prop :=
  ts = [] ∨ ∃ t ∈ ts, HasType env v t

/-- `anyOf`: some branch holds (an empty list is no constraint) -/
def AnyOfRule (Sat : Id → Json → Prop) (is : List Id) (v : Json) : Prop :=
  is = [] ∨ ∃ i ∈ is, Sat i v

/-- `oneOf`: exactly one position holds (an empty list is no constraint) -/
def OneOfRule (Sat : Id → Json → Prop) (is : List Id) (v : Json) : Prop :=
  is = [] ∨ ∃ (k : Nat) (i : Id), is[k]? = some i ∧ Sat i v ∧ ∀ (k' : Nat) (i' : Id), is[k']? = some i' → Sat i' v → k' = k

/-- `allOf` -/
def AllOfRule (Sat : Id → Json → Prop) (is : List Id) (v : Json) : Prop := ∀ i ∈ is, Sat i v

/-- `not` -/
def NotRule (Sat : Id → Json → Prop) (o : Option Id) (v : Json) : Prop := ∀ i, o = some i → ¬ Sat i v

/-- `dependencies`: whenever a key is present, its list of keys is present, or its schema
holds for the whole object -/
def DependenciesRule (Sat : Id → Json → Prop) (ds : List (String × Dep)) (v : Json) : Prop :=
  ∀ kvs, v = .obj kvs → ∀ k ∈ kvs.map Prod.fst,
    (∀ ks, getKey k ds = some (.keys ks) → ∀ q ∈ ks, q ∈ kvs.map Prod.fst) ∧
    (∀ i, getKey k ds = some (.schema i) → Sat i v)

/-- `if`/`then`/`else` -/
def IfRule (Sat : Id → Json → Prop) (i t e : Option Id) (v : Json) : Prop :=
  ∀ ii, i = some ii →
    (∀ tt, t = some tt → Sat ii v → Sat tt v) ∧ (∀ ee, e = some ee → ¬ Sat ii v → Sat ee v)

/-- `const` (values compared by their serialisation) -/
def ConstRule (env : Env) (o : Option String) (v : Json) : Prop :=
  ∀ k, o = some k → env.marshal v = some k

/-- `enum` (an empty list is no constraint) -/
def EnumRule (env : Env) (es : List String) (v : Json) : Prop :=
  es = [] ∨ ∃ k ∈ es, env.marshal v = some k

/-- `format` -/
def FormatRule (env : Env) (f : String) (v : Json) : Prop := f = "" ∨ env.isFormat f v = true

/-- `additionalItems`: elements from position `n` on -/
def AdditionalItemsRule (Sat : Id → Json → Prop) (e : Extra) (n : Nat) (xs : List Json) : Prop :=
  match e with
  | .absent => True
  | .bool b => b = false → xs.length ≤ n
  | .schema i => ∀ (k : Nat) x, n ≤ k → xs[k]? = some x → Sat i x

/-- `items` and `additionalItems` -/
def ItemsRule (Sat : Id → Json → Prop) (s : Sub) (xs : List Json) : Prop :=
  if s.itemsChildrenIsSingleSchema then ∀ x ∈ xs, ∃ i, s.itemsChildren.head? = some i ∧ Sat i x
  else
    (∀ (k : Nat) i x, s.itemsChildren[k]? = some i → xs[k]? = some x → Sat i x) ∧
    (s.itemsChildren ≠ [] → AdditionalItemsRule Sat s.additionalItems s.itemsChildren.length xs)

/-- inclusive bounds on a size -/
def SizeRule (min max : Option Int) (n : Nat) : Prop :=
  (∀ m, min = some m → m ≤ n) ∧ (∀ m, max = some m → (n : Int) ≤ m)

/-- `uniqueItems` -/
def UniqueRule (env : Env) (u : Bool) (xs : List Json) : Prop :=
  u = true → ∀ (a b : Nat) x y, a < b → xs[a]? = some x → xs[b]? = some y → env.marshal x ≠ env.marshal y

/-- `contains` -/
def ContainsRule (Sat : Id → Json → Prop) (o : Option Id) (xs : List Json) : Prop :=
  ∀ i, o = some i → ∃ x ∈ xs, Sat i x

/-- all array keywords -/
def ArrayRules (env : Env) (Sat : Id → Json → Prop) (s : Sub) (v : Json) : Prop :=
  ∀ xs, v = .arr xs →
    ItemsRule Sat s xs ∧ SizeRule s.minItems s.maxItems xs.length ∧
    UniqueRule env s.uniqueItems xs ∧ ContainsRule Sat s.contains xs

/-- `required` -/
def RequiredRule (qs : List String) (kvs : List (String × Json)) : Prop :=
  ∀ q ∈ qs, q ∈ kvs.map Prod.fst

/-- `properties` -/
def PropertiesRule (Sat : Id → Json → Prop) (ps : List (String × Id)) (kvs : List (String × Json)) : Prop :=
  ∀ name i, (name, i) ∈ ps → ∀ x, getKey name kvs = some x → Sat i x

/-- `patternProperties` -/
def PatternRule (env : Env) (Sat : Id → Json → Prop) (ps : List (String × Id)) (kvs : List (String × Json)) : Prop :=
  ∀ pat i, (pat, i) ∈ ps → ∀ k x, (k, x) ∈ kvs → env.reMatch pat k = true → Sat i x

/-- a value that must satisfy an `additionalProperties` value -/
def ExtraRule (Sat : Id → Json → Prop) (e : Extra) (x : Json) : Prop :=
  match e with
  | .absent => True
  | .bool b => b = true
  | .schema i => Sat i x

/-- `additionalProperties`: members neither named by `properties` nor matched by
`patternProperties` -/
def AdditionalRule (env : Env) (Sat : Id → Json → Prop) (s : Sub) (kvs : List (String × Json)) : Prop :=
  ∀ k x, (k, x) ∈ kvs → (∀ i, (k, i) ∉ s.propertiesChildren) →
    (∀ pat i, (pat, i) ∈ s.patternProperties → env.reMatch pat k = false) →
    ExtraRule Sat s.additionalProperties x

/-- `propertyNames` -/
def PropertyNamesRule (Sat : Id → Json → Prop) (o : Option Id) (kvs : List (String × Json)) : Prop :=
  ∀ i, o = some i → ∀ k ∈ kvs.map Prod.fst, Sat i (.str k)

/-- all object keywords except `dependencies` -/
def ObjectRules (env : Env) (Sat : Id → Json → Prop) (s : Sub) (v : Json) : Prop :=
  ∀ kvs, v = .obj kvs →
    SizeRule s.minProperties s.maxProperties kvs.length ∧ RequiredRule s.required kvs ∧
    PropertiesRule Sat s.propertiesChildren kvs ∧ PatternRule env Sat s.patternProperties kvs ∧
    AdditionalRule env Sat s kvs ∧ PropertyNamesRule Sat s.propertyNames kvs

/-- all string keywords; a string's length is its number of code points -/
def StringRules (env : Env) (s : Sub) (v : Json) : Prop :=
  ∀ t, v = .str t →
    SizeRule s.minLength s.maxLength t.length ∧ (∀ q, s.pattern = some q → env.reMatch q t = true)

/-- all number keywords, on the exact value -/
def NumberRules (s : Sub) (v : Json) : Prop :=
  ∀ n, v = .num n →
    (∀ m, s.multipleOf = some m → ∃ z : Int, n.val = z * m) ∧
    (∀ b, s.maximum = some b → n.val ≤ b) ∧ (∀ b, s.exclusiveMaximum = some b → n.val < b) ∧
    (∀ b, s.minimum = some b → b ≤ n.val) ∧ (∀ b, s.exclusiveMinimum = some b → b < n.val)

/-- Everything a plain schema object asks for. -/
def Keywords (env : Env) (Sat : Id → Json → Prop) (s : Sub) (v : Json) : Prop :=
  TypeRule env s.types v ∧
  AnyOfRule Sat s.anyOf v ∧ OneOfRule Sat s.oneOf v ∧ AllOfRule Sat s.allOf v ∧
  NotRule Sat s.not v ∧ DependenciesRule Sat s.dependencies v ∧
  IfRule Sat s.if_ s.then_ s.else_ v ∧
  ConstRule env s.const v ∧ EnumRule env s.enum v ∧ FormatRule env s.format v ∧
  ArrayRules env Sat s v ∧ ObjectRules env Sat s v ∧ StringRules env s v ∧ NumberRules s v

/-- When node `i` accepts `v`. -/
def NodeRules (env : Env) (h : Heap) (Sat : Id → Json → Prop) (i : Id) (v : Json) : Prop :=
  ∃ s, h[i]? = some s ∧
    match s.pass with
    | some b => b = true
    | none =>
      match s.refSchema with
      | some j => Sat j v
      | none => Keywords env Sat s v

/-- `n`-fold unfolding of the rules from an arbitrary interpretation `P`. -/
def unfold (env : Env) (h : Heap) (P : Id → Json → Prop) : Nat → Id → Json → Prop
  | 0 => P
  | n + 1 => NodeRules env h (unfold env h P n)

/-- `Sat` is a meaning of the compiled schemas: it satisfies all the rules. -/
def IsMeaning (env : Env) (h : Heap) (Sat : Id → Json → Prop) : Prop :=
  ∀ i v, Sat i v ↔ NodeRules env h Sat i v

end GJS.Spec

import Verif.SpecNode
/-
What an error report says, over compiled schemas: which sub-schema was applied to which part of
the instance, and which of its keywords is violated there.  Written without the validator.
-/
namespace GJS.Spec
open GJS

/-- The rules settle that node `i` accepts `v`. -/
def Holds (env : Env) (h : Heap) (i : Id) (v : Json) : Prop := ∃ n, ∀ P, unfold env h P n i v

/-- The rules settle that node `i` rejects `v`. -/
def Fails (env : Env) (h : Heap) (i : Id) (v : Json) : Prop := ∃ n, ∀ P, ¬ unfold env h P n i v

/-- The name of the type of a value; for a number `integer` if it is one. -/
def TypeName (env : Env) (v : Json) (t : String) : Prop :=
  HasType env v t ∧ (t = "number" → ¬ HasType env v "integer")

/-- How a set of type names is printed. -/
def typeNames : List String → String
  | [t] => t
  | ts => "[" ++ String.intercalate "," ts ++ "]"

/-- The keywords of a node are applied to `v`: it is neither boolean nor a reference, and the type
is right. -/
structure Plain (env : Env) (s : Sub) (v : Json) : Prop where
  pass : s.pass = none
  ref : s.refSchema = none
  type : TypeRule env s.types v

/-- Names of the members of a JSON object. -/
def names (kvs : List (String × Json)) : List String := kvs.map Prod.fst

/-- The member `k` is covered neither by `properties` nor by `patternProperties`. -/
def Extraneous (env : Env) (s : Sub) (k : String) : Prop :=
  (∀ i, (k, i) ∉ s.propertiesChildren) ∧ ∀ pat i, (pat, i) ∈ s.patternProperties → env.reMatch pat k = false

/-- A violated keyword of a node, given which nodes accept and reject which values (`H`, `F`): the error it gives (kind with details), and the value reported,
which is the value the node was applied to, except for an additional property. -/
inductive KwFault (env : Env) (H F : Id → Json → Prop) (s : Sub) (v : Json) : ErrKind → Json → Prop
  | anyOf : s.anyOf ≠ [] → (∀ i ∈ s.anyOf, F i v) → KwFault env H F s v .numberAnyOf v
  | oneOf_none : s.oneOf ≠ [] → (∀ i ∈ s.oneOf, F i v) → KwFault env H F s v .numberOneOf v
  | oneOf_many (k k' : Nat) (i i' : Id) : k ≠ k' → s.oneOf[k]? = some i → s.oneOf[k']? = some i' →
      H i v → H i' v → KwFault env H F s v .numberOneOf v
  | allOf (i) : i ∈ s.allOf → F i v → KwFault env H F s v .numberAllOf v
  | not (i) : s.not = some i → H i v → KwFault env H F s v .numberNot v
  | dependency (kvs k ks q) : v = .obj kvs → k ∈ names kvs → getKey k s.dependencies = some (.keys ks) →
      q ∈ ks → q ∉ names kvs → KwFault env H F s v (.missingDependency q) v
  | then_ (i t) : s.if_ = some i → s.then_ = some t → H i v → F t v →
      KwFault env H F s v .conditionThen v
  | else_ (i t) : s.if_ = some i → s.else_ = some t → F i v → F t v →
      KwFault env H F s v .conditionElse v
  | const (k) : s.const = some k → env.marshal v ≠ some k → KwFault env H F s v (.const k) v
  | enum : s.enum ≠ [] → (∀ k ∈ s.enum, env.marshal v ≠ some k) →
      KwFault env H F s v (.enum (String.intercalate ", " s.enum)) v
  | format : s.format ≠ "" → env.isFormat s.format v = false → KwFault env H F s v (.format s.format) v
  | additionalItems (xs) : v = .arr xs → s.itemsChildrenIsSingleSchema = false → s.itemsChildren ≠ [] →
      s.additionalItems = .bool false → s.itemsChildren.length < xs.length →
      KwFault env H F s v .arrayNoAdditionalItems v
  | minItems (xs m) : v = .arr xs → s.minItems = some m → (xs.length : Int) < m → KwFault env H F s v (.arrayMinItems m) v
  | maxItems (xs m) : v = .arr xs → s.maxItems = some m → m < (xs.length : Int) → KwFault env H F s v (.arrayMaxItems m) v
  | unique (xs) (a b : Nat) (x y) : v = .arr xs → s.uniqueItems = true → a < b → xs[a]? = some x → xs[b]? = some y →
      env.marshal x = env.marshal y →
      (∀ (c : Nat) z, a < c → c < b → xs[c]? = some z → env.marshal z ≠ env.marshal y) →
      KwFault env H F s v (.unique a b) v
  | contains (xs i) : v = .arr xs → s.contains = some i → (∀ x ∈ xs, F i x) → KwFault env H F s v .contains v
  | minProperties (kvs m) : v = .obj kvs → s.minProperties = some m → (kvs.length : Int) < m →
      KwFault env H F s v (.arrayMinProperties m) v
  | maxProperties (kvs m) : v = .obj kvs → s.maxProperties = some m → m < (kvs.length : Int) →
      KwFault env H F s v (.arrayMaxProperties m) v
  | required (kvs q) : v = .obj kvs → q ∈ s.required → q ∉ names kvs → KwFault env H F s v (.required q) v
  | additionalProperty (kvs k x) : v = .obj kvs → (k, x) ∈ kvs → Extraneous env s k →
      s.additionalProperties = .bool false → KwFault env H F s v (.additionalPropertyNotAllowed k) x
  | propertyName (kvs k i) : v = .obj kvs → k ∈ names kvs → s.propertyNames = some i → F i (.str k) →
      KwFault env H F s v (.invalidPropertyName k) v
  | minLength (t m) : v = .str t → s.minLength = some m → (t.length : Int) < m → KwFault env H F s v (.stringGTE m) v
  | maxLength (t m) : v = .str t → s.maxLength = some m → m < (t.length : Int) → KwFault env H F s v (.stringLTE m) v
  | pattern (t q) : v = .str t → s.pattern = some q → env.reMatch q t = false → KwFault env H F s v (.pattern q) v
  | multipleOf (n b) : v = .num n → s.multipleOf = some b → (¬ ∃ z : Int, n.val = z * b) →
      KwFault env H F s v (.multipleOf b) v
  | maximum (n b) : v = .num n → s.maximum = some b → b < n.val → KwFault env H F s v (.numberLTE b) v
  | exclusiveMaximum (n b) : v = .num n → s.exclusiveMaximum = some b → b ≤ n.val → KwFault env H F s v (.numberLT b) v
  | minimum (n b) : v = .num n → s.minimum = some b → n.val < b → KwFault env H F s v (.numberGTE b) v
  | exclusiveMinimum (n b) : v = .num n → s.exclusiveMinimum = some b → n.val ≤ b → KwFault env H F s v (.numberGT b) v

/-- What is wrong with `v` according to node `s` itself. -/
inductive Fault (env : Env) (H F : Id → Json → Prop) (s : Sub) (v : Json) : ErrKind → Json → Prop
  | false_ : s.pass = some false → Fault env H F s v .false_ v
  | type (t) : s.pass = none → s.refSchema = none → ¬ TypeRule env s.types v → TypeName env v t →
      Fault env H F s v (.invalidType (typeNames s.types) t) v
  | keyword (k x) : Plain env s v → KwFault env H F s v k x → Fault env H F s v k x

/-- Node `s`, applied to `v`, applies node `j` to `w`, and everything wrong there is wrong with `v`;
`w` is the part of `v` after the given step, if any. -/
inductive Must (env : Env) (H F : Id → Json → Prop) (s : Sub) (v : Json) : Option String → Id → Json → Prop
  | ref (j) : s.pass = none → s.refSchema = some j → Must env H F s v none j v
  | allOf (j) : Plain env s v → j ∈ s.allOf → Must env H F s v none j v
  | dependency (kvs k j) : Plain env s v → v = .obj kvs → k ∈ names kvs → getKey k s.dependencies = some (.schema j) →
      Must env H F s v none j v
  | then_ (i j) : Plain env s v → s.if_ = some i → s.then_ = some j → H i v → Must env H F s v none j v
  | else_ (i j) : Plain env s v → s.if_ = some i → s.else_ = some j → F i v → Must env H F s v none j v
  | items (xs j) (k : Nat) (x) : Plain env s v → v = .arr xs → s.itemsChildrenIsSingleSchema = true →
      s.itemsChildren.head? = some j → xs[k]? = some x → Must env H F s v (some (toString k)) j x
  | item (xs j) (k : Nat) (x) : Plain env s v → v = .arr xs → s.itemsChildrenIsSingleSchema = false →
      s.itemsChildren[k]? = some j → xs[k]? = some x → Must env H F s v (some (toString k)) j x
  | additionalItems (xs j) (k : Nat) (x) : Plain env s v → v = .arr xs → s.itemsChildrenIsSingleSchema = false →
      s.itemsChildren ≠ [] → s.itemsChildren.length ≤ k → s.additionalItems = .schema j → xs[k]? = some x →
      Must env H F s v (some (toString k)) j x
  | property (kvs j k x) : Plain env s v → v = .obj kvs → (k, j) ∈ s.propertiesChildren → getKey k kvs = some x →
      Must env H F s v (some k) j x
  | patternProperty (kvs j q k x) : Plain env s v → v = .obj kvs → (q, j) ∈ s.patternProperties → (k, x) ∈ kvs →
      env.reMatch q k = true → Must env H F s v (some k) j x
  | additionalProperty (kvs j k x) : Plain env s v → v = .obj kvs → (k, x) ∈ kvs → Extraneous env s k →
      s.additionalProperties = .schema j → Must env H F s v (some k) j x
  | propertyName (kvs j k) : Plain env s v → v = .obj kvs → k ∈ names kvs → s.propertyNames = some j →
      Must env H F s v none j (.str k)

/-- Node `s`, applied to `v`, applies node `j` to `w`, and what is wrong there explains what is
wrong with `v`: also the branches of `anyOf` and `oneOf`, if all fail, and `contains`, if no element
will do. -/
inductive May (env : Env) (H F : Id → Json → Prop) (s : Sub) (v : Json) : Option String → Id → Json → Prop
  | must (o j w) : Must env H F s v o j w → May env H F s v o j w
  | anyOf (j) : Plain env s v → j ∈ s.anyOf → (∀ i ∈ s.anyOf, F i v) → May env H F s v none j v
  | oneOf (j) : Plain env s v → j ∈ s.oneOf → (∀ i ∈ s.oneOf, F i v) → May env H F s v none j v
  | contains (xs j) (k : Nat) (x) : Plain env s v → v = .arr xs → s.contains = some j → xs[k]? = some x →
      (∀ y ∈ xs, F j y) → May env H F s v (some (toString k)) j x

/-- Steps of a relation between nodes and values, from `(i, v)` to `(j, w)`; the path has the
outermost step first. -/
inductive Reach (h : Heap) (R : Sub → Json → Option String → Id → Json → Prop) :
    Id → Json → List String → Id → Json → Prop
  | here (i v) : Reach h R i v [] i v
  | step (i s v o j w path i' w') : h[i]? = some s → R s v o j w → Reach h R j w path i' w' →
      Reach h R i v (o.toList ++ path) i' w'

end GJS.Spec

import Verif.SpecDoc
import Verif.SpecFault
/-
What an error report says, over schema documents: which sub-schema of the document was applied to
which part of the instance, and which of its keywords is violated there.  Neither compiled schemas
nor the validator appear in it.
-/
namespace GJS.Spec
open GJS

/-- The rules settle that document `D`, read under draft `d`, accepts `v`. -/
def DHolds (env : Env) (resolve : String → Option (Draft × Json)) (d : Draft) (D v : Json) : Prop :=
  ∃ n, ∀ P, docUnfold env resolve P n d D v

/-- The rules settle that document `D`, read under draft `d`, rejects `v`. -/
def DFails (env : Env) (resolve : String → Option (Draft × Json)) (d : Draft) (D v : Json) : Prop :=
  ∃ n, ∀ P, ¬ docUnfold env resolve P n d D v

/-- The types a schema object asks for. -/
def Types (m : List (String × Json)) (ts : List String) : Prop :=
  (∃ t, Kw m "type" (.str t) ∧ ts = [t]) ∨ Kw m "type" (.arr (ts.map .str))

/-- A size keyword with its value. -/
def Size (m : List (String × Json)) (key : String) (z : Int) : Prop := ∃ n, Kw m key (.num n) ∧ n.val = z

/-- A violated keyword of the schema object `m`, read under draft `d`, given which sub-schemas
accept and reject which values (`H`, `F`): the error it gives (kind with details), and the value
reported, which is `v` except for an additional property. -/
inductive DKwFault (env : Env) (H F : Json → Json → Prop) (d : Draft) (m : List (String × Json)) (v : Json) :
    ErrKind → Json → Prop
  | anyOf (Ds) : Kw m "anyOf" (.arr Ds) → Ds ≠ [] → (∀ D ∈ Ds, F D v) → DKwFault env H F d m v .numberAnyOf v
  | oneOf_none (Ds) : Kw m "oneOf" (.arr Ds) → Ds ≠ [] → (∀ D ∈ Ds, F D v) → DKwFault env H F d m v .numberOneOf v
  | oneOf_many (Ds) (k k' : Nat) (D D') : Kw m "oneOf" (.arr Ds) → k ≠ k' → Ds[k]? = some D → Ds[k']? = some D' →
      H D v → H D' v → DKwFault env H F d m v .numberOneOf v
  | allOf (Ds D) : Kw m "allOf" (.arr Ds) → D ∈ Ds → F D v → DKwFault env H F d m v .numberAllOf v
  | not (D) : Kw m "not" D → H D v → DKwFault env H F d m v .numberNot v
  | dependency (kvs ds k qs q) : v = .obj kvs → Kw m "dependencies" (.obj ds) → (k, .arr qs) ∈ ds → k ∈ keysOf kvs →
      Json.str q ∈ qs → q ∉ keysOf kvs → DKwFault env H F d m v (.missingDependency q) v
  | then_ (I T) : Draft7 ≤ d → Kw m "if" I → Kw m "then" T → H I v → F T v → DKwFault env H F d m v .conditionThen v
  | else_ (I E) : Draft7 ≤ d → Kw m "if" I → Kw m "else" E → F I v → F E v → DKwFault env H F d m v .conditionElse v
  | const (c t) : Draft6 ≤ d → Kw m "const" c → env.marshal c = some t → env.marshal v ≠ some t →
      DKwFault env H F d m v (.const t) v
  | enum (cs ts) : Kw m "enum" (.arr cs) → cs ≠ [] → cs.map env.marshal = ts.map some →
      (∀ c ∈ cs, env.marshal v ≠ env.marshal c) → DKwFault env H F d m v (.enum (String.intercalate ", " ts)) v
  | format (f) : Kw m "format" (.str f) → f ≠ "" → env.isFormat f v = false → DKwFault env H F d m v (.format f) v
  | additionalItems (xs Ds) : v = .arr xs → Kw m "items" (.arr Ds) → Ds ≠ [] → Kw m "additionalItems" (.bool false) →
      Ds.length < xs.length → DKwFault env H F d m v .arrayNoAdditionalItems v
  | minItems (xs z) : v = .arr xs → Size m "minItems" z → (xs.length : Int) < z → DKwFault env H F d m v (.arrayMinItems z) v
  | maxItems (xs z) : v = .arr xs → Size m "maxItems" z → z < (xs.length : Int) → DKwFault env H F d m v (.arrayMaxItems z) v
  | unique (xs) (a b : Nat) (x y) : v = .arr xs → Kw m "uniqueItems" (.bool true) → a < b →
      xs[a]? = some x → xs[b]? = some y → env.marshal x = env.marshal y →
      (∀ (c : Nat) z, a < c → c < b → xs[c]? = some z → env.marshal z ≠ env.marshal y) →
      DKwFault env H F d m v (.unique a b) v
  | contains (xs D) : v = .arr xs → Draft6 ≤ d → Kw m "contains" D → (∀ x ∈ xs, F D x) → DKwFault env H F d m v .contains v
  | minProperties (kvs z) : v = .obj kvs → Size m "minProperties" z → (kvs.length : Int) < z →
      DKwFault env H F d m v (.arrayMinProperties z) v
  | maxProperties (kvs z) : v = .obj kvs → Size m "maxProperties" z → z < (kvs.length : Int) →
      DKwFault env H F d m v (.arrayMaxProperties z) v
  | required (kvs qs q) : v = .obj kvs → Kw m "required" (.arr qs) → Json.str q ∈ qs → q ∉ keysOf kvs →
      DKwFault env H F d m v (.required q) v
  | additionalProperty (kvs k x) : v = .obj kvs → (k, x) ∈ kvs → Additional env m k →
      Kw m "additionalProperties" (.bool false) → DKwFault env H F d m v (.additionalPropertyNotAllowed k) x
  | propertyName (kvs k D) : v = .obj kvs → k ∈ keysOf kvs → Draft6 ≤ d → Kw m "propertyNames" D → F D (.str k) →
      DKwFault env H F d m v (.invalidPropertyName k) v
  | minLength (t z) : v = .str t → Size m "minLength" z → (t.length : Int) < z → DKwFault env H F d m v (.stringGTE z) v
  | maxLength (t z) : v = .str t → Size m "maxLength" z → z < (t.length : Int) → DKwFault env H F d m v (.stringLTE z) v
  | pattern (t q) : v = .str t → Kw m "pattern" (.str q) → env.reMatch q t = false → DKwFault env H F d m v (.pattern q) v
  | multipleOf (n q) : v = .num n → Kw m "multipleOf" (.num q) → (¬ ∃ z : Int, n.val = z * q.val) →
      DKwFault env H F d m v (.multipleOf q.val) v
  | maximum (n q) : v = .num n → Kw m "maximum" (.num q) → ¬ Kw m "exclusiveMaximum" (.bool true) → q.val < n.val →
      DKwFault env H F d m v (.numberLTE q.val) v
  | exclusiveMaximum (n q) : v = .num n → Kw m "maximum" (.num q) → Kw m "exclusiveMaximum" (.bool true) → q.val ≤ n.val →
      DKwFault env H F d m v (.numberLT q.val) v
  | exclusiveMaximum' (n q) : v = .num n → Kw m "exclusiveMaximum" (.num q) → env.ratOk q = true → q.val ≤ n.val →
      DKwFault env H F d m v (.numberLT q.val) v
  | minimum (n q) : v = .num n → Kw m "minimum" (.num q) → ¬ Kw m "exclusiveMinimum" (.bool true) → n.val < q.val →
      DKwFault env H F d m v (.numberGTE q.val) v
  | exclusiveMinimum (n q) : v = .num n → Kw m "minimum" (.num q) → Kw m "exclusiveMinimum" (.bool true) → n.val ≤ q.val →
      DKwFault env H F d m v (.numberGT q.val) v
  | exclusiveMinimum' (n q) : v = .num n → Kw m "exclusiveMinimum" (.num q) → env.ratOk q = true → n.val ≤ q.val →
      DKwFault env H F d m v (.numberGT q.val) v

/-- The schema object has no `$ref` (with a string). -/
def NoRefHere (m : List (String × Json)) : Prop := ∀ t, ¬ Kw m "$ref" (.str t)

/-- What is wrong with `v` according to the schema document itself. -/
inductive DFault (env : Env) (H F : Json → Json → Prop) (d : Draft) (v : Json) : Json → ErrKind → Json → Prop
  | false_ : DFault env H F d v (.bool false) .false_ v
  | type (m ts t) : NoRefHere m → Types m ts → ¬ DType env m v → TypeName env v t →
      DFault env H F d v (.obj m) (.invalidType (typeNames ts) t) v
  | keyword (m k x) : NoRefHere m → DType env m v → DKwFault env H F d m v k x → DFault env H F d v (.obj m) k x

/-- The keywords of `m` are applied to `v`. -/
def Applies (env : Env) (m : List (String × Json)) (v : Json) : Prop := NoRefHere m ∧ DType env m v

/-- The schema document, applied to `v`, applies document `D` under draft `d'` to `w`, and
everything wrong there is wrong with `v`; `w` is the part of `v` after the given step, if any. -/
inductive DMust (env : Env) (resolve : String → Option (Draft × Json)) (H F : Json → Json → Prop) (d : Draft)
    (m : List (String × Json)) (v : Json) : Option String → Draft → Json → Json → Prop
  | ref (t d' D) : Kw m "$ref" (.str t) → resolve t = some (d', D) → DMust env resolve H F d m v none d' D v
  | allOf (Ds D) : Applies env m v → Kw m "allOf" (.arr Ds) → D ∈ Ds → DMust env resolve H F d m v none d D v
  | dependency (kvs ds k D) : Applies env m v → v = .obj kvs → Kw m "dependencies" (.obj ds) → (k, D) ∈ ds →
      (∀ qs, D ≠ .arr qs) → k ∈ keysOf kvs → DMust env resolve H F d m v none d D v
  | then_ (I T) : Applies env m v → Draft7 ≤ d → Kw m "if" I → Kw m "then" T → H I v → DMust env resolve H F d m v none d T v
  | else_ (I E) : Applies env m v → Draft7 ≤ d → Kw m "if" I → Kw m "else" E → F I v → DMust env resolve H F d m v none d E v
  | items (xs I) (k : Nat) (x) : Applies env m v → v = .arr xs → Kw m "items" I → (∀ Ds, I ≠ .arr Ds) → xs[k]? = some x →
      DMust env resolve H F d m v (some (toString k)) d I x
  | item (xs Ds D) (k : Nat) (x) : Applies env m v → v = .arr xs → Kw m "items" (.arr Ds) → Ds[k]? = some D → xs[k]? = some x →
      DMust env resolve H F d m v (some (toString k)) d D x
  | additionalItems (xs Ds A) (k : Nat) (x) : Applies env m v → v = .arr xs → Kw m "items" (.arr Ds) → Ds ≠ [] →
      Ds.length ≤ k → Kw m "additionalItems" (.obj A) → xs[k]? = some x →
      DMust env resolve H F d m v (some (toString k)) d (.obj A) x
  | property (kvs ps k D x) : Applies env m v → v = .obj kvs → Kw m "properties" (.obj ps) → (k, D) ∈ ps →
      getKey k kvs = some x → DMust env resolve H F d m v (some k) d D x
  | patternProperty (kvs ps q D k x) : Applies env m v → v = .obj kvs → Kw m "patternProperties" (.obj ps) → (q, D) ∈ ps →
      (k, x) ∈ kvs → env.reMatch q k = true → DMust env resolve H F d m v (some k) d D x
  | additionalProperty (kvs A k x) : Applies env m v → v = .obj kvs → (k, x) ∈ kvs → Additional env m k →
      Kw m "additionalProperties" (.obj A) → DMust env resolve H F d m v (some k) d (.obj A) x
  | propertyName (kvs D k) : Applies env m v → v = .obj kvs → k ∈ keysOf kvs → Draft6 ≤ d → Kw m "propertyNames" D →
      DMust env resolve H F d m v none d D (.str k)

/-- The same, also for the branches of `anyOf` and `oneOf`, if all fail, and for `contains`, if no
element will do. -/
inductive DMay (env : Env) (resolve : String → Option (Draft × Json)) (H F : Json → Json → Prop) (d : Draft)
    (m : List (String × Json)) (v : Json) : Option String → Draft → Json → Json → Prop
  | must (o d' D w) : DMust env resolve H F d m v o d' D w → DMay env resolve H F d m v o d' D w
  | anyOf (Ds D) : Applies env m v → Kw m "anyOf" (.arr Ds) → D ∈ Ds → (∀ D' ∈ Ds, F D' v) →
      DMay env resolve H F d m v none d D v
  | oneOf (Ds D) : Applies env m v → Kw m "oneOf" (.arr Ds) → D ∈ Ds → (∀ D' ∈ Ds, F D' v) →
      DMay env resolve H F d m v none d D v
  | contains (xs D) (k : Nat) (x) : Applies env m v → v = .arr xs → Draft6 ≤ d → Kw m "contains" D → xs[k]? = some x →
      (∀ y ∈ xs, F D y) → DMay env resolve H F d m v (some (toString k)) d D x

/-- Steps of such a relation from `(d, D, v)` to `(d', D', v')`; the path has the outermost step
first. -/
inductive DReach (R : Draft → List (String × Json) → Json → Option String → Draft → Json → Json → Prop) :
    Draft → Json → Json → List String → Draft → Json → Json → Prop
  | here (d D v) : DReach R d D v [] d D v
  | step (d m v o d' D' v' path d'' D'' v'') : R d m v o d' D' v' → DReach R d' D' v' path d'' D'' v'' →
      DReach R d (.obj m) v (o.toList ++ path) d'' D'' v''

/-- The fault `k` with value `x` is one of a sub-schema of `D` reached through sub-schemas that
have to be applied, by the steps `path` into `v`. -/
def MustReport (env : Env) (resolve : String → Option (Draft × Json)) (d : Draft) (D v : Json)
    (path : List String) (k : ErrKind) (x : Json) : Prop :=
  ∃ d' D' w, DReach (fun d => DMust env resolve (DHolds env resolve d) (DFails env resolve d) d) d D v path d' D' w ∧
    DFault env (DHolds env resolve d') (DFails env resolve d') d' w D' k x

/-- The same through sub-schemas that may explain a fault. -/
def MayReport (env : Env) (resolve : String → Option (Draft × Json)) (d : Draft) (D v : Json)
    (path : List String) (k : ErrKind) (x : Json) : Prop :=
  ∃ d' D' w, DReach (fun d => DMay env resolve (DHolds env resolve d) (DFails env resolve d) d) d D v path d' D' w ∧
    DFault env (DHolds env resolve d') (DFails env resolve d') d' w D' k x

end GJS.Spec

import Verif.SpecDoc
/-
When a validation comes back, told from the schema document alone: which sub-schemas of a schema object have to
be asked about which values.
-/
namespace GJS.Spec
open GJS

/-- To decide about a value, the schema object `m` read under draft `d` has to ask its sub-schema `D` about `w`. -/
inductive DNeeds (env : Env) (sat : SatD) (d : Draft) (m : List (String × Json)) : Json → Json → Json → Prop
  | anyOf (k : Nat) (Ds D v) : Kw m "anyOf" (.arr Ds) → Ds[k]? = some D →
      (∀ (k' : Nat) D', k' < k → Ds[k']? = some D' → ¬ sat D' v) → DNeeds env sat d m v D v
  | oneOf (Ds D v) : Kw m "oneOf" (.arr Ds) → D ∈ Ds → DNeeds env sat d m v D v
  | allOf (Ds D v) : Kw m "allOf" (.arr Ds) → D ∈ Ds → DNeeds env sat d m v D v
  | not (D v) : Kw m "not" D → DNeeds env sat d m v D v
  | dependency (ds kvs k D) : Kw m "dependencies" (.obj ds) → (k, D) ∈ ds → (∀ xs, D ≠ .arr xs) → k ∈ keysOf kvs →
      DNeeds env sat d m (.obj kvs) D (.obj kvs)
  | if_ (I v) : Draft7 ≤ d → Kw m "if" I → DNeeds env sat d m v I v
  | then_ (I T v) : Draft7 ≤ d → Kw m "if" I → Kw m "then" T → sat I v → DNeeds env sat d m v T v
  | else_ (I E v) : Draft7 ≤ d → Kw m "if" I → Kw m "else" E → ¬ sat I v → DNeeds env sat d m v E v
  | items (D xs x) : Kw m "items" D → (∀ Ds, D ≠ .arr Ds) → x ∈ xs → DNeeds env sat d m (.arr xs) D x
  | itemAt (k : Nat) (Ds D xs x) : Kw m "items" (.arr Ds) → Ds[k]? = some D → xs[k]? = some x → DNeeds env sat d m (.arr xs) D x
  | additionalItem (k : Nat) (Ds A xs x) : Kw m "items" (.arr Ds) → Ds ≠ [] → Kw m "additionalItems" (.obj A) → Ds.length ≤ k →
      xs[k]? = some x → DNeeds env sat d m (.arr xs) (.obj A) x
  | contains (k : Nat) (D xs x) : Draft6 ≤ d → Kw m "contains" D → xs[k]? = some x →
      (∀ (k' : Nat) y, k' < k → xs[k']? = some y → ¬ sat D y) → DNeeds env sat d m (.arr xs) D x
  | property (ps kvs k D x) : Kw m "properties" (.obj ps) → (k, D) ∈ ps → getKey k kvs = some x → DNeeds env sat d m (.obj kvs) D x
  | patternProperty (ps kvs q D k x) : Kw m "patternProperties" (.obj ps) → (q, D) ∈ ps → (k, x) ∈ kvs → env.reMatch q k = true →
      DNeeds env sat d m (.obj kvs) D x
  | additionalProperty (A kvs k x) : Kw m "additionalProperties" (.obj A) → (k, x) ∈ kvs → Additional env m k →
      DNeeds env sat d m (.obj kvs) (.obj A) x
  | propertyName (D kvs k) : Draft6 ≤ d → Kw m "propertyNames" D → k ∈ keysOf kvs → DNeeds env sat d m (.obj kvs) D (.str k)

/-- Asking the schema document `D`, read under draft `d`, about `v` has an answer, and `b` is the answer. -/
inductive DocAnswers (env : Env) (resolve : String → Option (Draft × Json)) : Draft → Json → Json → Bool → Prop
  | bool (d b v) : DocAnswers env resolve d (.bool b) v b
  | ref (d m r d' D' v b) : Kw m "$ref" (.str r) → resolve r = some (d', D') → DocAnswers env resolve d' D' v b →
      DocAnswers env resolve d (.obj m) v b
  | type (d m v) : (∀ r, ¬ Kw m "$ref" (.str r)) → ¬ DType env m v → DocAnswers env resolve d (.obj m) v false
  | object (d m v b) (a : Json → Json → Bool) : (∀ r, ¬ Kw m "$ref" (.str r)) → DType env m v →
      (∀ D w, DNeeds env (fun D w => a D w = true) d m v D w → DocAnswers env resolve d D w (a D w)) →
      (b = true ↔ DKeywords env (fun D w => a D w = true) d m v) → DocAnswers env resolve d (.obj m) v b

/-- The document `D` cannot decide about `v` without asking the document `D'` about `w`, whatever other answers are. -/
inductive DMustAsk (env : Env) (resolve : String → Option (Draft × Json)) : Draft × Json × Json → Draft × Json × Json → Prop
  | ref (d m r d' D' v) : Kw m "$ref" (.str r) → resolve r = some (d', D') → DMustAsk env resolve (d, .obj m, v) (d', D', v)
  | sub (d m v D w) : (∀ r, ¬ Kw m "$ref" (.str r)) → DType env m v → (∀ sat, DNeeds env sat d m v D w) →
      DMustAsk env resolve (d, .obj m, v) (d, D, w)

end GJS.Spec

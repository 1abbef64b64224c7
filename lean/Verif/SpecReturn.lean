import Verif.SpecNode
/-
When a validation comes back at all: which sub-schemas a node has to ask, in which order, and when there is an
answer.
-/
namespace GJS.Spec
open GJS

/-- To decide about `v`, the node `s` has to ask the node `j` about `w`.  `Sat` says what the answers are to the
questions that come first: `anyOf` and `contains` stop at the first success, `then` and `else` depend on `if`. -/
inductive Needs (env : Env) (Sat : Id → Json → Prop) (s : Sub) : Json → Id → Json → Prop
  | anyOf (k : Nat) (i v) : s.anyOf[k]? = some i → (∀ (k' : Nat) i', k' < k → s.anyOf[k']? = some i' → ¬ Sat i' v) →
      Needs env Sat s v i v
  | oneOf (i v) : i ∈ s.oneOf → Needs env Sat s v i v
  | allOf (i v) : i ∈ s.allOf → Needs env Sat s v i v
  | not (i v) : s.not = some i → Needs env Sat s v i v
  | dependency (kvs k i) : k ∈ kvs.map Prod.fst → getKey k s.dependencies = some (.schema i) →
      Needs env Sat s (.obj kvs) i (.obj kvs)
  | if_ (i v) : s.if_ = some i → Needs env Sat s v i v
  | then_ (i t v) : s.if_ = some i → s.then_ = some t → Sat i v → Needs env Sat s v t v
  | else_ (i t v) : s.if_ = some i → s.else_ = some t → ¬ Sat i v → Needs env Sat s v t v
  | items (xs i x) : s.itemsChildrenIsSingleSchema = true → s.itemsChildren.head? = some i → x ∈ xs →
      Needs env Sat s (.arr xs) i x
  | itemAt (k : Nat) (xs i x) : s.itemsChildrenIsSingleSchema = false → s.itemsChildren[k]? = some i → xs[k]? = some x →
      Needs env Sat s (.arr xs) i x
  | additionalItem (k : Nat) (xs i x) : s.itemsChildrenIsSingleSchema = false → s.itemsChildren ≠ [] →
      s.additionalItems = .schema i → s.itemsChildren.length ≤ k → xs[k]? = some x → Needs env Sat s (.arr xs) i x
  | contains (k : Nat) (xs i x) : s.contains = some i → xs[k]? = some x →
      (∀ (k' : Nat) y, k' < k → xs[k']? = some y → ¬ Sat i y) → Needs env Sat s (.arr xs) i x
  | property (kvs name i x) : (name, i) ∈ s.propertiesChildren → getKey name kvs = some x →
      Needs env Sat s (.obj kvs) i x
  | patternProperty (kvs pat i k x) : (pat, i) ∈ s.patternProperties → (k, x) ∈ kvs → env.reMatch pat k = true →
      Needs env Sat s (.obj kvs) i x
  | additionalProperty (kvs i k x) : s.additionalProperties = .schema i → (k, x) ∈ kvs →
      (∀ i, (k, i) ∉ s.propertiesChildren) → (∀ pat i, (pat, i) ∈ s.patternProperties → env.reMatch pat k = false) →
      Needs env Sat s (.obj kvs) i x
  | propertyName (kvs i k) : s.propertyNames = some i → k ∈ kvs.map Prod.fst → Needs env Sat s (.obj kvs) i (.str k)

/-- Asking the node `i` about `v` has an answer, and `b` is the answer. -/
inductive Answers (env : Env) (h : Heap) : Id → Json → Bool → Prop
  | pass (i : Nat) (v s b) : h[i]? = some s → s.pass = some b → Answers env h i v b
  | ref (i : Nat) (v s j b) : h[i]? = some s → s.pass = none → s.refSchema = some j → Answers env h j v b → Answers env h i v b
  | type (i : Nat) (v s) : h[i]? = some s → s.pass = none → s.refSchema = none → ¬ TypeRule env s.types v →
      Answers env h i v false
  | node (i : Nat) (v s b) (d : Id → Json → Bool) : h[i]? = some s → s.pass = none → s.refSchema = none →
      TypeRule env s.types v →
      (∀ j w, Needs env (fun j w => d j w = true) s v j w → Answers env h j w (d j w)) →
      (b = true ↔ Keywords env (fun j w => d j w = true) s v) → Answers env h i v b

/-- The node `i` cannot decide about `v` without asking the node `j` about `w`, whatever other answers are. -/
def MustAsk (env : Env) (h : Heap) (i : Id) (v : Json) (j : Id) (w : Json) : Prop :=
  ∃ s, h[i]? = some s ∧ s.pass = none ∧
    ((s.refSchema = some j ∧ w = v) ∨
     (s.refSchema = none ∧ TypeRule env s.types v ∧ ∀ Sat, Needs env Sat s v j w))

end GJS.Spec

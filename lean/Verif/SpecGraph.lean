import Verif.Num
import Verif.Model
import Mathlib.Logic.Relation
/-
Vocabulary about compiled schemas and instances used in hypotheses: which sub-schemas a node
applies, closedness, numbers in range.
-/
namespace GJS.Spec
open GJS

/-- Sub-schemas a node applies to the very value it is given. -/
def inPlace (s : Sub) : List Id :=
  s.refSchema.toList ++ s.anyOf ++ s.oneOf ++ s.allOf ++ s.not.toList ++
  s.if_.toList ++ s.then_.toList ++ s.else_.toList ++
  s.dependencies.filterMap (fun d => match d.2 with | .schema i => some i | .keys _ => none)

/-- The sub-schema in an `additionalItems`/`additionalProperties` value. -/
def extraId : Extra → List Id
  | .schema i => [i]
  | _ => []

/-- Sub-schemas a node applies to elements, members or keys of its value. -/
def nested (s : Sub) : List Id :=
  s.itemsChildren ++ s.propertiesChildren.map Prod.snd ++ s.patternProperties.map Prod.snd ++
  extraId s.additionalProperties ++ extraId s.additionalItems ++ s.propertyNames.toList ++ s.contains.toList

/-- Node `i` applies node `j` to the value it is given. -/
def InPlaceEdge (h : Heap) (i j : Id) : Prop := ∃ s, h[i]? = some s ∧ j ∈ inPlace s

/-- No chain of in-place applications returns to its start. -/
def Acyclic (h : Heap) : Prop := ∀ i, ¬ Relation.TransGen (InPlaceEdge h) i i

/-- `w` is an element, a member or a key of `v`. -/
def Inside (v w : Json) : Prop :=
  (∃ xs, v = .arr xs ∧ w ∈ xs) ∨
  (∃ kvs, v = .obj kvs ∧ ((∃ k, (k, w) ∈ kvs) ∨ ∃ k ∈ kvs.map Prod.fst, w = .str k))

/-- Every pointer of every node points to a node, a single `items` schema is present, and
`multipleOf` is not zero. -/
def HeapOK (h : Heap) : Prop :=
  ∀ s ∈ h, (∀ j ∈ inPlace s ++ nested s, j < h.length) ∧
    (s.itemsChildrenIsSingleSchema = true → s.itemsChildren ≠ []) ∧ s.multipleOf ≠ some 0

/-- Every number in the value is accepted by `big.Rat` and fits a float64. -/
inductive InRange (env : Env) : Json → Prop
  | null : InRange env .null
  | bool (b) : InRange env (.bool b)
  | str (s) : InRange env (.str s)
  | num (n) : env.ratOk n = true → n.toF64 ≠ none → InRange env (.num n)
  | arr (xs) : (∀ x ∈ xs, InRange env x) → InRange env (.arr xs)
  | obj (kvs) : (∀ k x, (k, x) ∈ kvs → InRange env x) → InRange env (.obj kvs)

end GJS.Spec

import Mathlib.Data.List.Forall2
import Verif.SpecLaws
import Verif.SpecClosed
/-
Replacing references by what they stand for.
-/
namespace GJS.Spec
open GJS

/-- The same document, or two schema objects related by `R`. -/
def PartOr (R : Json → Json → Prop) (x y : Json) : Prop := x = y ∨ ∃ a b, x = .obj a ∧ y = .obj b ∧ R x y

/-- Two values of the keyword `k`: the same, or with sub-schemas related by `R`. -/
inductive ValueOr (R : Json → Json → Prop) (k : String) : Json → Json → Prop
  | same (x) : ValueOr R k x x
  | schema (x y) : k ∈ schemaKeywords → PartOr R x y → ValueOr R k x y
  | list (xs ys) : k ∈ listKeywords → List.Forall₂ (PartOr R) xs ys → ValueOr R k (.arr xs) (.arr ys)
  | map (xs ys) : k ∈ mapKeywords → List.Forall₂ (fun a b => a.1 = b.1 ∧ PartOr R a.2 b.2) xs ys → ValueOr R k (.obj xs) (.obj ys)

/-- The same keywords. -/
def KeywordsOr (R : Json → Json → Prop) (m m' : List (String × Json)) : Prop :=
  ∀ k, (getKey k m = none ∧ getKey k m' = none) ∨ ∃ x y, Kw m k x ∧ Kw m' k y ∧ ValueOr R k x y

/-- `D'` is `D` with references to schemas of draft `d` replaced by what they stand for, and the references in these again,
along paths of length at most `n`.  (`$ref` and what stands beside it are replaced by a schema object.) -/
def Deref (resolve : String → Option (Draft × Json)) (d : Draft) : Nat → Json → Json → Prop
  | 0, D, D' => D = D'
  | n + 1, D, D' => D = D' ∨
    (∃ m t X, D = .obj m ∧ Kw m "$ref" (.str t) ∧ resolve t = some (d, X) ∧ Deref resolve d n X D') ∨
    ∃ m m', D = .obj m ∧ D' = .obj m' ∧ KeywordsOr (Deref resolve d n) m m'

end GJS.Spec

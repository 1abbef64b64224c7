import Verif.SpecWell
/-
Documents on which nothing panics, stated without the compiler.
-/
namespace GJS.Spec
open GJS

/-- Documents free of the three things that make the compiler panic: a number `big.Rat` rejects, a
`definitions` that is a boolean, a number in the array of a `type`. -/
structure Tame (env : Env) (D : Json) : Prop where
  nums : NumsRat env D
  definitions : ∀ m b, Within D (.obj m) → getKey "definitions" m ≠ some (.bool b)
  types : ∀ m xs n, Within D (.obj m) → getKey "type" m = some (.arr xs) → .num n ∉ xs

/-- Assumptions on the libraries: references can always be made absolute, a JSON pointer selects a
part of the document it is applied to, a decoded object has no key twice. -/
structure Standard (w : World) : Prop where
  inherits : ∀ a b, w.inherits a b ≠ none
  pointer : ∀ r D d, w.pointer r D = some d → Within D d
  decode : ∀ t d, w.decode t = some d → d.WF

/-- Every document that can be loaded satisfies `N`: files, what the web answers, and the built-in meta-schemas. -/
def Brings (w : World) (N : Json → Prop) : Prop :=
  (∀ n f name d, w.readFile n f name = some d → N d) ∧ (∀ n u d, w.http n u = some d → N d) ∧
  ∀ u d, w.decode (getMetaSchema u) = some d → N d

end GJS.Spec

import Verif.Model
/-
Equality of JSON values as enum, const and uniqueItems should see it, and what is assumed
about the printing of floating point numbers.
-/
namespace GJS.Spec
open GJS

/-- Same structure, same strings, same members whatever their order, and numbers that round
to the same float64 (sign of zero included). -/
inductive SameVal : Json → Json → Prop
  | null : SameVal .null .null
  | bool (b) : SameVal (.bool b) (.bool b)
  | str (s) : SameVal (.str s) (.str s)
  | num (m n) : m.toF64 = n.toF64 → SameVal (.num m) (.num n)
  | arr (xs ys : List Json) : xs.length = ys.length →
      (∀ (k : Nat) x y, xs[k]? = some x → ys[k]? = some y → SameVal x y) → SameVal (.arr xs) (.arr ys)
  | obj (a b : List (String × Json)) : (∀ k, k ∈ a.map Prod.fst ↔ k ∈ b.map Prod.fst) →
      (∀ k x y, (k, x) ∈ a → (k, y) ∈ b → SameVal x y) → SameVal (.obj a) (.obj b)

/-- A float64 some literal rounds to. -/
def IsF64 (f : F64) : Prop := ∃ n : NumLit, n.toF64 = some f

/-- Characters of a printed float64. -/
def numChar (c : Char) : Bool := c.isDigit || c == '-' || c == '+' || c == '.' || c == 'e'

/-- What is assumed of `encoding/json`'s printing of float64s: different numbers are printed
differently (it prints the shortest text that reads back), with digits, signs, point and `e`
only, and the text is not empty. -/
structure FmtOK (fmt : F64 → String) : Prop where
  inj : ∀ a b, IsF64 a → IsF64 b → fmt a = fmt b → a = b
  chars : ∀ a, IsF64 a → ∀ c ∈ (fmt a).toList, numChar c = true
  nonempty : ∀ a, IsF64 a → fmt a ≠ ""

end GJS.Spec

import Verif.Json
import Mathlib.Algebra.Order.Field.Rat
/-
The value of a number literal, and rounding to IEEE binary64, said without the functions that
compute them.
-/
namespace GJS.Spec
open GJS

/-- The value of the digits after the point. -/
def fractionVal : List (Fin 10) → Rat
  | [] => 0
  | d :: ds => (d.val + fractionVal ds) / 10

/-- The magnitude a literal denotes: integer part, fraction and power of ten. -/
def magnitudeOf (n : NumLit) : Rat := (n.ip + fractionVal n.frac) * (10 : Rat) ^ n.exp.getD 0

/-- The value a literal denotes. -/
def valueOf (n : NumLit) : Rat := if n.neg then -magnitudeOf n else magnitudeOf n

/-- `q` is a binary64 magnitude with significand `m` and exponent `e` of its last bit; subnormal
numbers have the least exponent. -/
structure Binary64 (m : Nat) (e : Int) (q : Rat) : Prop where
  value : q = m * (2 : Rat) ^ e
  bits : m < 2 ^ 53
  low : -1074 ≤ e
  high : e ≤ 971
  normal : 2 ^ 52 ≤ m ∨ e = -1074

/-- `q` is the binary64 magnitude nearest to `x`, and of two that are equally near the one with an
even significand. -/
def Nearest64 (x q : Rat) : Prop :=
  ∃ m e, Binary64 m e q ∧
    ∀ m' e' q', Binary64 m' e' q' → |x - q| < |x - q'| ∨ q' = q ∨ |x - q| = |x - q'| ∧ m % 2 = 0

/-- The literal is in the range of binary64 (what is a half unit or more beyond the largest number
rounds to infinity). -/
def InRange64 (n : NumLit) : Prop := magnitudeOf n < (2 : Rat) ^ 1024 - 2 ^ 970

end GJS.Spec

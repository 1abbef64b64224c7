import Verif.Json
/-
Numbers: exact values (`math/big.Rat`), 64-bit integers, and IEEE binary64 rounding.
-/
namespace GJS

/-- Value of a digit string. -/
def digitsVal (l : List (Fin 10)) : Nat := l.foldl (fun a d => a * 10 + d.val) 0

/-- All digits of the literal read as one natural number. -/
def NumLit.mant (n : NumLit) : Nat := n.ip * 10 ^ n.frac.length + digitsVal n.frac

/-- Decimal exponent to apply to `mant`. -/
def NumLit.exp10 (n : NumLit) : Int := n.exp.getD 0 - n.frac.length

/-- Exact magnitude of the literal, a non-negative rational. -/
def NumLit.mag (n : NumLit) : Rat :=
  if 0 ≤ n.exp10 then (n.mant * 10 ^ n.exp10.toNat : Nat)
  else mkRat n.mant (10 ^ (-n.exp10).toNat)

/-- Exact value of the literal: what `new(big.Rat).SetString(text)` yields when it
succeeds (`/repo/utils.go` 121, 161; `/repo/validation.go` 777). -/
def NumLit.val (n : NumLit) : Rat := if n.neg then -n.mag else n.mag

/-- A float64 that is neither infinite nor NaN: sign bit and magnitude.
(The sign is kept separately: `-0` and `0` are different float64 values and
`encoding/json` prints them differently.) -/
structure F64 where
  neg : Bool
  mag : Rat
deriving DecidableEq, Repr

/-- Integer division rounded to nearest, ties to even. -/
def divRound (a b : Nat) : Nat :=
  let m := a / b
  let r := a % b
  if 2 * r > b ∨ (2 * r = b ∧ m % 2 = 1) then m + 1 else m

/-- `⌊log2 (a / b)⌋` for positive `a`, `b`. -/
def log2Ratio (a b : Nat) : Int :=
  let k : Int := (a.log2 : Int) - b.log2
  if 0 ≤ k then (if b * 2 ^ k.toNat ≤ a then k else k - 1)
  else (if b ≤ a * 2 ^ (-k).toNat then k else k - 1)

/-- Exponent of the last mantissa bit used for `a / b` (53-bit mantissa, subnormals below
`2 ^ -1022`). -/
def ulpExp (a b : Nat) : Int := max (-1074) (log2Ratio a b - 52)

/-- `m * 2 ^ e`. -/
def scale2 (m : Nat) (e : Int) : Rat :=
  if 0 ≤ e then (m * 2 ^ e.toNat : Nat) else mkRat m (2 ^ (-e).toNat)

/-- Round the non-negative rational `a / b` to the nearest binary64 magnitude, ties to
even; `none` on overflow. -/
def roundMag (a b : Nat) : Option Rat :=
  if a = 0 then some 0
  else
    let e := ulpExp a b
    let m := if 0 ≤ e then divRound a (b * 2 ^ e.toNat) else divRound (a * 2 ^ (-e).toNat) b
    let q := scale2 m e
    if (2 ^ 1024 : Nat) ≤ q then none else some q

/-- The float64 that `json.Unmarshal` produces for the literal (second decoding in
`marshalWithoutNumber`, `/repo/utils.go` 84-104): `strconv.ParseFloat(text, 64)`, correctly
rounded; `none` when it overflows, in which case `json.Unmarshal` fails. -/
def NumLit.toF64 (n : NumLit) : Option F64 :=
  (roundMag n.mag.num.natAbs n.mag.den).map fun q => ⟨n.neg, q⟩

/-- `json.Number.Int64()`, i.e. `strconv.ParseInt(text, 10, 64)`: only literals without
fraction and exponent parse, and only within the int64 range (`/repo/utils.go` 143). -/
def NumLit.int64? (n : NumLit) : Option Int :=
  if n.frac = [] ∧ n.exp = none then
    let i : Int := if n.neg then -(n.ip : Int) else n.ip
    if -(2 ^ 63 : Int) ≤ i ∧ i ≤ 2 ^ 63 - 1 then some i else none
  else none

end GJS

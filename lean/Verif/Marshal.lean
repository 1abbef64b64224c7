import Verif.Num
/-
`marshalWithoutNumber`: the serialised form by which enum, const and uniqueItems compare.
-/
namespace GJS

/-- A document decoded a second time without `UseNumber`: numbers are float64; maps are
listed by increasing key (the order in which `json.Marshal` prints them). -/
inductive Canon where
  | null
  | bool (b : Bool)
  | num  (f : F64)
  | str  (s : String)
  | arr  (xs : List Canon)
  | obj  (kvs : List (String × Canon))
deriving Repr, Inhabited

/-- Order of keys used by `json.Marshal` on maps (byte-wise, which for UTF-8 is
code-point-wise). -/
def keyLE (a b : String × α) : Bool := decide (a.1 ≤ b.1)

mutual
/-- Decode again without `UseNumber` (`json.Unmarshal` in `/repo/utils.go` 96-101): every
number becomes a float64, which fails on overflow.  Simplification: serialising and
decoding strings, booleans, nulls and structure is the identity (proved of the two steps as
written, `Go.marshalTwice`, in `C60_twice`). -/
def canon : Json → Option Canon
  | .null    => some .null
  | .bool b  => some (.bool b)
  | .num n   => (n.toF64).map .num
  | .str s   => some (.str s)
  | .arr xs  => (canonL xs).map .arr
  | .obj kvs => (canonKV kvs).map fun l => .obj (l.mergeSort keyLE)
/-- Elementwise `canon`. -/
def canonL : List Json → Option (List Canon)
  | [] => some []
  | x :: xs => do
    let c ← canon x
    let cs ← canonL xs
    some (c :: cs)
/-- Memberwise `canon`. -/
def canonKV : List (String × Json) → Option (List (String × Canon))
  | [] => some []
  | (k, x) :: xs => do
    let c ← canon x
    let cs ← canonKV xs
    some ((k, c) :: cs)
end

/-- Hexadecimal digit, lower case. -/
def hexDigit (n : Nat) : Char := Nat.digitChar (n % 16)

/-- `\uXXXX`. -/
def escU (c : Char) : List Char :=
  let n := c.toNat
  ['\\', 'u', hexDigit (n / 4096), hexDigit (n / 256), hexDigit (n / 16), hexDigit n]

/-- How `encoding/json` writes one character of a string: quote and backslash escaped,
`\n \r \t` short, other control characters and `< > & U+2028 U+2029` as `\uXXXX`. -/
def escChar (c : Char) : List Char :=
  if c = '"' then ['\\', '"']
  else if c = '\\' then ['\\', '\\']
  else if c = '\n' then ['\\', 'n']
  else if c = '\r' then ['\\', 'r']
  else if c = '\t' then ['\\', 't']
  else if c.toNat < 32 ∨ c = '<' ∨ c = '>' ∨ c = '&' ∨ c.toNat = 0x2028 ∨ c.toNat = 0x2029 then escU c
  else [c]

/-- A string literal. -/
def encStr (s : String) : List Char := '"' :: (s.toList.flatMap escChar ++ ['"'])

mutual
/-- `json.Marshal` of a document without `json.Number`s (`/repo/utils.go` 73-82, 103).
`fmt` is the textual rendering of a float64 by `encoding/json`. -/
def enc (fmt : F64 → String) : Canon → List Char
  | .null    => "null".toList
  | .bool b  => if b then "true".toList else "false".toList
  | .num f   => (fmt f).toList
  | .str s   => encStr s
  | .arr xs  => '[' :: (encL fmt xs ++ [']'])
  | .obj kvs => '{' :: (encKV fmt kvs ++ ['}'])
/-- Comma-separated elements. -/
def encL (fmt : F64 → String) : List Canon → List Char
  | [] => []
  | [x] => enc fmt x
  | x :: y :: ys => enc fmt x ++ ',' :: encL fmt (y :: ys)
/-- Comma-separated members. -/
def encKV (fmt : F64 → String) : List (String × Canon) → List Char
  | [] => []
  | [(k, x)] => encStr k ++ ':' :: enc fmt x
  | (k, x) :: y :: ys => encStr k ++ ':' :: (enc fmt x ++ ',' :: encKV fmt (y :: ys))
end

/-- `marshalWithoutNumber` (`/repo/utils.go` 84-104).  `none` is the error return (with a
nil string pointer). -/
def marshalWithoutNumber (fmt : F64 → String) (v : Json) : Option String :=
  (canon v).map fun c => String.ofList (enc fmt c)

end GJS

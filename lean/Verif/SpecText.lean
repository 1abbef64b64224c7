import Verif.Json
/-
JSON texts: the grammar of RFC 8259 over bytes, with the value each text stands for.
-/
namespace GJS.Spec
open GJS

/-- The bytes of an ASCII text. -/
def ascii (s : String) : List UInt8 := s.toList.map fun c => UInt8.ofNat c.toNat

/-- UTF-8 (RFC 3629). -/
def utf8Char (c : Char) : List UInt8 :=
  if c.toNat < 0x80 then [UInt8.ofNat c.toNat]
  else if c.toNat < 0x800 then [UInt8.ofNat (0xC0 + c.toNat / 64), UInt8.ofNat (0x80 + c.toNat % 64)]
  else if c.toNat < 0x10000 then
    [UInt8.ofNat (0xE0 + c.toNat / 4096), UInt8.ofNat (0x80 + c.toNat / 64 % 64), UInt8.ofNat (0x80 + c.toNat % 64)]
  else
    [UInt8.ofNat (0xF0 + c.toNat / 262144), UInt8.ofNat (0x80 + c.toNat / 4096 % 64),
      UInt8.ofNat (0x80 + c.toNat / 64 % 64), UInt8.ofNat (0x80 + c.toNat % 64)]

/-- The bytes of a text. -/
def utf8 (s : String) : List UInt8 := s.toList.flatMap utf8Char

/-- White space. -/
def Blank (t : List UInt8) : Prop := ∀ b ∈ t, b ∈ ascii " \t\n\r"

/-- A decimal digit. -/
def digitByte (d : Fin 10) : UInt8 := UInt8.ofNat (0x30 + d.val)

/-- Decimal digits. -/
def Digits (t : List UInt8) (ds : List (Fin 10)) : Prop := t = ds.map digitByte

/-- What a sequence of decimal digits is worth. -/
def worth (ds : List (Fin 10)) : Nat := ds.foldl (fun a d => a * 10 + d.val) 0

/-- The integer part of a number: no leading zeros. -/
def IntText (t : List UInt8) (n : Nat) : Prop :=
  ∃ d ds, Digits t (d :: ds) ∧ n = worth (d :: ds) ∧ (d = 0 → ds = [])

/-- The fraction: a point and digits, or nothing. -/
def FracText (t : List UInt8) (ds : List (Fin 10)) : Prop :=
  (t = [] ∧ ds = []) ∨ ∃ t', t = ascii "." ++ t' ∧ ds ≠ [] ∧ Digits t' ds

/-- The exponent: a letter, a sign or none, and digits; or nothing. -/
def ExpText (t : List UInt8) (e : Option Int) : Prop :=
  (t = [] ∧ e = none) ∨
  ∃ l s t' ds, (l = ascii "e" ∨ l = ascii "E") ∧ t = l ++ s ++ t' ∧ ds ≠ [] ∧ Digits t' ds ∧
    (((s = [] ∨ s = ascii "+") ∧ e = some (worth ds : Int)) ∨ (s = ascii "-" ∧ e = some (-(worth ds : Int))))

/-- A number. -/
def NumText (t : List UInt8) (n : NumLit) : Prop :=
  ∃ s i f x, t = s ++ i ++ f ++ x ∧ s = (if n.neg then ascii "-" else []) ∧
    IntText i n.ip ∧ FracText f n.frac ∧ ExpText x n.exp

/-- A hexadecimal digit, in either case. -/
def Hex (b : UInt8) (n : Nat) : Prop :=
  (n < 10 ∧ b.toNat = 0x30 + n) ∨ (10 ≤ n ∧ n < 16 ∧ (b.toNat = 0x61 + (n - 10) ∨ b.toNat = 0x41 + (n - 10)))

/-- `\uXXXX`, with the number it denotes. -/
inductive Unit16 : List UInt8 → Nat → Prop
  | mk (a b c d : UInt8) (i j k l : Nat) : Hex a i → Hex b j → Hex c k → Hex d l →
      Unit16 (ascii "\\u" ++ [a, b, c, d]) (i * 4096 + j * 256 + k * 16 + l)

/-- The first half of a surrogate pair. -/
def High (u : Nat) : Prop := 0xD800 ≤ u ∧ u < 0xDC00
/-- The second half of a surrogate pair. -/
def Low (u : Nat) : Prop := 0xDC00 ≤ u ∧ u < 0xE000

/-- The short escapes. -/
def shortEscapes : List (Char × Char) :=
  [('b', Char.ofNat 8), ('f', Char.ofNat 12), ('n', '\n'), ('r', '\r'), ('t', '\t'), ('\\', '\\'), ('/', '/'), ('"', '"')]

/-- What stands between the quotes of a string literal, and the characters it denotes.  Beyond the RFC,
surrogates that are not paired and bytes that are not part of UTF-8 are read as U+FFFD. -/
inductive StrText : List UInt8 → List Char → Prop
  | nil : StrText [] []
  | char (c : Char) (t cs) : 0x20 ≤ c.toNat → c ≠ '"' → c ≠ '\\' → StrText t cs → StrText (utf8Char c ++ t) (c :: cs)
  | short (e c : Char) (t cs) : (e, c) ∈ shortEscapes → StrText t cs →
      StrText (ascii "\\" ++ utf8Char e ++ t) (c :: cs)
  | unit (x : List UInt8) (u : Nat) (t cs) : Unit16 x u → ¬ High u → ¬ Low u → StrText t cs →
      StrText (x ++ t) (Char.ofNat u :: cs)
  | pair (x y : List UInt8) (u v : Nat) (t cs) : Unit16 x u → Unit16 y v → High u → Low v → StrText t cs →
      StrText (x ++ y ++ t) (Char.ofNat (0x10000 + (u - 0xD800) * 0x400 + (v - 0xDC00)) :: cs)
  | lone (x : List UInt8) (u : Nat) (t cs) : Unit16 x u → High u ∨ Low u →
      (High u → ∀ y v t', Unit16 y v → Low v → t ≠ y ++ t') → StrText t cs →
      StrText (x ++ t) (Char.ofNat 0xFFFD :: cs)
  | stray (b : UInt8) (t cs) : 0x80 ≤ b.toNat → (∀ c t', b :: t ≠ utf8Char c ++ t') → StrText t cs →
      StrText (b :: t) (Char.ofNat 0xFFFD :: cs)

/-- A string literal. -/
def StrLit (t : List UInt8) (s : String) : Prop := ∃ x, t = ascii "\"" ++ x ++ ascii "\"" ∧ StrText x s.toList

/-- The last member of every name. -/
def lastOf : List (String × Json) → List (String × Json)
  | [] => []
  | (k, v) :: ms => if k ∈ ms.map Prod.fst then lastOf ms else (k, v) :: lastOf ms

mutual
/-- `t` is a text of the value `v`, nested no deeper than `d`. -/
inductive Text : Nat → Json → List UInt8 → Prop
  | null (d) : Text d .null (ascii "null")
  | true (d) : Text d (.bool true) (ascii "true")
  | false (d) : Text d (.bool false) (ascii "false")
  | num (d n t) : NumText t n → Text d (.num n) t
  | str (d s t) : StrLit t s → Text d (.str s) t
  | arr0 (d t) : Blank t → Text (d + 1) (.arr []) (ascii "[" ++ t ++ ascii "]")
  | arr (d xs t) : Elems d xs t → Text (d + 1) (.arr xs) (ascii "[" ++ t ++ ascii "]")
  | obj0 (d t) : Blank t → Text (d + 1) (.obj []) (ascii "{" ++ t ++ ascii "}")
  | obj (d ms t) : Members d ms t → Text (d + 1) (.obj (lastOf ms)) (ascii "{" ++ t ++ ascii "}")
/-- One or more elements, separated by commas. -/
inductive Elems : Nat → List Json → List UInt8 → Prop
  | one (d v b t b') : Blank b → Text d v t → Blank b' → Elems d [v] (b ++ t ++ b')
  | cons (d v vs b t b' ts) : Blank b → Text d v t → Blank b' → Elems d vs ts →
      Elems d (v :: vs) (b ++ t ++ b' ++ ascii "," ++ ts)
/-- One or more members, separated by commas. -/
inductive Members : Nat → List (String × Json) → List UInt8 → Prop
  | one (d k v b q b' b'' t b''') : Blank b → StrLit q k → Blank b' → Blank b'' → Text d v t → Blank b''' →
      Members d [(k, v)] (b ++ q ++ b' ++ ascii ":" ++ b'' ++ t ++ b''')
  | cons (d k v ms b q b' b'' t b''' ts) : Blank b → StrLit q k → Blank b' → Blank b'' → Text d v t → Blank b''' →
      Members d ms ts →
      Members d ((k, v) :: ms) (b ++ q ++ b' ++ ascii ":" ++ b'' ++ t ++ b''' ++ ascii "," ++ ts)
end

/-- The byte goes on with the number. -/
def Continues (n : NumLit) (b : UInt8) : Prop :=
  ((∃ d, b = digitByte d) ∧ (n.ip ≠ 0 ∨ n.frac ≠ [] ∨ n.exp ≠ none)) ∨
  (b ∈ ascii "." ∧ n.frac = [] ∧ n.exp = none) ∨
  (b ∈ ascii "eE" ∧ n.exp = none)

/-- What follows does not go on with the value. -/
def Ends (v : Json) (rest : List UInt8) : Prop := ∀ n b, v = .num n → rest.head? = some b → ¬ Continues n b

/-- Nested no deeper than `d`. -/
inductive Nested : Nat → Json → Prop
  | null (d) : Nested d .null
  | bool (d b) : Nested d (.bool b)
  | num (d n) : Nested d (.num n)
  | str (d s) : Nested d (.str s)
  | arr (d xs) : (∀ x ∈ xs, Nested d x) → Nested (d + 1) (.arr xs)
  | obj (d m) : (∀ e ∈ m, Nested d e.2) → Nested (d + 1) (.obj m)

end GJS.Spec

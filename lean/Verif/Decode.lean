import Verif.Num
import Verif.IoLoader
/-
Decoding of JSON texts: `decodeJSONUsingNumber` (`/repo/jsonLoader.go` 372-386), that is
`json.Decoder.Decode` of the Go library into an `interface{}`, with `UseNumber`.  The scanner of
`encoding/json` is a state machine over bytes; here it is written as functions on the rest of the input.
-/
namespace GJS.Text
open GJS.Io

/-- Outcome of looking for something at the beginning of an input. -/
inductive Dec (α : Type) where
  /-- found; the rest of the input -/
  | ok (a : α) (rest : Bytes)
  /-- a syntax error, whatever follows -/
  | bad
  /-- the input ends before it is clear -/
  | more
deriving DecidableEq, Repr

/-- One thing after another. -/
def Dec.bind (x : Dec α) (f : α → Bytes → Dec β) : Dec β :=
  match x with
  | .ok a rest => f a rest
  | .bad => .bad
  | .more => .more

/-- Change what was found. -/
def Dec.map (f : α → β) (x : Dec α) : Dec β := x.bind fun a rest => .ok (f a) rest

/-- White space: space, tab, line feed, carriage return. -/
def isSpace (c : UInt8) : Bool := c == 0x20 || c == 0x09 || c == 0x0A || c == 0x0D

/-- Input after leading white space. -/
def skip : Bytes → Bytes
  | [] => []
  | c :: cs => if isSpace c then skip cs else c :: cs

/-- The digit that a byte stands for. -/
def digit? (c : UInt8) : Option (Fin 10) :=
  if h : 0x30 ≤ c.toNat ∧ c.toNat ≤ 0x39 then some ⟨c.toNat - 0x30, by omega⟩ else none

/-- As many digits as there are. -/
def digits : Bytes → List (Fin 10) × Bytes
  | [] => ([], [])
  | c :: cs =>
    match digit? c with
    | some d => match digits cs with | (ds, r) => (d :: ds, r)
    | none => ([], c :: cs)

/-- One or more digits; the input must go on after them (the scanner sees the end of a number only at the
next byte). -/
def digits1 (bs : Bytes) : Dec (List (Fin 10)) :=
  match digits bs with
  | (_, []) => .more
  | ([], _ :: _) => .bad
  | (ds, c :: cs) => .ok ds (c :: cs)

/-- The integer part of a number: `0`, or digits not beginning with `0`. -/
def intPart : Bytes → Dec Nat
  | [] => .more
  | c :: cs =>
    if c = 0x30 then .ok 0 cs
    else (digits1 (c :: cs)).map digitsVal

/-- The fraction of a number, if there is one. -/
def fracPart : Bytes → Dec (List (Fin 10))
  | [] => .more
  | c :: cs => if c = 0x2E then digits1 cs else .ok [] (c :: cs)

/-- An exponent after its letter: a sign or none, digits. -/
def signedDigits : Bytes → Dec Int
  | [] => .more
  | s :: ds =>
    if s = 0x2B then (digits1 ds).map fun l => (digitsVal l : Int)
    else if s = 0x2D then (digits1 ds).map fun l => -(digitsVal l : Int)
    else (digits1 (s :: ds)).map fun l => (digitsVal l : Int)

/-- The exponent of a number, if there is one, with `e` or `E`. -/
def expPart : Bytes → Dec (Option Int)
  | [] => .more
  | c :: cs => if c = 0x65 ∨ c = 0x45 then (signedDigits cs).map some else .ok none (c :: cs)

/-- The parts of a number after its sign. -/
def numRest (neg : Bool) (bs : Bytes) : Dec NumLit :=
  (intPart bs).bind fun ip r1 => (fracPart r1).bind fun frac r2 => (expPart r2).bind fun exp r3 =>
    .ok ⟨neg, ip, frac, exp⟩ r3

/-- A number. -/
def number : Bytes → Dec NumLit
  | [] => .more
  | c :: cs => if c = 0x2D then numRest true cs else numRest false (c :: cs)

/-- The states of the scanner inside a string (`stateInString`, `stateInStringEsc`, `stateInStringEscU...`). -/
inductive StrState where
  | body
  | esc
  /-- this many hexadecimal digits to come after the next -/
  | hex (n : Nat)
deriving DecidableEq, Repr

/-- The hexadecimal digit that a byte stands for. -/
def hexVal? (c : UInt8) : Option Nat :=
  if 0x30 ≤ c.toNat ∧ c.toNat ≤ 0x39 then some (c.toNat - 0x30)
  else if 0x61 ≤ c.toNat ∧ c.toNat ≤ 0x66 then some (c.toNat - 0x61 + 10)
  else if 0x41 ≤ c.toNat ∧ c.toNat ≤ 0x46 then some (c.toNat - 0x41 + 10)
  else none

/-- The character that a backslash and a letter stand for. -/
def escape? (c : UInt8) : Option Char :=
  if c = 0x62 then some (Char.ofNat 8)
  else if c = 0x66 then some (Char.ofNat 12)
  else if c = 0x6E then some '\n'
  else if c = 0x72 then some '\r'
  else if c = 0x74 then some '\t'
  else if c = 0x5C then some '\\'
  else if c = 0x2F then some '/'
  else if c = 0x22 then some '"'
  else none

/-- The rest of a string literal up to its closing quote: the bytes between the quotes. -/
def scanStr : StrState → Bytes → Dec Bytes
  | _, [] => .more
  | .body, c :: cs =>
    if c = 0x22 then .ok [] cs
    else if c = 0x5C then (scanStr .esc cs).map (c :: ·)
    else if c.toNat < 0x20 then .bad
    else (scanStr .body cs).map (c :: ·)
  | .esc, c :: cs =>
    if (escape? c).isSome then (scanStr .body cs).map (c :: ·)
    else if c = 0x75 then (scanStr (.hex 3) cs).map (c :: ·)
    else .bad
  | .hex 0, c :: cs => if (hexVal? c).isSome then (scanStr .body cs).map (c :: ·) else .bad
  | .hex (n + 1), c :: cs => if (hexVal? c).isSome then (scanStr (.hex n) cs).map (c :: ·) else .bad

/-- The character U+FFFD. -/
def replacement : Char := Char.ofNat 0xFFFD

/-- A continuation byte between two bounds. -/
def contIn (lo hi : Nat) (c : UInt8) : Bool := decide (lo ≤ c.toNat) && decide (c.toNat ≤ hi)

/-- A character of two bytes. -/
def rune2 (a : UInt8) : Bytes → Char × Nat
  | b :: _ =>
    if contIn 0x80 0xBF b then (Char.ofNat ((a.toNat - 0xC0) * 64 + (b.toNat - 0x80)), 2) else (replacement, 1)
  | _ => (replacement, 1)

/-- A character of three bytes: no longer than necessary, no surrogates. -/
def rune3 (a : UInt8) : Bytes → Char × Nat
  | b :: c :: _ =>
    if contIn (if a.toNat = 0xE0 then 0xA0 else 0x80) (if a.toNat = 0xED then 0x9F else 0xBF) b && contIn 0x80 0xBF c then
      (Char.ofNat ((a.toNat - 0xE0) * 4096 + (b.toNat - 0x80) * 64 + (c.toNat - 0x80)), 3)
    else (replacement, 1)
  | _ => (replacement, 1)

/-- A character of four bytes: no longer than necessary, up to U+10FFFF. -/
def rune4 (a : UInt8) : Bytes → Char × Nat
  | b :: c :: d :: _ =>
    if contIn (if a.toNat = 0xF0 then 0x90 else 0x80) (if a.toNat = 0xF4 then 0x8F else 0xBF) b && contIn 0x80 0xBF c &&
        contIn 0x80 0xBF d then
      (Char.ofNat ((a.toNat - 0xF0) * 262144 + (b.toNat - 0x80) * 4096 + (c.toNat - 0x80) * 64 + (d.toNat - 0x80)), 4)
    else (replacement, 1)
  | _ => (replacement, 1)

/-- `utf8.DecodeRune`: the first character of a text and how many bytes it takes.  Bytes that do not
begin a character count as U+FFFD, one at a time.  (The text is not empty.) -/
def decodeRune : Bytes → Char × Nat
  | [] => (replacement, 1)
  | a :: r =>
    if a.toNat < 0x80 then (Char.ofNat a.toNat, 1)
    else if a.toNat < 0xC2 then (replacement, 1)
    else if a.toNat < 0xE0 then rune2 a r
    else if a.toNat < 0xF0 then rune3 a r
    else if a.toNat < 0xF5 then rune4 a r
    else (replacement, 1)

/-- Four hexadecimal digits (`getu4`). -/
def hex4 : Bytes → Option (Nat × Bytes)
  | a :: b :: c :: d :: r => do
    let a ← hexVal? a
    let b ← hexVal? b
    let c ← hexVal? c
    let d ← hexVal? d
    some (a * 4096 + b * 256 + c * 16 + d, r)
  | _ => none

/-- The second half of a surrogate pair, if it follows (`utf16.DecodeRune`). -/
def lowHalf (hi : Nat) : Bytes → Option (Char × Bytes)
  | a :: b :: r =>
    if a = 0x5C ∧ b = 0x75 then
      match hex4 r with
      | some (lo, r') =>
        if 0xD800 ≤ hi ∧ hi < 0xDC00 ∧ 0xDC00 ≤ lo ∧ lo < 0xE000 then
          some (Char.ofNat ((hi - 0xD800) * 1024 + (lo - 0xDC00) + 0x10000), r')
        else none
      | none => none
    else none
  | _ => none

/-- The character of a `\\u` escape, after the `u`: with its second half, if it is one of a pair. -/
def unit (r : Bytes) : Option (Char × Bytes) :=
  (hex4 r).map fun q =>
    if 0xD800 ≤ q.1 ∧ q.1 < 0xE000 then (lowHalf q.1 q.2).getD (replacement, q.2) else (Char.ofNat q.1, q.2)

/-- The character of an escape, after the backslash. -/
def escaped : Bytes → Option (Char × Bytes)
  | [] => none
  | e :: r => if e = 0x75 then unit r else (escape? e).map fun ch => (ch, r)

/-- The first character, and the rest. -/
def firstChar (c : UInt8) (cs : Bytes) : Option (Char × Bytes) :=
  if c = 0x5C then escaped cs
  else some ((decodeRune (c :: cs)).1, (c :: cs).drop (decodeRune (c :: cs)).2)

/-- `unquote`: the characters that the bytes between quotes stand for.  Every step takes a byte at least. -/
def unquote : Nat → Bytes → List Char
  | 0, _ => []
  | _ + 1, [] => []
  | n + 1, c :: cs =>
    match firstChar c cs with
    | some q => q.1 :: unquote n q.2
    | none => []

/-- A string literal after its opening quote. -/
def strLit (bs : Bytes) : Dec String :=
  (scanStr .body bs).map fun body => String.ofList (unquote body.length body)

/-- The rest of `null`, `true` or `false`. -/
def word (v : Json) : Bytes → Bytes → Dec Json
  | [], bs => .ok v bs
  | _ :: _, [] => .more
  | e :: es, b :: bs => if e = b then word v es bs else .bad

/-- The elements of an array that is not empty, after its opening bracket; `val` decodes one. -/
def elems (val : Bytes → Dec Json) : Nat → Bytes → Dec (List Json)
  | 0, _ => .more
  | n + 1, bs =>
    (val (skip bs)).bind fun v r =>
      match skip r with
      | [] => .more
      | c :: cs =>
        if c = 0x2C then (elems val n cs).map (v :: ·)
        else if c = 0x5D then .ok [v] cs
        else .bad

/-- The name of a member with the colon. -/
def name (bs : Bytes) : Dec String :=
  match skip bs with
  | [] => .more
  | q :: cs =>
    if q = 0x22 then
      (strLit cs).bind fun k r =>
        match skip r with
        | [] => .more
        | c :: cs' => if c = 0x3A then .ok k cs' else .bad
    else .bad

/-- `m[key] = value`. -/
def mapSet (m : List (String × Json)) (k : String) (v : Json) : List (String × Json) :=
  m.filter (fun e => !(e.1 == k)) ++ [(k, v)]

/-- The members of an object that is not empty, after its opening brace, entered into a map one after the
other. -/
def members (val : Bytes → Dec Json) : Nat → List (String × Json) → Bytes → Dec (List (String × Json))
  | 0, _, _ => .more
  | n + 1, m, bs =>
    (name bs).bind fun k r =>
      (val (skip r)).bind fun v r =>
        match skip r with
        | [] => .more
        | c :: cs =>
          if c = 0x2C then members val n (mapSet m k v) cs
          else if c = 0x7D then .ok (mapSet m k v) cs
          else .bad

/-- An array after its opening bracket. -/
def array (val : Bytes → Dec Json) (bs : Bytes) : Dec Json :=
  match skip bs with
  | [] => .more
  | c :: cs => if c = 0x5D then .ok (.arr []) cs else (elems val bs.length bs).map .arr

/-- An object after its opening brace. -/
def object (val : Bytes → Dec Json) (bs : Bytes) : Dec Json :=
  match skip bs with
  | [] => .more
  | c :: cs => if c = 0x7D then .ok (.obj []) cs else (members val bs.length [] bs).map .obj

/-- A value that begins with its first byte: everything but arrays and objects. -/
def scalar (c : UInt8) (cs : Bytes) : Dec Json :=
  if c = 0x22 then (strLit cs).map .str
  else if c = 0x6E then word .null [0x75, 0x6C, 0x6C] cs
  else if c = 0x74 then word (.bool true) [0x72, 0x75, 0x65] cs
  else if c = 0x66 then word (.bool false) [0x61, 0x6C, 0x73, 0x65] cs
  else if c = 0x2D ∨ (digit? c).isSome then (number (c :: cs)).map .num
  else .bad

/-- A value, white space before it gone.  `d` is how deep it may be nested: the scanner of `encoding/json`
refuses to open more than 10000 brackets and braces (since Go 1.15). -/
def value : Nat → Bytes → Dec Json
  | _, [] => .more
  | 0, c :: cs => if c = 0x5B ∨ c = 0x7B then .bad else scalar c cs
  | d + 1, c :: cs =>
    if c = 0x5B then array (value d) cs
    else if c = 0x7B then object (value d) cs
    else scalar c cs

/-- Whether the end of the value is seen only at the byte after it. -/
def late : Json → Bool
  | .arr _ => false
  | .obj _ => false
  | _ => true

/-- The first value of the input (`Decoder.readValue`).  What follows it is not looked at, except for one byte
after a value that is not an array or an object. -/
def readValue (d : Nat) (bs : Bytes) : Dec Json :=
  (value d (skip bs)).bind fun v rest => if late v && rest.isEmpty then .more else .ok v rest

/-- What `decodeJSONUsingNumber` returns. -/
inductive DecErr where
  | syntax
  | eof
  | unexpectedEof
deriving DecidableEq, Repr

/-- At the end of the input the decoder pretends that a space follows. -/
def atEnd (d : Nat) (bs : Bytes) : Except DecErr Json :=
  match readValue d (bs ++ [0x20]) with
  | .ok v _ => .ok v
  | _ => .error (if (skip bs).isEmpty then .eof else .unexpectedEof)

/-- `decodeJSONUsingNumber` (`/repo/jsonLoader.go` 372-386) on a text. -/
def decode (d : Nat) (bs : Bytes) : Except DecErr Json :=
  match readValue d bs with
  | .ok v _ => .ok v
  | .bad => .error .syntax
  | .more => atEnd d bs

/-- These errors as errors of a reader. -/
def ioErr : DecErr → IoErr
  | .syntax => .other "syntax error"
  | .eof => .eof
  | .unexpectedEof => .unexpectedEof

/-- The grammar part of `json.Decoder`. -/
def scanner (d : Nat) : Scanner Json where
  scan bs :=
    match readValue d bs with
    | .ok v _ => some (.ok v)
    | .bad => some (.error (ioErr .syntax))
    | .more => none
  atEnd bs := (atEnd d bs).mapError ioErr

/-- The limit of `encoding/json`. -/
def maxDepth : Nat := 10000

end GJS.Text

/-
Regular expressions of Go's `regexp` package, as far as the patterns in `/repo/format_checkers.go` 132-142 use
them: syntax, parsing of patterns, search in a text.

Texts are lists of Unicode scalar values. Not modelled: invalid UTF-8, flags other than `(?i)`, case folding
other than that of ASCII letters, and syntax these patterns do not use (the parser refuses it): `.`, `+`, `{n,}`, named
classes, lazy repetition, escapes other than `\.` and, in a class, `\-`.
-/
namespace GJS

/-- Regular expressions. `first` and `last` are `^` and `$` without the flag `m`: the beginning and the end of
the text. A class is a list of ranges, possibly negated, possibly with case folding. -/
inductive Rx where
  | void
  | eps
  | first
  | last
  | cls (neg fold : Bool) (ranges : List (Char × Char))
  | seq (a b : Rx)
  | alt (a b : Rx)
  | star (a : Rx)
deriving DecidableEq, Repr

namespace Rx

/-- Characters that Go's simple folding identifies with `c`, for ASCII letters: the other case, and the Kelvin
sign and the long s. -/
def orbit (c : Char) : List Char :=
  if 'a' ≤ c ∧ c ≤ 'z' then
    [c, Char.ofNat (c.toNat - 32)] ++ (if c = 'k' then [Char.ofNat 0x212A] else if c = 's' then [Char.ofNat 0x17F] else [])
  else if 'A' ≤ c ∧ c ≤ 'Z' then
    [c, Char.ofNat (c.toNat + 32)] ++ (if c = 'K' then [Char.ofNat 0x212A] else if c = 'S' then [Char.ofNat 0x17F] else [])
  else if c = Char.ofNat 0x212A then [c, 'k', 'K']
  else if c = Char.ofNat 0x17F then [c, 's', 'S']
  else [c]

def inRanges (rs : List (Char × Char)) (c : Char) : Bool := rs.any fun r => r.1 ≤ c && c ≤ r.2

/-- Does a class contain a character? -/
def inClass (neg fold : Bool) (rs : List (Char × Char)) (c : Char) : Bool :=
  (if fold then (orbit c).any (inRanges rs) else inRanges rs c) != neg

/-- Does an expression match the empty text at a position that is or is not the beginning (`b`) and the end (`e`)? -/
def nullable (b e : Bool) : Rx → Bool
  | void => false
  | eps => true
  | first => b
  | last => e
  | cls .. => false
  | seq x y => x.nullable b e && y.nullable b e
  | alt x y => x.nullable b e || y.nullable b e
  | star _ => true

/-- What is left of an expression after a character. -/
def deriv (b : Bool) (c : Char) : Rx → Rx
  | void => void
  | eps => void
  | first => void
  | last => void
  | cls neg fold rs => if inClass neg fold rs c then eps else void
  | seq x y => if x.nullable b false then alt (seq (x.deriv b c) y) (y.deriv b c) else seq (x.deriv b c) y
  | alt x y => alt (x.deriv b c) (y.deriv b c)
  | star x => seq (x.deriv b c) (star x)

/-- Is there a match at this position? -/
def here (b : Bool) (r : Rx) : List Char → Bool
  | [] => r.nullable b true
  | c :: cs => r.nullable b false || (r.deriv b c).here false cs

/-- Is there a match at this position or later? -/
def later (b : Bool) (r : Rx) : List Char → Bool
  | [] => r.here b []
  | c :: cs => r.here b (c :: cs) || r.later false cs

/-- `(*Regexp).MatchString` -/
def matchString (r : Rx) (s : String) : Bool := r.later true s.toList

/-- `r{n}` -/
def rep (r : Rx) : Nat → Rx
  | 0 => eps
  | n + 1 => seq r (rep r n)

/-- `r{0,n}` -/
def upTo (r : Rx) : Nat → Rx
  | 0 => eps
  | n + 1 => alt eps (seq r (upTo r n))

/-- Decimal digits at the beginning, with their value. -/
def digits : List Char → Option (Nat × List Char)
  | [] => none
  | c :: cs =>
    if '0' ≤ c ∧ c ≤ '9' then some (go (c.toNat - 48) cs) else none
where go (n : Nat) : List Char → Nat × List Char
  | [] => (n, [])
  | c :: cs => if '0' ≤ c ∧ c ≤ '9' then go (10 * n + (c.toNat - 48)) cs else (n, c :: cs)

/-- `{n}` or `{n,m}`, after the brace. -/
def bounds (cs : List Char) : Option ((Nat × Nat) × List Char) :=
  match digits cs with
  | some (n, '}' :: rest) => some ((n, n), rest)
  | some (n, ',' :: rest) =>
    match digits rest with
    | some (m, '}' :: rest) => some ((n, m), rest)
    | _ => none
  | _ => none

/-- A repetition operator applied to an expression; `+` is not used by the package. -/
def postfix_ (r : Rx) : List Char → Option (Rx × List Char)
  | '*' :: cs => some (star r, cs)
  | '?' :: cs => some (alt eps r, cs)
  | '{' :: cs =>
    match bounds cs with
    | some ((n, m), rest) => some (if n = m then rep r n else seq (rep r n) (upTo r (m - n)), rest)
    | none => none
  | cs => some (r, cs)

/-- The ranges of a class, after `[` or `[^`, up to `]`. -/
def ranges : Nat → List Char → Option (List (Char × Char) × List Char)
  | 0, _ => none
  | _ + 1, [] => none
  | _ + 1, ']' :: rest => some ([], rest)
  | n + 1, '\\' :: '-' :: rest => (ranges n rest).map fun p => (('-', '-') :: p.1, p.2)
  | n + 1, lo :: '-' :: hi :: rest => (ranges n rest).map fun p => ((lo, hi) :: p.1, p.2)
  | n + 1, c :: rest => (ranges n rest).map fun p => ((c, c) :: p.1, p.2)

mutual
/-- Alternatives, up to the end or a closing parenthesis. -/
def parseAlt : Nat → Bool → List Char → Option (Rx × List Char)
  | 0, _, _ => none
  | n + 1, fold, cs =>
    match parseSeq n fold cs with
    | some (a, fold', '|' :: rest) => (parseAlt n fold' rest).map fun p => (alt a p.1, p.2)
    | some (a, _, rest) => some (a, rest)
    | none => none
/-- A sequence, up to the end, a bar or a closing parenthesis; a flag group holds for what follows. -/
def parseSeq : Nat → Bool → List Char → Option (Rx × Bool × List Char)
  | 0, _, _ => none
  | _ + 1, fold, [] => some (eps, fold, [])
  | _ + 1, fold, '|' :: cs => some (eps, fold, '|' :: cs)
  | _ + 1, fold, ')' :: cs => some (eps, fold, ')' :: cs)
  | n + 1, _, '(' :: '?' :: 'i' :: ')' :: cs => parseSeq n true cs
  | n + 1, fold, cs =>
    match parseAtom n fold cs with
    | none => none
    | some (a, rest) =>
      match postfix_ a rest with
      | none => none
      | some (a, rest) => (parseSeq n fold rest).map fun p => (seq a p.1, p.2)
/-- One item. -/
def parseAtom : Nat → Bool → List Char → Option (Rx × List Char)
  | 0, _, _ => none
  | _ + 1, _, [] => none
  | _ + 1, _, '^' :: cs => some (first, cs)
  | _ + 1, _, '$' :: cs => some (last, cs)
  | n + 1, fold, '(' :: '?' :: ':' :: cs =>
    match parseAlt n fold cs with
    | some (a, ')' :: rest) => some (a, rest)
    | _ => none
  | n + 1, fold, '(' :: cs =>
    match parseAlt n fold cs with
    | some (a, ')' :: rest) => some (a, rest)
    | _ => none
  | n + 1, fold, '[' :: '^' :: cs => (ranges n cs).map fun p => (cls true fold p.1, p.2)
  | n + 1, fold, '[' :: cs => (ranges n cs).map fun p => (cls false fold p.1, p.2)
  | _ + 1, fold, '\\' :: '.' :: cs => some (cls false fold [('.', '.')], cs)
  | _ + 1, _, '\\' :: _ => none
  | _ + 1, _, '.' :: _ => none
  | _ + 1, _, '*' :: _ => none
  | _ + 1, _, '+' :: _ => none
  | _ + 1, _, '?' :: _ => none
  | _ + 1, fold, c :: cs => some (cls false fold [(c, c)], cs)
end

/-- `regexp.MustCompile`, for the patterns used here. -/
def compile (pattern : String) : Option Rx :=
  match parseAlt (2 * pattern.toList.length + 2) false pattern.toList with
  | some (r, []) => some r
  | _ => none

end Rx
end GJS

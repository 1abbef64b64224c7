import Verif.Formats
/-
What the formats are, in terms of characters and positions.
-/
namespace GJS.Fmt.Spec

def Digit (c : Char) : Prop := '0' ≤ c ∧ c ≤ '9'
def Letter (c : Char) : Prop := ('a' ≤ c ∧ c ≤ 'z') ∨ ('A' ≤ c ∧ c ≤ 'Z')
def Hex (c : Char) : Prop := Digit c ∨ ('a' ≤ c ∧ c ≤ 'f') ∨ ('A' ≤ c ∧ c ≤ 'F')

/-- 36 characters, hyphens at four places, hexadecimal digits elsewhere. -/
def Uuid (s : List Char) : Prop :=
  s.length = 36 ∧ ∀ (i : Nat) (c : Char), s[i]? = some c → if i ∈ [8, 13, 18, 23] then c = '-' else Hex c

/-- Empty or beginning with a slash, every tilde followed by `0` or `1`. -/
def Pointer (s : List Char) : Prop :=
  (s = [] ∨ s[0]? = some '/') ∧ ∀ i : Nat, s[i]? = some '~' → s[i + 1]? = some '0' ∨ s[i + 1]? = some '1'

/-- A decimal number without superfluous zeros. -/
def Decimal (s : List Char) : Prop := s ≠ [] ∧ (∀ c ∈ s, Digit c) ∧ (s[0]? = some '0' → s.length = 1)

/-- A decimal number, then `#` or a pointer. -/
def RelPointer (s : List Char) : Prop := ∃ n rest, s = n ++ rest ∧ Decimal n ∧ (rest = ['#'] ∨ Pointer rest)

/-- A label: 1 to 63 letters, digits and hyphens, no hyphen at the beginning or at the end. -/
def Label (l : List Char) : Prop :=
  1 ≤ l.length ∧ l.length ≤ 63 ∧ (∀ c ∈ l, Letter c ∨ Digit c ∨ c = '-') ∧ l.head? ≠ some '-' ∧ l.getLast? ≠ some '-'

/-- Labels separated by dots, 255 characters at most. -/
def Hostname (s : List Char) : Prop :=
  s.length ≤ 255 ∧ ∃ ls : List (List Char), ls ≠ [] ∧ (∀ l ∈ ls, Label l) ∧ s = List.intercalate ['.'] ls

/-- Is every brace that opens closed later, where braces within braces do not count? -/
def closed : Bool → List Char → Bool
  | inside, [] => !inside
  | false, c :: cs => closed (c == '{') cs
  | true, c :: cs => closed (!(c == '}')) cs

/-- What the built-in format of this name asks of a string, given what the Go library says about it. Names
that are not listed ask nothing. -/
def Rule (std : Std) (name : String) (s : String) : Prop :=
  let plain := '\\' ∉ s.toList
  match name with
  | "email" | "idn-email" => std.mailOk s = true
  | "ipv4" => std.ipOk s = true ∧ '.' ∈ s.toList
  | "ipv6" => std.ipOk s = true ∧ ':' ∈ s.toList
  | "date" => std.timeOk "2006-01-02" s = true
  | "time" => std.timeOk "15:04:05" s = true ∨ std.timeOk "15:04:05Z07:00" s = true
  | "date-time" =>
    std.timeOk "2006-01-02" s = true ∨ std.timeOk "15:04:05" s = true ∨ std.timeOk "15:04:05Z07:00" s = true ∨
      std.timeOk "2006-01-02T15:04:05Z07:00" s = true ∨ std.timeOk "2006-01-02T15:04:05.999999999Z07:00" s = true
  | "uri" | "iri" => plain ∧ ∃ scheme path, std.url s = some (scheme, path) ∧ scheme ≠ ""
  | "uri-reference" | "iri-reference" => plain ∧ std.url s ≠ none
  | "uri-template" => plain ∧ ∃ scheme path, std.url s = some (scheme, path) ∧ closed false path.toList = true
  | "hostname" => Hostname s.toList
  | "uuid" => Uuid s.toList
  | "regex" => s = "" ∨ std.regexOk s = true
  | "json-pointer" => Pointer s.toList
  | "relative-json-pointer" => RelPointer s.toList
  | _ => True

end GJS.Fmt.Spec

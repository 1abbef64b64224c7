import Verif.Regex
import Verif.Json
/-
The built-in format checkers, `/repo/format_checkers.go` 107-142 and 190-368.

What they take from the Go library other than regular expressions is a parameter (`Std`).
-/
namespace GJS

/-- `strings.Contains` for a single character. -/
def hasChar (c : Char) (s : String) : Bool := s.toList.contains c

/-- Functions of the Go library. -/
structure Std where
  /-- `mail.ParseAddress` succeeds -/
  mailOk : String → Bool
  /-- `net.ParseIP` is not nil -/
  ipOk : String → Bool
  /-- `time.Parse(layout, value)` succeeds -/
  timeOk : String → String → Bool
  /-- `url.Parse`: scheme and path -/
  url : String → Option (String × String)
  /-- `regexp.Compile` succeeds -/
  regexOk : String → Bool

namespace Fmt

/-- `rxHostname`, `/repo/format_checkers.go` 133 -/
def rxHostname : String :=
  "^([a-zA-Z0-9]|[a-zA-Z0-9][a-zA-Z0-9\\-]{0,61}[a-zA-Z0-9])(\\.([a-zA-Z0-9]|[a-zA-Z0-9][a-zA-Z0-9\\-]{0,61}[a-zA-Z0-9]))*$"
/-- `rxURITemplate`, 136 -/
def rxURITemplate : String := "^([^{]*({[^}]*})?)*$"
/-- `rxUUID`, 138 -/
def rxUUID : String := "^(?i)[a-f0-9]{8}-[a-f0-9]{4}-[a-f0-9]{4}-[a-f0-9]{4}-[a-f0-9]{12}$"
/-- `rxJSONPointer`, 140 -/
def rxJSONPointer : String := "^(?:/(?:[^~/]|~0|~1)*)*$"
/-- `rxRelJSONPointer`, 142 -/
def rxRelJSONPointer : String := "^(?:0|[1-9][0-9]*)(?:#|(?:/(?:[^~/]|~0|~1)*)*)$"

/-- `rx.MatchString(s)` for `rx = regexp.MustCompile(pattern)`. A pattern that does not compile would make the program panic
when it starts; the patterns above compile (`patterns_compile`). -/
def matches_ (pattern s : String) : Bool :=
  match Rx.compile pattern with
  | some r => r.matchString s
  | none => false

/-- The checkers. -/
inductive Checker where
  | email | ipv4 | ipv6 | dateTime | date | time | uri | uriReference | uriTemplate | hostname | uuid | regex
  | jsonPointer | relJsonPointer
deriving DecidableEq, Repr

/-- `time.RFC3339` and `time.RFC3339Nano`. -/
def rfc3339 : String := "2006-01-02T15:04:05Z07:00"
def rfc3339Nano : String := "2006-01-02T15:04:05.999999999Z07:00"

/-- What the checkers do with a string. -/
def Checker.onString (std : Std) (s : String) : Checker → Bool
  | .email => std.mailOk s
  | .ipv4 => std.ipOk s && hasChar '.' s
  | .ipv6 => std.ipOk s && hasChar ':' s
  | .dateTime => ["15:04:05", "15:04:05Z07:00", "2006-01-02", rfc3339, rfc3339Nano].any fun l => std.timeOk l s
  | .date => std.timeOk "2006-01-02" s
  | .time => std.timeOk "15:04:05Z07:00" s || std.timeOk "15:04:05" s
  | .uri =>
    match std.url s with
    | none => false
    | some (scheme, _) => if scheme = "" then false else !hasChar '\\' s
  | .uriReference => (std.url s).isSome && !hasChar '\\' s
  | .uriTemplate =>
    match std.url s with
    | none => false
    | some (_, path) => if hasChar '\\' s then false else matches_ rxURITemplate path
  | .hostname => matches_ rxHostname s && decide (s.utf8ByteSize < 256)
  | .uuid => matches_ rxUUID s
  | .regex => if s = "" then true else std.regexOk s
  | .jsonPointer => matches_ rxJSONPointer s
  | .relJsonPointer => matches_ rxRelJSONPointer s

/-- `IsFormat` of a checker: what is not a string passes. -/
def Checker.isFormat (std : Std) (f : Checker) : Json → Bool
  | .str s => f.onString std s
  | _ => true

/-- `FormatCheckers`, `/repo/format_checkers.go` 110-130. -/
def builtin : List (String × Checker) :=
  [("date", .date), ("time", .time), ("date-time", .dateTime), ("hostname", .hostname), ("email", .email), ("idn-email", .email),
   ("ipv4", .ipv4), ("ipv6", .ipv6), ("uri", .uri), ("uri-reference", .uriReference), ("iri", .uri), ("iri-reference", .uriReference),
   ("uri-template", .uriTemplate), ("uuid", .uuid), ("regex", .regex), ("json-pointer", .jsonPointer),
   ("relative-json-pointer", .relJsonPointer)]

/-- `FormatCheckers.IsFormat`, 177-188, with the built-in registry. -/
def isFormat (std : Std) (name : String) (v : Json) : Bool :=
  match List.lookup name builtin with
  | none => true
  | some f => f.isFormat std v

end Fmt
end GJS

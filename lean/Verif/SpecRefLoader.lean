import Verif.RefLoader
import Verif.SpecMetaDocs
/-
What a reference leads to: an independent description of file names, of what is read, and of what
is left open.
-/
namespace GJS.Spec
open GJS Ref

/-- Percent-encoding as in queries: `%XY` is the byte with that hexadecimal number, `+` is a space. -/
inductive Unescapes : List UInt8 → List UInt8 → Prop
  | nil : Unescapes [] []
  | hex (a b : UInt8) (i j : Nat) (s t) : Hex a i → Hex b j → Unescapes s t →
      Unescapes (ascii "%" ++ a :: b :: s) (UInt8.ofNat (16 * i + j) :: t)
  | plus (s t) : Unescapes s t → Unescapes (ascii "+" ++ s) (ascii " " ++ t)
  | same (c : UInt8) (s t) : c ∉ ascii "%+" → Unescapes s t → Unescapes (c :: s) (c :: t)

/-- `p` is `s` without the prefix `x`, if it has that prefix. -/
def Without (x s p : List UInt8) : Prop := s = x ++ p ∨ (¬ x <+: s ∧ p = s)

/-- `t` is `s` with backslashes in place of slashes. -/
def Backslashed (s t : List UInt8) : Prop :=
  s.length = t.length ∧ ∀ (k : Nat) a b, s[k]? = some a → t[k]? = some b →
    (a ∈ ascii "/" → b ∈ ascii "\\") ∧ (a ∉ ascii "/" → b = a)

/-- The name of the file at a `file:` URL. -/
def FileNamed (windows : Bool) (u name : List UInt8) : Prop :=
  ∃ p t, Without (ascii "file://") u p ∧ Unescapes p t ∧
    if windows then ∃ q, Without (ascii "/") t q ∧ Backslashed q name else name = t

/-- The bytes start with a JSON text of `D` (C54 says more on such texts). -/
def StartsWith (bs : List UInt8) (D : Json) : Prop :=
  ∃ b t r, Blank b ∧ Text Text.maxDepth D t ∧ bs = b ++ t ++ r ∧ Ends D r

/-- The addresses of the documents that come with the package. -/
def embedded : List (String × Json) :=
  [("http://json-schema.org/draft-04/schema", Meta.draft4), ("http://json-schema.org/draft-06/schema", Meta.draft6),
   ("http://json-schema.org/draft-07/schema", Meta.draft7)]

/-- `D` is the document that the reference leads to. -/
inductive LeadsTo (w : World) (m : Machine) (n : Nat) (f : Factory) (source : String) : Json → Prop
  | file (r name s D) : w.norm source = some r → w.isFile r = true → FileNamed m.windows (utf8 (w.base r)) name →
      m.openFile n f name = some s → s.fails = false → StartsWith s.bytes D → LeadsTo w m n f source D
  | own (r D) : w.norm source = some r → w.isFile r = false → (w.base r, D) ∈ embedded → LeadsTo w m n f source D
  | web (r a D) : w.norm source = some r → w.isFile r = false → w.base r ∉ embedded.map Prod.fst →
      m.get n (w.base r) = some a → a.code = 200 → a.body.fails = false → StartsWith a.body.bytes D →
      LeadsTo w m n f source D

/-- The reference asks for this file. -/
def AsksFile (w : World) (m : Machine) (source : String) (name : List UInt8) : Prop :=
  ∃ r, w.norm source = some r ∧ w.isFile r = true ∧ FileNamed m.windows (utf8 (w.base r)) name

/-- The reference asks for this address. -/
def AsksWeb (w : World) (source address : String) : Prop :=
  ∃ r, w.norm source = some r ∧ w.isFile r = false ∧ w.base r = address ∧ address ∉ embedded.map Prod.fst

/-- Reading what was found fails for this reason. -/
inductive Unreadable (s : Source) : LoadErr → Prop
  | read : s.fails = true → Unreadable s .read
  | decode (e) : s.fails = false → (∀ D, ¬ StartsWith s.bytes D) → Unreadable s (.decode e)

/-- The load fails, for this reason. -/
inductive FailsFor (w : World) (m : Machine) (n : Nat) (f : Factory) (source : String) : LoadErr → Prop
  | reference : w.norm source = none → FailsFor w m n f source .reference
  | escape (r) : w.norm source = some r → w.isFile r = true → (∀ name, ¬ FileNamed m.windows (utf8 (w.base r)) name) →
      FailsFor w m n f source .escape
  | open_ (name) : AsksFile w m source name → m.openFile n f name = none → FailsFor w m n f source .open_
  | file (name s e) : AsksFile w m source name → m.openFile n f name = some s → Unreadable s e → FailsFor w m n f source e
  | get (address) : AsksWeb w source address → m.get n address = none → FailsFor w m n f source .get
  | status (address a) : AsksWeb w source address → m.get n address = some a → a.code ≠ 200 →
      FailsFor w m n f source (.status ("Could not read schema from HTTP, response status is " ++ a.status))
  | web (address a e) : AsksWeb w source address → m.get n address = some a → a.code = 200 → Unreadable a.body e →
      FailsFor w m n f source e

end GJS.Spec

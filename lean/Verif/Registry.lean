import Verif.Conc
import Verif.Json
/-
The registry of format checkers as goroutines see it, `/repo/format_checkers.go` 144-188: one lock for all
chains, Go maps that detect concurrent use.

Simplifications: a checker is a pure function of its input (`run`). Where the Go runtime kills the process
with "concurrent map read and map write" or "concurrent map writes", the call here answers
`fatal`.
-/
namespace GJS.Reg
open GJS Conc

/-- A Go map, with the flag the runtime sets while the map is being written. -/
structure GoMap (C : Type) where
  entries : List (String × C) := []
  writing : Bool := false

/-- The maps of the chains. -/
abbrev Mem (C : Type) := Nat → GoMap C

/-- Calls, of the methods of chain `ch`. -/
inductive Op (C : Type) where
  | add (ch : Nat) (name : String) (f : C)
  | remove (ch : Nat) (name : String)
  | has (ch : Nat) (name : String)
  | isFormat (ch : Nat) (name : String) (input : Json)

/-- Answers. `Add` and `Remove` return the chain. -/
inductive Res where
  | chain
  | bool (b : Bool)
  | fatal
deriving DecidableEq, Repr

/-- What can be seen of a call: that it begins, and what it returns. -/
inductive Event (C : Type) where
  | call (op : Op C)
  | ret (op : Op C) (res : Res)

/-- A goroutine that makes calls, each of which may depend on the answers so far. -/
inductive Prog (C : Type) where
  | stop
  | call (op : Op C) (k : Res → Prog C)

/-- Replace the map of a chain. -/
def update (s : Mem C) (ch : Nat) (m : GoMap C) : Mem C := fun c => if c = ch then m else s c

/-- `m[name] = f` -/
def insert (name : String) (f : C) (l : List (String × C)) : List (String × C) :=
  (name, f) :: l.filter (fun e => !(e.1 == name))

/-- `delete(m, name)` -/
def erase (name : String) (l : List (String × C)) : List (String × C) := l.filter (fun e => !(e.1 == name))

/-- A write to the map of `ch`: the flag is tested and set, the entries are changed and the flag is
cleared. -/
def writeMap (ch : Nat) (g : List (String × C) → List (String × C)) (ok fatal : Code (Mem C) E) : Code (Mem C) E :=
  .get fun s =>
    if (s ch).writing then fatal
    else
      .put (fun s => update s ch { (s ch) with writing := true }) <|
      .put (fun s => update s ch { entries := g (s ch).entries, writing := false }) ok

/-- A read of the map of `ch`: the flag is tested, the entry is looked up. -/
def readMap (ch : Nat) (name : String) (ok : Option C → Code (Mem C) E) (fatal : Code (Mem C) E) : Code (Mem C) E :=
  .get fun s => if (s ch).writing then fatal else ok (List.lookup name (s ch).entries)

/-- A call returns and the goroutine goes on. -/
def returns (op : Op C) (k : Res → Code (Mem C) (Event C)) (res : Res) : Code (Mem C) (Event C) :=
  .emit (.ret op res) (k res)

/-- The bodies of the methods: `Add` (`/repo/format_checkers.go` 149-155), `Remove` (158-164), `Has`
(167-173), `IsFormat` (177-188). The checker runs after the lock has been given back. -/
def body (run : C → Json → Bool) (op : Op C) (k : Res → Code (Mem C) (Event C)) : Code (Mem C) (Event C) :=
  match op with
  | .add ch name f => .lock <| writeMap ch (insert name f) (.unlock (returns op k .chain)) (.unlock (returns op k .fatal))
  | .remove ch name => .lock <| writeMap ch (erase name) (.unlock (returns op k .chain)) (.unlock (returns op k .fatal))
  | .has ch name =>
    .rlock <| readMap ch name (fun f => .runlock (returns op k (.bool f.isSome))) (.runlock (returns op k .fatal))
  | .isFormat ch name input =>
    .rlock <| readMap ch name
      (fun f => .runlock (returns op k (.bool (match f with | none => true | some f => run f input))))
      (.runlock (returns op k .fatal))

/-- The program of a goroutine. -/
def code (run : C → Json → Bool) : Prog C → Code (Mem C) (Event C)
  | .stop => .done
  | .call op k => .emit (.call op) (body run op fun r => code run (k r))

/-- Goroutines with these programs, started together. -/
def start (run : C → Json → Bool) (s : Mem C) (ps : List (Prog C)) : Conf (Mem C) (Event C) :=
  Conc.start s (ps.map (code run))

end GJS.Reg

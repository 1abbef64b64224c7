import Verif.LemRegistry
/-
The registry of format checkers under concurrency: C30.
-/
namespace GJS.Reg
open GJS Conc Spec

/-- C30: the calls and returns of any number of goroutines with any programs, in any interleaving, are calls
and returns of a sequential registry in which every call takes effect at one moment between its
beginning and its return. -/
theorem C30_linearizable (run : C → Json → Bool) (s : Mem C) (hs : Quiet s) (ps : List (Prog C)) (tr : List (Nat × Event C))
    (c : Conf (Mem C) (Event C)) (h : Conc.Run (start run s ps) tr c) :
    ∃ r sts, Spec.Run run (view s, ps.map .ready) tr (r, sts) := by
  obtain ⟨a, h1, -⟩ := (Sim.start s (ps.map (code run))).run (start_inv run s ps) h
  obtain ⟨sts, h2, -⟩ := run_serves run (sts := ps.map .ready) hs (by simp [codeOf]) h1
  exact ⟨_, sts, h2⟩

/-- C30: no interleaving makes two goroutines use a Go map at the same time in a way the runtime would stop the
process for: no call answers `fatal`. -/
theorem C30_no_fatal (run : C → Json → Bool) (s : Mem C) (hs : Quiet s) (ps : List (Prog C)) (tr : List (Nat × Event C))
    (c : Conf (Mem C) (Event C)) (h : Conc.Run (start run s ps) tr c) (i : Nat) (op : Op C) :
    (i, Event.ret op .fatal) ∉ tr := by
  intro hm
  obtain ⟨r, sts, h1⟩ := C30_linearizable run s hs ps tr c h
  obtain ⟨r', e⟩ := answers run h1 (by
    intro st hst op res k e
    obtain ⟨p, -, rfl⟩ := List.mem_map.1 hst
    cases e) i op .fatal hm
  cases op <;> cases e

/-- C30: whoever is about to change the memory holds the lock, and everyone else is outside of all
sections. -/
theorem C30_race_free (run : C → Json → Bool) (s : Mem C) (ps : List (Prog C)) (tr : List (Nat × Event C))
    (c : Conf (Mem C) (Event C)) (h : Conc.Run (start run s ps) tr c) (i j : Nat) (x y : Thread (Mem C) (Event C))
    (hx : c.threads[i]? = some x) (hy : c.threads[j]? = some y) (hne : i ≠ j) (f k) (hp : x.code = .put f k) :
    y.mode = .idle ∧ (∀ g, y.code ≠ .get g) ∧ ∀ g k', y.code ≠ .put g k' :=
  ((start_inv run s ps).run h).race_free hx hy hne hp

/-- C30: nobody is blocked for good: a state that cannot go on is one in which all programs have ended, all
locks have been given back, and there is no infinite execution. -/
theorem C30_completes (run : C → Json → Bool) (s : Mem C) (ps : List (Prog C)) (tr : List (Nat × Event C))
    (c : Conf (Mem C) (Event C)) (h : Conc.Run (start run s ps) tr c) :
    ((¬ ∃ l c', Conc.Step c l c') → (∀ t ∈ c.threads, t.code = .done) ∧ c.shared.readers = 0 ∧ c.shared.writer = false) ∧
      ¬ ∃ f : Nat → Conf (Mem C) (Event C), f 0 = c ∧ ∀ n, ∃ l, Conc.Step (f n) l (f (n + 1)) :=
  ((start_inv run s ps).run h).completes

/-- C30: an unknown format passes, on any registry. -/
theorem C30_unknown (run : C → Json → Bool) (r : Registry C) (ch : Nat) (name : String) (input : Json) (h : r ch name = none) :
    (Spec.apply run r (.isFormat ch name input)).2 = .bool true := by
  simp [Spec.apply, h]

namespace Demo

/-- Checkers that accept everything or nothing. -/
def run (b : Bool) (_ : Json) : Bool := b

/-- One goroutine adds a checker that rejects everything, another asks twice. -/
def adder : Prog Bool := .call (.add 0 "x" false) fun _ => .stop
def asker : Prog Bool := .call (.isFormat 0 "x" .null) fun _ => .call (.isFormat 0 "x" .null) fun _ => .stop

/-- The return values in an execution. -/
def rets (tr : List (Nat × Event Bool)) : List (Nat × Res) :=
  tr.filterMap fun e => match e.2 with | .call _ => none | .ret _ r => some (e.1, r)

/-- `C30_linearizable` is not empty: an execution with overlapping calls in which the first question is
answered before the checker is added and the second one after. -/
example : ∃ tr c, Conc.Run (start run (fun _ => {}) [adder, asker]) tr c ∧
    rets tr = [(1, .bool true), (0, .chain), (1, .bool false)] := by
  refine ⟨_, _, execAll_run (is := [0, 1, 1, 0, 1, 1, 0, 0, 1, 0, 0, 0, 1, 0, 1, 1, 1, 1]) rfl, ?_⟩
  rfl

end Demo

/-- A chain made without a map, `FormatCheckerChain{}`: `Add` panics at the assignment, between `Lock` and
`Unlock` (`/repo/format_checkers.go` 149-155), and `Unlock` is not deferred. -/
def addNil (op : Op C) : Code (Mem C) (Event C) := .emit (.call op) (.lock (.get fun _ => .done))

/-- C30 needs the maps to exist: if a goroutine survives the panic of `Add` on a chain without a map, the lock
is never given back and calls on all chains block for good. -/
theorem C30_nil_map_blocks (run : C → Json → Bool) (s : Mem C) (op : Op C) (ch : Nat) (name : String) :
    ∃ tr c t, Conc.Run (Conc.start s [addNil op, code run (.call (.has ch name) fun _ => .stop)]) tr c ∧
      c.threads[1]? = some t ∧ t.code ≠ .done ∧ ¬ ∃ l c', Conc.Step c l c' := by
  refine ⟨_, _, _, execAll_run (is := [0, 0, 0, 0, 1]) rfl, rfl, ?_, ?_⟩
  · intro h; cases h
  · rintro ⟨l, c', h⟩
    obtain ⟨i, hi, h⟩ := step_exec1 h
    match i, hi with
    | 0, _ => cases h
    | 1, _ => cases h

end GJS.Reg

import Verif.Validate
/-
Validation while other goroutines change the registry of formats.  `validateCommon` asks the registry once for
every node with a format (`/repo/validation.go` 444-452); the lock is given back between two questions
(`/repo/format_checkers.go` 177-188), so two questions of the same validation may meet two different registries.

Simplification: the moment of a question is a function of the call it belongs to, named by the path of the calls it
is nested in.  A call asks at most one question.  Nothing is assumed on the order of the moments.
-/
namespace GJS

/-- `FormatCheckerChain.IsFormat` on a registry (`/repo/format_checkers.go` 177-188): an unknown format passes. -/
def askFormat (run : C → Json → Bool) (reg : String → Option C) (name : String) (v : Json) : Bool :=
  match reg name with
  | none => true
  | some f => run f v

/-- `validateRecursive` (`/repo/validation.go` 71-267) where the call `p` gets the answers `ask p` about formats. -/
def validateLive (env : Env) (ask : Path → String → Json → Bool) (σ : Sched) (h : Heap) : Nat → Rec
  | 0 => fun _ _ _ _ => throw .fuel
  | n + 1 => fun p i v c => validateStep { env with isFormat := ask p } σ h (validateLive env ask σ h n) p i v c

/-- `Schema.validateDocument` (`/repo/validation.go` 57-62) where the call `p` asks the registry at the moment `time p`,
and `reg t` is the registry at the moment `t`. -/
def liveDocument (env : Env) (run : C → Json → Bool) (reg : Nat → String → Option C) (time : Path → Nat) (σ : Sched)
    (h : Heap) (fuel : Nat) (root : Id) (v : Json) : Exec Result :=
  validateLive env (fun p => askFormat run (reg (time p))) σ h fuel [] root v rootCtx

end GJS

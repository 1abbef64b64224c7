/-
Goroutines that share a memory protected by a `sync.RWMutex`: the machine, step by step.

A goroutine is given by its remaining program. Sections are not atomic here: between any two accesses
of a goroutine, others can make steps.
-/
namespace GJS.Conc

/-- The remaining program of a goroutine over a shared memory `S`. `emit` is the moment a call begins
or returns; `get` and `put` are single accesses to the memory. -/
inductive Code (S E : Type) where
  | done
  | emit (e : E) (k : Code S E)
  | rlock (k : Code S E)
  | runlock (k : Code S E)
  | lock (k : Code S E)
  | unlock (k : Code S E)
  | get (k : S → Code S E)
  | put (f : S → S) (k : Code S E)

/-- Where a goroutine stands with respect to the lock. `waiting`: `Lock` has announced the writer, new
readers are held up, and the writer waits for the active readers to leave. -/
inductive Mode where
  | idle
  | reading
  | waiting
  | writing
deriving DecidableEq, Repr

/-- A goroutine. -/
structure Thread (S E : Type) where
  code : Code S E
  mode : Mode := .idle

/-- What goroutines share: the memory and the `sync.RWMutex`, which has a number of active readers and
at most one writer, announced or active. -/
structure Shared (S : Type) where
  mem : S
  readers : Nat := 0
  writer : Bool := false

/-- Kinds of steps. -/
inductive Act (S E : Type) where
  | emit (e : E)
  | rlock
  | runlock
  | announce
  | acquire
  | unlock
  | get (s : S)
  | put (f : S → S)

/-- The goroutine's side of a step. -/
inductive TStep : Thread S E → Act S E → Thread S E → Prop
  | emit (e k m) : TStep ⟨.emit e k, m⟩ (.emit e) ⟨k, m⟩
  | rlock (k) : TStep ⟨.rlock k, .idle⟩ .rlock ⟨k, .reading⟩
  | runlock (k m) : TStep ⟨.runlock k, m⟩ .runlock ⟨k, .idle⟩
  | announce (k) : TStep ⟨.lock k, .idle⟩ .announce ⟨.lock k, .waiting⟩
  | acquire (k) : TStep ⟨.lock k, .waiting⟩ .acquire ⟨k, .writing⟩
  | unlock (k m) : TStep ⟨.unlock k, m⟩ .unlock ⟨k, .idle⟩
  | get (k m s) : TStep ⟨.get k, m⟩ (.get s) ⟨k s, m⟩
  | put (f k m) : TStep ⟨.put f k, m⟩ (.put f) ⟨k, m⟩

/-- The shared side of a step. `RLock` waits while there is a writer, announced or active; `Lock` waits
for the previous writer, then for the readers. -/
inductive Effect : Act S E → Shared S → Shared S → Prop
  | emit (e sh) : Effect (.emit e) sh sh
  | rlock (s n) : Effect .rlock ⟨s, n, false⟩ ⟨s, n + 1, false⟩
  | runlock (s n b) : Effect .runlock ⟨s, n + 1, b⟩ ⟨s, n, b⟩
  | announce (s n) : Effect .announce ⟨s, n, false⟩ ⟨s, n, true⟩
  | acquire (s b) : Effect .acquire ⟨s, 0, b⟩ ⟨s, 0, b⟩
  | unlock (s n) : Effect .unlock ⟨s, n, true⟩ ⟨s, n, false⟩
  | get (s n b) : Effect (.get s) ⟨s, n, b⟩ ⟨s, n, b⟩
  | put (f s n b) : Effect (.put f) ⟨s, n, b⟩ ⟨f s, n, b⟩

/-- A configuration. -/
structure Conf (S E : Type) where
  shared : Shared S
  threads : List (Thread S E)

/-- What can be seen of a step: the event of goroutine `i`. -/
def seen (i : Nat) : Act S E → Option (Nat × E)
  | .emit e => some (i, e)
  | _ => none

/-- One step of one goroutine. -/
def Step (c : Conf S E) (l : Option (Nat × E)) (c' : Conf S E) : Prop :=
  ∃ (i : Nat) (t t' : Thread S E) (a : Act S E), c.threads[i]? = some t ∧ TStep t a t' ∧ Effect a c.shared c'.shared ∧
    c'.threads = c.threads.set i t' ∧ l = seen i a

/-- An execution, with what can be seen of it. -/
inductive Run : Conf S E → List (Nat × E) → Conf S E → Prop
  | nil (c) : Run c [] c
  | step (c c' c'' l tr) : Step c l c' → Run c' tr c'' → Run c (l.toList ++ tr) c''

/-- All goroutines at the beginning. -/
def start (s : S) (codes : List (Code S E)) : Conf S E := ⟨{ mem := s }, codes.map fun k => ⟨k, .idle⟩⟩

/-- The rest of a section, executed at once: the memory afterwards and what is left. -/
def runSection : S → Code S E → S × Code S E
  | s, .get k => runSection s (k s)
  | s, .put f k => runSection (f s) k
  | s, .runlock k => (s, k)
  | s, .unlock k => (s, k)
  | s, .done => (s, .done)
  | s, .emit e k => (s, .emit e k)
  | s, .rlock k => (s, .rlock k)
  | s, .lock k => (s, .lock k)

/-- The machine with sections that are executed at once, and no lock. -/
inductive AStep : S × List (Code S E) → Option (Nat × E) → S × List (Code S E) → Prop
  | emit (s cs i e k) : cs[i]? = some (.emit e k) → AStep (s, cs) (some (i, e)) (s, cs.set i k)
  | rsection (s cs i k) : cs[i]? = some (.rlock k) → AStep (s, cs) none ((runSection s k).1, cs.set i (runSection s k).2)
  | wsection (s cs i k) : cs[i]? = some (.lock k) → AStep (s, cs) none ((runSection s k).1, cs.set i (runSection s k).2)

/-- Its executions. -/
inductive ARun : S × List (Code S E) → List (Nat × E) → S × List (Code S E) → Prop
  | nil (a) : ARun a [] a
  | step (a a' a'' l tr) : AStep a l a' → ARun a' tr a'' → ARun a (l.toList ++ tr) a''

/-- Programs that take the lock before they touch the memory, the write lock before they change
it, give it back, and emit outside of sections. -/
def Ok : Code S E → Mode → Prop
  | .done, m => m = .idle
  | .emit _ k, m => m = .idle ∧ Ok k .idle
  | .rlock k, m => m = .idle ∧ Ok k .reading
  | .runlock k, m => m = .reading ∧ Ok k .idle
  | .lock k, m => (m = .idle ∨ m = .waiting) ∧ Ok k .writing
  | .unlock k, m => m = .writing ∧ Ok k .idle
  | .get k, m => (m = .reading ∨ m = .writing) ∧ ∀ s, Ok (k s) m
  | .put _ k, m => m = .writing ∧ Ok k .writing

end GJS.Conc

import Verif.IoLoader
/-
What a program sees of a reader or a writer when there is no loader.
-/
namespace GJS.Io.Spec
open GJS.Io

/-- The answers of the source itself to reads of these sizes, and its final state. -/
def direct (source : Reader τ) : List Nat → τ → List (Bytes × Option IoErr) × τ
  | [], t => ([], t)
  | n :: ns, t =>
    let (r, t) := source.read t n
    let (rs, t) := direct source ns t
    (r :: rs, t)

/-- The sizes read in a program. -/
def sizes : List ReadOp → List Nat
  | [] => []
  | .read n :: ops => n :: sizes ops
  | .load :: ops => sizes ops

/-- The answers of the sink itself to these writes, and its final state. -/
def directW (source : Writer τ) : List Bytes → τ → List (Nat × Option IoErr) × τ
  | [], t => ([], t)
  | p :: ps, t =>
    let (r, t) := source.write t p
    let (rs, t) := directW source ps t
    (r :: rs, t)

/-- The texts written in a program. -/
def texts : List WriteOp → List Bytes
  | [] => []
  | .write p :: ops => p :: texts ops
  | .load :: ops => texts ops

/-- The texts taken completely and without an error. -/
def taken : List Bytes → List (Nat × Option IoErr) → Bytes
  | p :: ps, (n, e) :: rs => (if e = none ∧ n = p.length then p else []) ++ taken ps rs
  | _, _ => []

/-- The answer to a write, with a short write turned into an error. -/
def reported (p : Bytes) (r : Nat × Option IoErr) : Nat × Option IoErr :=
  if r.2 = none ∧ r.1 ≠ p.length then (r.1, some .shortWrite) else r

end GJS.Io.Spec

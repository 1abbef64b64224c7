import Verif.Loader
import Verif.SpecGraph
/-
How much work a validation is: the number of calls of `validateRecursive`.  A call is named by the path of the
calls it is nested in; that it is made is observed by having it panic.
-/
namespace GJS.Spec
open GJS

/-- `validateRecursive`, except that the call named `q` panics. -/
def stopAt (env : Env) (σ : Sched) (h : Heap) (q : Path) : Nat → Rec
  | 0 => fun _ _ _ _ => throw .fuel
  | n + 1 => fun p i v c => if p = q then throw .panic else validateStep env σ h (stopAt env σ h q n) p i v c

/-- Validating `v` succeeds (with whatever verdict), and the call `q` is made on the way: if it panics, so does the
validation. -/
def CallMade (env : Env) (σ : Sched) (h : Heap) (n : Nat) (root : Id) (v : Json) (q : Path) : Prop :=
  (∃ r, validateDocument env σ h n root v = .ok r) ∧ stopAt env σ h q n [] root v rootCtx = .error .panic

/-- The validation makes at most `N` calls. -/
def CallsAtMost (env : Env) (σ : Sched) (h : Heap) (n : Nat) (root : Id) (v : Json) (N : Nat) : Prop :=
  ∀ L : List Path, L.Nodup → (∀ q ∈ L, CallMade env σ h n root v q) → L.length ≤ N

/-- The validation makes at least `N` calls. -/
def CallsAtLeast (env : Env) (σ : Sched) (h : Heap) (n : Nat) (root : Id) (v : Json) (N : Nat) : Prop :=
  ∃ L : List Path, L.Nodup ∧ (∀ q ∈ L, CallMade env σ h n root v q) ∧ N ≤ L.length

/-- The sub-schemas a node makes use of when it validates, as often as they are mentioned. -/
def uses (s : Sub) : List Id :=
  if s.pass.isSome then [] else
  match s.refSchema with
  | some j => [j]
  | none => inPlace s ++ nested s

/-- A weight for every node: more than the weights of all the sub-schemas it makes use of together. -/
structure Weight (h : Heap) (W : Id → Nat) : Prop where
  pos : ∀ i, 0 < W i
  more : ∀ (i : Nat) s, h[i]? = some s → 1 + ((uses s).map W).sum ≤ W i

end GJS.Spec

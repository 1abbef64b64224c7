import Verif.Registry
/-
A sequential registry, and what it means that concurrent calls behave as if each took effect at one
moment between its beginning and its return.
-/
namespace GJS.Reg.Spec
open GJS GJS.Reg

/-- A registry: which checker, if any, a chain has under a name. -/
abbrev Registry (C : Type) := Nat → String → Option C

/-- One call on a sequential registry. An unknown format passes. -/
def apply (run : C → Json → Bool) (r : Registry C) : Op C → Registry C × Res
  | .add ch name f => (fun c n => if c = ch ∧ n = name then some f else r c n, .chain)
  | .remove ch name => (fun c n => if c = ch ∧ n = name then none else r c n, .chain)
  | .has ch name => (r, .bool (r ch name).isSome)
  | .isFormat ch name input =>
    (r, .bool (match r ch name with | none => true | some f => run f input))

/-- Where a goroutine stands: between calls, in a call that has not taken effect, in a call that has. -/
inductive Status (C : Type) where
  | ready (p : Prog C)
  | pending (op : Op C) (k : Res → Prog C)
  | served (op : Op C) (res : Res) (k : Res → Prog C)

/-- Steps: a call begins, takes effect on the registry, returns what it got. -/
inductive Step (run : C → Json → Bool) : Registry C × List (Status C) → Option (Nat × Event C) → Registry C × List (Status C) → Prop
  | call (r sts i op k) : sts[i]? = some (.ready (.call op k)) →
      Step run (r, sts) (some (i, .call op)) (r, sts.set i (.pending op k))
  | serve (r sts i op k) : sts[i]? = some (.pending op k) →
      Step run (r, sts) none ((apply run r op).1, sts.set i (.served op (apply run r op).2 k))
  | ret (r sts i op res k) : sts[i]? = some (.served op res k) →
      Step run (r, sts) (some (i, .ret op res)) (r, sts.set i (.ready (k res)))

/-- Executions, with what can be seen of them. -/
inductive Run (run : C → Json → Bool) : Registry C × List (Status C) → List (Nat × Event C) → Registry C × List (Status C) → Prop
  | nil (a) : Run run a [] a
  | step (a a' a'' l tr) : Step run a l a' → Run run a' tr a'' → Run run a (l.toList ++ tr) a''

end GJS.Reg.Spec

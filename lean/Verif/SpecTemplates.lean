import Verif.Templates
/-
Descriptions without a cache: what a format string and details give, and goroutines that share nothing.
-/
namespace GJS.Tpl.Spec
open GJS.Tpl

/-- The format defines no other templates. -/
def Plain (en : Engine T D) (s : String) : Prop :=
  (∃ e, en.parse s = .error e) ∨ ∃ t, en.parse s = .ok [(s, t)]

/-- The rendering of a format string with details: errors of parsing and rendering are shown in place. -/
def render (en : Engine T D) (s : String) (d : D) : String :=
  match en.parse s with
  | .error e => e
  | .ok trees =>
    match List.lookup s trees with
    | none => execute en s d none
    | some t => match en.exec t d with
      | .ok text => text
      | .error e => e

/-- All formats a goroutine may ask for are plain. -/
inductive AllPlain (en : Engine T D) : Prog D → Prop
  | stop : AllPlain en .stop
  | describe (s d k) : Plain en s → (∀ r, AllPlain en (k r)) → AllPlain en (.describe s d k)

/-- Where a goroutine stands. -/
inductive Status (D : Type) where
  | ready (p : Prog D)
  | pending (s : String) (d : D) (k : String → Prog D)

/-- Goroutines that share nothing: every description is the rendering of its format. -/
inductive Step (en : Engine T D) : List (Status D) → Nat × Event D → List (Status D) → Prop
  | call (sts i s d k) : sts[i]? = some (.ready (.describe s d k)) → Step en sts (i, .call s d) (sts.set i (.pending s d k))
  | ret (sts i s d k) : sts[i]? = some (.pending s d k) →
      Step en sts (i, .ret s d (render en s d)) (sts.set i (.ready (k (render en s d))))

inductive Run (en : Engine T D) : List (Status D) → List (Nat × Event D) → List (Status D) → Prop
  | nil (a) : Run en a [] a
  | step (a a' a'' l tr) : Step en a l a' → Run en a' tr a'' → Run en a (l :: tr) a''

/-- What a cache may contain: trees of plain formats, under the format. -/
structure Sound (en : Engine T D) (m : Cache T) : Prop where
  quiet : m.writing = false
  trees : ∀ s t, List.lookup s m.trees = some t → en.parse s = .ok [(s, t)]

end GJS.Tpl.Spec

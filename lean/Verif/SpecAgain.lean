import Verif.SpecVisit
/-
References that have been made absolute, made absolute again.
-/
namespace GJS.Spec
open GJS

/-- The reference `t` made absolute with base `b`. -/
def resolved (w : World) (b t : String) : Option String := (w.norm t).bind (w.inherits b)

/-- Bases `b`, `b'` related by `S` are such that references made absolute with `b` stay the same when made
absolute with `b'`, and stay in the relation when identifiers change the base. -/
structure Firm (w : World) (S : String → String → Prop) : Prop where
  again : ∀ b b' t k, S b b' → resolved w b t = some k → resolved w b' k = some k
  fails : ∀ b b' t, S b b' → resolved w b t = none → resolved w b' t = none
  scope : ∀ b b' t, S b b' → S ((resolved w b t).getD b) ((resolved w b' t).getD b')

/-- Making absolute with the base `b`, or a base that identifiers may lead to from it, settles references. -/
def Lasting (w : World) (b : String) : Prop := ∃ P : String → Prop, P b ∧ Firm w fun x y => x = y ∧ P x

end GJS.Spec

import Verif.SpecWell
/-
Vocabulary for the properties about drafts.
-/
namespace GJS.Spec
open GJS

/-- The draft `d` does not have the keyword `k`. -/
def Gated (d : Draft) (k : String) : Prop :=
  (d < Draft6 ∧ (k = "const" ∨ k = "contains" ∨ k = "propertyNames")) ∨
  (d < Draft7 ∧ (k = "if" ∨ k = "then" ∨ k = "else"))

/-- The drafts the library knows, with the normal form of the URL of their meta-schema. -/
def Known (url : String) (d : Draft) : Prop :=
  (url = "http://json-schema.org/draft-04/schema" ∧ d = 4) ∨
  (url = "http://json-schema.org/draft-06/schema" ∧ d = 6) ∨
  (url = "http://json-schema.org/draft-07/schema" ∧ d = 7)

end GJS.Spec

import Verif.SpecCompile
import Verif.SpecDraft
/-
Vocabulary about meta-schemas used in statements.
-/
namespace GJS.Spec
open GJS

/-- The text of the reference to the meta-schema a document is checked against: what it declares in
`$schema` if detection is on, else the meta-schema of the draft of the loader. -/
inductive MetaFor (w : World) (l : LState) (D : Json) : String → Prop
  | declared (m t u) : l.autoDetect = true → D = .obj m → Kw m "$schema" (.str t) → w.norm t = some u → u ≠ "" →
      MetaFor w l D u
  | default (u) : (l.autoDetect = true → ∀ m t u', D = .obj m → Kw m "$schema" (.str t) → w.norm t = some u' → u' = "") →
      l.draft ≠ Hybrid → Known u l.draft → MetaFor w l D u

/-- The document `D`, as an instance, obeys the keyword rules for the document the reference `u`
stands for, to some depth that settles the matter. -/
def Conforms (w : World) (l : LState) (u : String) (D : Json) : Prop :=
  ∃ (M : Json) (resolve : String → Option (Draft × Json)) (n : Nat),
    RootDoc w l (.reference u 0) M ∧
    (∀ t d' D', resolve t = some (d', D') → ∃ u', w.norm t = some u' ∧ ReadAs w l (draftFor w l M) M u' d' D') ∧
    (∀ d' m t, Used resolve (draftFor w l M) M d' (.obj m) → Kw m "$ref" (.str t) → resolve t ≠ none) ∧
    ∀ P, docUnfold w.env resolve P n (draftFor w l M) M D

end GJS.Spec

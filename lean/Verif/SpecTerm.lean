import Verif.SpecWell
import Verif.SpecRewrite
import Verif.Loader
/-
Finite sets of documents closed under references, stated without the compiler.
-/
namespace GJS.Spec
open GJS

/-- `r` is the target of a `$ref` somewhere in the document. -/
def Refers (w : World) (D : Json) (r : String) : Prop :=
  ∃ m t, Within D (.obj m) ∧ getKey "$ref" m = some (.str t) ∧ w.norm t = some r

/-- `D'` is the document `D` of base `b`, either as it was loaded or with its references made
absolute. -/
def Version (w : World) (b : String) (D D' : Json) : Prop := D' = D ∨ Rw w b D D'

/-- A finite set of documents, each with its base URI, that contains every document its
references lead to: whatever can be loaded for a reference that occurs in one of them is in the
set again. -/
structure ClosedSet (w : World) (L : List (String × Json)) : Prop where
  wf : ∀ b D, (b, D) ∈ L → D.WF
  refs : ∀ b D D' r, (b, D) ∈ L → Version w b D D' → Refers w D' r →
    ∀ n f d, loadReference w n f r = some d → (w.base r, d) ∈ L

/-- Whatever can be loaded for `r` is in the set. -/
def LeadsInto (w : World) (L : List (String × Json)) (r : String) : Prop :=
  ∀ n f d, loadReference w n f r = some d → (w.base r, d) ∈ L

/-- What an operation brings in is in the set; it does not switch validation against the
meta-schema on. -/
def Covered (w : World) (L : List (String × Json)) : Op → Prop
  | .addSchema url a => ∀ ref D, w.norm url = some ref → Loads w a D → (ref, D) ∈ L
  | .addSchemas as => ∀ a ∈ as, ∀ D, Loads w a D → ("", D) ∈ L
  | .compile a => ∀ ref, a.ref w = some ref →
      (ref = "" → ∀ D, Loads w a D → ("", D) ∈ L) ∧ (ref ≠ "" → LeadsInto w L ref)
  | .setValidate b => b = false
  | _ => True

end GJS.Spec

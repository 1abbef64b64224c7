import Verif.SpecWell
/-
Schema documents reached from a document, references followed, and what is asked of each of them.
-/
namespace GJS.Spec
open GJS

/-- The schema documents (with drafts) reached from `D` under draft `d`: sub-schemas of objects
without `$ref`, definitions, and what references stand for. -/
inductive Reached (resolve : String → Option (Draft × Json)) (d : Draft) (D : Json) : Draft → Json → Prop
  | root : Reached resolve d D d D
  | sub (d' m D') : Reached resolve d D d' (.obj m) → getKey "$ref" m = none → SubSchema d' m D' →
      Reached resolve d D d' D'
  | definition (d' m ps k D') : Reached resolve d D d' (.obj m) → Kw m "definitions" (.obj ps) → (k, D') ∈ ps →
      Reached resolve d D d' D'
  | ref (d' m t d'' D'') : Reached resolve d D d' (.obj m) → Kw m "$ref" (.str t) → resolve t = some (d'', D'') →
      Reached resolve d D d'' D''

/-- The keywords that are read also beside `$ref` have the right form. -/
structure Head (w : World) (d : Draft) (m : List (String × Json)) : Prop where
  id : ∀ v, Kw m (idKey d m) v → ∃ t, v = .str t ∧ w.norm t ≠ none
  title : ∀ v, Kw m "title" v → ∃ t, v = .str t
  description : ∀ v, Kw m "description" v → ∃ t, v = .str t
  definitions : ∀ v, Kw m "definitions" v → ∃ c, v = .obj c

/-- One level of a well-formed schema document: a boolean from draft-06 on; an object of the right
shape; or an object whose `$ref` is a text that resolves, and whose other keywords, but for those in
`Head`, are ignored. -/
inductive Readable (w : World) (resolve : String → Option (Draft × Json)) (d : Draft) : Json → Prop
  | bool (b) : Draft6 ≤ d → Readable w resolve d (.bool b)
  | plain (m) : getKey "$ref" m = none → Shape w d m → Readable w resolve d (.obj m)
  | ref (m t) : Kw m "$ref" (.str t) → (resolve t).isSome → Head w d m → Readable w resolve d (.obj m)

/-- Everything reached from `D` is well-formed. -/
def AllReadable (w : World) (resolve : String → Option (Draft × Json)) (d : Draft) (D : Json) : Prop :=
  ∀ d' D', Reached resolve d D d' D' → Readable w resolve d' D'

end GJS.Spec

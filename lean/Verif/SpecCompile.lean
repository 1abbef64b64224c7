import Verif.SpecRewrite
import Verif.SpecPool
import Verif.SpecDoc
/-
Vocabulary about compilations used in statements.
-/
namespace GJS.Spec
open GJS

/-- What a `JSONLoader` argument may load. -/
def Loads (w : World) : LoaderArg → Json → Prop
  | .direct o, D => o = some D
  | .reference s f, D => ∃ n, loadReference w n f s = some D

/-- The document `Compile` works on: what the reference of the loader stands for, or, if that is
empty, what the loader loads, with references made absolute. -/
def RootDoc (w : World) (l : LState) (a : LoaderArg) (D : Json) : Prop :=
  ∃ ref, a.ref w = some ref ∧
    ((ref ≠ "" ∧ Resolved w l ref D) ∨ (ref = "" ∧ ∃ D0, Loads w a D0 ∧ Rw w "" D0 D))

/-- The draft in force for a document, given the settings of the loader. -/
def draftFor (w : World) (l : LState) (D : Json) : Draft :=
  if l.autoDetect then (declaredDraft w D).getD l.draft else l.draft

/-- `D` stands in schema position in the schema object `m`, under draft `d`. -/
inductive SubSchema (d : Draft) (m : List (String × Json)) : Json → Prop
  | property (ps k D) : Kw m "properties" (.obj ps) → (k, D) ∈ ps → SubSchema d m D
  | pattern (ps k D) : Kw m "patternProperties" (.obj ps) → (k, D) ∈ ps → SubSchema d m D
  | additional (A) : Kw m "additionalProperties" (.obj A) → SubSchema d m (.obj A)
  | name (D) : Draft6 ≤ d → Kw m "propertyNames" D → SubSchema d m D
  | dependency (ps k D) : Kw m "dependencies" (.obj ps) → (k, D) ∈ ps → (∀ qs, D ≠ .arr qs) → SubSchema d m D
  | items (D) : Kw m "items" D → (∀ Ds, D ≠ .arr Ds) → SubSchema d m D
  | item (Ds D) : Kw m "items" (.arr Ds) → D ∈ Ds → SubSchema d m D
  | additionalItems (A) : Kw m "additionalItems" (.obj A) → SubSchema d m (.obj A)
  | contains (D) : Draft6 ≤ d → Kw m "contains" D → SubSchema d m D
  | oneOf (Ds D) : Kw m "oneOf" (.arr Ds) → D ∈ Ds → SubSchema d m D
  | anyOf (Ds D) : Kw m "anyOf" (.arr Ds) → D ∈ Ds → SubSchema d m D
  | allOf (Ds D) : Kw m "allOf" (.arr Ds) → D ∈ Ds → SubSchema d m D
  | not (D) : Kw m "not" D → SubSchema d m D
  | if_ (D) : Draft7 ≤ d → Kw m "if" D → SubSchema d m D
  | then_ (D) : Draft7 ≤ d → Kw m "then" D → SubSchema d m D
  | else_ (D) : Draft7 ≤ d → Kw m "else" D → SubSchema d m D

/-- The schema documents (with drafts) that play a role in the meaning of document `D`. -/
inductive Used (resolve : String → Option (Draft × Json)) (d : Draft) (D : Json) : Draft → Json → Prop
  | root : Used resolve d D d D
  | ref (d' m t d'' D'') : Used resolve d D d' (.obj m) → Kw m "$ref" (.str t) → resolve t = some (d'', D'') →
      Used resolve d D d'' D''
  | sub (d' m D') : Used resolve d D d' (.obj m) → getKey "$ref" m = none → SubSchema d' m D' →
      Used resolve d D d' D'

/-- The schema documents (with drafts) that a compilation of `D` under draft `d` reads: also the
definitions and the keywords beside `$ref`. -/
inductive Compiled (w : World) (l : LState) (d : Draft) (D : Json) : Draft → Json → Prop
  | root : Compiled w l d D d D
  | sub (d' m D') : Compiled w l d D d' (.obj m) → SubSchema d' m D' → Compiled w l d D d' D'
  | definition (d' m ps k D') : Compiled w l d D d' (.obj m) → Kw m "definitions" (.obj ps) → (k, D') ∈ ps →
      Compiled w l d D d' D'
  | ref (d' m t u o D') : Compiled w l d D d' (.obj m) → Kw m "$ref" (.str t) → w.norm t = some u →
      ResolvedAs w l u o D' → Compiled w l d D (o.getD d') D'

/-- In a compilation of `D` under draft `d`, the reference `u` stands for `D'`, read under `d'`:
the draft is the one the document of `D'` is known to have, or if there is none the one in force
at some place that refers to `u`. -/
def ReadAs (w : World) (l : LState) (d : Draft) (D : Json) (u : String) (d' : Draft) (D' : Json) : Prop :=
  ∃ o, ResolvedAs w l u o D' ∧ (∀ x, o = some x → d' = x) ∧
    (o = none → ∃ m t, Compiled w l d D d' (.obj m) ∧ Kw m "$ref" (.str t) ∧ w.norm t = some u)

end GJS.Spec

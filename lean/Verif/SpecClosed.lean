import Verif.SpecIds
import Verif.SpecNumber
import Verif.SpecWell
/-
Closed documents: documents whose references lead to documents the loader already has.
-/
namespace GJS.Spec
open GJS

/-- `X` is, with references made absolute, the document `D0` (under the empty URL), or the schema in it
that declares the identifier `k`. -/
def Own (w : World) (D0 : Json) (k : String) (X : Json) : Prop :=
  (k = "" ∧ RwStrict w "" D0 X) ∨
  (k ≠ "" ∧ ∃ b m, SchemaAt w "" D0 b (.obj m) ∧ Declares w b m k ∧ RwStrict w b (.obj m) X)

/-- What a loader knows under the URL `k` once `Compile` has taken in the anonymous document `D0`: the
document itself and the schemas in it that declare identifiers, and what was known before. -/
inductive Place (w : World) (l : LState) (D0 : Json) (k : String) : PoolDoc → Prop
  | own (X) : Own w D0 k X → Place w l D0 k ⟨X, draftOf w l.autoDetect D0⟩
  | before (e) : k ≠ "" → (∀ b m, SchemaAt w "" D0 b (.obj m) → ¬ Declares w b m k) → getKey k l.pool = some e →
      Place w l D0 k e

/-- What the reference `u` stands for, and the draft remembered with it. -/
inductive StandsFor (w : World) (l : LState) (D0 : Json) (u : String) : Option Draft → Json → Prop
  | whole (e) : Place w l D0 u e → StandsFor w l D0 u e.draft e.doc
  | part (e X) : Place w l D0 (w.base u) e → w.pointer u e.doc = some X → StandsFor w l D0 u e.draft X

/-- What can be met on the way from the document `D0` through its parts and references. -/
inductive Met (w : World) (l : LState) (D0 : Json) : Json → Prop
  | root (D) : RwStrict w "" D0 D → Met w l D0 D
  | inside (D x) : Met w l D0 D → Within D x → Met w l D0 x
  | ref (m t u o X) : Met w l D0 (.obj m) → Kw m "$ref" (.str t) → w.norm t = some u → StandsFor w l D0 u o X →
      Met w l D0 X

/-- `D0` refers to `u`, itself or through other references. -/
def RefersTo (w : World) (l : LState) (D0 : Json) (u : String) : Prop :=
  ∃ m t, Met w l D0 (.obj m) ∧ Kw m "$ref" (.str t) ∧ w.norm t = some u

/-- The references of `D0` lead to documents the loader already has, each to one, all of them of the
draft `d` or none; identifiers in `D0` are distinct and new. -/
structure Closed (w : World) (l : LState) (d : Draft) (D0 : Json) : Prop where
  distinct : (idsIn w "" D0).Nodup
  new : ∀ b m k, SchemaAt w "" D0 b (.obj m) → Declares w b m k → getKey k l.pool = none
  known : ∀ u, RefersTo w l D0 u → ∃ e, Place w l D0 u e ∨ Place w l D0 (w.base u) e
  one : ∀ u, RefersTo w l D0 u → ∀ o o' X X', StandsFor w l D0 u o X → StandsFor w l D0 u o' X' → X = X'
  draft : ∀ u, RefersTo w l D0 u → ∀ x X, StandsFor w l D0 u (some x) X → x = d

/-- A loader that has not fetched anything and does not validate against meta-schemas. -/
def Idling (l : LState) : Prop := l.log = [] ∧ l.validate = false

/-- `resolve` gives for every reference what it stands for, read under `d`. -/
def Follows (w : World) (l : LState) (d : Draft) (D0 : Json) (resolve : String → Option (Draft × Json)) : Prop :=
  ∀ m t u o X, Met w l D0 (.obj m) → Kw m "$ref" (.str t) → w.norm t = some u → StandsFor w l D0 u o X →
    resolve t = some (d, X)

/-- What a reference into the document stands for. -/
inductive OwnStands (w : World) (D0 : Json) (u : String) : Json → Prop
  | whole (X) : Own w D0 u X → OwnStands w D0 u X
  | part (Y X) : Own w D0 (w.base u) Y → w.pointer u Y = some X → OwnStands w D0 u X

/-- Somewhere in `D0`, once references are absolute, there is a `$ref` with text `t`. -/
def HasRef (w : World) (D0 : Json) (t : String) : Prop :=
  ∃ D m, RwStrict w "" D0 D ∧ Within D (.obj m) ∧ Kw m "$ref" (.str t)

/-- The document's references lead into the document: to itself, or to the schemas in it that declare
identifiers, or to parts of these; to one place each. -/
structure SelfContained (w : World) (D0 : Json) : Prop where
  distinct : (idsIn w "" D0).Nodup
  own : ∀ t u, HasRef w D0 t → w.norm t = some u → ∃ Y, Own w D0 (w.base u) Y
  one : ∀ t u, HasRef w D0 t → w.norm t = some u → ∀ X X', OwnStands w D0 u X → OwnStands w D0 u X' → X = X'

/-- The loader knows nothing under the URLs of the document. -/
def Elsewhere (w : World) (l : LState) (D0 : Json) : Prop :=
  ∀ k e, getKey k l.pool = some e → ∀ X, ¬ Own w D0 k X ∧ ¬ Own w D0 (w.base k) X

/-- `resolve` gives for every reference of the document what it stands for, read under `d`. -/
def SelfFollows (w : World) (d : Draft) (D0 : Json) (resolve : String → Option (Draft × Json)) : Prop :=
  ∀ t u X, HasRef w D0 t → w.norm t = some u → OwnStands w D0 u X → resolve t = some (d, X)

end GJS.Spec

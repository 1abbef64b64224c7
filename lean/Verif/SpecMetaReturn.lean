import Verif.SpecMetaWorld
import Verif.SpecTerm
import Verif.SpecDraft
/-
When checks against meta-schemas involve the built-in meta-schemas only.
-/
namespace GJS.Spec
open GJS

/-- Every `$schema` in the document is empty, or names a built-in meta-schema, or is no reference. -/
def BuiltInSchema (w : World) (D : Json) : Prop :=
  ∀ m t u, Within D (.obj m) → ("$schema", .str t) ∈ m → w.norm t = some u → u = "" ∨ ∃ d, Known u d

/-- The built-in meta-schemas are where they should be and are in the set of documents; no document
that can be loaded names another meta-schema. -/
structure BuiltInsOnly (w : World) (L : List (String × Json)) : Prop where
  metas : ∀ u d, Known u d → MetaWorld w u ∧ Apart w u ∧ (u, Meta.doc d) ∈ L
  texts : ∀ n f s D, loadReference w n f s = some D → BuiltInSchema w D

/-- A draft with a meta-schema, or none. -/
def Drafted (d : Draft) : Prop := d = Hybrid ∨ ∃ u, Known u d

/-- What an operation brings in is in the set, names no other meta-schema and does not claim to be
one; a draft that is set has a meta-schema. -/
def Allowed (w : World) (L : List (String × Json)) : Op → Prop
  | .addSchema url a => Covered w L (.addSchema url a) ∧ (∀ u d, Known u d → ForeignOp w u (.addSchema url a)) ∧
      ∀ D, a = .direct (some D) → BuiltInSchema w D
  | .addSchemas as => Covered w L (.addSchemas as) ∧ (∀ u d, Known u d → ForeignOp w u (.addSchemas as)) ∧
      ∀ D, .direct (some D) ∈ as → BuiltInSchema w D
  | .compile a => Covered w L (.compile a) ∧ (∀ u d, Known u d → ForeignOp w u (.compile a)) ∧
      ∀ D, a = .direct (some D) → BuiltInSchema w D
  | .setDraft d => Drafted d
  | _ => True

end GJS.Spec

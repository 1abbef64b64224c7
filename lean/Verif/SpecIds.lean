import Verif.SpecRewrite
import Verif.SpecPool
/-
Which schemas of a document declare identifiers.
-/
namespace GJS.Spec
open GJS

/-- `SchemaAt w b D b' X`: in the document `D`, read with base URI `b`, the part `X` stands where a
schema may stand, and there `b'` is the base URI. -/
inductive SchemaAt (w : World) : String → Json → String → Json → Prop
  | here (b : String) (D : Json) : SchemaAt w b D b D
  /-- an element of an array -/
  | elem (b : String) (xs : List Json) (x : Json) (b' : String) (X : Json) : x ∈ xs → SchemaAt w b x b' X →
      SchemaAt w b (.arr xs) b' X
  /-- a member that is neither a literal nor a map of schemas -/
  | member (b : String) (m : List (String × Json)) (k : String) (v : Json) (b' : String) (X : Json) : (k, v) ∈ m →
      ¬ Literal k → ¬ SchemaMap k → SchemaAt w (scopeOf w b m) v b' X → SchemaAt w b (.obj m) b' X
  /-- a member of a map of schemas -/
  | named (b : String) (m c : List (String × Json)) (k n : String) (x : Json) (b' : String) (X : Json) :
      (k, .obj c) ∈ m → SchemaMap k → (n, x) ∈ c → SchemaAt w (scopeOf w b m) x b' X → SchemaAt w b (.obj m) b' X

/-- The schema object `m`, found with base `b`, declares the identifier `k`. -/
def Declares (w : World) (b : String) (m : List (String × Json)) (k : String) : Prop :=
  ∃ t u, idOf m = some t ∧ w.norm t = some u ∧ w.inherits b u = some k

/-- The draft remembered with the schemas of a document. -/
def draftOf (w : World) (autoDetect : Bool) (D : Json) : Option Draft :=
  if autoDetect then declaredDraft w D else none

end GJS.Spec

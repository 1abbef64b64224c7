import Verif.SpecMetaShape
import Verif.SpecRewrite
import Verif.SpecPool
import Verif.Loader
import Verif.Decode
import Verif.SpecText
/-
When the reference to a built-in meta-schema leads to this meta-schema: what is asked of references,
of the outside world and of the documents a loader meets.
-/
namespace GJS.Spec
open GJS

namespace Meta
/-- The meta-schema of draft 4, 6 or 7. -/
def docAt (d : Draft) (self : Json) (defn : String → Json) : Json :=
  if d = Draft4 then draft4At self defn else if d = Draft6 then draft6At self defn else draft7At self defn

/-- The meta-schema as it is published. -/
def doc (d : Draft) : Json := docAt d (ref "#") fun s => ref ("#/definitions/" ++ s)

/-- The reference to a definition of the document at `u`. -/
def part (u s : String) : String := u ++ "#/definitions/" ++ s

/-- The meta-schema at `u` with absolute references. -/
def absolute (u : String) (d : Draft) : Json := docAt d (ref u) fun s => ref (part u s)

/-- The definitions of the meta-schema. -/
def defs (d : Draft) (self : Json) (defn : String → Json) : List (String × Json) :=
  if d = Draft4 then defs4 self defn else defs6 self defn

/-- The names of all definitions. -/
def names : List String := ["schemaArray", "positiveInteger", "positiveIntegerDefault0", "nonNegativeInteger",
  "nonNegativeIntegerDefault0", "simpleTypes", "stringArray"]
end Meta

/-- References work as they should on the references in a meta-schema at `u`, and texts are decoded as
described. -/
structure MetaWorld (w : World) (u : String) : Prop where
  decode : ∀ t, w.decode t = (Text.decode Text.maxDepth (utf8 t)).toOption
  inherits : ∀ a b, w.inherits a b ≠ none
  base : ∀ r, w.base (w.base r) = w.base r
  root : w.base "" ≠ u
  self : w.norm u = some u ∧ w.base u = u ∧ w.inherits u u = some u ∧ ∀ D, w.pointer u D = some D
  hash : w.norm (u ++ "#") = some u
  /-- `#` and `#/definitions/s` inside the document -/
  inside : (w.norm "#").bind (w.inherits u) = some u ∧
    ∀ s ∈ Meta.names, (w.norm ("#/definitions/" ++ s)).bind (w.inherits u) = some (Meta.part u s)
  part : ∀ s ∈ Meta.names, w.norm (Meta.part u s) = some (Meta.part u s) ∧ w.base (Meta.part u s) = u ∧
    ∀ m ds X, Kw m "definitions" (.obj ds) → Kw ds s X → w.pointer (Meta.part u s) (.obj m) = some X
  base_norm : ∀ r r', w.norm r = some r' → w.base r' = w.base r
  /-- what is at `u` does not come from a file -/
  web : ∀ r, w.base r = u → w.isFile r = false
  /-- 0 and 1 are numbers -/
  zero : w.env.ratOk ⟨false, 0, [], none⟩ = true
  one : w.env.ratOk ⟨false, 1, [], none⟩ = true

/-- No schema in the document claims an identifier at `u`. -/
def Foreign (w : World) (u : String) (D : Json) : Prop :=
  ∀ b, w.base b ≠ u → ∀ k ∈ idsIn w b D, w.base k ≠ u

/-- No document loaded from elsewhere claims an identifier at `u`. -/
def Apart (w : World) (u : String) : Prop :=
  ∀ n f s D, w.base s ≠ u → loadReference w n f s = some D → Foreign w u D

/-- The entries of a loader at `u` are parts of the meta-schema of draft `d`. -/
def Clean (w : World) (u : String) (d : Draft) (l : LState) : Prop :=
  ∀ k e, w.base k = u → getKey k l.pool = some e →
    w.pointer k (Meta.absolute u d) = some e.doc ∧ (e.draft = none ∨ e.draft = some d)

/-- Arguments that do not claim to be part of the meta-schema at `u`. -/
def ForeignArg (w : World) (u : String) (a : LoaderArg) : Prop :=
  (∀ D, a = .direct (some D) → D.WF ∧ Foreign w u D) ∧ ∀ s f, a = .reference s f → w.base s ≠ u

/-- Operations with such arguments, and under such references. -/
def ForeignOp (w : World) (u : String) : Op → Prop
  | .addSchema url a => ForeignArg w u a ∧ w.base url ≠ u
  | .addSchemas as => ∀ a ∈ as, ForeignArg w u a
  | .compile a => ∀ D, a = .direct (some D) → D.WF ∧ Foreign w u D
  | _ => True

end GJS.Spec

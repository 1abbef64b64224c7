import Verif.Loader
/-
Vocabulary about loaders and pools used in statements.
-/
namespace GJS.Spec
open GJS

/-- What is assumed of the outside world: documents that come in are maps with distinct keys
throughout, and a JSON pointer picks a part of a document. -/
structure Lawful (w : World) : Prop where
  readFile : ∀ n f name d, w.readFile n f name = some d → d.WF
  http : ∀ n u d, w.http n u = some d → d.WF
  decode : ∀ t d, w.decode t = some d → d.WF
  pointer : ∀ r D d, w.pointer r D = some d → D.WF → d.WF

/-- Every document in the pool is well-formed. -/
def PoolWF (l : LState) : Prop := ∀ k e, getKey k l.pool = some e → e.doc.WF

/-- Entries of `l` are entries of `l'`. -/
def Keeps (l l' : LState) : Prop := ∀ k e, getKey k l.pool = some e → getKey k l'.pool = some e

/-- The `$schema` of the document cannot be read: it is not a schema, or `$schema` is not a
string, or not a reference.  (A number that does not fit a `big.Rat` panics in place of being refused.) -/
inductive SchemaBad (w : World) : Json → Prop
  | kind (D) : (∀ b, D ≠ .bool b) → (∀ m, D ≠ .obj m) → (∀ n, D = .num n → w.env.ratOk n = true) → SchemaBad w D
  | type (m v) : getKey "$schema" m = some v → (∀ t, v ≠ .str t) → (∀ n, v = .num n → w.env.ratOk n = true) →
      SchemaBad w (.obj m)
  | reference (m t) : getKey "$schema" m = some (.str t) → w.norm t = none → SchemaBad w (.obj m)

/-- What a reference stands for in a loader: the entry under the reference itself, or the part
its JSON pointer selects of the entry under its base, or of a document that was loaded but has
a bad `$schema`. -/
inductive Resolved (w : World) (l : LState) (r : String) : Json → Prop
  | entry (e) : getKey r l.pool = some e → Resolved w l r e.doc
  | inside (e D) : getKey (w.base r) l.pool = some e → w.pointer r e.doc = some D → Resolved w l r D
  | loaded (n f doc D) : loadReference w n f r = some doc → (f, r) ∈ l.log → SchemaBad w doc →
      w.pointer r doc = some D →
      Resolved w l r D

/-- The draft a document declares in `$schema`. -/
def declaredDraft (w : World) : Json → Option Draft
  | .obj m =>
    match getKey "$schema" m with
    | some (.str t) => (w.norm t).bind getDraftVersion
    | _ => none
  | _ => none

/-- The same, with the draft the document is known to have: the one remembered with the entry, or
the one the document declares if it was loaded for this reference, or none. -/
inductive ResolvedAs (w : World) (l : LState) (r : String) : Option Draft → Json → Prop
  | entry (e) : getKey r l.pool = some e → ResolvedAs w l r e.draft e.doc
  | inside (e D) : getKey (w.base r) l.pool = some e → w.pointer r e.doc = some D → ResolvedAs w l r e.draft D
  | fetched (n f doc e D) : loadReference w n f r = some doc → (f, r) ∈ l.log →
      getKey (w.base r) l.pool = some e → w.pointer r e.doc = some D → ResolvedAs w l r (declaredDraft w e.doc) D
  | loaded (n f doc D) : loadReference w n f r = some doc → (f, r) ∈ l.log → SchemaBad w doc →
      w.pointer r doc = some D →
      ResolvedAs w l r none D

end GJS.Spec

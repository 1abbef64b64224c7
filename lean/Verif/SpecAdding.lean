import Verif.SpecIds
import Verif.SpecWell
/-
Schemas added to a loader: what they make known.
-/
namespace GJS.Spec
open GJS

/-- A document to be added: under a URL (`AddSchema`), or by its identifiers only (`AddSchemas`). -/
inductive Adding where
  | url (u : String) (D : Json)
  | ids (D : Json)

/-- The call. -/
def Adding.op : Adding → Op
  | .url u D => .addSchema u (.direct (some D))
  | .ids D => .addSchemas [.direct (some D)]

def Adding.doc : Adding → Json
  | .url _ D => D
  | .ids D => D

/-- The URL the identifiers of the document are relative to. -/
def Adding.base (w : World) : Adding → Option String
  | .url u _ => w.norm u
  | .ids _ => some ""

/-- `k` is the URL the document is added under. -/
def Adding.Under (w : World) : Adding → String → Prop
  | .url u _, k => w.norm u = some k
  | .ids _, _ => False

/-- Adding `a` makes something known under `k`. -/
def Adding.Key (w : World) (a : Adding) (k : String) : Prop :=
  a.Under w k ∨ ∃ b, a.base w = some b ∧ ∃ b' m, SchemaAt w b a.doc b' (.obj m) ∧ Declares w b' m k

/-- The document can be read: it is an object, or a boolean, its numbers can be read, the texts of `$schema` and of the URL
are references, its identifiers are distinct. -/
structure Adding.Readable (w : World) (auto : Bool) (a : Adding) : Prop where
  wf : a.doc.WF
  url : a.base w ≠ none
  nums : NumsRat w.env a.doc
  schema : auto = true → ((∃ b, a.doc = .bool b) ∨ ∃ m, a.doc = .obj m) ∧ SchemaRead w a.doc
  distinct : ∀ b, a.base w = some b → (idsIn w b a.doc).Nodup

/-- What the documents make known is different for each two of them, and new to the loader. -/
structure Unrelated (w : World) (l : LState) (as : List Adding) : Prop where
  apart : as.Pairwise fun a a' => ∀ k, ¬ (a.Key w k ∧ a'.Key w k)
  new : ∀ a ∈ as, ∀ k, a.Key w k → getKey k l.pool = none

/-- The pool holds what adding `a` makes known. -/
structure Adding.Known (w : World) (auto : Bool) (a : Adding) (pool : List (String × PoolDoc)) : Prop where
  whole : ∀ k, a.Under w k → ∃ e, getKey k pool = some e ∧ RwStrict w k a.doc e.doc ∧ e.draft = draftOf w auto a.doc
  parts : ∀ b, a.base w = some b → ∀ b' m k, SchemaAt w b a.doc b' (.obj m) → Declares w b' m k → ¬ a.Under w k →
    ∃ e, getKey k pool = some e ∧ RwStrict w b' (.obj m) e.doc ∧ e.draft = draftOf w auto a.doc

/-- Two loaders that differ at most in how their pools are laid out: under every URL both know the same. -/
structure SameAnswers (l l' : LState) : Prop where
  pool : ∀ k, getKey k l.pool = getKey k l'.pool
  factory : l.factory = l'.factory
  autoDetect : l.autoDetect = l'.autoDetect
  validate : l.validate = l'.validate
  draft : l.draft = l'.draft
  log : l.log = l'.log
  own : l.own = l'.own

end GJS.Spec

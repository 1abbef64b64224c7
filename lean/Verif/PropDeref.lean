import Verif.LemDeref
import Verif.PropClosed
import Verif.PropLaws
/-
C69: schemas with references, and the same schemas with the references replaced by what they stand for.
-/
namespace GJS
open Spec

/-- C69.  By the keyword rules, unfolded far enough, a schema says the same as the schema without
references got from it by replacing references by what they stand for. -/
theorem C69_rules (env : Env) (resolve : String → Option (Draft × Json)) (d : Draft) (N : Nat) (D D' : Json)
    (h : Deref resolve d N D D') (hr : NoRef D') (P : Draft → Json → Json → Prop) (n : Nat) (hn : N + D'.size ≤ n) (v : Json) :
    docUnfold env resolve P n d D v ↔ docUnfold env resolve P n d D' v :=
  deref_unfold N D D' h hr n hn v

/-- C69.  Whatever meaning schemas have according to the keyword rules, with that reading of references. -/
theorem C69_meaning (env : Env) (resolve : String → Option (Draft × Json)) (Sat : Draft → Json → Json → Prop)
    (hS : IsDocMeaning env resolve Sat) (d : Draft) (N : Nat) (D D' : Json) (h : Deref resolve d N D D') (hr : NoRef D') (v : Json) :
    Sat d D v ↔ Sat d D' v := by
  have := C69_rules env resolve d N D D' h hr Sat _ (Nat.le_refl _) v
  rwa [meaning_unfold hS] at this

/-- C69.  The verdict on `D0`, a document whose references lead to documents the loader has, is the one
that the document gives in which they are replaced by what they stand for, wherever that is compiled. -/
theorem C69_verdict (w : World) (hb : ∀ r, w.base (w.base r) = w.base r) (l : LState) (hw : Setting w l) (hq : Idling l)
    (D0 : Json) (hD : D0.WF) (hc : Closed w l (draftFor w l D0) D0)
    (resolve : String → Option (Draft × Json)) (hf : Follows w l (draftFor w l D0) D0 resolve)
    (D D' : Json) (hst : RwStrict w "" D0 D) (N : Nat) (h : Deref resolve (draftFor w l D0) N D D') (hD' : D'.WF) (hr : NoRef D')
    (v : Json) (b b' : Bool) (hg : Gives w l D0 v b) (hg' : Says w (draftFor w l D0) D' v b') : b = b' := by
  obtain ⟨E, n0, h1, h2⟩ := C63_meaning w hb l hw hq D0 hD hc v b hg
  have hE : E = D := (rwStrict_eq h1).trans (rwStrict_eq hst).symm
  subst hE
  have k := says_sense hD' hr hg'
  have hS := sense_meaning w.env
  rw [Bool.eq_iff_iff, k, h2 _ (Nat.le_max_left n0 (N + D'.size)) resolve hf (sense w.env),
    C69_rules _ _ _ _ _ _ h hr _ _ (Nat.le_max_right ..), ← congrFun (congrFun (congrFun (meaning_unfold hS D'.size) _) _) _]
  exact unfold_noRef _ _ _ hr (by omega) (Nat.le_refl _) v

/-- C69 for documents without identifiers whose references are all of the form `#...`: references
stand for what their JSON pointers select in the document. -/
theorem C69_local (w : World) (hb : ∀ r, w.base (w.base r) = w.base r)
    (hp : ∀ r D d, w.pointer r D = some d → Within D d) (h0 : ∀ D, w.pointer "" D = some D) (D0 : Json) (hD : D0.WF)
    (hi : idsIn w "" D0 = []) (hrf : ∀ t u, HasRef w D0 t → w.norm t = some u → w.base u = "")
    (l : LState) (hw : Setting w l) (hq : Idling l) (he : ∀ k e, getKey k l.pool = some e → k ≠ "" ∧ w.base k ≠ "")
    (D D' : Json) (hst : RwStrict w "" D0 D) (N : Nat)
    (h : Deref (fun t => (w.norm t).bind fun u => (w.pointer u D).map fun X => (draftFor w l D0, X)) (draftFor w l D0) N D D')
    (hD' : D'.WF) (hr : NoRef D') (v : Json) (b b' : Bool) (hg : Gives w l D0 v b)
    (hg' : Says w (draftFor w l D0) D' v b') : b = b' := by
  obtain ⟨E, n0, h1, h2⟩ := C63_local w hb hp h0 D0 hD hi hrf l hw hq he v b hg
  have hE : E = D := (rwStrict_eq h1).trans (rwStrict_eq hst).symm
  subst hE
  have k := says_sense hD' hr hg'
  have hS := sense_meaning w.env
  rw [Bool.eq_iff_iff, k, h2 _ (Nat.le_max_left n0 (N + D'.size)) (sense w.env),
    C69_rules _ _ _ _ _ _ h hr _ _ (Nat.le_max_right ..), ← congrFun (congrFun (congrFun (meaning_unfold hS D'.size) _) _) _]
  exact unfold_noRef _ _ _ hr (by omega) (Nat.le_refl _) v

namespace Demo

def nameS : Json := .obj [("type", .str "string"), ("minLength", int 1)]
def listS (i : Json) : Json := .obj [("type", .str "array"), ("items", i)]
def refS (t : String) (kvs : List (String × Json)) : Json := .obj (("$ref", .str t) :: kvs)

/-- A schema with references, one of them to a schema with a reference, one with a keyword beside it. -/
def referring : Json := .obj
  [ ("definitions", .obj [("name", nameS), ("names", listS (refS "#/definitions/name" []))]),
    ("properties", .obj [("a", refS "#/definitions/name" [("maxLength", int 1)]), ("b", refS "#/definitions/names" [])]) ]

/-- The same, without references. -/
def inlined (a : Json) : Json := .obj
  [ ("definitions", .obj [("name", nameS), ("names", listS nameS)]),
    ("properties", .obj [("a", a), ("b", listS nameS)]) ]

def localRes (d : Draft) (D : Json) (t : String) : Option (Draft × Json) :=
  ((world []).norm t).bind fun u => ((world []).pointer u D).map fun X => (d, X)

theorem keywordsOr_of {R : Json → Json → Prop} {m m' : List (String × Json)}
    (h : List.Forall₂ (fun a b => a.1 = b.1 ∧ ValueOr R a.1 a.2 b.2) m m') : KeywordsOr R m m' := by
  intro k
  induction h with
  | nil => exact .inl ⟨rfl, rfl⟩
  | @cons a b l l' h _ ih =>
    obtain ⟨a1, a2⟩ := a
    obtain ⟨b1, b2⟩ := b
    obtain ⟨h1, h2⟩ := h
    simp only at h1 h2
    subst h1
    unfold Kw
    rw [getKey, getKey, List.lookup_cons, List.lookup_cons]
    by_cases hk : (k == a1) = true
    · simp only [hk]
      rw [beq_iff_eq] at hk; subst hk
      exact .inr ⟨_, _, rfl, rfl, h2⟩
    · simp only [Bool.not_eq_true] at hk
      simp only [hk]
      exact ih

theorem referring_deref (d : Draft) : Deref (localRes d referring) d 4 referring (inlined nameS) := by
  have name : ∀ n kvs, Deref (localRes d referring) d (n + 1) (refS "#/definitions/name" kvs) nameS := fun n kvs =>
    .inr (.inl ⟨_, "#/definitions/name", nameS, rfl, rfl, by rfl, by cases n <;> first | rfl | exact .inl rfl⟩)
  have names : ∀ n, Deref (localRes d referring) d (n + 2) (listS (refS "#/definitions/name" [])) (listS nameS) := fun n =>
    .inr (.inr ⟨_, _, rfl, rfl, keywordsOr_of (.cons ⟨rfl, .same _⟩ (.cons ⟨rfl, .schema _ _ (by decide) (.inr ⟨_, _, rfl, rfl, name _ _⟩)⟩ .nil))⟩)
  refine .inr (.inr ⟨_, _, rfl, rfl, keywordsOr_of (.cons ⟨rfl, .map _ _ (by decide) ?_⟩ (.cons ⟨rfl, .map _ _ (by decide) ?_⟩ .nil))⟩)
  · exact .cons ⟨rfl, .inl rfl⟩ (.cons ⟨rfl, .inr ⟨_, _, rfl, rfl, names 1⟩⟩ .nil)
  · exact .cons ⟨rfl, .inr ⟨_, _, rfl, rfl, name _ _⟩⟩ (.cons ⟨rfl, .inr ⟨_, _, rfl, rfl,
      .inr (.inl ⟨_, "#/definitions/names", _, rfl, rfl, by rfl, names 0⟩)⟩⟩ .nil)

theorem referring_refs (t u : String) (h : HasRef (world []) referring t) (hn : (world []).norm t = some u) :
    (world []).base u = "" := by
  obtain ⟨D, m, h1, h2, h3⟩ := h
  rw [rwStrict_eq h1] at h2
  have := allWithin_of (f := refsB ["#/definitions/name", "#/definitions/names"]) h2 (by decide +kernel)
  unfold Kw at h3
  have : t = "#/definitions/name" ∨ t = "#/definitions/names" := by simpa [refsB, h3] using this
  rcases this with rfl | rfl <;> cases hn <;> decide +kernel

theorem referring_abs : RwStrict (world []) "" referring referring := by
  obtain ⟨E, hE⟩ := rw_exists (w := world []) (T := False) referring ""
  have : E = referring := (rwStrict_eq hE).trans (by rfl)
  exact this ▸ hE

/-- Every hypothesis of `C69_local` holds for it. -/
theorem referring_inlined (v : Json) (b b' : Bool) (h : Gives (world []) newSchemaLoader referring v b)
    (h' : Says (world []) (draftFor (world []) newSchemaLoader referring) (inlined nameS) v b') : b = b' :=
  C69_local (world []) baseOf_idem (world_standard []).pointer (fun _ => rfl) referring (wf_of _ (by decide +kernel)) (by decide +kernel)
    referring_refs newSchemaLoader new_setting ⟨rfl, rfl⟩ (by intro k e h; simp [newSchemaLoader, getKey] at h) referring
    (inlined nameS) referring_abs 4 (referring_deref _) (wf_of _ (by decide +kernel)) (noRef_of _ (by decide +kernel)) v b b' h h'

/-- A document that refers to a part of another one. -/
def inquiring : Json := .obj [("properties", .obj [("a", .obj [("$ref", .str "http://h/other.json#/definitions/x")])])]

/-- What it refers to, in its place. -/
def inquired : Json := .obj [("properties", .obj [("a", .obj [("type", .str "integer")])])]

theorem inquiring_asks : Asks inquiring := ⟨by decide +kernel, by rfl, by decide +kernel⟩

/-- Every hypothesis of `C69_verdict` holds for it. -/
theorem inquiring_inlined (v : Json) (b b' : Bool) (h : Gives (world []) informed inquiring v b)
    (h' : Says (world []) (draftFor (world []) informed inquiring) inquired v b') : b = b' := by
  refine C69_verdict (world []) baseOf_idem informed informed_setting ⟨rfl, rfl⟩ inquiring (wf_of _ (by decide +kernel)) (inquiring_asks.closed _)
    (askRes _) (inquiring_asks.follows _) inquiring inquired inquiring_asks.root 2 ?_ (wf_of _ (by decide +kernel)) (noRef_of _ (by decide +kernel)) v b b' h h'
  refine .inr (.inr ⟨_, _, rfl, rfl, keywordsOr_of (.cons ⟨rfl, .map _ _ (by decide) (.cons ⟨rfl, .inr ⟨_, _, rfl, rfl, ?_⟩⟩ .nil)⟩ .nil)⟩)
  exact .inr (.inl ⟨_, "http://h/other.json#/definitions/x", _, rfl, rfl, by rfl, rfl⟩)

end Demo

/-! Both verdicts occur. -/
example : Gives (Demo.world []) Demo.informed Demo.inquiring (.obj [("a", .str "x")]) false :=
  Demo.gives_verdictOf (by decide +kernel)
example : Gives (Demo.world []) Demo.informed Demo.inquiring (.obj [("a", Demo.int 1)]) true :=
  Demo.gives_verdictOf (by decide +kernel)
example : Gives (Demo.world []) newSchemaLoader Demo.referring (.obj [("a", .str "xy"), ("b", .arr [.str "z"])]) true :=
  Demo.gives_verdictOf (by decide +kernel)
example : Gives (Demo.world []) newSchemaLoader Demo.referring (.obj [("b", .arr [.str ""])]) false :=
  Demo.gives_verdictOf (by decide +kernel)
example : Says (Demo.world []) (draftFor (Demo.world []) newSchemaLoader Demo.referring) (Demo.inlined Demo.nameS)
    (.obj [("b", .arr [.str ""])]) false :=
  ⟨newSchemaLoader, Demo.new_setting, rfl, Demo.gives_verdictOf (by decide +kernel)⟩

/-- C69, witness: what stands beside a reference goes with it.  A schema in which the keyword beside it
is kept, together with what the reference stands for, gives another verdict. -/
theorem C69_beside_ref :
    Gives (Demo.world []) newSchemaLoader Demo.referring (.obj [("a", .str "xy")]) true ∧
    Says (Demo.world []) (draftFor (Demo.world []) newSchemaLoader Demo.referring) (Demo.inlined Demo.nameS)
      (.obj [("a", .str "xy")]) true ∧
    Says (Demo.world []) (draftFor (Demo.world []) newSchemaLoader Demo.referring)
      (Demo.inlined (.obj [("type", .str "string"), ("minLength", Demo.int 1), ("maxLength", Demo.int 1)]))
      (.obj [("a", .str "xy")]) false :=
  ⟨Demo.gives_verdictOf (by decide +kernel), ⟨newSchemaLoader, Demo.new_setting, rfl, Demo.gives_verdictOf (by decide +kernel)⟩,
    ⟨newSchemaLoader, Demo.new_setting, rfl, Demo.gives_verdictOf (by decide +kernel)⟩⟩
end GJS

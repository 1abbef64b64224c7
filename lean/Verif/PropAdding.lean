import Verif.LemAdding
import Verif.PropTrim
/-
C68: the order in which schemas are added to a loader.
-/
namespace GJS
open Spec

/-- C68, the pool is a map: two loaders that know the same under every URL behave the same in every history of operations —
the same results, errors and compiled schemas, fetching the same — and still know the same afterwards. -/
theorem C68_same_answers (w : World) (l l' : LState) (h : SameAnswers l l') (σ : Sched) (fuel : Fuel) (k : Nat) (os : List Op) :
    (runOps w σ fuel k os l).1 = (runOps w σ fuel k os l').1 ∧ SameAnswers (runOps w σ fuel k os l).2 (runOps w σ fuel k os l').2 := by
  obtain ⟨h1, h2⟩ := runOps_alike (w := w) (σ := σ) (fuel := fuel) (os := os) (k := k) (likeL_iff.2 h)
  exact ⟨h1, likeL_iff.1 h2⟩

/-- C68.  With `Validate` off, `AddSchema` and `AddSchemas` of readable documents, which make known different URLs that are
new to the loader, all succeed; the loader then knows, under the URLs and identifiers, the documents with references made
absolute, and under other URLs what it knew before; nothing else has changed, and nothing was fetched. -/
theorem C68_added (w : World) (hi : ∀ a b, w.inherits a b ≠ none) (l : LState) (hv : l.validate = false) (as : List Adding)
    (hr : ∀ a ∈ as, a.Readable w l.autoDetect) (hu : Unrelated w l as) (σ : Sched) (fuel : Fuel) (k : Nat) :
    ∃ l', runOps w σ fuel k (as.map Adding.op) l = (as.map fun _ => .ok none, l') ∧ l' = { l with pool := l'.pool } ∧
      (∀ a ∈ as, a.Known w l.autoDetect l'.pool) ∧ ∀ k, (∀ a ∈ as, ¬ a.Key w k) → getKey k l'.pool = getKey k l.pool :=
  adding_all hi hv hr hu

/-- C68.  The order of these calls does not matter, nor the order of iteration over maps: in every order all of them succeed,
and afterwards every history of operations has the same results. -/
theorem C68_order (w : World) (hi : ∀ a b, w.inherits a b ≠ none) (l : LState) (hv : l.validate = false) (as as' : List Adding)
    (hp : as.Perm as') (hr : ∀ a ∈ as, a.Readable w l.autoDetect) (hu : Unrelated w l as) (σ σ' : Sched) (fuel fuel' : Fuel) (k k' : Nat) :
    ∃ l1 l2, runOps w σ fuel k (as.map Adding.op) l = (as.map fun _ => .ok none, l1) ∧
      runOps w σ' fuel' k' (as'.map Adding.op) l = (as'.map fun _ => .ok none, l2) ∧ SameAnswers l1 l2 ∧
      ∀ τ f q os, (runOps w τ f q os l1).1 = (runOps w τ f q os l2).1 := by
  obtain ⟨l1, h1, h2, h3, h4⟩ := adding_all (σ := σ) (fuel := fuel) (k := k) hi hv hr hu
  have hu' : Unrelated w l as' :=
    ⟨hp.pairwise_iff (fun h q hq => h q ⟨hq.2, hq.1⟩) |>.1 hu.apart, fun a ha => hu.new a (hp.mem_iff.2 ha)⟩
  obtain ⟨l2, g1, g2, g3, g4⟩ := adding_all (σ := σ') (fuel := fuel') (k := k') hi hv (fun a ha => hr a (hp.mem_iff.2 ha)) hu'
  have hs : SameAnswers l1 l2 := by
    have := known_same h3 (fun a ha => g3 a (hp.mem_iff.1 ha)) h4 fun q hq => g4 q fun a ha => hq a (hp.mem_iff.2 ha)
    exact ⟨this, by rw [h2, g2], by rw [h2, g2], by rw [h2, g2], by rw [h2, g2], by rw [h2, g2], by rw [h2, g2]⟩
  exact ⟨l1, l2, h1, g1, hs, fun τ f q os => (C68_same_answers w l1 l2 hs τ f q os).1⟩

/-- C68 for verdicts: a document has the same verdicts in loaders that know the same. -/
theorem C68_verdict (w : World) (l l' : LState) (h : SameAnswers l l') (D v : Json) (b : Bool) : Gives w l D v b ↔ Gives w l' D v b := by
  have go : ∀ {l l' : LState}, LikeL l l' → Gives w l D v b → Gives w l' D v b := by
    rintro l l' hl ⟨σ, fuel, p, s, t, σ', n, r, h1, h2, h3⟩
    obtain ⟨k1, k2⟩ := (compile_alike (w := w) (σ := σ) (fuel := fuel) (p := p) (a := .direct (some D))).run l l' hl
    rw [h1] at k1
    exact ⟨σ, fuel, p, s, (compile w σ fuel p (.direct (some D)) l').2, σ', n, r, Prod.ext k1.symm rfl, h2, h3⟩
  refine ⟨go (likeL_iff.2 h), go (likeL_iff.2 ⟨fun k => (h.pool k).symm, h.factory.symm, h.autoDetect.symm, h.validate.symm,
    h.draft.symm, h.log.symm, h.own.symm⟩)⟩

namespace Demo

/-- A document added under a URL, with a definition that has an identifier, and one that refers to both. -/
def addA : Adding := .url "http://h/a.json" (.obj [("definitions", .obj [("s", .obj [("$id", .str "http://h/s.json"), ("type", .str "string")])])])
def addB : Adding := .ids (.obj [("$id", .str "http://h/b.json"), ("items", .obj [("$ref", .str "http://h/s.json")])])
/-- As `addA`, but other instances conform to the definition. -/
def addC : Adding := .url "http://h/c.json" (.obj [("definitions", .obj [("s", .obj [("$id", .str "http://h/s.json"), ("type", .str "integer")])])])

/-- A loader after some documents were added. -/
def added (as : List Adding) : LState := (runOps (world []) Sched.id ⟨20, 20⟩ 0 (as.map Adding.op) newSchemaLoader).2
/-- The results of adding. -/
def addedOk (as : List Adding) : Bool :=
  (runOps (world []) Sched.id ⟨20, 20⟩ 0 (as.map Adding.op) newSchemaLoader).1.all fun r => match r with
    | .ok none => true
    | _ => false

def toS : Json := .obj [("$ref", .str "http://h/s.json")]
def toB : Json := .obj [("$ref", .str "http://h/b.json")]

theorem addA_readable : addA.Readable (world []) true where
  wf := wf_of _ (by decide +kernel)
  url := by decide +kernel
  nums := numsRat _
  schema := fun _ => ⟨.inr ⟨_, rfl⟩, fun m v h hk => by cases h; cases hk⟩
  distinct := fun b hb => by cases hb; decide +kernel

theorem addB_readable : addB.Readable (world []) true where
  wf := wf_of _ (by decide +kernel)
  url := by decide +kernel
  nums := numsRat _
  schema := fun _ => ⟨.inr ⟨_, rfl⟩, fun m v h hk => by cases h; cases hk⟩
  distinct := fun b hb => by cases hb; decide +kernel

theorem addA_key {k} (h : addA.Key (world []) k) : k = "http://h/a.json" ∨ k = "http://h/s.json" := by
  rw [key_iff (b := "http://h/a.json") (by decide +kernel)] at h
  rcases h with h | h
  · exact .inl (Option.some.inj (h.symm.trans (by decide +kernel)))
  · rw [show idsIn (world []) "http://h/a.json" addA.doc = ["http://h/s.json"] by decide +kernel] at h
    exact .inr (List.mem_singleton.1 h)

theorem addB_key {k} (h : addB.Key (world []) k) : k = "http://h/b.json" := by
  rw [key_iff (b := "") rfl] at h
  rcases h with h | h
  · exact h.elim
  · rw [show idsIn (world []) "" addB.doc = ["http://h/b.json"] by decide +kernel] at h
    exact List.mem_singleton.1 h

theorem add_unrelated : Unrelated (world []) newSchemaLoader [addA, addB] where
  apart := by
    refine List.pairwise_cons.2 ⟨fun a ha k hk => ?_, List.pairwise_singleton ..⟩
    rw [List.mem_singleton.1 ha] at hk
    rcases addA_key hk.1 with rfl | rfl <;> exact absurd (addB_key hk.2) (by decide)
  new := fun _ _ _ _ => rfl

end Demo

open Demo in
/-- Documents that meet the hypotheses; what refers to them has verdicts of both kinds in both orders. -/
example : (∀ a ∈ [addA, addB], a.Readable (world []) newSchemaLoader.autoDetect) ∧ Unrelated (world []) newSchemaLoader [addA, addB] ∧
    (∀ a b, (world []).inherits a b ≠ none) ∧
    Gives (world []) (added [addA, addB]) toB (.arr [.str "s"]) true ∧ Gives (world []) (added [addB, addA]) toB (.arr [.str "s"]) true ∧
    Gives (world []) (added [addA, addB]) toB (.arr [.null]) false ∧ Gives (world []) (added [addB, addA]) toB (.arr [.null]) false :=
  ⟨List.forall_mem_cons.2 ⟨addA_readable, List.forall_mem_cons.2 ⟨addB_readable, by simp⟩⟩, add_unrelated,
    fun _ _ h => (by cases h), gives_verdictOf (by decide +kernel), gives_verdictOf (by decide +kernel), gives_verdictOf (by decide +kernel),
    gives_verdictOf (by decide +kernel)⟩

open Demo in
/-- C68, negative part.  If two documents declare the same identifier in their definitions, both are added without an error,
and the order of the calls decides what the identifier means. -/
theorem C68_clash : addedOk [addA, addC] = true ∧ addedOk [addC, addA] = true ∧
    Gives (world []) (added [addA, addC]) toS (.str "s") true ∧ Gives (world []) (added [addC, addA]) toS (.str "s") false :=
  ⟨by decide +kernel, by decide +kernel, gives_verdictOf (by decide +kernel), gives_verdictOf (by decide +kernel)⟩

end GJS

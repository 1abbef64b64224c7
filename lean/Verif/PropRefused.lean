import Verif.LemRefused
import Verif.PropLoader
/-
C24, C26: operations that the meta-schema stops.
-/
namespace GJS
open Spec

/-- C24 with `Validate` on: an `AddSchema` that the meta-schema refuses registers nothing of the document; it leaves the loader as
compiling the meta-schema does. -/
theorem C24_refused (w : World) (σ : Sched) (fuel : Fuel) (p : Path) (url : String) (a : LoaderArg) (l l' : LState) (es : List Err)
    (h : addSchema w σ fuel p url a l = (.error (.err (.metaSchema es)), l')) :
    ∃ u S l0 l1, l0.pool = l.pool ∧ l0.validate = false ∧ compileInner w σ fuel (63 :: p) (.reference u 0) l0 = (.ok S, l1) ∧
      l' = { l1 with validate := true } := by
  unfold addSchema at h
  cases hr : w.norm url with
  | none => rw [hr] at h; simp [M.err, M.fail] at h
  | some ref =>
    rw [hr] at h
    exact add_left h

/-- The same of `AddSchemas`: it is as if the documents before the one refused had been added, and then the meta-schema compiled. -/
theorem C24_refused_all (w : World) (σ : Sched) (fuel : Fuel) (p : Path) (as : List LoaderArg) (l l' : LState) (es : List Err)
    (h : addSchemas w σ fuel p as l = (.error (.err (.metaSchema es)), l')) :
    ∃ before a after l2, as = before ++ a :: after ∧ addSchemas w σ fuel p before l = (.ok (), l2) ∧
    ∃ u S l0 l1, l0.pool = l2.pool ∧ l0.validate = false ∧
      compileInner w σ fuel (63 :: before.length :: p) (.reference u 0) l0 = (.ok S, l1) ∧ l' = { l1 with validate := true } := by
  rcases M.bind_error.1 h with h | ⟨_, l2, h2, h⟩
  · obtain ⟨b, a, c, ys, l2, e, h1, h2⟩ := mapL_error h
    rw [Nat.zero_add] at h2
    exact ⟨b, a, c, l2, e, M.bind_ok.2 ⟨ys, l2, h1, rfl⟩, add_left h2⟩
  · cases h

/-- A refusal: what is registered afterwards. -/
example : (match addSchema (Demo.world Demo.strictStore) Sched.id ⟨20, 20⟩ [] "x" (.direct (some Demo.strictDoc))
      { newSchemaLoader with validate := true } with
    | (.error (.err (.metaSchema es)), l') => some (es.length, l'.pool.map Prod.fst, l'.validate)
    | _ => none) = some (1, ["strict"], true) := by decide +kernel

example : (match addSchemas (Demo.world Demo.strictStore) Sched.id ⟨20, 20⟩ []
      [.direct (some (.obj [("$id", .str "a")])), .direct (some Demo.strictDoc), .direct (some (.obj [("$id", .str "b")]))]
      { newSchemaLoader with validate := true } with
    | (.error (.err (.metaSchema es)), l') => some (es.length, l'.pool.map Prod.fst, l'.validate)
    | _ => none) = some (1, ["strict", "a"], true) := by decide +kernel

/-- C26: a `Compile` from a string, bytes or Go loader that the meta-schema refuses has registered the document nevertheless, so
whatever happens afterwards, every further `Compile` from such a loader fails with 'reference already exists'. -/
theorem C26_refused (w : World) (hn : w.norm "#" = some "") (σ : Sched) (fuel : Fuel) (p p' : Path) (D D' : Json) (l l' : LState)
    (es : List Err) (h : compile w σ fuel p (.direct (some D)) l = (.error (.err (.metaSchema es)), l')) (k : Nat) (ops : List Op) :
    (compile w σ fuel p' (.direct (some D')) (runOps w σ fuel k ops l').2).1 = .error (.err (.referenceAlreadyExists "")) := by
  have hp : ∃ e, getKey "" l'.pool = some e := by
    unfold compile compileG at h
    simp only [LoaderArg.ref, hn] at h
    rcases M.bind_error.1 h with h | ⟨_, l1, h1, h⟩
    · exact absurd ⟨_, rfl⟩ (Avoid.modify (B := IsMeta) _ _ _ h)
    rcases M.bind_error.1 h with h | ⟨D', l2, h2, h⟩
    · exact absurd ⟨_, rfl⟩ (rootDocument_noMeta _ _ _ h)
    have hp : ∃ e, getKey "" l2.pool = some e := by
      unfold rootDocument at h2
      simp only [bne_self_eq_false, Bool.false_eq_true, if_false] at h2
      obtain ⟨D0, l3, h3, h4⟩ := M.bind_ok.1 h2
      obtain ⟨x, l4, h4, h5⟩ := M.bind_ok.1 h4
      obtain ⟨rfl, _, h6⟩ := failIf_ok h5
      by_cases hf : getKey "" l3.pool = none
      · obtain ⟨d, _, h7⟩ := (parseReferences_pooled hf).1 _ _ h4
        exact ⟨_, h7⟩
      · cases hk : getKey "" l3.pool with
        | none => exact absurd hk hf
        | some e =>
          have := (parseReferences_tri (W := False) (w := w) (σ := σ) (p := 61 :: p) (doc := D0) (ref := "")
            (pooled := true) (l0 := l3) False.elim False.elim).1.keeps _ _ hk
          rw [h4] at this
          exact ⟨e, this⟩
    obtain ⟨e, he⟩ := hp
    refine ⟨e, ?_⟩
    rcases M.bind_error.1 h with h | ⟨_, l3, h3, h⟩
    · have k3 := (whenValidate_safe (validateMetaschema_safe (doc := D') (fuel := fuel) (p := p) (since_inv w l2 σ) id
        (fun _ _ _ _ _ _ => trivial) trivial) l2 (since_refl w l2)).1
      rw [h] at k3
      exact k3.keeps _ _ he
    · rcases M.bind_error.1 h with h | ⟨d, l4, h4, h⟩
      · exact absurd ⟨_, rfl⟩ (rootDraft_noMeta _ _ _ h)
      · exact absurd ⟨_, rfl⟩ (runParse_noMeta _ _ _ h)
  obtain ⟨e, he⟩ := hp
  have he2 := C23_entries_kept w σ fuel k ops l' "" e he
  generalize (runOps w σ fuel k ops l').2 = l2 at he2
  have hin : inPool "" { l2 with factory := 0 } = (.ok true, { l2 with factory := 0 }) :=
    inPool_ok.2 ⟨rfl, by simp [existsMapKey, he2]⟩
  unfold compile compileG
  simp only [LoaderArg.ref, hn, LoaderArg.factory]
  rw [M.bind_def]
  simp only [M.modify]
  rw [M.bind_def]
  simp only [rootDocument, bne_self_eq_false, Bool.false_eq_true, if_false, M.bind_def, loadJSON, parseReferences, hin,
    Bool.and_true, if_true, M.pure_def, failIf, M.err, M.fail]

example : Demo.oks (Demo.world Demo.strictStore) [.setValidate true, .compile (.direct (some Demo.strictDoc)), .setValidate false,
    .compile (.direct (some (.obj [])))] = [true, false, true, false] := by decide +kernel
example : (match compile (Demo.world Demo.strictStore) Sched.id ⟨20, 20⟩ [] (.direct (some Demo.strictDoc))
      { newSchemaLoader with validate := true } with
    | (.error (.err (.metaSchema es)), _) => some es.length
    | _ => none) = some 1 := by decide +kernel

/-! ### C48: only the root is checked -/

namespace Demo
/-- A document that its meta-schema refuses, and a meta-schema that refuses nothing. -/
def laxStore : List (String × Json) := strictStore ++ [("lax", .obj []), ("x", strictDoc)]
/-- A schema that follows the latter and refers to the former. -/
def laxDoc : Json := .obj [("$schema", .str "lax"), ("$ref", .str "x")]
end Demo

/-- C48, negative part: 'with `Validate` on no document takes part in a schema that its meta-schema refuses' is false.  A document
that `Compile` refuses is used, unchecked, if an accepted schema refers to it, before the refusal and after it. -/
theorem C48_root_only : ∃ (w : World) (r : String) (D : Json),
    Demo.oks w [.setValidate true, .compile (.reference r 0)] = [true, false] ∧
    Demo.oks w [.setValidate true, .compile (.direct (some D)), .compile (.reference r 0)] = [true, true, false] ∧
    Demo.oks w [.setValidate true, .compile (.reference r 0), .compile (.direct (some D))] = [true, false, true] :=
  ⟨Demo.world Demo.laxStore, "x", Demo.laxDoc, by decide +kernel, by decide +kernel, by decide +kernel⟩

-- the schema does refer to the document refused, and was itself checked
example : (match compile (Demo.world Demo.laxStore) Sched.id ⟨20, 20⟩ [] (.direct (some Demo.laxDoc))
      { newSchemaLoader with validate := true } with
    | (.ok S, l') => some (S.heap.map fun n => match n.doc with | .obj m => m.map Prod.fst | _ => [], l'.pool.map Prod.fst)
    | _ => none) = some ([["$schema", "$ref"], ["$schema"]], ["x", "lax", ""]) := by decide +kernel

end GJS

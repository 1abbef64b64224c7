import Verif.LemMetaFail
import Verif.LemHistory
import Verif.LemCompile
/-
What an operation that the meta-schema stops leaves behind.
-/
namespace GJS
open Spec

theorem refused_left {w : World} {σ : Sched} {fuel p D l es l'}
    (h : validateMetaschema w σ fuel p D l = (.error (.err (.metaSchema es)), l')) :
    ∃ u S l1, compileInner w σ fuel (63 :: p) (.reference u 0) { l with validate := false } = (.ok S, l1) ∧
      l' = { l1 with validate := true } := by
  unfold validateMetaschema at h
  rcases M.bind_error.1 h with h | ⟨o, l1, h1, h⟩
  · exact absurd ⟨_, rfl⟩ (metaSchemaURL_noMeta _ _ _ h)
  have e := metaSchemaURL_still.ok h1
  subst e
  cases o with
  | none => exact absurd ⟨_, rfl⟩ (Avoid.pure (B := IsMeta) _ _ _ h)
  | some u =>
    simp only at h
    rcases M.bind_error.1 h with h | ⟨_, l2, h2, h⟩
    · exact absurd ⟨_, rfl⟩ (Avoid.modify (B := IsMeta) _ _ _ h)
    rcases M.bind_error.1 h with h | ⟨s, l3, h3, h⟩
    · exact absurd ⟨_, rfl⟩ (compileInner_noMeta _ _ _ h)
    rcases M.bind_error.1 h with h | ⟨_, l4, h4, h⟩
    · exact absurd ⟨_, rfl⟩ (Avoid.modify (B := IsMeta) _ _ _ h)
    rw [M.modify_ok] at h2 h4
    have e := checkDocument_still (w := w) (σ := σ) (fuel := fuel) (s := s) (doc := D) l4
    rw [h] at e
    refine ⟨u, s, l3, by rw [h2]; exact h3, ?_⟩
    rw [h4]
    exact e

theorem whenValidate_refused {w : World} {σ : Sched} {fuel p D l es l'}
    (h : whenValidate (validateMetaschema w σ fuel p D) l = (.error (.err (.metaSchema es)), l')) :
    ∃ u S l1, compileInner w σ fuel (63 :: p) (.reference u 0) { l with validate := false } = (.ok S, l1) ∧
      l' = { l1 with validate := true } := by
  unfold whenValidate at h
  rcases M.bind_error.1 h with h | ⟨x, l4, h4, h⟩
  · exact absurd ⟨_, rfl⟩ (Avoid.get (B := IsMeta) _ _ _ h)
  rw [M.get_ok] at h4
  obtain ⟨rfl, rfl⟩ := h4
  split at h
  · exact refused_left h
  · exact absurd ⟨_, rfl⟩ (Avoid.pure (B := IsMeta) _ _ _ h)

/-- The common part of `AddSchema` and of one round of `AddSchemas`. -/
theorem add_left {w : World} {σ : Sched} {fuel p a ref pooled l es l'}
    (h : (do let doc ← loadJSON w a
             whenValidate (validateMetaschema w σ fuel p doc)
             let x ← parseReferences w σ (64 :: p) doc ref pooled
             let _ ← failIf x
             return () : M LState Unit) l = (.error (.err (.metaSchema es)), l')) :
    ∃ u S l0 l1, l0.pool = l.pool ∧ l0.validate = false ∧ compileInner w σ fuel (63 :: p) (.reference u 0) l0 = (.ok S, l1) ∧
      l' = { l1 with validate := true } := by
  rcases M.bind_error.1 h with h | ⟨D, l2, h2, h⟩
  · exact absurd ⟨_, rfl⟩ (loadJSON_noMeta _ _ _ h)
  rcases M.bind_error.1 h with h | ⟨_, l3, h3, h⟩
  · obtain ⟨u, S, l1, h4, h5⟩ := whenValidate_refused h
    exact ⟨u, S, { l2 with validate := false }, l1, (loadJSON_ok h2).2, rfl, h4, h5⟩
  · have key : Avoid IsMeta (do
        let x ← parseReferences w σ (64 :: p) D ref pooled
        let _ ← failIf x
        return () : M LState Unit) :=
      .bindQ parseReferences_noMeta (Q := fun x => ∀ es, x.2 ≠ some (.metaSchema es)) (fun _ _ _ => parseReferences_soft)
        fun x hx => .bind (failIf_noMeta hx) fun _ => .pure
    exact absurd ⟨_, rfl⟩ (key _ _ _ h)

/-- Where a loop stops. -/
theorem mapL_error {τ α β : Type} {f : Nat → α → M τ β} {e s'} : ∀ {xs : List α} {k s}, mapL f k xs s = (.error e, s') →
    ∃ before x after ys s1, xs = before ++ x :: after ∧ mapL f k before s = (.ok ys, s1) ∧ f (k + before.length) x s1 = (.error e, s')
  | [], k, s, h => by cases h
  | x :: xs, k, s, h => by
    rcases M.bind_error.1 h with h | ⟨y, s1, h1, h⟩
    · exact ⟨[], x, xs, [], s, rfl, rfl, h⟩
    rcases M.bind_error.1 h with h | ⟨ys, s2, h2, h⟩
    · obtain ⟨b, z, a, ys, s3, rfl, h3, h4⟩ := mapL_error h
      refine ⟨x :: b, z, a, y :: ys, s3, rfl, ?_, ?_⟩
      · exact M.bind_ok.2 ⟨y, s1, h1, M.bind_ok.2 ⟨ys, s3, h3, rfl⟩⟩
      · rw [List.length_cons, ← Nat.add_assoc, Nat.add_right_comm]
        exact h4
    · cases h

end GJS

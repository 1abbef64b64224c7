import Verif.SpecAdding
import Verif.LemAlike
import Verif.LemAdds
import Verif.LemAcceptRoot
import Verif.LemMetaPool
/-
Helper lemmas: adding documents.
-/
namespace GJS
open Spec

theorem likeL_iff {l l' : LState} : LikeL l l' ↔ SameAnswers l l' := by
  constructor
  · intro h
    obtain ⟨h1, h2, h3, h4, h5, h6, _⟩ := same_fields h
    exact ⟨h.pool, h1.symm, h2.symm, h3.symm, h4.symm, h5.symm, h6.symm⟩
  · intro h
    refine ⟨h.pool, ?_⟩
    obtain ⟨p, f, a, v, d, lo, o⟩ := l
    obtain ⟨p', f', a', v', d', lo', o'⟩ := l'
    have h1 := h.factory
    have h2 := h.autoDetect
    have h3 := h.validate
    have h4 := h.draft
    have h5 := h.log
    have h6 := h.own
    simp only at h1 h2 h3 h4 h5 h6
    subst h1 h2 h3 h4 h5 h6
    rfl

section
variable {w : World} {σ : Sched} {fuel : Fuel}

/-- The rewriting reports no error if the identifier of the document is free. -/
theorem rewrite_free {draft n p ref doc} {l : LState} {x l'} (hf : ∀ k ∈ idsIn w ref doc, getKey k l.pool = none)
    (h : rewrite w σ draft n p ref doc l = (.ok x, l')) : x.2 = none := by
  cases n with
  | zero => simp [rewrite] at h
  | succ n =>
    unfold rewrite at h
    cases doc with
    | arr xs =>
      obtain ⟨ys, s1, _, h⟩ := M.bind_ok.1 h
      rw [M.pure_ok] at h
      rw [← h.1]
    | obj m =>
      simp only [rewriteObj] at h
      obtain ⟨id, s1, h1, h⟩ := M.bind_ok.1 h
      obtain ⟨sc, s2, h2, h⟩ := M.bind_ok.1 h
      obtain ⟨t, s3, h3, h⟩ := M.bind_ok.1 h
      have e1 := idText_still.ok h1
      have e2 := idScope_still.ok h2
      subst e1; subst e2
      have hid := (idScope_abs (idText_eq h1 ▸ h2)).1
      have ht : t = false := by
        cases hs : sc.2 with
        | none =>
          rw [hs] at h3
          simp only [taken, M.pure_ok] at h3
          exact h3.1.symm
        | some k =>
          rw [hs] at h3
          simp only [taken] at h3
          have := (inPool_ok.1 h3).2
          rw [this]
          refine existsMapKey_false.2 (hf k ?_)
          rw [idsIn, ← hid, hs]
          simp
      subst ht
      simp only [Bool.false_eq_true, if_false] at h
      obtain ⟨_, _, _, h⟩ := M.bind_ok.1 h
      obtain ⟨_, _, _, h⟩ := M.bind_ok.1 h
      obtain ⟨_, _, _, h⟩ := M.bind_ok.1 h
      obtain ⟨_, _, _, h⟩ := M.bind_ok.1 h
      rw [M.pure_ok] at h
      rw [← h.1]
    | _ =>
      simp only [M.pure_ok] at h
      rw [← h.1]

theorem parseReferences_free (hi : ∀ a b, w.inherits a b ≠ none) {p D ref pooled} {l : LState} (hr : NumsRat w.env D)
    (hs : l.autoDetect = true → ((∃ b, D = .bool b) ∨ ∃ m, D = .obj m) ∧ SchemaRead w D)
    (hf : ∀ k ∈ idsIn w ref D, getKey k l.pool = none) (hp : pooled = true → getKey ref l.pool = none) :
    ∃ x l', parseReferences w σ p D ref pooled l = (.ok x, l') ∧ x.2 = none := by
  obtain ⟨o, l1, h1⟩ := detectDraft_iff.2 hs
  have e1 := detectDraft_still.ok h1
  subst e1
  obtain ⟨x, l2, h2⟩ := ((rewrite_total (σ := σ) hi D.size p ref D hr (Nat.le_refl _) (draft := o)).iff l1).2 trivial
  have hput : ∃ l3, putIf pooled ref ⟨x.1, o⟩ l2 = (.ok (), l3) := by
    unfold putIf
    split
    · exact ⟨_, rfl⟩
    · exact ⟨_, rfl⟩
  obtain ⟨l3, h3⟩ := hput
  refine ⟨x, l3, ?_, rewrite_free hf h2⟩
  unfold parseReferences
  refine M.bind_ok.2 ⟨existsMapKey l1.pool ref, l1, inPool_ok.2 ⟨rfl, rfl⟩, ?_⟩
  have hc : (pooled && existsMapKey l1.pool ref) = false := by
    cases pooled with
    | false => rfl
    | true => exact existsMapKey_false.2 (hp rfl)
  rw [hc]
  simp only [Bool.false_eq_true, if_false]
  exact M.bind_ok.2 ⟨o, l1, h1, M.bind_ok.2 ⟨x, l2, h2, M.bind_ok.2 ⟨(), _, h3, rfl⟩⟩⟩

/-! ### One document -/

theorem key_ids {a : Adding} {b k} (hb : a.base w = some b) : k ∈ idsIn w b a.doc → a.Key w k := by
  intro hk
  obtain ⟨b', m, h1, h2⟩ := ids_schemaAt _ (Nat.le_refl _) hk
  exact .inr ⟨b, hb, b', m, h1, declares_iff.2 h2⟩

theorem key_iff {a : Adding} {b k} (hb : a.base w = some b) : a.Key w k ↔ a.Under w k ∨ k ∈ idsIn w b a.doc := by
  constructor
  · rintro (h | ⟨b', h1, b'', m, h2, h3⟩)
    · exact .inl h
    · rw [hb] at h1
      cases h1
      exact .inr (schemaAt_ids h2 rfl (declares_iff.1 h3))
  · rintro (h | h)
    · exact .inl h
    · exact key_ids hb h

/-- Whether the document itself is put into the pool. -/
def Spec.Adding.pooled : Adding → Bool
  | .url _ _ => true
  | .ids _ => false

/-- `AddSchema` and `AddSchemas` of one document in terms of `parseReferences`. -/
theorem adding_run {a : Adding} {b} (hb : a.base w = some b) {p} {l : LState} (hv : l.validate = false) :
    ∃ p', ∀ x l', parseReferences w σ p' a.doc b a.pooled l = (.ok x, l') → x.2 = none →
      a.op.run w σ fuel p l = (.ok none, l') := by
  cases a with
  | url u D =>
    refine ⟨64 :: p, fun x l' h hx => ?_⟩
    change w.norm u = some b at hb
    simp only [Adding.op, Op.run, addSchema, hb]
    refine M.bind_ok.2 ⟨(), l', M.bind_ok.2 ⟨D, l, rfl, M.bind_ok.2 ⟨(), l, ?_, M.bind_ok.2 ⟨x, l', h, M.bind_ok.2 ⟨x.1, l', ?_, rfl⟩⟩⟩⟩, rfl⟩
    · simp [whenValidate, M.bind_def, M.get, hv, M.pure_def]
    · unfold failIf; rw [hx]; rfl
  | ids D =>
    refine ⟨64 :: 0 :: p, fun x l' h hx => ?_⟩
    cases hb
    simp only [Adding.op, Op.run, addSchemas, mapL, addSchemaById]
    refine M.bind_ok.2 ⟨(), l', M.bind_ok.2 ⟨[()], l', M.bind_ok.2 ⟨(), l', M.bind_ok.2 ⟨D, l, rfl, M.bind_ok.2 ⟨(), l, ?_,
      M.bind_ok.2 ⟨x, l', h, M.bind_ok.2 ⟨x.1, l', ?_, rfl⟩⟩⟩⟩, rfl⟩, rfl⟩, rfl⟩
    · simp [whenValidate, M.bind_def, M.get, hv, M.pure_def]
    · unfold failIf; rw [hx]; rfl

theorem adding_one (hi : ∀ a b, w.inherits a b ≠ none) {a : Adding} {l : LState} {p} (hv : l.validate = false)
    (hr : a.Readable w l.autoDetect) (hn : ∀ k, a.Key w k → getKey k l.pool = none) :
    ∃ l', a.op.run w σ fuel p l = (.ok none, l') ∧ l' = { l with pool := l'.pool } ∧ a.Known w l.autoDetect l'.pool ∧
      ∀ k, ¬ a.Key w k → getKey k l'.pool = getKey k l.pool := by
  obtain ⟨b, hb⟩ := Option.ne_none_iff_exists'.1 hr.url
  have hf : ∀ k ∈ idsIn w b a.doc, getKey k l.pool = none := fun k hk => hn k (key_ids hb hk)
  obtain ⟨p', run⟩ := adding_run (σ := σ) (fuel := fuel) (p := p) hb hv
  have pool : a.pooled = true → a.Under w b := by
    cases a with
    | url u D => exact fun _ => hb
    | ids D => intro h; cases h
  have under : ∀ k, a.Under w k → k = b ∧ a.pooled = true := by
    cases a with
    | url u D => exact fun k h => ⟨Option.some.inj (h.symm.trans hb), rfl⟩
    | ids D => intro k h; exact h.elim
  generalize hpl : a.pooled = pooled at run pool under
  obtain ⟨x, l', h, hx⟩ := parseReferences_free (σ := σ) (p := p') (pooled := pooled) (ref := b) hi hr.nums hr.schema hf
    fun hp => hn b (.inl (pool hp))
  have hc := (parseReferences_tri (W := False) (w := w) (σ := σ) (p := p') (doc := a.doc) (ref := b) (pooled := pooled) (l0 := l)
    False.elim False.elim).1
  rw [h] at hc
  obtain ⟨dr, l0, k0, k1, k2, k3⟩ := parseReferences_regs hr.wf (hr.distinct b hb) hf h hx
  have hst : RwStrict w b a.doc x.1 := by
    rcases parseReferences_strict hr.wf (hr.distinct b hb) hf h with ⟨_, h2, _⟩ | h'
    · rw [hx] at h2; cases h2
    · exact h'
  rw [detectDraft_eq k0] at k1 k3
  refine ⟨l', run x l' h hx, ?_, ⟨fun k hk => ?_, fun b' hb' b'' m k hm hd hk => ?_⟩, fun k hk => ?_⟩
  · obtain ⟨h1, h2, h3, h4⟩ := hc.cfg
    obtain ⟨h5, h6⟩ := hc.log
    simp only at h1 h2 h3 h4 h5 h6
    rw [← h1, ← h2, ← h3, ← h4, ← h5, ← h6]
  · obtain ⟨rfl, hp⟩ := under k hk
    exact ⟨_, k1 hp, hst, rfl⟩
  · rw [hb] at hb'
    cases hb'
    exact k3 _ _ _ hm (declares_iff.1 hd) fun hp e => hk (e ▸ pool hp)
  · exact k2 k (fun h => hk (key_ids hb h)) fun hp e => hk (.inl (e ▸ pool hp))

/-! ### Many documents -/

theorem Spec.Adding.Known.kept {a : Adding} {auto pool pool'} (h : a.Known w auto pool)
    (hk : ∀ k, a.Key w k → getKey k pool' = getKey k pool) : a.Known w auto pool' where
  whole k hu := by rw [hk k (.inl hu)]; exact h.whole k hu
  parts b hb b' m k h1 h2 h3 := by rw [hk k (.inr ⟨b, hb, b', m, h1, h2⟩)]; exact h.parts b hb b' m k h1 h2 h3

theorem adding_all (hi : ∀ a b, w.inherits a b ≠ none) : ∀ {as : List Adding} {l : LState} {k}, l.validate = false →
    (∀ a ∈ as, a.Readable w l.autoDetect) → Unrelated w l as →
    ∃ l', runOps w σ fuel k (as.map Adding.op) l = (as.map fun _ => .ok none, l') ∧ l' = { l with pool := l'.pool } ∧
      (∀ a ∈ as, a.Known w l.autoDetect l'.pool) ∧ ∀ k, (∀ a ∈ as, ¬ a.Key w k) → getKey k l'.pool = getKey k l.pool := by
  intro as
  induction as with
  | nil => intro l k _ _ _; exact ⟨l, rfl, rfl, by simp, fun _ _ => rfl⟩
  | cons a as ih =>
    intro l k hv hr hu
    obtain ⟨l1, h1, h2, h3, h4⟩ := adding_one (σ := σ) (fuel := fuel) (p := [k]) hi hv (hr a (List.mem_cons_self ..))
      (hu.new a (List.mem_cons_self ..))
    obtain ⟨ap, ap'⟩ := List.pairwise_cons.1 hu.apart
    have ha : l1.autoDetect = l.autoDetect := by rw [h2]
    obtain ⟨l2, g1, g2, g3, g4⟩ := ih (l := l1) (k := k + 1) (by rw [h2]; exact hv)
      (fun a' ha' => by rw [ha]; exact hr a' (List.mem_cons_of_mem _ ha'))
      ⟨ap', fun a' ha' q hq => by
        rw [h4 q fun hk => ap a' ha' q ⟨hk, hq⟩]
        exact hu.new a' (List.mem_cons_of_mem _ ha') q hq⟩
    refine ⟨l2, ?_, ?_, ?_, ?_⟩
    · simp only [List.map_cons, runOps, h1, g1]
    · rw [g2, h2]
    · intro a' ha'
      rcases List.mem_cons.1 ha' with rfl | ha'
      · exact h3.kept fun q hq => g4 q fun a'' h'' hk => ap a'' h'' q ⟨hq, hk⟩
      · rw [← ha]; exact g3 a' ha'
    · intro q hq
      rw [g4 q fun a' ha' => hq a' (List.mem_cons_of_mem _ ha'), h4 q (hq a (List.mem_cons_self ..))]

/-- What the pool holds afterwards is determined. -/
theorem known_same {as : List Adding} {auto} {l l1 l2 : LState}
    (h1 : ∀ a ∈ as, a.Known w auto l1.pool) (h2 : ∀ a ∈ as, a.Known w auto l2.pool)
    (k1 : ∀ k, (∀ a ∈ as, ¬ a.Key w k) → getKey k l1.pool = getKey k l.pool)
    (k2 : ∀ k, (∀ a ∈ as, ¬ a.Key w k) → getKey k l2.pool = getKey k l.pool) (k : String) : getKey k l1.pool = getKey k l2.pool := by
  by_cases hk : ∀ a ∈ as, ¬ a.Key w k
  · rw [k1 k hk, k2 k hk]
  simp only [not_forall, not_not] at hk
  obtain ⟨a, ha, hk⟩ := hk
  have eq : ∀ {b D} {e e' : PoolDoc}, RwStrict w b D e.doc → RwStrict w b D e'.doc → e.draft = e'.draft → e = e' := by
    rintro b D ⟨x, d⟩ ⟨y, d'⟩ hx hy hd
    have := (rwStrict_eq hx).trans (rwStrict_eq hy).symm
    simp only at this hd
    subst this hd
    rfl
  by_cases hu : a.Under w k
  · obtain ⟨e, h3, h4, h5⟩ := (h1 a ha).whole k hu
    obtain ⟨e', g3, g4, g5⟩ := (h2 a ha).whole k hu
    rw [h3, g3, eq h4 g4 (h5.trans g5.symm)]
  · rcases hk with hk | ⟨b, hb, b', m, hm, hd⟩
    · exact absurd hk hu
    obtain ⟨e, h3, h4, h5⟩ := (h1 a ha).parts b hb b' m k hm hd hu
    obtain ⟨e', g3, g4, g5⟩ := (h2 a ha).parts b hb b' m k hm hd hu
    rw [h3, g3, eq h4 g4 (h5.trans g5.symm)]

end
end GJS

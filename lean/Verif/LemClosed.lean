import Verif.LemAdds
import Verif.LemCompile
import Verif.LemDraft
import Verif.LemPanic
import Verif.LemMetaPool
import Verif.LemRoot
import Verif.LemTerm
import Verif.SpecClosed
/-
Helper lemmas: closed documents (C63).
-/
namespace GJS
open Spec

/-! ### Invariants of the loader that only the references met need respect -/

section
variable {P : LState → Prop} {B : Fail → Prop} {w : World} {σ : Sched} {N : Json → Prop} {rec : PRec} {p : Path} {d : Draft}

theorem parseReference_on {id ref} (hB : ErrFine B) (hN : DocsFine B w N) (hrec : RecSafe (OnL P) B N rec)
    (hget : ∀ p, Safe P B (getDocument w σ p ref) (fun e => N e.doc)) :
    Safe (OnL P) B (parseReference w σ rec p id d ref) (fun _ => True) := by
  unfold parseReference
  refine .bind (liftL_safe (hget _)) fun dsp hdsp => .bind (alloc_safe onL_heapless) fun _ _ => .bind refAdd_safe fun _ _ =>
    .bind (isKind_safe (hN.self _ hdsp)) fun b _ => ?_
  split
  · exact .err (hB _ (by intro _ h; cases h))
  · exact .bind (hrec.run _ _ _ _ _ _ hdsp) fun _ _ => .pure trivial

theorem parseStep_on {c isRoot pid id0 doc} (hB : ErrFine B) (hN : DocsFine B w N) (hD : N doc)
    (hrec : RecSafe (OnL P) B N rec)
    (hget : ∀ m r, N (.obj m) → RefOf w m r → ∀ p, Safe P B (getDocument w σ p r) (fun e => N e.doc)) :
    Safe (OnL P) B (parseStep w σ rec isRoot p pid id0 doc d c) (fun _ => True) := by
  refine parseStep_safe (N := N) hB onL_heapless (hN.self _ hD) ?_
  rintro m rfl
  exact ⟨hN.top _ hD, hN.inner hD, hrec, fun r hr => refGet_safe.mono fun _ _ _ _ _ _ =>
    parseReference_on hB hN hrec (hget m r hD hr)⟩

theorem parseSchema_on (hB : ErrFine B) (hF : ¬ B .fuel) (hN : DocsFine B w N)
    (hget : ∀ m r, N (.obj m) → RefOf w m r → ∀ p, Safe P B (getDocument w σ p r) (fun e => N e.doc)) :
    ∀ n, RecSafe (OnL P) B N (parseSchema w σ n) := by
  intro n
  induction n with
  | zero => exact ⟨onL_heapless, fun p pid id0 doc d c _ => .fail hF⟩
  | succ n ih => exact ⟨onL_heapless, fun p pid id0 doc d c hD => parseStep_on hB hN hD ih hget⟩

theorem parseRoot_on {n docRef doc} (hB : ErrFine B) (hF : ¬ B .fuel) (hN : DocsFine B w N) (hD : N doc)
    (hget : ∀ m r, N (.obj m) → RefOf w m r → ∀ p, Safe P B (getDocument w σ p r) (fun e => N e.doc)) :
    Safe (OnL P) B (parseRoot w σ n p docRef doc d) (fun _ => True) :=
  .bind (alloc_safe onL_heapless) fun _ _ => .bind (parseStep_on hB hN hD (parseSchema_on hB hF hN hget n) hget) fun _ _ =>
    .pure trivial

/-- Sets of documents with their parts. -/
theorem docsFine_parts {N : Json → Prop} (h : ∀ D x, N D → Within D x → N x) : DocsFine (fun _ => False) w N where
  top := fun _ _ => ⟨fun _ _ _ _ _ => .inr id, fun _ _ h => h, fun _ _ _ _ h => h, fun _ _ _ _ _ _ _ => .inr id,
    fun _ _ _ _ _ _ _ => .inr id, fun _ _ _ _ _ _ _ _ _ => .inr id⟩
  self := fun _ _ _ _ => .inr id
  member := fun m k v hm hv => h _ _ hm (.member _ _ _ _ (lookup_some_mem hv) (.self _))
  entry := fun m kv hm hv => h _ _ hm (.member _ kv.1 _ _ hv (.self _))
  elem := fun xs x hm hx => h _ _ hm (.elem _ _ _ hx (.self _))

end

/-! ### The pool -/

section
variable {w : World} {l : LState} {D0 : Json} {d : Draft}

/-- The loader holds the places, parts of them it was asked for, and has fetched nothing. -/
structure Held (w : World) (l : LState) (D0 : Json) (l' : LState) : Prop where
  places : ∀ k e, Place w l D0 k e → getKey k l'.pool = some e
  only : ∀ k e, getKey k l'.pool = some e → Place w l D0 k e ∨
    ∃ f, Place w l D0 (w.base k) f ∧ w.pointer k f.doc = some e.doc ∧ e.draft = f.draft
  log : l'.log = []

theorem Held.stands {l' : LState} (H : Held w l D0 l') {k e} (h : getKey k l'.pool = some e) :
    StandsFor w l D0 k e.draft e.doc := by
  rcases H.only k e h with h | ⟨f, h1, h2, h3⟩
  · exact .whole _ h
  · rw [h3]; exact .part f _ h1 h2

/-- Asking for a reference whose document is there. -/
theorem held_get {σ : Sched} {B : Fail → Prop} (hB : ErrAll B) {p u}
    (hb : ∃ e, Place w l D0 u e ∨ Place w l D0 (w.base u) e) :
    Safe (Held w l D0) B (getDocument w σ p u) (fun e => StandsFor w l D0 u e.draft e.doc) := by
  intro l' H
  unfold getDocument
  rw [M.bind_def, poolGet_ok.2 ⟨rfl, rfl⟩]
  simp only
  cases h1 : getKey u l'.pool with
  | some e =>
    refine ⟨H, ?_, fun e' l'' h => by simp [M.pure_def] at h⟩
    intro a s h
    rw [M.pure_ok] at h
    rw [← h.1]
    exact H.stands h1
  | none =>
    simp only
    rw [M.bind_def, poolGet_ok.2 ⟨rfl, rfl⟩]
    simp only
    obtain ⟨e, he⟩ := hb
    have hbase : Place w l D0 (w.base u) e := by
      rcases he with he | he
      · rw [H.places _ _ he] at h1; cases h1
      · exact he
    rw [H.places _ _ hbase]
    simp only [getCached]
    cases hp : w.pointer u e.doc with
    | none =>
      simp only [pointerGet, hp]
      refine ⟨H, ?_, fun e' l'' h => ?_⟩
      swap
      · rcases M.bind_error.1 h with h | ⟨_, _, h, _⟩
        · simp only [M.err, M.fail, Prod.mk.injEq, Except.error.injEq] at h
          rw [← h.1]; exact hB _
        · simp [M.err, M.fail] at h
      intro a s h
      obtain ⟨_, _, h, _⟩ := M.bind_ok.1 h
      simp at h
    | some X =>
      simp only [pointerGet, hp, M.bind_def, M.pure_def, putPool, M.modify]
      refine ⟨⟨?_, ?_, H.log⟩, ?_, fun e' l'' h => by simp at h⟩
      · intro k f hf
        by_cases hk : k = u
        · subst hk
          rw [H.places _ _ hf] at h1; cases h1
        · show getKey k (putKey u _ l'.pool) = _
          rw [getKey_putKey_ne hk]; exact H.places _ _ hf
      · intro k f hf
        change getKey k (putKey u _ l'.pool) = _ at hf
        by_cases hk : k = u
        · subst hk
          rw [getKey_putKey_self] at hf
          cases hf
          exact .inr ⟨e, hbase, hp, rfl⟩
        · rw [getKey_putKey_ne hk] at hf
          exact H.only k f hf
      · intro a s h
        simp only [Prod.mk.injEq, Except.ok.injEq] at h
        rw [← h.1]
        exact .part e X hbase hp

/-- A compilation of a closed document keeps to the places. -/
theorem held_parse {σ : Sched} {fuel p ref D dr} (hc : Closed w l d D0) (hD : Met w l D0 D) :
    Safe (Held w l D0) (fun _ => False) (runParse w σ fuel p ref D dr) (fun _ => True) := by
  intro l' H
  have key := parseRoot_on (P := Held w l D0) (B := fun _ => False) (w := w) (σ := σ) (N := Met w l D0) (p := p) (d := dr)
    (n := fuel.parse) (docRef := ref) (doc := D) (fun _ _ h => h) id (docsFine_parts fun D x h h' => .inside D x h h') hD
    (fun m r hm hr p => by
      obtain ⟨t, ht, hn⟩ := hr
      exact (held_get (fun _ h => h) (hc.known r ⟨m, t, hm, ht, hn⟩)).mono fun e he => .ref m t r _ _ hm ht hn he)
    { l := l' } H
  unfold runParse
  cases hx : parseRoot w σ fuel.parse p ref D dr { l := l' } with
  | mk r s =>
    rw [hx] at key
    cases r with
    | ok c => exact ⟨key.1, fun _ _ _ => trivial, fun _ _ _ h => h⟩
    | error e => exact ⟨key.1, fun _ _ _ => trivial, fun _ _ _ h => h⟩

theorem draftFor_rw {T : Prop} {b D D'} (hD : D.WF) (h : RwT w T b D D') : draftFor w l D' = draftFor w l D := by
  cases D with
  | obj m =>
    obtain ⟨m', rfl⟩ : ∃ m', D' = .obj m' := by
      rcases rw_obj h with ⟨_, h⟩ | ⟨m2, h0, _⟩
      · exact ⟨_, h⟩
      · exact ⟨_, h0⟩
    unfold draftFor
    rw [declaredDraft_rw hD h]
  | arr xs => cases h <;> rfl
  | _ => cases h; rfl

theorem draftOf_draftFor {o : Draft} (h : draftOf w l.autoDetect D0 = some o) : o = draftFor w l D0 := by
  unfold draftOf at h
  unfold draftFor
  split at h
  · rename_i ha; rw [if_pos ha, h]; rfl
  · cases h

/-- What `Compile` knows after it has taken in a closed document. -/
structure TakenIn (w : World) (l : LState) (D0 D : Json) (l2 : LState) : Prop where
  strict : RwStrict w "" D0 D
  held : Held w l D0 l2
  pool : PoolWF l2
  wf : D.WF
  validate : l2.validate = false
  detect : l2.autoDetect = l.autoDetect
  draft : draftFor w l2 D = draftFor w l D0

/-- Taking in a document with distinct, new identifiers. -/
theorem closed_root {σ : Sched} {p l1 D l2} (hw : Setting w l) (hq : Idling l) (hD : D0.WF) (hc : Closed w l d D0)
    (e1 : l1.pool = l.pool) (e2 : l1.autoDetect = l.autoDetect) (e3 : l1.log = l.log) (e4 : l1.validate = l.validate)
    (e5 : l1.draft = l.draft) (h2 : rootDocument w σ p (.direct (some D0)) "" l1 = (.ok D, l2)) : TakenIn w l D0 D l2 := by
  have hids : ∀ k ∈ idsIn w "" D0, getKey k l.pool = none := by
    intro k hk
    obtain ⟨b, m, h1, h2⟩ := ids_schemaAt _ (Nat.le_refl _) hk
    exact hc.new b m k h1 (declares_iff.2 h2)
  have wf1 : PoolWF l1 := by unfold PoolWF; rw [e1]; exact hw.pool
  have ha : ArgOK w IsWF (.direct (some D0)) := argOK_wf hw.lawful fun D h => by cases h; exact hD
  have R2 := rootDocument_safe (p := p) (ref := "") (poolWF_inv hw.lawful σ) (fun _ => ha) trivial l1 wf1
  rw [h2] at R2
  have hDwf := R2.2.1 _ _ rfl
  unfold rootDocument at h2
  simp only [bne_self_eq_false, Bool.false_eq_true, if_false] at h2
  obtain ⟨D1, s1, g1, h2⟩ := M.bind_ok.1 h2
  obtain ⟨x, s2, g2, g3⟩ := M.bind_ok.1 h2
  simp only [loadJSON, Prod.mk.injEq, Except.ok.injEq] at g1
  obtain ⟨g1a, g1b⟩ := g1
  subst g1a g1b
  obtain ⟨rfl, rfl, hx⟩ := failIf_ok g3
  have hids1 : ∀ k ∈ idsIn w "" D0, getKey k l1.pool = none := by rw [e1]; exact hids
  have hst : RwStrict w "" D0 x.1 := by
    rcases parseReferences_strict hD hc.distinct hids1 g2 with ⟨_, h, _⟩ | h
    · rw [hx] at h; cases h
    · exact h
  obtain ⟨o, l0, k0, k1, k2, k3⟩ := parseReferences_regs hD hc.distinct hids1 g2 hx
  have ho := detectDraft_eq k0
  rw [e2] at ho
  subst ho
  have T := (parseReferences_tri (W := False) (w := w) (σ := σ) (p := 61 :: p) (doc := D0) (ref := "")
    (pooled := true) (l0 := l1) False.elim False.elim).1
  rw [g2] at T
  have H2 : Held w l D0 l2 := by
    refine ⟨?_, ?_, ?_⟩
    · intro k e hp
      cases hp with
      | own X hX =>
        rcases hX with ⟨rfl, hX⟩ | ⟨hne, b, m, q1, q2, q3⟩
        · rw [k1 rfl, rwStrict_eq hX, rwStrict_eq hst]
        · obtain ⟨e, r1, r2, r3⟩ := k3 b m k q1 (declares_iff.1 q2) fun _ => hne
          rw [r1, ← r3, rwStrict_eq q3, ← rwStrict_eq r2]
      | before _ hne hn hk =>
        rw [k2 k (not_declared_ids hn) fun _ => hne, e1, hk]
    · intro k e hk
      refine .inl ?_
      by_cases hk0 : k = ""
      · subst hk0
        rw [k1 rfl] at hk
        cases hk
        exact .own _ (.inl ⟨rfl, hst⟩)
      by_cases hi : k ∈ idsIn w "" D0
      · obtain ⟨b, m, q1, q2⟩ := ids_schemaAt _ (Nat.le_refl _) hi
        obtain ⟨e', r1, r2, r3⟩ := k3 b m k q1 q2 fun _ => hk0
        rw [hk] at r1
        cases r1
        have := Place.own (l := l) (k := k) (w := w) (D0 := D0) e.doc (.inr ⟨hk0, b, m, q1, declares_iff.2 q2, r2⟩)
        rw [← r3] at this
        exact this
      · refine .before _ hk0 (fun b m q1 q2 => hi (schemaAt_ids q1 rfl (declares_iff.1 q2))) ?_
        rw [← e1, ← k2 k hi fun _ => hk0, hk]
    · rw [T.log.1, e3, hq.1]
  have hv : l2.validate = false := by rw [T.cfg.2.2.1, e4, hq.2]
  refine ⟨hst, H2, R2.1, hDwf, hv, by rw [T.cfg.2.1, e2], ?_⟩
  rw [← draftFor_rw hD hst]
  unfold draftFor
  rw [T.cfg.2.1, T.cfg.2.2.2, e2, e5]

/-- A successful `Compile` of a document with distinct, new identifiers. -/
theorem closed_compile {σ : Sched} {fuel p s l'} (hw : Setting w l) (hq : Idling l) (hD : D0.WF)
    (hc : Closed w l d D0) (h : compile w σ fuel p (.direct (some D0)) l = (.ok s, l')) :
    ∃ D, RwStrict w "" D0 D ∧ Held w l D0 l' ∧ Good w l' s (draftFor w l D0) D := by
  unfold compile compileG at h
  simp only [LoaderArg.ref, hw.root] at h
  obtain ⟨_, l1, h1, h⟩ := M.bind_ok.1 h
  obtain ⟨D, l2, h2, h⟩ := M.bind_ok.1 h
  obtain ⟨_, l3, h3, h⟩ := M.bind_ok.1 h
  obtain ⟨dr, l4, h4, h5⟩ := M.bind_ok.1 h
  rw [M.modify_ok] at h1
  have R := closed_root hw hq hD hc (by rw [← h1]) (by rw [← h1]) (by rw [← h1]) (by rw [← h1]) (by rw [← h1]) h2
  simp only [whenValidate, M.bind_def, M.get, R.validate, Bool.false_eq_true, if_false, M.pure_def, Prod.mk.injEq, true_and] at h3
  subst h3
  obtain ⟨rfl, rfl⟩ := rootDraft_ok h4
  have P5 := held_parse (σ := σ) (fuel := fuel) (p := 62 :: p) (ref := "") (D := D) (dr := draftFor w l4 D) hc (.root _ R.strict) l4 R.held
  rw [h5] at P5
  refine ⟨D, R.strict, P5.1, ?_⟩
  rw [← R.draft]
  exact runParse_good hw.lawful R.pool R.wf h5

theorem resolvedAs_stands {l' : LState} (hb : ∀ r, w.base (w.base r) = w.base r) (H : Held w l D0 l') {u o X}
    (h : ResolvedAs w l' u o X) : StandsFor w l D0 u o X := by
  cases h with
  | entry e he => exact H.stands he
  | inside e _ he hp =>
    rcases H.only _ e he with h | ⟨f, h1, _⟩
    · exact .part e _ h hp
    · rw [hb] at h1
      have := H.places _ _ h1
      rw [he] at this
      cases this
      exact .part e _ h1 hp
  | fetched n f doc e _ _ hlog => rw [H.log] at hlog; cases hlog
  | loaded n f doc _ _ hlog => rw [H.log] at hlog; cases hlog

/-- What is compiled can be met, and is read under one draft. -/
theorem compiled_reach {l' : LState} {D} (hb : ∀ r, w.base (w.base r) = w.base r) (H : Held w l D0 l') (hc : Closed w l d D0)
    (hD : RwStrict w "" D0 D) {d' X} (h : Compiled w l' d D d' X) : d' = d ∧ Met w l D0 X := by
  induction h with
  | root => exact ⟨rfl, .root _ hD⟩
  | sub d' m D' _ hs ih => exact ⟨ih.1, .inside _ _ ih.2 (subSchema_within hs)⟩
  | definition d' m ps k D' _ hk hm ih =>
    exact ⟨ih.1, .inside _ _ ih.2 (.member _ _ _ _ (lookup_some_mem hk) (.member _ _ _ _ hm (.self _)))⟩
  | ref d' m t u o D' _ hk hn hr ih =>
    have hs := resolvedAs_stands hb H hr
    refine ⟨?_, .ref m t u o _ ih.2 hk hn hs⟩
    cases o with
    | none => exact ih.1
    | some x => exact hc.draft u ⟨m, t, ih.2, hk, hn⟩ x _ hs

/-- The rules depend on what references stand for only where there are references. -/
theorem docUnfold_agree {env : Env} {res res' : String → Option (Draft × Json)} {S : Json → Prop}
    (hsub : ∀ m X, S (.obj m) → (∀ t, ¬ Kw m "$ref" (.str t)) → SubSchema d m X → S X)
    (href : ∀ m t, S (.obj m) → Kw m "$ref" (.str t) → res t = res' t ∧ ∀ d' X, res t = some (d', X) → d' = d ∧ S X)
    {P : Draft → Json → Json → Prop} : ∀ (n : Nat) (D : Json), S D → ∀ v,
      docUnfold env res P n d D v ↔ docUnfold env res' P n d D v
  | 0, _, _, _ => Iff.rfl
  | n + 1, D, hD, v => by
    cases D with
    | obj m =>
      by_cases hr : ∃ t, Kw m "$ref" (.str t)
      · obtain ⟨t, ht⟩ := hr
        obtain ⟨h1, h2⟩ := href m t hD ht
        unfold Kw at ht
        simp only [docUnfold, DocRules, ht, ← h1]
        constructor
        · rintro ⟨d', X, h3, h4⟩
          obtain ⟨e, hX⟩ := h2 _ _ h3
          rw [e] at h4
          exact ⟨d', X, h3, e ▸ (docUnfold_agree hsub href n X hX v).1 h4⟩
        · rintro ⟨d', X, h3, h4⟩
          obtain ⟨e, hX⟩ := h2 _ _ h3
          rw [e] at h4
          exact ⟨d', X, h3, e ▸ (docUnfold_agree hsub href n X hX v).2 h4⟩
      · have hn : ∀ t, ¬ Kw m "$ref" (.str t) := fun t ht => hr ⟨t, ht⟩
        have ih := fun X (hs : SubSchema d m X) => docUnfold_agree (env := env) (P := P) hsub href n X (hsub m X hD hn hs)
        have key : DKeywords env (docUnfold env res P n d) d m v ↔ DKeywords env (docUnfold env res' P n d) d m v :=
          ⟨dkeywords_sat ih, dkeywords_sat fun D hs v => (ih D hs v).symm⟩
        simp only [docUnfold, DocRules]
        split
        · rename_i t ht; exact absurd ht (hn t)
        · exact key
    | _ => exact Iff.rfl

/-- What the references of a compiled closed document stand for. -/
theorem closed_resolve {l' s D} (hb : ∀ r, w.base (w.base r) = w.base r) (H : Held w l D0 l') (hc : Closed w l d D0)
    (hD : RwStrict w "" D0 D) (g : Good w l' s d D) {d' m t} (hu : ∃ i, Stat s.heap d' (.obj m) i)
    (hk : Kw m "$ref" (.str t)) :
    ∃ u o X, w.norm t = some u ∧ StandsFor w l D0 u o X ∧ resolveIn w s.heap s.refs t = some (d, X) := by
  obtain ⟨i, hi⟩ := hu
  obtain ⟨d1, X, j, h1, h2⟩ := g.ref hi hk
  obtain ⟨u, hn, o, h3, h4, h5⟩ := g.resolve h1
  have : d1 = d := by
    obtain ⟨n, q1, q2, q3⟩ := h2
    rw [← q2]
    exact (compiled_reach hb H hc hD (g.made j n q1)).1
  subst this
  exact ⟨u, o, X, hn, resolvedAs_stands hb H h3, h1⟩

theorem used_reach {l' s D} (hb : ∀ r, w.base (w.base r) = w.base r) (H : Held w l D0 l') (hc : Closed w l d D0)
    (hD : RwStrict w "" D0 D) (g : Good w l' s d D) {d' X} (hu : Used (resolveIn w s.heap s.refs) d D d' X) :
    d' = d ∧ Met w l D0 X := by
  obtain ⟨i, n, q1, q2, q3⟩ := g.used hu
  have := compiled_reach hb H hc hD (g.made i n q1)
  rwa [q2, q3] at this

/-- The compiled schema obeys every reading of the references. -/
theorem closed_meaning {l' s D} (hb : ∀ r, w.base (w.base r) = w.base r) (H : Held w l D0 l') (hc : Closed w l d D0)
    (hD : RwStrict w "" D0 D) (g : Good w l' s d D) {res : String → Option (Draft × Json)} (hf : Follows w l d D0 res)
    (P : Draft → Json → Json → Prop) (n : Nat) (v : Json) :
    docUnfold w.env (resolveIn w s.heap s.refs) P n d D v ↔ docUnfold w.env res P n d D v := by
  refine docUnfold_agree (S := fun X => Used (resolveIn w s.heap s.refs) d D d X) ?_ ?_ n D .root v
  · intro m X hm hn hs
    by_cases hx : getKey "$ref" m = none
    · exact .sub _ m _ hm hx hs
    · exfalso
      obtain ⟨i, k, q1, q2, q3⟩ := g.used hm
      cases g.nodes i k q1 with
      | bool b hb => rw [hb] at q3; cases q3
      | plain m' e1 e2 => rw [e1] at q3; cases q3; exact hx e2
      | ref m' r u j e1 e2 => rw [e1] at q3; cases q3; exact hn r e2
  · intro m t hm hk
    obtain ⟨u, o, X, h1, h2, h3⟩ := closed_resolve hb H hc hD g (g.used hm) hk
    have hr := (used_reach hb H hc hD g hm).2
    refine ⟨?_, ?_⟩
    · rw [h3, hf m t u o X hr hk h1 h2]
    · intro d' X'' h
      rw [h3] at h
      cases h
      exact ⟨rfl, .ref _ m t _ _ hm hk h3⟩

/-! ### Self-contained documents -/

/-- Schemas at their places, after rewriting. -/
theorem schemaAt_within {b D b' X} (h : SchemaAt w b D b' X) (hX : ∀ t, X ≠ .str t) :
    Within (absRefs w b D) (absRefs w b' X) := by
  induction h with
  | here b D => exact .self _
  | elem b xs x b' X hx _ ih =>
    rw [absRefs, absL_eq]
    exact .elem _ _ _ (List.mem_map.2 ⟨x, hx, rfl⟩) (ih hX)
  | member b m k v b' X hv hl hm hs ih =>
    rw [absRefs, absM_eq]
    refine .member _ k _ _ (List.mem_map.2 ⟨_, hv, rfl⟩) ?_
    unfold absMember
    rw [if_neg (show ¬ (k = "const" ∨ k = "enum") from hl),
      if_neg (show ¬ (k = "properties" ∨ k = "dependencies" ∨ k = "patternProperties") from hm)]
    split
    · rename_i t ht
      simp only at ht
      rw [ht] at hs
      generalize hv : Json.str t = v' at hs
      cases hs with
      | here => exact absurd hv.symm (hX t)
      | _ => cases hv
    · exact ih hX
  | named b m c k n x b' X hv hm hx _ ih =>
    rw [absRefs, absM_eq]
    refine .member _ k _ _ (List.mem_map.2 ⟨_, hv, rfl⟩) ?_
    unfold absMember
    rw [if_neg (show ¬ (k = "const" ∨ k = "enum") from fun h => literal_not_map h hm),
      if_pos (show k = "properties" ∨ k = "dependencies" ∨ k = "patternProperties" from hm)]
    exact .member _ n _ _ (List.mem_map.2 ⟨_, hx, rfl⟩) (ih hX)

theorem own_within {k X D} (hD : RwStrict w "" D0 D) (h : Own w D0 k X) : Within D X := by
  rcases h with ⟨_, h⟩ | ⟨_, b, m, h1, _, h3⟩
  · rw [rwStrict_eq hD, rwStrict_eq h]; exact .self _
  · rw [rwStrict_eq hD, rwStrict_eq h3]; exact schemaAt_within h1 (by intro t h; cases h)

theorem own_declared {b m k} (h : SchemaAt w "" D0 b (.obj m)) (hd : Declares w b m k) : ∃ Y, Own w D0 k Y := by
  by_cases hk : k = ""
  · obtain ⟨D, hD⟩ := rw_exists (w := w) (T := False) D0 ""
    exact ⟨D, .inl ⟨hk, hD⟩⟩
  · obtain ⟨X, hX⟩ := rw_exists (w := w) (T := False) (.obj m) b
    exact ⟨X, .inr ⟨hk, b, m, h, hd, hX⟩⟩

/-- In a loader with nothing under the URLs of the document, its references stand for its own parts. -/
theorem stands_own {u o X} (he : Elsewhere w l D0) (hu : ∃ Y, Own w D0 (w.base u) Y) (h : StandsFor w l D0 u o X) :
    OwnStands w D0 u X ∧ o = draftOf w l.autoDetect D0 := by
  obtain ⟨Y, hY⟩ := hu
  cases h with
  | whole e hp =>
    cases hp with
    | own X hX => exact ⟨.whole _ hX, rfl⟩
    | before _ _ _ hk => exact absurd hY (he u _ hk Y).2
  | part e _ hp hx =>
    cases hp with
    | own Z hZ => exact ⟨.part _ _ hZ hx, rfl⟩
    | before _ _ _ hk => exact absurd hY (he _ _ hk Y).1

theorem Spec.OwnStands.within {u X D} (hp : ∀ r D d, w.pointer r D = some d → Within D d) (hD : RwStrict w "" D0 D)
    (h : OwnStands w D0 u X) : Within D X := by
  cases h with
  | whole _ h => exact own_within hD h
  | part Y _ h hx => exact within_trans (own_within hD h) (hp _ _ _ hx)

/-- Everything that can be met in a self-contained document is part of it. -/
theorem reach_within {D} (hp : ∀ r D d, w.pointer r D = some d → Within D d) (hs : SelfContained w D0) (he : Elsewhere w l D0)
    (hD : RwStrict w "" D0 D) {X} (h : Met w l D0 X) : Within D X := by
  induction h with
  | root D' h => rw [rwStrict_eq hD, rwStrict_eq h]; exact .self _
  | inside _ _ _ h ih => exact within_trans ih h
  | ref m t u o X _ hk hn hst ih =>
    exact (stands_own he (hs.own t u ⟨D, m, hD, ih, hk⟩ hn) hst).1.within hp hD

theorem Spec.SelfContained.closed (hp : ∀ r D d, w.pointer r D = some d → Within D d) (hs : SelfContained w D0)
    (he : Elsewhere w l D0) : Closed w l (draftFor w l D0) D0 := by
  obtain ⟨D, hD⟩ := rw_exists (w := w) (T := False) D0 ""
  refine ⟨hs.distinct, ?_, ?_, ?_, ?_⟩
  · intro b m k h1 h2
    obtain ⟨Y, hY⟩ := own_declared h1 h2
    cases hk : getKey k l.pool with
    | none => rfl
    | some e => exact absurd hY (he k e hk Y).1
  · rintro u ⟨m, t, h1, h2, h3⟩
    obtain ⟨Y, hY⟩ := hs.own t u ⟨D, m, hD, reach_within hp hs he hD h1, h2⟩ h3
    exact ⟨_, .inr (.own Y hY)⟩
  · rintro u ⟨m, t, h1, h2, h3⟩ o o' X X' g g'
    have hr : HasRef w D0 t := ⟨D, m, hD, reach_within hp hs he hD h1, h2⟩
    exact hs.one t u hr h3 _ _ (stands_own he (hs.own t u hr h3) g).1 (stands_own he (hs.own t u hr h3) g').1
  · rintro u ⟨m, t, h1, h2, h3⟩ x X g
    have hr : HasRef w D0 t := ⟨D, m, hD, reach_within hp hs he hD h1, h2⟩
    exact draftOf_draftFor (stands_own he (hs.own t u hr h3) g).2.symm

theorem Spec.SelfFollows.follows (hp : ∀ r D d, w.pointer r D = some d → Within D d) (hs : SelfContained w D0)
    (he : Elsewhere w l D0) {res} (hf : SelfFollows w d D0 res) : Follows w l d D0 res := by
  obtain ⟨D, hD⟩ := rw_exists (w := w) (T := False) D0 ""
  intro m t u o X h1 h2 h3 h4
  have hr : HasRef w D0 t := ⟨D, m, hD, reach_within hp hs he hD h1, h2⟩
  exact hf t u X hr h3 (stands_own he (hs.own t u hr h3) h4).1

/-- What rewriting registers are the document's own parts. -/
theorem own_found {σ : Sched} {p x l1 l'} (hD : D0.WF) (hi : (idsIn w "" D0).Nodup) (hf : ∀ k ∈ idsIn w "" D0, getKey k l1.pool = none)
    (h : parseReferences w σ p D0 "" true l1 = (.ok x, l')) (hx : x.2 = none) {k X} (hk : Own w D0 k X) :
    (getKey k l'.pool).map PoolDoc.doc = some X := by
  obtain ⟨o, l0, k0, k1, k2, k3⟩ := parseReferences_regs hD hi hf h hx
  rcases hk with ⟨rfl, hX⟩ | ⟨hne, b, m, q1, q2, q3⟩
  · have hst : RwStrict w "" D0 x.1 := by
      rcases parseReferences_strict hD hi hf h with ⟨_, h, _⟩ | h
      · rw [hx] at h; cases h
      · exact h
    rw [k1 rfl, rwStrict_eq hX, rwStrict_eq hst]; rfl
  · obtain ⟨e, r1, r2, r3⟩ := k3 b m k q1 (declares_iff.1 q2) fun _ => hne
    rw [r1, rwStrict_eq q3, ← rwStrict_eq r2]; rfl

theorem ownStands_found {σ : Sched} {p x l1 l'} (hD : D0.WF) (hi : (idsIn w "" D0).Nodup)
    (hf : ∀ k ∈ idsIn w "" D0, getKey k l1.pool = none)
    (h : parseReferences w σ p D0 "" true l1 = (.ok x, l')) (hx : x.2 = none) {u X} (hk : OwnStands w D0 u X) :
    (getKey u l'.pool).map PoolDoc.doc = some X ∨
      ((getKey (w.base u) l'.pool).map PoolDoc.doc).bind (w.pointer u) = some X := by
  cases hk with
  | whole _ h' => exact .inl (own_found hD hi hf h hx h')
  | part Y _ h' hp => right; rw [own_found hD hi hf h hx h']; exact hp

theorem own_ids {k X} (h : Own w D0 k X) : k = "" ∨ k ∈ idsIn w "" D0 := by
  rcases h with ⟨h, _⟩ | ⟨_, b, m, h1, h2, _⟩
  · exact .inl h
  · exact .inr (schemaAt_ids h1 rfl (declares_iff.1 h2))

end

end GJS

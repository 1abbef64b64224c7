import Verif.LemRawStrict
/-
Helper lemmas: what is known of the documents that references of an accepted Go value lead to.
-/
namespace GJS.RawS
open GJS Spec

/-- Entries of the pool stay, those at the keys `A` excepted; so does the log. -/
structure Kept (A : String → Prop) (l l' : State) : Prop where
  pool : ∀ k e, ¬ A k → getKey k l.pool = some e → getKey k l'.pool = some e
  log : ∀ x ∈ l.log, x ∈ l'.log

theorem Kept.refl {A l} : Kept A l l := ⟨fun _ _ _ h => h, fun _ h => h⟩
theorem Kept.trans {A l l' l''} (h : Kept A l l') (h' : Kept A l' l'') : Kept A l l'' :=
  ⟨fun k e hk he => h'.pool k e hk (h.pool k e hk he), fun x hx => h'.log x (h.log x hx)⟩
theorem Kept.weaken {A B l l'} (h : Kept A l l') (hA : ∀ k, A k → B k) : Kept B l l' :=
  ⟨fun k e hk he => h.pool k e (fun ha => hk (hA k ha)) he, h.log⟩

/-- Whatever comes of it, the pool is kept. -/
structure Keeps (A : String → Prop) (x : M State α) : Prop where
  run : ∀ s, Kept A s (x s).2

namespace Keeps
variable {A : String → Prop}

theorem pure {a : α} : Keeps A (pure a) := ⟨fun _ => .refl⟩
theorem fail {e : Fail} : Keeps A (M.fail e : M State α) := ⟨fun _ => .refl⟩
theorem err {e : CErr} : Keeps A (M.err e : M State α) := ⟨fun _ => .refl⟩
theorem get : Keeps A M.get := ⟨fun _ => .refl⟩

theorem bind {x : M State α} {f : α → M State β} (h : Keeps A x) (h' : ∀ a, Keeps A (f a)) : Keeps A (x >>= f) := by
  refine ⟨fun s => ?_⟩
  show Kept A s (M.seq x f s).2
  unfold M.seq
  have h1 := h.run s
  rcases hx : x s with ⟨r, t⟩
  rw [hx] at h1
  cases r with
  | ok a => exact h1.trans ((h' a).run t)
  | error e => exact h1

theorem mapL {f : Nat → α → M State β} (h : ∀ k x, Keeps A (f k x)) : ∀ {xs k}, Keeps A (GJS.mapL f k xs) := by
  intro xs
  induction xs with
  | nil => intro k; exact .pure
  | cons x xs ih => intro k; exact .bind (h k x) fun _ => .bind ih fun _ => .pure

theorem rangeKV {f : Nat → String → GoVal → M State GoVal} (h : ∀ i k v, Keeps A (f i k v)) :
    ∀ {l i m}, Keeps A (RawS.rangeKV f i l m) := by
  intro l
  induction l with
  | nil => intro i m; exact .pure
  | cons kv l ih => intro i m; exact .bind (h _ _ _) fun _ => ih

theorem isKind {env v ks} : Keeps A (isKind env v ks) := by
  unfold RawS.isKind
  split
  · split
    · exact .pure
    · exact .fail
  · exact .pure

theorem weaken {B : String → Prop} {x : M State α} (h : Keeps A x) (hA : ∀ k, A k → B k) : Keeps B x := ⟨fun s => (h.run s).weaken hA⟩

theorem putPool {k d} : Keeps (· = k) (RawS.putPool k d) := by
  refine ⟨fun s => ⟨fun q e hq he => ?_, fun _ h => h⟩⟩
  show getKey q (putKey k d s.pool) = some e
  have hk : (q == k) = false := by simpa using hq
  unfold putKey
  unfold getKey at he ⊢
  rw [List.lookup_cons, hk]
  simp only
  rw [← he]
  generalize s.pool = m
  clear he
  induction m with
  | nil => rfl
  | cons x m ih =>
    obtain ⟨k', v⟩ := x
    rw [List.filter_cons]
    by_cases h : k' = k
    · subst h
      simp only [bne_self_eq_false, Bool.false_eq_true, if_false, List.lookup_cons, hk]
      exact ih
    · have : (k' != k) = true := by simpa using h
      simp only [this, if_true, List.lookup_cons]
      rw [ih]

end Keeps

open Lean.Parser.Tactic in
macro "keeps" : tactic => `(tactic| repeat' (first
  | exact Keeps.pure | exact Keeps.fail | exact Keeps.err | exact Keeps.get | exact Keeps.isKind | assumption
  | (refine Keeps.bind ?_ fun _ => ?_) | split))

variable {w : Outside} {σ : Sched} {A : String → Prop}

theorem parseSchemaURL_keeps {doc} : Keeps A (parseSchemaURL w doc) := by
  unfold parseSchemaURL
  keeps

theorem idText_keeps {m} : Keeps A (idText w m) := by
  unfold idText
  simp only
  keeps

theorem idScope_keeps {r o} : Keeps A (idScope w.toWorld r o) := by
  unfold idScope
  keeps

theorem rewriteRef_keeps {r m} : Keeps A (rewriteRef w r m) := by
  unfold rewriteRef
  keeps

theorem detectDraft_keeps {doc} : Keeps A (detectDraft w doc) := by
  unfold detectDraft
  refine .bind .get fun l => ?_
  split
  · exact .bind parseSchemaURL_keeps fun _ => .pure
  · exact .pure

theorem rewriteMember_keeps {rec : Path → String → GoVal → M State GoVal} (hr : ∀ p r v, Keeps A (rec p r v)) {p r k v} :
    Keeps A (rewriteMember σ rec p r k v) := by
  unfold rewriteMember
  split
  · exact .pure
  · split
    · split
      · exact .bind (.rangeKV fun _ _ _ => hr _ _ _) fun _ => .pure
      · exact .pure
    · exact hr _ _ _

/-- The keys an optional identifier stands for. -/
def keyOf (o : Option String) : String → Prop := fun k => o = some k

theorem register_keeps {o d} : Keeps (keyOf o) (register o d) := by
  cases o with
  | none => exact .pure
  | some k => exact Keeps.putPool.weaken fun q hq => by rw [keyOf, hq]

theorem rewriteObj_keeps {rec : Path → String → GoVal → M State (GoVal × Option CErr)} (hr : ∀ A p r v, Keeps A (rec p r v)) {p r d m} :
    Keeps A (rewriteObj w σ rec p r d m) := by
  unfold rewriteObj
  refine .bind idText_keeps fun id => .bind idScope_keeps fun sc => ⟨fun s => ?_⟩
  have hk : Keeps (keyOf sc.2) (do
      register sc.2 ⟨.obj m, d⟩
      let m1 ← rewriteRef w sc.1 m
      let m2 ← rangeKV (fun k key v => rewriteMember σ (fun p r v => do let x ← rec p r v; return x.1)
        (k :: 52 :: p) sc.1 key v) 0 (σ.order (51 :: p) m1) m1
      register sc.2 ⟨.obj m2, d⟩
      return (GoVal.obj m2, (none : Option CErr))) :=
    .bind register_keeps fun _ => .bind rewriteRef_keeps fun _ =>
      .bind (.rangeKV fun _ _ _ => rewriteMember_keeps fun _ _ _ => .bind (hr _ _ _ _) fun _ => .pure) fun _ =>
      .bind register_keeps fun _ => .pure
  show Kept A s (M.seq (taken sc.2) _ s).2
  cases ho : sc.2 with
  | none =>
    rw [ho] at hk
    have := (hk.run s).weaken (B := A) (by intro k h; cases h)
    exact this
  | some k =>
    have ht : taken (some k) s = (.ok (existsMapKey s.pool k), s) := rfl
    unfold M.seq
    rw [ht]
    simp only
    cases he : existsMapKey s.pool k with
    | true => exact .refl
    | false =>
      rw [ho] at hk
      have h1 := hk.run s
      refine ⟨fun q e _ hq => ?_, h1.log⟩
      refine h1.pool q e ?_ hq
      intro hqk
      cases hqk
      simp [existsMapKey, hq] at he

theorem rewrite_keeps {d} : ∀ n {A} p r g, Keeps A (rewrite w σ d n p r g)
  | 0, _, _, _, _ => .fail
  | n + 1, A, p, r, g => by
    unfold rewrite
    split
    · exact .bind (.mapL fun _ _ => .bind (rewrite_keeps n _ _ _) fun _ => .pure) fun _ => .pure
    · exact rewriteObj_keeps fun _ _ _ _ => rewrite_keeps n _ _ _
    · exact .pure

theorem parseReferences_keeps {p g r b} : Keeps A (parseReferences w σ p g r b) := by
  refine ⟨fun s => ?_⟩
  unfold parseReferences
  show Kept A s (M.seq (inPool r) _ s).2
  have hi : inPool r s = (.ok (existsMapKey s.pool r), s) := rfl
  unfold M.seq
  rw [hi]
  simp only
  have hk : Keeps (fun k => b = true ∧ k = r) (do
      let draft ← detectDraft w g
      let x ← rewrite w σ draft (size g) p r g
      putIf b r ⟨x.1, draft⟩
      return x) := by
    refine .bind detectDraft_keeps fun d => .bind (rewrite_keeps _ _ _ _) fun x => .bind ?_ fun _ => .pure
    unfold putIf
    split
    · exact Keeps.putPool.weaken fun k hk => ⟨‹_›, hk⟩
    · exact .pure
  cases b with
  | false =>
    have := (hk.run s).weaken (B := A) (by rintro k ⟨h, _⟩; cases h)
    exact this
  | true =>
    cases he : existsMapKey s.pool r with
    | true => exact .refl
    | false =>
      have h1 := hk.run s
      refine ⟨fun q e _ hq => ?_, h1.log⟩
      refine h1.pool q e ?_ hq
      rintro ⟨_, rfl⟩
      simp [existsMapKey, hq] at he

theorem parseReferencesIgnore_keeps {p g r} : Keeps A (parseReferencesIgnore w σ p g r) := by
  refine ⟨fun s => ?_⟩
  have := (parseReferences_keeps (A := A) (w := w) (σ := σ) (p := p) (g := g) (r := r) (b := true)).run s
  unfold parseReferencesIgnore
  split <;> (rename_i h; rw [h] at this; exact this)

theorem schemaDraftIgnore_keeps {g} : Keeps A (schemaDraftIgnore w g) := by
  refine ⟨fun s => ?_⟩
  have := (parseSchemaURL_keeps (A := A) (w := w) (doc := g)).run s
  unfold schemaDraftIgnore
  split <;> (rename_i h; rw [h] at this; exact this)

theorem pointerGet_keeps {r g} : Keeps A (pointerGet w r g) := by
  unfold pointerGet
  keeps

theorem fetch_keeps {r} : Keeps A (fetch w r) := by
  refine ⟨fun s => ?_⟩
  unfold fetch
  simp only
  split <;> exact ⟨fun _ _ _ h => h, fun x hx => by simp [hx]⟩

/-- Where a document came from: it is in the pool, or it was loaded. -/
def Had (l : State) (r : String) (e : PoolDoc) : Prop := getKey r l.pool = some e ∨ ∃ f, (f, r) ∈ l.log

theorem Had.kept {l l' r e} (h : Had l r e) (hk : Kept (fun _ => False) l l') : Had l' r e := by
  rcases h with h | ⟨f, h⟩
  · exact .inl (hk.pool _ _ (fun h => h) h)
  · exact .inr ⟨f, hk.log _ h⟩

theorem getDocument_had {p r s e s'} (h : getDocument w σ p r s = (.ok e, s')) : Kept (fun _ => False) s s' ∧ Had s' r e := by
  unfold getDocument at h
  obtain ⟨e1, t1, h1, h⟩ := Ensures.seqOk h
  cases h1
  cases hr : getKey r s.pool with
  | some e1 =>
    rw [hr] at h
    cases h
    exact ⟨.refl, .inl hr⟩
  | none =>
    rw [hr] at h
    obtain ⟨e2, t2, h2, h⟩ := Ensures.seqOk h
    cases h2
    cases hb : getKey (w.base r) s.pool with
    | some e2 =>
      rw [hb] at h
      simp only at h
      unfold getCached at h
      obtain ⟨d, t3, h3, h⟩ := Ensures.seqOk h
      obtain ⟨u, t4, h4, h⟩ := Ensures.seqOk h
      cases h
      have k3 := (pointerGet_keeps (A := (· = r)) (w := w) (r := r) (g := e2.doc)).run s
      rw [h3] at k3
      have k4 := (Keeps.putPool (k := r) (d := ⟨d, e2.draft⟩)).run t3
      rw [h4] at k4
      have k := k3.trans k4
      refine ⟨⟨fun q e _ hq => k.pool q e ?_ hq, k.log⟩, .inl ?_⟩
      · rintro rfl
        rw [hr] at hq
        cases hq
      · cases h4
        show getKey r (putKey r _ _) = _
        simp [getKey, putKey]
    | none =>
      rw [hb] at h
      simp only at h
      unfold getRemote at h
      split at h
      · cases h
      · obtain ⟨d, t3, h3, h⟩ := Ensures.seqOk h
        obtain ⟨d', t4, h4, h⟩ := Ensures.seqOk h
        obtain ⟨dr, t5, h5, h⟩ := Ensures.seqOk h
        obtain ⟨d'', t6, h6, h⟩ := Ensures.seqOk h
        cases h
        have k3 := (fetch_keeps (A := fun _ => False) (w := w) (r := r)).run s
        have l3 : ∃ f, (f, r) ∈ t3.log := by
          unfold fetch at h3
          simp only at h3
          split at h3
          · cases h3; exact ⟨s.factory, by simp⟩
          · cases h3
        rw [h3] at k3
        have k4 := (parseReferencesIgnore_keeps (A := fun _ => False) (w := w) (σ := σ) (p := p) (g := d) (r := w.base r)).run t3
        rw [h4] at k4
        have k5 := (schemaDraftIgnore_keeps (A := fun _ => False) (w := w) (g := d')).run t4
        rw [h5] at k5
        have k6 := (pointerGet_keeps (A := fun _ => False) (w := w) (r := r) (g := d')).run t5
        rw [h6] at k6
        have kk := (k4.trans k5).trans k6
        obtain ⟨f, hf⟩ := l3
        exact ⟨k3.trans kk, .inr ⟨f, kk.log _ hf⟩⟩

/-! ### The compiler -/

/-- What a run adds: the references added lead to documents with the right types. -/
structure Grown (s s' : PState) : Prop where
  kept : Kept (fun _ => False) s.l s'.l
  refs : ∀ r c, (r, c) ∈ s'.refs → (r, c) ∈ s.refs ∨ ∃ e d, Had s'.l r e ∧ Strict d e.doc

theorem Grown.refl {s} : Grown s s := ⟨.refl, fun _ _ h => .inl h⟩
theorem Grown.trans {s s' s''} (h : Grown s s') (h' : Grown s' s'') : Grown s s'' := by
  refine ⟨h.kept.trans h'.kept, fun r c hr => ?_⟩
  rcases h'.refs r c hr with h1 | h1
  · rcases h.refs r c h1 with h2 | ⟨e, d, h2, h3⟩
    · exact .inl h2
    · exact .inr ⟨e, d, h2.kept h'.kept, h3⟩
  · exact .inr h1

/-- If it succeeds, so it grows. -/
structure Grows (x : M PState α) : Prop where
  run : ∀ s a s', x s = (.ok a, s') → Grown s s'

namespace Grows
theorem pure {a : α} : Grows (pure a) := ⟨fun _ _ _ h => by cases h; exact .refl⟩
theorem fail {e : Fail} : Grows (M.fail e : M PState α) := ⟨fun _ _ _ h => by cases h⟩
theorem err {e : CErr} : Grows (M.err e : M PState α) := ⟨fun _ _ _ h => by cases h⟩

theorem bind {x : M PState α} {f : α → M PState β} (h : Grows x) (h' : ∀ a, Grows (f a)) : Grows (x >>= f) :=
  ⟨fun _ _ _ hs => let ⟨a, _, hx, hf⟩ := Ensures.seqOk hs; (h.run _ _ _ hx).trans ((h' a).run _ _ _ hf)⟩

theorem mapL {f : Nat → α → M PState β} (h : ∀ k x, Grows (f k x)) : ∀ {xs k}, Grows (GJS.mapL f k xs) := by
  intro xs
  induction xs with
  | nil => intro k; exact .pure
  | cons x xs ih => intro k; exact .bind (h k x) fun _ => .bind ih fun _ => .pure

theorem isKind {env v ks} : Grows (isKind env v ks) := by
  unfold RawS.isKind
  split
  · split
    · exact .pure
    · exact .fail
  · exact .pure

theorem setNode {c n} : Grows (setNode c n) := ⟨fun _ _ _ h => by cases h; exact ⟨.refl, fun _ _ h => .inl h⟩⟩
theorem alloc {d n} : Grows (alloc d n) := ⟨fun _ _ _ h => by cases h; exact ⟨.refl, fun _ _ h => .inl h⟩⟩
theorem refGet {r} : Grows (refGet r) := ⟨fun _ _ _ h => by cases h; exact .refl⟩
theorem addType {ts t} : Grows (addType ts t) := by
  unfold GJS.addType
  split
  · exact .err
  · split
    · exact .err
    · exact .pure
end Grows

macro "grows" : tactic => `(tactic| repeat' (first
  | exact Grows.pure | exact Grows.fail | exact Grows.err | exact Grows.isKind | exact Grows.addType | assumption
  | (refine Grows.bind ?_ fun _ => ?_) | (refine Grows.mapL fun _ _ => ?_) | split))

/-- The recursive calls grow. -/
def RecGrows (rec : PRec) : Prop := ∀ p pid id doc d c, Grows (rec p pid id doc d c)

variable {rec : PRec}

theorem child_grows (hr : RecGrows rec) {p id d g} : Grows (child rec p id d g) := by
  unfold child
  exact .bind .alloc fun _ => .bind (hr _ _ _ _ _ _) fun _ => .pure

theorem kwId_grows {b pid id d m} : Grows (kwId w b pid id d m) := by unfold kwId; grows
theorem kwDefinitions_grows (hr : RecGrows rec) {p id d m} : Grows (kwDefinitions w σ rec p id d m) := by
  unfold kwDefinitions kwDefinition; grows
  all_goals first | exact .alloc | exact hr _ _ _ _ _ _
theorem kwText_grows {k m} : Grows (kwText w k m) := by unfold kwText; grows
theorem kwRefText_grows {m} : Grows (kwRefText w m) := by unfold kwRefText; grows
theorem typeLoop_grows : ∀ {vs ts}, Grows (typeLoop ts vs)
  | [], ts => .pure
  | v :: vs, ts => by
    have := fun {ts} => typeLoop_grows (vs := vs) (ts := ts)
    unfold typeLoop; grows
    all_goals exact this
theorem kwType_grows {m} : Grows (kwType w m) := by
  have := fun {vs ts} => typeLoop_grows (vs := vs) (ts := ts)
  unfold kwType; grows
  all_goals exact this
theorem kwProperties_grows (hr : RecGrows rec) {p id d m} : Grows (kwProperties w σ rec p id d m) := by
  unfold kwProperties; grows
  all_goals first | exact .alloc | exact hr _ _ _ _ _ _
theorem kwExtra_grows (hr : RecGrows rec) {p id d k m} : Grows (kwExtra w rec p id d k m) := by
  unfold kwExtra; grows
  all_goals first | exact .alloc | exact hr _ _ _ _ _ _
theorem kwPatternProperties_grows (hr : RecGrows rec) {p id d m} : Grows (kwPatternProperties w σ rec p id d m) := by
  unfold kwPatternProperties kwPattern1; grows
  all_goals first | exact .alloc | exact hr _ _ _ _ _ _
theorem kwSchema_grows (hr : RecGrows rec) {p id d a k e m} : Grows (kwSchema w rec p id d a k e m) := by
  unfold kwSchema; grows
  all_goals first | exact .alloc | exact hr _ _ _ _ _ _
theorem depKeys_grows : ∀ {vs}, Grows (depKeys w vs)
  | [] => .pure
  | v :: vs => by
    have := depKeys_grows (vs := vs)
    unfold depKeys; grows
theorem kwDependency_grows (hr : RecGrows rec) {p id d kv} : Grows (kwDependency w rec p id d kv) := by
  unfold kwDependency; grows
  all_goals first | exact .alloc | exact hr _ _ _ _ _ _ | exact depKeys_grows
theorem kwDependencies_grows (hr : RecGrows rec) {p id d m} : Grows (kwDependencies w σ rec p id d m) := by
  unfold kwDependencies; grows
  all_goals exact kwDependency_grows hr
theorem kwItems_grows (hr : RecGrows rec) {p id d m} : Grows (kwItems w rec p id d m) := by
  unfold kwItems kwItem; grows
  all_goals first | exact .alloc | exact hr _ _ _ _ _ _
theorem kwMultipleOf_grows {m} : Grows (kwMultipleOf w m) := by unfold kwMultipleOf; grows
theorem kwBound_grows {k m} : Grows (kwBound w k m) := by unfold kwBound; grows
theorem exclusiveValue_grows {a b v o} : Grows (exclusiveValue a b v o) := by unfold exclusiveValue exclusiveBool; grows
theorem kwExclusive_grows {d a b o m} : Grows (kwExclusive w d a b o m) := by
  unfold kwExclusive; grows
  all_goals exact exclusiveValue_grows
theorem kwSize_grows {k m} : Grows (kwSize w k m) := by unfold kwSize; grows
theorem checkOrder_grows {a b e} : Grows (checkOrder a b e) := by unfold checkOrder; grows
theorem kwPattern_grows {m} : Grows (kwPattern w m) := by unfold kwPattern; grows
theorem kwFormat_grows {m} : Grows (kwFormat m) := by unfold kwFormat; grows
theorem requiredLoop_grows : ∀ {vs qs}, Grows (requiredLoop w qs vs)
  | [], _ => .pure
  | v :: vs, qs => by
    have := fun {qs} => requiredLoop_grows (vs := vs) (qs := qs)
    unfold requiredLoop; grows
    all_goals exact this
theorem kwRequired_grows {m} : Grows (kwRequired w m) := by
  unfold kwRequired; grows
  all_goals exact requiredLoop_grows
theorem kwUnique_grows {m} : Grows (kwUnique w m) := by unfold kwUnique; grows
theorem kwContains_grows (hr : RecGrows rec) {p id d m} : Grows (kwContains rec p id d m) := by
  unfold kwContains; grows
  all_goals first | exact .alloc | exact hr _ _ _ _ _ _
theorem kwConst_grows {d m} : Grows (kwConst w d m) := by unfold kwConst; grows
theorem enumLoop_grows : ∀ {vs es}, Grows (enumLoop w es vs)
  | [], _ => .pure
  | v :: vs, es => by
    have := fun {es} => enumLoop_grows (vs := vs) (es := es)
    unfold enumLoop; grows
    all_goals exact this
theorem kwEnum_grows {m} : Grows (kwEnum w m) := by
  unfold kwEnum; grows
  all_goals exact enumLoop_grows
theorem kwSchemas_grows (hr : RecGrows rec) {p id d k e m} : Grows (kwSchemas w rec p id d k e m) := by
  unfold kwSchemas; grows
  all_goals first | exact .alloc | exact hr _ _ _ _ _ _

theorem parseKeywords_grows (hr : RecGrows rec) {p id d c o m} : Grows (parseKeywords w σ rec p id d c o m) := by
  unfold parseKeywords
  exact .bind kwType_grows fun _ => .bind (kwProperties_grows hr) fun _ => .bind (kwExtra_grows hr) fun _ =>
    .bind (kwPatternProperties_grows hr) fun _ => .bind (kwSchema_grows hr) fun _ => .bind (kwDependencies_grows hr) fun _ =>
    .bind (kwItems_grows hr) fun _ => .bind (kwExtra_grows hr) fun _ => .bind kwMultipleOf_grows fun _ => .bind kwBound_grows fun _ =>
    .bind kwExclusive_grows fun _ => .bind kwBound_grows fun _ => .bind kwExclusive_grows fun _ => .bind kwSize_grows fun _ =>
    .bind kwSize_grows fun _ => .bind checkOrder_grows fun _ => .bind kwPattern_grows fun _ => .bind kwFormat_grows fun _ =>
    .bind kwSize_grows fun _ => .bind kwSize_grows fun _ => .bind checkOrder_grows fun _ => .bind kwRequired_grows fun _ =>
    .bind kwSize_grows fun _ => .bind kwSize_grows fun _ => .bind kwUnique_grows fun _ => .bind (kwContains_grows hr) fun _ =>
    .bind kwConst_grows fun _ => .bind kwEnum_grows fun _ => .bind (kwSchemas_grows hr) fun _ => .bind (kwSchemas_grows hr) fun _ =>
    .bind (kwSchemas_grows hr) fun _ => .bind (kwSchema_grows hr) fun _ => .bind (kwSchema_grows hr) fun _ =>
    .bind (kwSchema_grows hr) fun _ => .bind (kwSchema_grows hr) fun _ => .setNode

theorem parseReference_grows (hr : RecGrows rec) (hs : ∀ d, RecOk d (Strict d) rec) {p id d r} :
    Grows (parseReference w σ rec p id d r) := by
  refine ⟨fun s a s' h => ?_⟩
  unfold parseReference at h
  obtain ⟨e, t1, h1, h⟩ := Ensures.seqOk h
  obtain ⟨c, t2, h2, h⟩ := Ensures.seqOk h
  obtain ⟨u, t3, h3, h⟩ := Ensures.seqOk h
  obtain ⟨b, t4, h4, h⟩ := Ensures.seqOk h
  have k4 := (Grows.isKind (env := w.env) (v := e.doc) (ks := [.map, .bool])).run _ _ _ h4
  split at h
  · cases h
  · obtain ⟨v, t5, h5, h⟩ := Ensures.seqOk h
    cases h
    have k5 := (hr _ _ _ _ _ _).run _ _ _ h5
    have st := (hs _ _ _ _ _ _).of _ _ _ h5
    have k45 := k4.trans k5
    unfold liftL at h1
    rcases hg : getDocument w σ (42 :: p) r s.l with ⟨x, l'⟩
    rw [hg] at h1
    cases h1
    obtain ⟨kd, had⟩ := getDocument_had hg
    cases h2
    cases h3
    have k : Kept (fun _ => False) s.l s'.l := kd.trans (by
      have := k45.kept
      simp only at this
      split at this <;> exact this)
    refine ⟨k, fun q j hq => ?_⟩
    rcases k45.refs q j hq with h6 | h6
    · simp only at h6
      split at h6
      · exact .inl h6
      · simp only [List.mem_append, List.mem_singleton, Prod.mk.injEq] at h6
        rcases h6 with h6 | ⟨rfl, _⟩
        · exact .inl h6
        · refine .inr ⟨e, _, ?_, st⟩
          refine had.kept ?_
          have := k45.kept
          simp only at this
          split at this <;> exact this
    · exact .inr h6

theorem parseStep_grows (hr : RecGrows rec) (hs : ∀ d, RecOk d (Strict d) rec) {b p pid id g d c} :
    Grows (parseStep w σ rec b p pid id g d c) := by
  have ha : ∀ {p id d c o m}, Grows (parseAfterRef w σ rec p id d c o m) := by
    intro p id d c o m
    unfold parseAfterRef
    split
    · exact parseKeywords_grows hr
    · refine .bind .refGet fun _ => ?_
      split
      · exact parseKeywords_grows hr
      · exact .bind (parseReference_grows hr hs) fun _ => .setNode
  have ho : ∀ {b p pid id m d c}, Grows (parseObject w σ rec b p pid id m d c) := by
    intro b p pid id m d c
    unfold parseObject
    exact .bind kwId_grows fun _ => .bind (kwDefinitions_grows hr) fun _ => .bind kwText_grows fun _ => .bind kwText_grows fun _ =>
      .bind kwRefText_grows fun _ => ha
  unfold parseStep
  refine .bind .isKind fun _ => ?_
  split
  · exact .setNode
  · exact .fail
  · refine .bind .isKind fun _ => ?_
    split
    · exact .err
    · split
      · exact ho
      · exact .fail

theorem parseSchema_grows : ∀ n, RecGrows (parseSchema w σ n)
  | 0 => fun _ _ _ _ _ _ => .fail
  | n + 1 => fun _ _ _ _ _ _ => parseStep_grows (parseSchema_grows n) fun d => parseSchema_ok n

theorem parseRoot_grows {n p r g d} : Grows (parseRoot w σ n p r g d) := by
  unfold parseRoot
  exact .bind .alloc fun _ => .bind (parseStep_grows (parseSchema_grows n) fun d => parseSchema_ok n) fun _ => .pure

end GJS.RawS

import Verif.LemStrict
import Verif.SpecIds
/-
Helper lemmas: which entries rewriting adds to the pool.
-/
namespace GJS
open Spec

theorem declares_iff {w : World} {b m k} : Declares w b m k ↔ k ∈ absId w b m := by
  unfold Declares absId
  cases idOf m with
  | none => simp
  | some t =>
    simp only [Option.some.injEq, Option.mem_toList, Option.bind_eq_some_iff]
    constructor
    · rintro ⟨_, u, rfl, h1, h2⟩; exact ⟨u, h1, h2⟩
    · rintro ⟨u, h1, h2⟩; exact ⟨t, u, rfl, h1, h2⟩

theorem literal_not_map {k} (h : Literal k) : ¬ SchemaMap k := by
  rintro (h' | h' | h') <;> rcases h with h | h <;> (rw [h] at h'; revert h'; decide)

/-! ### Any document: only declared identifiers -/

/-- Entries other than those of `l0` have a key in `S`. -/
def KeysIn (S : String → Prop) (l0 l : LState) : Prop :=
  ∀ k, getKey k l.pool ≠ none → getKey k l0.pool ≠ none ∨ S k

section keys
variable {w : World} {σ : Sched} {S : String → Prop} {l0 : LState}

theorem KeysIn.put {l : LState} {k e} (h : KeysIn S l0 l) (hk : S k) :
    KeysIn S l0 { l with pool := putKey k e l.pool } := by
  intro k' h'
  by_cases hkk : k' = k
  · exact .inr (hkk ▸ hk)
  · simp only [getKey_putKey_ne hkk] at h'; exact h k' h'

theorem register_keys {o e} (ho : ∀ k, o = some k → S k) : Tri (KeysIn S l0) (register o e) (fun _ => True) := by
  unfold register
  cases o with
  | none => exact .pure trivial
  | some k => exact .modify fun l hl => hl.put (ho k rfl)

theorem rangeKV_triv {P : τ → Prop} {f : Nat → String → Json → M τ Json} : ∀ {rest : List (String × Json)} {i m},
    (∀ i k v, (k, v) ∈ rest → Tri P (f i k v) (fun _ => True)) → Tri P (rangeKV f i rest m) (fun _ => True) := by
  intro rest
  induction rest with
  | nil => intro i m _; exact .pure trivial
  | cons kv rest ih =>
    intro i m hf
    exact .bind (hf _ _ _ (by simp)) fun _ _ => ih fun i k v h => hf i k v (by simp [h])

theorem range_triv {P : τ → Prop} {f : Nat → String → Json → M τ Json} {m : List (String × Json)} {q i m'}
    (hf : ∀ i k v, (k, v) ∈ m → Tri P (f i k v) (fun _ => True)) :
    Tri P (rangeKV f i (σ.order q m) m') (fun _ => True) :=
  rangeKV_triv fun i k v h => hf i k v ((σ.perm q m).mem_iff.1 h)

theorem rewriteMember_keys {rec p base k v} (hs : ∀ x ∈ memberIds w base k v, S x)
    (hrec : ∀ p x, (∀ y ∈ idsIn w base x, S y) → Tri (KeysIn S l0) (rec p base x) (fun _ => True)) :
    Tri (KeysIn S l0) (rewriteMember σ rec p base k v) (fun _ => True) := by
  by_cases hl : k = "const" ∨ k = "enum"
  · have e : rewriteMember σ rec p base k v = pure v := by simp [rewriteMember, hl]
    rw [e]
    exact .pure trivial
  by_cases hm : k = "properties" ∨ k = "dependencies" ∨ k = "patternProperties"
  · have hm1 := isSchemaMap_iff.2 hm
    simp only [memberIds, if_neg hl, if_pos hm] at hs
    simp only [rewriteMember, hm1, if_true]
    rw [if_neg (by simpa using hl)]
    cases v with
    | obj c =>
      simp only at hs ⊢
      exact .bind (range_triv fun i n x hx => hrec _ _ fun y hy => hs y (List.mem_flatMap.2 ⟨_, hx, hy⟩)) fun _ _ => .pure trivial
    | _ => exact .pure trivial
  · have hm1 : ¬ (isSchemaMap k = true) := fun h => hm (isSchemaMap_iff.1 h)
    simp only [memberIds, if_neg hl, if_neg hm] at hs
    simp only [rewriteMember, hm1, if_false]
    rw [if_neg (by simpa using hl)]
    exact hrec p v hs

theorem rewriteRef_ids {base m} {s s' : τ} {m1} (hn : (m.map Prod.fst).Nodup)
    (h : (rewriteRef w base m : M τ _) s = (.ok m1, s')) {e} (he : e ∈ m1) :
    e ∈ m ∨ ∃ a, e = ("$ref", .str a) := by
  have hm1 := rewriteRef_eq h
  rw [hm1] at he
  split at he
  · split at he
    · rcases mem_replaceKey he with h | h
      · exact .inl h
      · exact .inr ⟨_, h⟩
    · exact .inl he
  · exact .inl he

theorem rewriteObj_keys {rec p base draft m} (hm : (m.map Prod.fst).Nodup) (hs : ∀ x ∈ idsIn w base (.obj m), S x)
    (hrec : ∀ p b x, (∀ y ∈ idsIn w b x, S y) → x.WF → Tri (KeysIn S l0) (rec p b x) (fun _ => True))
    (hwf : ∀ k v, (k, v) ∈ m → v.WF) :
    Tri (KeysIn S l0) (rewriteObj w σ rec p base draft m) (fun _ => True) := by
  rw [idsIn, idsInM_eq] at hs
  unfold rewriteObj
  refine .bind (Q := fun o => o = idOf m) (fun l hl => ⟨by rw [idText_still]; exact hl, fun a l' h => idText_eq h⟩) fun o ho => ?_
  subst ho
  refine .bind (Q := fun sc => sc.1 = scopeOf w base m ∧ ∀ k, sc.2 = some k → S k)
    (fun l hl => ⟨by rw [idScope_still]; exact hl, fun sc l' h => ⟨(idScope_eq h).1, fun k hk => ?_⟩⟩) fun sc hsc => ?_
  · refine hs k (List.mem_append.2 (.inl ?_))
    rw [← (idScope_abs h).1, hk]; simp
  refine .bind taken_still.tri fun t _ => ?_
  split
  · exact .pure trivial
  refine .bind (register_keys hsc.2) fun _ _ => ?_
  refine .bind (Q := fun m1 => ∀ e ∈ m1, e ∈ m ∨ ∃ a, e = ("$ref", Json.str a))
    (fun l hl => ⟨by rw [rewriteRef_still]; exact hl, fun m1 l' h => fun e he => rewriteRef_ids hm h he⟩) fun m1 hm1 => ?_
  refine .bind (range_triv fun i k v hv => ?_) fun m2 _ => .bind (register_keys hsc.2) fun _ _ => .pure trivial
  rw [hsc.1]
  have key : (∀ x ∈ memberIds w (scopeOf w base m) k v, S x) ∧ v.WF := by
    rcases hm1 _ hv with h | ⟨a, h⟩
    · exact ⟨fun x hx => hs x (List.mem_append.2 (.inr (List.mem_flatMap.2 ⟨_, h, hx⟩))), hwf _ _ h⟩
    · cases h; exact ⟨by simp [memberIds, idsIn], .str _⟩
  -- well-formedness is carried along
  by_cases hl : k = "const" ∨ k = "enum"
  · have e : ∀ rec', rewriteMember σ rec' (i :: 52 :: p) (scopeOf w base m) k v = pure v := by simp [rewriteMember, hl]
    rw [e]
    exact .pure trivial
  by_cases hmm : k = "properties" ∨ k = "dependencies" ∨ k = "patternProperties"
  · have hm2 := isSchemaMap_iff.2 hmm
    have hs' := key.1
    simp only [memberIds, if_neg hl, if_pos hmm] at hs'
    simp only [rewriteMember, hm2, if_true]
    rw [if_neg (by simpa using hl)]
    have hw := key.2
    cases v with
    | obj c =>
      simp only at hs' ⊢
      exact .bind (range_triv fun i n x hx => .bind (hrec _ _ _ (fun y hy => hs' y (List.mem_flatMap.2 ⟨_, hx, hy⟩))
        (wf_obj hw _ hx)) fun _ _ => .pure trivial) fun _ _ => .pure trivial
    | _ => exact .pure trivial
  · have hm2 : ¬ (isSchemaMap k = true) := fun h => hmm (isSchemaMap_iff.1 h)
    have hs' := key.1
    simp only [memberIds, if_neg hl, if_neg hmm] at hs'
    simp only [rewriteMember, hm2, if_false]
    rw [if_neg (by simpa using hl)]
    exact .bind (hrec _ _ v hs' key.2) fun _ _ => .pure trivial

theorem rewrite_keys {draft} : ∀ n p base doc, (∀ x ∈ idsIn w base doc, S x) → doc.WF →
    Tri (KeysIn S l0) (rewrite w σ draft n p base doc) (fun _ => True) := by
  intro n
  induction n with
  | zero => intro p base doc _ _; exact .fail
  | succ n ih =>
    intro p base doc hs hd
    unfold rewrite
    split
    · rename_i xs
      rw [idsIn, idsInL_eq] at hs
      refine .bind (Tri.mapL (Q := fun _ _ => True) fun k x hx => .bind (ih _ _ x (fun y hy => hs y (List.mem_flatMap.2 ⟨_, hx, hy⟩))
        (wf_arr hd x hx)) fun y hy => .pure trivial) fun ys hys => .pure trivial
    · exact rewriteObj_keys (wf_nodup hd) hs ih fun k v h => wf_obj hd _ h
    · exact .pure trivial

theorem parseReferences_keys {p doc ref pooled} (hs : ∀ x ∈ idsIn w ref doc, S x) (hp : pooled = true → S ref) (hd : doc.WF) :
    Tri (KeysIn S l0) (parseReferences w σ p doc ref pooled) (fun _ => True) := by
  unfold parseReferences
  refine .bind inPool_still.tri fun there _ => ?_
  split
  · exact .pure trivial
  · refine .bind detectDraft_still.tri fun o _ => .bind (rewrite_keys _ _ _ _ hs hd) fun x _ =>
      .bind (Q := fun _ => True) ?_ fun _ _ => .pure trivial
    unfold putIf
    split
    · rename_i h; exact .modify fun l hl => hl.put (hp h)
    · exact .pure trivial
end keys

/-! ### Distinct new identifiers: every one is registered -/

/-- Demands on entries of the pool. -/
abbrev Demand := String → (PoolDoc → Prop) → Prop

/-- A computation that, if the keys in `A` are free, adds entries for exactly these, and meets the
demands `D`, which are about these keys. -/
def Regs (A : List String) (D : Demand) (x : M LState α) : Prop :=
  (∀ k T, D k T → k ∈ A) ∧
  ∀ l a l', (∀ k ∈ A, getKey k l.pool = none) → x l = (.ok a, l') →
    (∀ k, k ∉ A → getKey k l'.pool = getKey k l.pool) ∧ (∀ k ∈ A, getKey k l'.pool ≠ none) ∧
    ∀ k T, D k T → ∃ e, getKey k l'.pool = some e ∧ T e

namespace Regs

theorem still {x : M LState α} {D : Demand} (h : Still x) (hD : ∀ k T, ¬ D k T) : Regs [] D x :=
  ⟨fun k T h => absurd h (hD k T), fun l a l' _ hx => by
    rw [h.ok hx]; exact ⟨fun _ _ => rfl, by simp, fun k T h => absurd h (hD k T)⟩⟩

theorem pure {a : α} {D : Demand} (hD : ∀ k T, ¬ D k T) : Regs [] D (Pure.pure a : M LState α) := still .pure hD

theorem fail {e} {A} {D : Demand} (hD : ∀ k T, D k T → k ∈ A) : Regs A D (M.fail e : M LState α) :=
  ⟨hD, by intro l b l' _ hb; simp at hb⟩

theorem bind {x : M LState α} {f : α → M LState β} {A B} {D D' : Demand} (hd : ∀ k ∈ A, k ∉ B) (h1 : Regs A D x)
    (h2 : ∀ a, Regs B D' (f a)) (h3 : ∀ k T, D' k T → k ∈ B) : Regs (A ++ B) (fun k T => D k T ∨ D' k T) (x >>= f) := by
  refine ⟨fun k T h => ?_, ?_⟩
  · rcases h with h | h
    · exact List.mem_append.2 (.inl (h1.1 k T h))
    · exact List.mem_append.2 (.inr (h3 k T h))
  intro l b l' hf h
  obtain ⟨a, s1, e1, e2⟩ := M.bind_ok.1 h
  obtain ⟨p1, q1, r1⟩ := h1.2 l a s1 (fun k hk => hf k (by simp [hk])) e1
  have hfree : ∀ k ∈ B, getKey k s1.pool = none := by
    intro k hk
    rw [p1 k (fun h => hd k h hk)]
    exact hf k (by simp [hk])
  obtain ⟨p2, q2, r2⟩ := (h2 a).2 s1 b l' hfree e2
  refine ⟨fun k hk => ?_, fun k hk => ?_, fun k T h => ?_⟩
  · simp only [List.mem_append, not_or] at hk
    rw [p2 k hk.2, p1 k hk.1]
  · by_cases hB : k ∈ B
    · exact q2 k hB
    · rw [p2 k hB]
      exact q1 k ((List.mem_append.1 hk).resolve_right hB)
  · rcases h with h | h
    · rw [p2 k (hd k (h1.1 k T h))]; exact r1 k T h
    · exact r2 k T h

theorem demand {x : M LState α} {A} {D D' : Demand} (h : Regs A D x) (hD : ∀ k T, D' k T → D k T) : Regs A D' x :=
  ⟨fun k T hd => h.1 k T (hD k T hd), fun l a l' hf hx => by
    obtain ⟨h1, h2, h3⟩ := h.2 l a l' hf hx
    exact ⟨h1, h2, fun k T hd => h3 k T (hD k T hd)⟩⟩

theorem map {x : M LState α} {f : α → β} {A} {D : Demand} (h : Regs A D x) : Regs A D (do let y ← x; return f y) := by
  have := bind (B := []) (D' := fun _ _ => False) (f := fun y => (Pure.pure (f y) : M LState β)) (by simp) h
    (fun a => pure (by simp)) (by simp)
  simpa using this

theorem perm {x : M LState α} {A B} {D : Demand} (h : Regs A D x) (hp : A.Perm B) : Regs B D x :=
  ⟨fun k T hd => hp.mem_iff.1 (h.1 k T hd), fun l a l' hf hx => by
    obtain ⟨h1, h2, h3⟩ := h.2 l a l' (fun k hk => hf k (hp.mem_iff.1 hk)) hx
    exact ⟨fun k hk => h1 k fun h => hk (hp.mem_iff.1 h), fun k hk => h2 k (hp.mem_iff.2 hk), h3⟩⟩

theorem mapL {f : Nat → α → M LState β} {g : α → List String} {D : α → Demand} : ∀ {xs : List α} {k : Nat},
    (xs.flatMap g).Nodup → (∀ k x, x ∈ xs → Regs (g x) (D x) (f k x)) →
    Regs (xs.flatMap g) (fun k T => ∃ x ∈ xs, D x k T) (GJS.mapL f k xs) := by
  intro xs
  induction xs with
  | nil => intro k _ _; exact pure (by simp)
  | cons x xs ih =>
    intro k hn hf
    rw [List.flatMap_cons] at hn ⊢
    obtain ⟨n1, n2, n3⟩ := List.nodup_append.1 hn
    have ih' := fun j => ih (k := j) n2 fun k x hx => hf k x (by simp [hx])
    refine (bind (fun k h1 h2 => n3 k h1 k h2 rfl) (hf k x (by simp)) (fun y => map (ih' _)) (ih' 0).1).demand ?_
    rintro k T ⟨y, hy, hd⟩
    rcases List.mem_cons.1 hy with rfl | hy
    · exact .inl hd
    · exact .inr ⟨y, hy, hd⟩

end Regs

theorem rangeKV_regs {f : Nat → String → Json → M LState Json} {g : String → Json → List String}
    {D : String → Json → Demand} : ∀ {rest : List (String × Json)} {i m}, (rest.flatMap (fun e => g e.1 e.2)).Nodup →
    (∀ i k v, (k, v) ∈ rest → Regs (g k v) (D k v) (f i k v)) →
    Regs (rest.flatMap (fun e => g e.1 e.2)) (fun k T => ∃ e ∈ rest, D e.1 e.2 k T) (rangeKV f i rest m) := by
  intro rest
  induction rest with
  | nil => intro i m _ _; exact .pure (by simp)
  | cons kv rest ih =>
    intro i m hg hf
    obtain ⟨k0, v0⟩ := kv
    rw [List.flatMap_cons] at hg ⊢
    obtain ⟨n1, n2, n3⟩ := List.nodup_append.1 hg
    have ih' := fun j m => ih (i := j) (m := m) n2 fun i k v h => hf i k v (by simp [h])
    refine (Regs.bind (fun k h1 h2 => n3 k h1 k h2 rfl) (hf i k0 v0 (by simp)) (fun v' => ih' _ _) (ih' 0 []).1).demand ?_
    rintro k T ⟨y, hy, hd⟩
    rcases List.mem_cons.1 hy with rfl | hy
    · exact .inl hd
    · exact .inr ⟨y, hy, hd⟩

theorem range_regs {f : Nat → String → Json → M LState Json} {g : String → Json → List String}
    {D : String → Json → Demand} {σ : Sched} {q : Path} {i} {m m' : List (String × Json)}
    (hg : (m.flatMap (fun e => g e.1 e.2)).Nodup) (hf : ∀ i k v, (k, v) ∈ m → Regs (g k v) (D k v) (f i k v)) :
    Regs (m.flatMap (fun e => g e.1 e.2)) (fun k T => ∃ e ∈ m, D e.1 e.2 k T) (rangeKV f i (σ.order q m) m') := by
  have hp := σ.perm q m
  have hp2 := hp.flatMap_right (fun e => g e.1 e.2)
  refine ((rangeKV_regs (D := D) (hp2.nodup_iff.2 hg) fun i k v h => hf i k v (hp.mem_iff.1 h)).perm hp2).demand ?_
  rintro k T ⟨e, he, hd⟩
  exact ⟨e, hp.mem_iff.2 he, hd⟩

section strict
variable {w : World} {σ : Sched}

/-- The entry every declaring schema of a document must get. -/
def docDemand (w : World) (draft : Option Draft) (b : String) (doc : Json) : Demand := fun k T =>
  ∃ b' m, SchemaAt w b doc b' (.obj m) ∧ k ∈ absId w b' m ∧ ∀ e : PoolDoc, RwStrict w b' (.obj m) e.doc → e.draft = draft → T e

/-- ... in a member of an object. -/
def memDemand (w : World) (draft : Option Draft) (b : String) (key : String) (v : Json) : Demand := fun k T =>
  (¬ Literal key ∧ ¬ SchemaMap key ∧ docDemand w draft b v k T) ∨
  (SchemaMap key ∧ ∃ c n x, v = .obj c ∧ (n, x) ∈ c ∧ docDemand w draft b x k T)

theorem docDemand_str {draft b t k T} : ¬ docDemand w draft b (.str t) k T := by
  rintro ⟨b', m, h, _⟩; cases h

theorem rewriteMember_regs {draft rec p base k v} (hi : (memberIds w base k v).Nodup) (hv : v.WF)
    (hrec : ∀ p x, x.WF → (idsIn w base x).Nodup → Regs (idsIn w base x) (docDemand w draft base x) (rec p base x)) :
    Regs (memberIds w base k v) (memDemand w draft base k v) (rewriteMember σ rec p base k v) := by
  by_cases hl : k = "const" ∨ k = "enum"
  · have e : rewriteMember σ rec p base k v = pure v := by simp [rewriteMember, hl]
    rw [e]
    have : memberIds w base k v = [] := by simp [memberIds, hl]
    rw [this]
    refine .pure ?_
    rintro key T (⟨h, _⟩ | ⟨h, _⟩)
    · exact h hl
    · exact literal_not_map hl h
  by_cases hm : k = "properties" ∨ k = "dependencies" ∨ k = "patternProperties"
  · have hm1 := isSchemaMap_iff.2 hm
    simp only [memberIds, if_neg hl, if_pos hm] at hi ⊢
    simp only [rewriteMember, hm1, if_true]
    rw [if_neg (by simpa using hl)]
    cases v with
    | obj c =>
      simp only at hi ⊢
      refine (Regs.map (range_regs (g := fun _ x => idsIn w base x) (D := fun _ x => docDemand w draft base x)
        hi fun i n x hx => ?_)).demand ?_
      · refine hrec _ _ (wf_obj hv _ hx) ?_
        exact hi.sublist (List.sublist_flatten_of_mem (List.mem_map.2 ⟨_, hx, rfl⟩))
      · rintro key T (⟨_, h, _⟩ | ⟨_, c', n, x, h1, h2, h3⟩)
        · exact absurd hm h
        · cases h1; exact ⟨_, h2, h3⟩
    | _ =>
      refine .pure ?_
      rintro key T (⟨_, h, _⟩ | ⟨_, c', n, x, h1, _⟩)
      · exact absurd hm h
      · cases h1
  · have hm1 : ¬ (isSchemaMap k = true) := fun h => hm (isSchemaMap_iff.1 h)
    simp only [memberIds, if_neg hl, if_neg hm] at hi ⊢
    simp only [rewriteMember, hm1, if_false]
    rw [if_neg (by simpa using hl)]
    refine (hrec p v hv hi).demand ?_
    rintro key T (⟨_, _, h⟩ | ⟨h, _⟩)
    · exact h
    · exact absurd h hm

theorem rewriteObj_regs {rec p base draft m} (hm : (Json.obj m).WF) (hids : (idsIn w base (.obj m)).Nodup)
    (hstrict : ∀ p b x, x.WF → (idsIn w b x).Nodup → Uses (idsIn w b x) (rec p b x) (fun y => RwStrict w b x y.1))
    (hrec : ∀ p b x, x.WF → (idsIn w b x).Nodup → Regs (idsIn w b x) (docDemand w draft b x) (rec p b x)) :
    Regs (idsIn w base (.obj m)) (docDemand w draft base (.obj m)) (rewriteObj w σ rec p base draft m) := by
  have hn := wf_nodup hm
  have hstr := rewriteObj_strict (σ := σ) (p := p) (draft := draft) hm hids hstrict
  rw [idsIn, idsInM_eq] at hids hstr ⊢
  obtain ⟨nd1, nd2, nd3⟩ := List.nodup_append.1 hids
  -- what is demanded of an object
  have hsplit : ∀ k T, docDemand w draft base (.obj m) k T →
      (k ∈ absId w base m ∧ ∀ e : PoolDoc, RwStrict w base (.obj m) e.doc → e.draft = draft → T e) ∨
      ∃ e ∈ m, memDemand w draft (scopeOf w base m) e.1 e.2 k T := by
    rintro k T ⟨b', m', h, hk, hT⟩
    generalize hx : Json.obj m' = X at h
    cases h with
    | here => cases hx; exact .inl ⟨hk, hT⟩
    | member _ _ key v _ _ h1 h2 h3 h4 =>
      subst hx
      exact .inr ⟨_, h1, .inl ⟨h2, h3, b', m', h4, hk, hT⟩⟩
    | named _ _ c key n x _ _ h1 h2 h3 h4 =>
      subst hx
      exact .inr ⟨_, h1, .inr ⟨h2, c, n, x, rfl, h3, b', m', h4, hk, hT⟩⟩
  have hmemIds : ∀ key v k T, (key, v) ∈ m → memDemand w draft (scopeOf w base m) key v k T →
      k ∈ memberIds w (scopeOf w base m) key v := by
    intro key v k T hmem hd
    have hvi : (memberIds w (scopeOf w base m) key v).Nodup :=
      nd2.sublist (List.sublist_flatten_of_mem (List.mem_map.2 ⟨_, hmem, rfl⟩))
    exact (rewriteMember_regs (σ := σ) (p := p) (rec := fun p r v => do let x ← rec p r v; return x.1) hvi (wf_obj hm _ hmem)
      fun p x hx hi => .map (hrec p _ x hx hi)).1 k T hd
  refine ⟨fun k T hd => ?_, ?_⟩
  · rcases hsplit k T hd with ⟨h, _⟩ | ⟨e, he, h⟩
    · exact List.mem_append.2 (.inl h)
    · exact List.mem_append.2 (.inr (List.mem_flatMap.2 ⟨e, he, hmemIds _ _ _ _ he h⟩))
  intro l y l' hfree h
  have hres := (hstr l y l' hfree h).1
  unfold rewriteObj at h
  simp only [M.bind_ok] at h
  obtain ⟨o, s1, h1, sc, s2, h2, t, s3, h3, h⟩ := h
  have hst : s1 = l := idText_still.ok h1
  subst hst
  have := idText_eq h1
  subst this
  obtain ⟨e1, _⟩ := idScope_eq h2
  obtain ⟨e2, rfl⟩ := idScope_abs h2
  have ht : t = false ∧ s3 = s2 := by
    cases hs : sc.2 with
    | none => rw [hs] at h3; simp only [taken, M.pure_ok] at h3; exact ⟨h3.1.symm, h3.2.symm⟩
    | some k =>
      rw [hs] at h3
      simp only [taken, inPool, M.bind_ok, M.get_ok, M.pure_ok] at h3
      obtain ⟨_, _, ⟨rfl, rfl⟩, h4, rfl⟩ := h3
      refine ⟨?_, rfl⟩
      rw [← h4]
      simp only [existsMapKey]
      rw [hfree k (by rw [← e2, hs]; simp)]
      rfl
  obtain ⟨rfl, rfl⟩ := ht
  simp only [Bool.false_eq_true, if_false, M.bind_ok, M.pure_ok] at h
  obtain ⟨_, s4, h4, m1, s5, h5, m2, s6, h6, _, s7, h7, rfl, rfl⟩ := h
  simp only at hres
  have hreg : ∀ {d : PoolDoc} {s s' : LState}, register sc.2 d s = (.ok (), s') →
      (∀ k, k ∉ absId w base m → getKey k s'.pool = getKey k s.pool) ∧ ∀ k ∈ absId w base m, getKey k s'.pool = some d := by
    intro d s s' hr
    rw [← e2]
    cases hs : sc.2 with
    | none =>
      rw [hs] at hr
      simp only [register, M.pure_ok] at hr
      rw [hr.2]; exact ⟨fun _ _ => rfl, by simp⟩
    | some k0 =>
      rw [hs] at hr
      simp only [register, putPool, M.modify_ok] at hr
      subst hr
      refine ⟨fun k hk => ?_, fun k hk => ?_⟩
      · exact getKey_putKey_ne (by rintro rfl; simp at hk)
      · simp at hk; subst hk; exact getKey_putKey_self
  have hs5 : s5 = s4 := rewriteRef_still.ok h5
  subst hs5
  have hm1 := rewriteRef_eq h5
  rw [e1] at hm1 h6
  have hwf1 : (Json.obj m1).WF := by
    rw [hm1]
    split
    · split
      · exact wf_replaceKey hm (.str _)
      · exact hm
    · exact hm
  have hids1 : m1.flatMap (fun e => memberIds w (scopeOf w base m) e.1 e.2)
      = m.flatMap (fun e => memberIds w (scopeOf w base m) e.1 e.2) := by
    rw [hm1]
    split
    · rename_i t0 hg
      split
      · rename_i a _
        unfold replaceKey
        rw [List.flatMap_map]
        refine List.flatMap_congr fun e he => ?_
        by_cases hk : e.1 = "$ref"
        · obtain ⟨k, v⟩ := e
          simp only at hk
          subst hk
          have := getKey_of_mem hn he
          rw [hg] at this
          cases this
          simp [memberIds, idsIn]
        · simp [hk]
      · rfl
    · rfl
  have hmem1 : ∀ e ∈ m, (∃ k T, memDemand w draft (scopeOf w base m) e.1 e.2 k T) → e ∈ m1 := by
    rintro ⟨key, v⟩ he ⟨k, T, hd⟩
    rw [hm1]
    split
    · rename_i t0 hg
      split
      · unfold replaceKey
        refine List.mem_map.2 ⟨_, he, ?_⟩
        have : key ≠ "$ref" := by
          rintro rfl
          have := getKey_of_mem hn he
          rw [hg] at this
          cases this
          rcases hd with ⟨_, _, h⟩ | ⟨_, _, _, _, h, _⟩
          · exact docDemand_str h
          · cases h
        simp [this]
      · exact he
    · exact he
  have key := range_regs (σ := σ) (q := 51 :: p) (i := 0) (m := m1) (m' := m1) (g := memberIds w (scopeOf w base m))
    (D := memDemand w draft (scopeOf w base m))
    (f := fun k key v => rewriteMember σ (fun p r v => do let x ← rec p r v; return x.1) (k :: 52 :: p)
      (scopeOf w base m) key v) (by rw [hids1]; exact nd2) (by
      intro i k v hv
      have hvi : (memberIds w (scopeOf w base m) k v).Nodup := by
        rw [← hids1] at nd2
        exact nd2.sublist (List.sublist_flatten_of_mem (List.mem_map.2 ⟨_, hv, rfl⟩))
      exact rewriteMember_regs hvi (wf_obj hwf1 _ hv) fun p x hx hi => .map (hrec p _ x hx hi))
  rw [hids1] at key
  have r4 := hreg h4
  have r7 := hreg h7
  have hfree5 : ∀ k ∈ m.flatMap (fun e => memberIds w (scopeOf w base m) e.1 e.2), getKey k s5.pool = none := by
    intro k hk
    rw [r4.1 k fun h => nd3 k h k hk rfl]
    exact hfree k (List.mem_append.2 (.inr hk))
  obtain ⟨k1, k2, k3⟩ := key.2 s5 m2 s6 hfree5 h6
  refine ⟨fun k hk => ?_, fun k hk => ?_, fun k T hd => ?_⟩
  · simp only [List.mem_append, not_or] at hk
    rw [r7.1 k hk.1, k1 k hk.2, r4.1 k hk.1]
  · by_cases ha : k ∈ absId w base m
    · rw [r7.2 k ha]; simp
    · rw [r7.1 k ha]
      exact k2 k ((List.mem_append.1 hk).resolve_left ha)
  · rcases hsplit k T hd with ⟨ha, hT⟩ | ⟨e, he, hd'⟩
    · exact ⟨_, r7.2 k ha, hT _ hres rfl⟩
    · have hin : k ∈ m.flatMap (fun e => memberIds w (scopeOf w base m) e.1 e.2) :=
        List.mem_flatMap.2 ⟨e, he, hmemIds _ _ _ _ he hd'⟩
      rw [r7.1 k fun h => nd3 k h k hin rfl]
      exact k3 k T ⟨e, hmem1 e he ⟨k, T, hd'⟩, hd'⟩

theorem schemaAt_ids {b doc b' X} (h : SchemaAt w b doc b' X) : ∀ {m k}, X = .obj m → k ∈ absId w b' m →
    k ∈ idsIn w b doc := by
  induction h with
  | here b D => rintro m k rfl hk; rw [idsIn]; exact List.mem_append.2 (.inl hk)
  | elem b xs x b' X hx _ ih =>
    intro m k hX hk
    rw [idsIn, idsInL_eq]
    exact List.mem_flatMap.2 ⟨x, hx, ih hX hk⟩
  | member b m0 key v b' X h1 h2 h3 _ ih =>
    intro m k hX hk
    rw [idsIn, idsInM_eq]
    refine List.mem_append.2 (.inr (List.mem_flatMap.2 ⟨_, h1, ?_⟩))
    simp only [memberIds]
    rw [if_neg (show ¬ (key = "const" ∨ key = "enum") from h2),
      if_neg (show ¬ (key = "properties" ∨ key = "dependencies" ∨ key = "patternProperties") from h3)]
    exact ih hX hk
  | named b m0 c key n x b' X h1 h2 h3 _ ih =>
    intro m k hX hk
    rw [idsIn, idsInM_eq]
    refine List.mem_append.2 (.inr (List.mem_flatMap.2 ⟨_, h1, ?_⟩))
    simp only [memberIds]
    rw [if_neg (show ¬ (key = "const" ∨ key = "enum") from fun h => literal_not_map h h2),
      if_pos (show key = "properties" ∨ key = "dependencies" ∨ key = "patternProperties" from h2)]
    exact List.mem_flatMap.2 ⟨_, h3, ih hX hk⟩

theorem ids_schemaAt : ∀ (n : Nat) {b doc k}, doc.size ≤ n → k ∈ idsIn w b doc →
    ∃ b' m, SchemaAt w b doc b' (.obj m) ∧ k ∈ absId w b' m := by
  intro n
  induction n with
  | zero => intro b doc k hn; have := doc.size_pos; omega
  | succ n ih =>
    intro b doc k hn hk
    cases doc with
    | arr xs =>
      rw [idsIn, idsInL_eq] at hk
      obtain ⟨x, hx, hk⟩ := List.mem_flatMap.1 hk
      obtain ⟨b', m, h1, h2⟩ := ih (by have := Json.size_lt_of_mem hx; omega) hk
      exact ⟨b', m, .elem _ _ _ _ _ hx h1, h2⟩
    | obj m =>
      rw [idsIn, idsInM_eq] at hk
      rcases List.mem_append.1 hk with hk | hk
      · exact ⟨b, m, .here _ _, hk⟩
      · obtain ⟨⟨key, v⟩, hv, hk⟩ := List.mem_flatMap.1 hk
        have hsv := Json.size_lt_of_mem_kv hv
        simp only [memberIds] at hk
        by_cases hl : key = "const" ∨ key = "enum"
        · rw [if_pos hl] at hk; cases hk
        rw [if_neg hl] at hk
        by_cases hm : key = "properties" ∨ key = "dependencies" ∨ key = "patternProperties"
        · rw [if_pos hm] at hk
          cases v with
          | obj c =>
            simp only at hk
            obtain ⟨⟨n', x⟩, hx, hk⟩ := List.mem_flatMap.1 hk
            have hsx := Json.size_lt_of_mem_kv hx
            obtain ⟨b', m', h1, h2⟩ := ih (by show x.size ≤ n; omega) hk
            exact ⟨b', m', .named _ _ _ _ _ _ _ _ hv hm hx h1, h2⟩
          | _ => cases hk
        · rw [if_neg hm] at hk
          obtain ⟨b', m', h1, h2⟩ := ih (by omega) hk
          exact ⟨b', m', .member _ _ _ _ _ _ hv hl hm h1, h2⟩
    | _ => simp [idsIn] at hk

theorem docDemand_ids {draft b doc k T} (h : docDemand w draft b doc k T) : k ∈ idsIn w b doc := by
  obtain ⟨b', m, h1, h2, _⟩ := h
  exact schemaAt_ids h1 rfl h2

theorem rewrite_regs {draft} : ∀ n p base doc, doc.WF → (idsIn w base doc).Nodup →
    Regs (idsIn w base doc) (docDemand w draft base doc) (rewrite w σ draft n p base doc) := by
  intro n
  induction n with
  | zero => intro p base doc _ _; exact .fail fun _ _ h => docDemand_ids h
  | succ n ih =>
    intro p base doc hd hi
    unfold rewrite
    split
    · rename_i xs
      rw [idsIn, idsInL_eq] at hi ⊢
      refine (Regs.map (Regs.mapL (D := fun x => docDemand w draft base x) hi fun k x hx =>
        .map (ih _ _ x (wf_arr hd x hx) ?_))).demand ?_
      · exact hi.sublist (List.sublist_flatten_of_mem (List.mem_map.2 ⟨_, hx, rfl⟩))
      · rintro k T ⟨b', m, h, hk, hT⟩
        generalize hx : Json.obj m = X at h
        cases h with
        | here => cases hx
        | elem _ _ x _ _ h1 h2 => subst hx; exact ⟨x, h1, b', m, h2, hk, hT⟩
    · exact rewriteObj_regs hd hi (rewrite_strict n) ih
    · rename_i h1 h2
      have e : idsIn w base doc = [] := by
        cases doc with
        | arr xs => exact absurd rfl (h1 xs)
        | obj m => exact absurd rfl (h2 m)
        | _ => simp [idsIn]
      rw [e]
      refine .pure fun k T h => ?_
      have := docDemand_ids h
      rw [e] at this
      cases this

/-- What a successful `parseReferences` of a document with new and distinct identifiers does to the
pool. -/
theorem parseReferences_regs {p doc ref pooled} (hd : doc.WF) (hi : (idsIn w ref doc).Nodup)
    {l x l'} (hf : ∀ k ∈ idsIn w ref doc, getKey k l.pool = none)
    (h : parseReferences w σ p doc ref pooled l = (.ok x, l')) (hx : x.2 = none) :
    ∃ draft l0, detectDraft w doc l = (.ok draft, l0) ∧
    (pooled = true → getKey ref l'.pool = some ⟨x.1, draft⟩) ∧
    (∀ k, k ∉ idsIn w ref doc → (pooled = true → k ≠ ref) → getKey k l'.pool = getKey k l.pool) ∧
    (∀ b m k, SchemaAt w ref doc b (.obj m) → k ∈ absId w b m → (pooled = true → k ≠ ref) →
      ∃ e, getKey k l'.pool = some e ∧ RwStrict w b (.obj m) e.doc ∧ e.draft = draft) := by
  simp only [parseReferences, M.bind_ok] at h
  obtain ⟨b, s1, hb, h⟩ := h
  simp only [inPool, M.bind_ok, M.get_ok, M.pure_ok] at hb
  obtain ⟨_, _, ⟨rfl, rfl⟩, rfl, rfl⟩ := hb
  split at h
  · rw [M.pure_ok] at h
    rw [← h.1] at hx; cases hx
  · simp only [M.bind_ok, M.pure_ok] at h
    obtain ⟨dr, s2, hdr, y, s3, h3, _, s4, h4, rfl, rfl⟩ := h
    have hst : s2 = l := by
      have : Still (detectDraft w doc) := detectDraft_still
      exact this.ok hdr
    subst hst
    obtain ⟨k1, k2, k3⟩ := (rewrite_regs _ _ _ _ hd hi).2 s2 _ _ hf h3
    have hput : ∀ k, (pooled = true → k ≠ ref) → getKey k s4.pool = getKey k s3.pool := by
      intro k hk
      unfold putIf at h4
      split at h4
      · rename_i hp
        simp only [putPool, M.modify_ok] at h4
        subst h4
        exact getKey_putKey_ne (hk hp)
      · rw [M.pure_ok] at h4
        rw [h4.2]
    refine ⟨dr, _, hdr, ?_, ?_, ?_⟩
    · intro hp
      simp only [putIf, hp, if_true, putPool, M.modify_ok] at h4
      subst h4
      exact getKey_putKey_self
    · intro k hk hr
      rw [hput k hr, k1 k hk]
    · intro b m k hm hk hr
      rw [hput k hr]
      exact k3 k _ ⟨b, m, hm, hk, fun e h1 h2 => ⟨h1, h2⟩⟩

end strict
end GJS

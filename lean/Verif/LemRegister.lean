import Verif.LemRewrite
import Verif.LemTotal
/-
Helper lemmas: what rewriting puts into the pool.
-/
namespace GJS
open Spec

/-- Every document in the pool satisfies `N`. -/
def Spec.PoolAll (N : Json → Prop) (l : LState) : Prop := ∀ k e, getKey k l.pool = some e → N e.doc

/-- Documents `A b D` that may be rewritten with base `b`, and documents `N D` that may be in the
pool. -/
structure RwClosed (w : World) (A : String → Json → Prop) (N : Json → Prop) : Prop where
  wf : ∀ b D, A b D → D.WF
  elem : ∀ b xs x, A b (.arr xs) → x ∈ xs → A b x
  member : ∀ b m k v, A b (.obj m) → (k, v) ∈ m → ¬ Literal k → ¬ SchemaMap k → A (scopeOf w b m) v
  inMap : ∀ b m k c n x, A b (.obj m) → (k, .obj c) ∈ m → SchemaMap k → (n, x) ∈ c → A (scopeOf w b m) x
  str : ∀ b m t, A b (.obj m) → A (scopeOf w b m) (.str t)
  done : ∀ b D D', A b D → Rw w b D D' → N D'
  raw : ∀ b D, A b D → N D

section
variable {w : World} {σ : Sched} {A : String → Json → Prop} {N : Json → Prop}

theorem Spec.PoolAll.put {l : LState} {k e} (h : PoolAll N l) (he : N e.doc) :
    PoolAll N { l with pool := putKey k e l.pool } := by
  intro k' e' h'
  by_cases hkk : k' = k
  · subst hkk; rw [getKey_putKey_self] at h'; cases h'; exact he
  · rw [getKey_putKey_ne hkk] at h'; exact h k' e' h'

theorem register_all {o e} (he : N e.doc) : Tri (PoolAll N) (register o e) (fun _ => True) := by
  unfold register
  cases o with
  | none => exact .pure trivial
  | some k => exact .modify fun l hl => hl.put he

theorem rewriteMember_all {P : LState → Prop} {rec p base k v} {S : Json → Prop} (hv : v.WF) (hs : ¬ Literal k → ¬ SchemaMap k → S v)
    (hc : ∀ c n x, v = .obj c → SchemaMap k → (n, x) ∈ c → S x)
    (hrec : ∀ p x, S x → Tri P (rec p base x) (Rw w base x)) (hk : k = "$ref" → ∀ t, v ≠ .str t) :
    Tri P (rewriteMember σ rec p base k v) (RwMember w base k v) := by
  unfold rewriteMember
  split
  · rename_i h; exact .pure (.literal _ _ _ (by simpa [Literal] using h))
  · rename_i hl
    split
    · rename_i hm
      have hm := isSchemaMap_iff.1 hm
      split
      · rename_i c
        refine .bind (range_all (R := fun _ x x' => Rw w base x x') (wf_nodup hv) fun i n x hx => ?_) fun c' hc' =>
          .pure (.map _ _ _ _ hm hc'.1 hc'.2)
        exact hrec _ _ (hc c n x rfl hm hx)
      · rename_i hne
        exact .pure (.noMap _ _ _ hm hne)
    · rename_i hm
      refine (hrec p v (hs (by simpa [Literal] using hl) fun h => hm (isSchemaMap_iff.2 h))).mono fun v' h => .sub _ _ _ _ (by simpa [Literal] using hl) (fun h => hm (isSchemaMap_iff.2 h)) hk h

theorem idText_triv {P : τ → Prop} {m} : Tri P (idText w m) (fun o => o = idOf m) :=
  fun s hs => ⟨by rw [idText_still s]; exact hs, fun _ _ h => idText_eq h⟩

theorem idScope_triv {P : τ → Prop} {b m} : Tri P (idScope w b (idOf m))
    (fun x => x.1 = scopeOf w b m ∧ (∀ k, x.2 = some k → ∃ t, idOf m = some t)) :=
  fun s hs => ⟨by rw [idScope_still s]; exact hs, fun _ _ h => idScope_eq h⟩

theorem taken_triv {P : LState → Prop} {o} : Tri P (taken o) (fun t => t = true → ∃ k, o = some k) := by
  intro s hs
  refine ⟨by rw [taken_still s]; exact hs, ?_⟩
  rintro a l' h rfl
  cases o with
  | none => simp [taken] at h
  | some k => exact ⟨k, rfl⟩

theorem rewriteRef_triv {P : τ → Prop} {b m} : Tri P (rewriteRef w b m) (fun m1 =>
    m1 = match getKey "$ref" m with
      | some (.str t) =>
        match (w.norm t).bind (w.inherits b) with
        | some a => replaceKey "$ref" (.str a) m
        | none => m
      | _ => m) :=
  fun s hs => ⟨by rw [rewriteRef_still s]; exact hs, fun _ _ h => rewriteRef_eq h⟩

theorem rewriteObj_all {rec p b draft m} (hc : RwClosed w A N) (hm : A b (.obj m))
    (hrec : ∀ p b x, A b x → Tri (PoolAll N) (rec p b x) (fun y => Rw w b x y.1)) :
    Tri (PoolAll N) (rewriteObj w σ rec p b draft m) (fun y => Rw w b (.obj m) y.1) := by
  have hmw := hc.wf _ _ hm
  have hn := wf_nodup hmw
  unfold rewriteObj
  refine .bind idText_triv fun o ho => ?_
  subst ho
  refine .bind idScope_triv fun sc hsc => .bind taken_triv fun t ht => ?_
  split
  · rename_i h
    obtain ⟨k, hk⟩ := ht h
    obtain ⟨t, ht⟩ := hsc.2 k hk
    exact .pure (.taken _ _ _ trivial ht)
  · refine .bind (register_all (hc.raw _ _ hm)) fun _ _ => .bind rewriteRef_triv fun m1 hm1 => ?_
    rw [hsc.1] at hm1 ⊢
    have hkeys : m1.map Prod.fst = m.map Prod.fst := by
      rw [hm1]
      split
      · split
        · exact keys_replaceKey
        · rfl
      · rfl
    have hmem : ∀ e ∈ m1, e ∈ m ∨ ∃ a, e = ("$ref", .str a) := by
      intro e he
      rw [hm1] at he
      split at he
      · split at he
        · rcases mem_replaceKey he with h | h
          · exact .inl h
          · exact .inr ⟨_, h⟩
        · exact .inl he
      · exact .inl he
    have hA : ∀ k v, (k, v) ∈ m1 → ¬ Literal k → ¬ SchemaMap k → A (scopeOf w b m) v := by
      intro k v hv hl hs
      rcases hmem _ hv with h | ⟨a, h⟩
      · exact hc.member _ _ _ _ hm h hl hs
      · cases h; exact hc.str _ _ _ hm
    have hW : ∀ k v, (k, v) ∈ m1 → v.WF := by
      intro k v hv
      rcases hmem _ hv with h | ⟨a, h⟩
      · exact wf_obj hmw _ h
      · cases h; exact .str _
    refine .bind (range_all (P := PoolAll N) (σ := σ) (q := 51 :: p) (i := 0)
      (R := fun k v v' => (k = "$ref" → ∀ t, v = .str t → v' = .str t) ∧
        ((k = "$ref" → ∀ t, v ≠ .str t) → RwMember w (scopeOf w b m) k v v'))
      (f := fun k key v => rewriteMember σ (fun p r v => do let x ← rec p r v; return x.1) (k :: 52 :: p)
        (scopeOf w b m) key v) (m := m1) (by rw [hkeys]; exact hn) ?_) fun m2 hm2 => ?_
    · intro i k v hv
      have hr : ∀ p x, A (scopeOf w b m) x → Tri (PoolAll N) (do let y ← rec p (scopeOf w b m) x; return y.1)
          (Rw w (scopeOf w b m) x) := fun p x hx => .bind (hrec p _ x hx) fun y hy => .pure hy
      by_cases hk : k = "$ref" ∧ ∃ t, v = .str t
      · obtain ⟨rfl, t, rfl⟩ := hk
        have e : ∀ rec' p', rewriteMember σ rec' p' (scopeOf w b m) "$ref" (.str t) = rec' p' (scopeOf w b m) (.str t) :=
          fun _ _ => rfl
        rw [e]
        refine (hr _ _ (hA _ _ hv (by simp [Literal]) (by simp [SchemaMap]))).mono fun v' hv' => ?_
        cases hv' with
        | scalar =>
          refine ⟨?_, ?_⟩
          · rintro _ t' h; exact h
          · intro h; exact absurd rfl (h rfl t)
      · refine (rewriteMember_all (w := w) (S := A (scopeOf w b m)) (hW _ _ hv) (hA _ _ hv) ?_ hr ?_).mono
          fun v' hv' => ⟨?_, fun _ => hv'⟩
        · rintro c n x rfl hsm hx
          rcases hmem _ hv with h | ⟨a, h⟩
          · exact hc.inMap _ _ _ _ _ _ hm h hsm hx
          · cases h
        · rintro rfl t rfl; exact hk ⟨rfl, t, rfl⟩
        · rintro rfl t rfl; exact absurd ⟨rfl, t, rfl⟩ hk
    · obtain ⟨k1, k2⟩ := hm2
      have rw2 : Rw w b (.obj m) (.obj m2) := by
        refine .obj _ _ _ (by rw [← k1, hkeys]) ?_
        intro j k v v' hj hj'
        by_cases hr : k = "$ref" ∧ ∃ t, v = .str t
        · obtain ⟨rfl, t, rfl⟩ := hr
          have hg := getKey_of_mem hn (List.mem_of_getElem? hj)
          rw [hg] at hm1
          simp only at hm1
          split at hm1
          · rename_i a ha
            have hj1 : m1[j]? = some ("$ref", .str a) := by rw [hm1, getElem?_replaceKey, hj]; rfl
            have := (k2 j _ _ _ hj1 hj').1 rfl a rfl
            subst this
            exact .ref _ _ _ ha
          · rename_i ha
            subst hm1
            have := (k2 j _ _ _ hj hj').1 rfl t rfl
            subst this
            exact .badRef _ _ ha
        · have hj1 : m1[j]? = some (k, v) := by
            rw [hm1]
            split
            · split
              · rename_i _ t hg _ a ha
                rw [getElem?_replaceKey, hj]
                have : k ≠ "$ref" := by
                  rintro rfl
                  have e := getKey_of_mem hn (List.mem_of_getElem? hj)
                  rw [hg] at e
                  cases e
                  exact hr ⟨rfl, t, rfl⟩
                simp [this]
              · exact hj
            · exact hj
          exact (k2 j _ _ _ hj1 hj').2 (by rintro rfl t rfl; exact hr ⟨rfl, t, rfl⟩)
      exact .bind (register_all (hc.done _ _ _ hm rw2)) fun _ _ => .pure rw2

theorem rewrite_all (hc : RwClosed w A N) {draft} : ∀ n p b doc, A b doc →
    Tri (PoolAll N) (rewrite w σ draft n p b doc) (fun y => Rw w b doc y.1) := by
  intro n
  induction n with
  | zero => intro p b doc _; exact .fail
  | succ n ih =>
    intro p b doc hd
    unfold rewrite
    split
    · rename_i xs
      refine .bind (Tri.mapL (Q := fun x y => Rw w b x y) fun k x hx =>
        .bind (ih _ _ x (hc.elem _ _ _ hd hx)) fun y hy => .pure hy) fun ys hys => .pure (.arr _ _ _ hys.1.symm hys.2)
    · exact rewriteObj_all hc hd ih
    · rename_i h1 h2
      exact .pure (.scalar _ _ h1 h2)

theorem parseReferences_all (hc : RwClosed w A N) {p doc ref pooled} (hd : A ref doc) :
    Tri (PoolAll N) (parseReferences w σ p doc ref pooled) (fun x => N x.1) := by
  unfold parseReferences
  refine .bind inPool_still.tri fun there _ => ?_
  split
  · exact .pure (hc.raw _ _ hd)
  · refine .bind detectDraft_still.tri fun o _ => .bind (rewrite_all hc _ _ _ _ hd) fun x hx =>
      .bind (Q := fun _ => True) ?_ fun _ _ => .pure (hc.done _ _ _ hd hx)
    unfold putIf
    split
    · exact .modify fun l hl => hl.put (hc.done _ _ _ hd hx)
    · exact .pure trivial

theorem parseReferencesIgnore_all (hc : RwClosed w A N) {p doc ref} (hd : A ref doc) :
    Tri (PoolAll N) (parseReferencesIgnore w σ p doc ref) N := by
  intro l hl
  obtain ⟨h1, h2⟩ := parseReferences_all (σ := σ) (p := p) (pooled := true) hc hd l hl
  unfold parseReferencesIgnore
  cases hx : parseReferences w σ p doc ref true l with
  | mk r l1 =>
    rw [hx] at h1
    cases r with
    | ok x =>
      refine ⟨h1, ?_⟩
      intro a l' h
      simp only [Prod.mk.injEq, Except.ok.injEq] at h
      rw [← h.1]; exact h2 _ _ hx
    | error e =>
      cases e with
      | err e =>
        refine ⟨h1, ?_⟩
        intro a l' h
        simp only [Prod.mk.injEq, Except.ok.injEq] at h
        rw [← h.1]; exact hc.raw _ _ hd
      | panic => exact ⟨h1, by intro a l' h; simp at h⟩
      | fuel => exact ⟨h1, by intro a l' h; simp at h⟩

/-- `GetDocument` only hands out documents of `N`. -/
theorem getDocument_all (hc : RwClosed w A N) {p ref} (hp : ∀ D d, N D → w.pointer ref D = some d → N d)
    (hl : ∀ n f d, loadReference w n f ref = some d → A (w.base ref) d) :
    Tri (PoolAll N) (getDocument w σ p ref) (fun e => N e.doc) := by
  have hget : ∀ k, Tri (PoolAll N) (poolGet k) (fun o => ∀ e, o = some e → N e.doc) := by
    intro k
    refine .bind (.get (Q := fun l => PoolAll N l) fun l h => h) fun l h => .pure fun e he => h k e he
  have hptr : ∀ D, N D → Tri (PoolAll N) (pointerGet w ref D) N := by
    intro D hD
    unfold pointerGet
    split
    · rename_i d hd; exact .pure (hp _ _ hD hd)
    · exact .err
  unfold getDocument
  refine .bind (hget _) fun e1 h1 => ?_
  split
  · exact .pure (h1 _ rfl)
  · refine .bind (hget _) fun e2 h2 => ?_
    split
    · rename_i e
      unfold getCached
      exact .bind (hptr _ (h2 _ rfl)) fun d hd => .bind (.modify fun l hl => hl.put hd) fun _ _ => .pure hd
    · unfold getRemote
      split
      · exact .err
      · refine .bind (Q := A (w.base ref)) ?_ fun doc hd => .bind (parseReferencesIgnore_all hc hd) fun doc' hd' =>
          .bind (Q := fun _ => True) ?_ fun dr _ => .bind (hptr _ hd') fun d hd => .pure hd
        · intro l hpl
          unfold fetch
          simp only
          cases hlr : loadReference w l.clock l.factory ref with
          | none => exact ⟨hpl, by intro a l' h; simp at h⟩
          | some d =>
            refine ⟨hpl, ?_⟩
            intro a l' h
            simp only [Prod.mk.injEq, Except.ok.injEq] at h
            rw [← h.1]; exact hl _ _ _ hlr
        · intro l hpl
          unfold schemaDraftIgnore
          have := parseSchemaURL_still (w := w) (doc := doc') l
          cases hx : parseSchemaURL w doc' l with
          | mk r l1 =>
            rw [hx] at this
            simp only at this
            subst this
            cases r with
            | ok x => exact ⟨hpl, fun _ _ _ => trivial⟩
            | error e => cases e <;> exact ⟨hpl, fun _ _ _ => trivial⟩
end
end GJS

import Verif.LemRewrite
/-
Helper lemmas: when the identifiers in a document are new and distinct, rewriting leaves no schema
out.
-/
namespace GJS
open Spec

/-- Identifiers below a member of a schema object. -/
def memberIds (w : World) (base k : String) (v : Json) : List String :=
  if k = "const" ∨ k = "enum" then []
  else if k = "properties" ∨ k = "dependencies" ∨ k = "patternProperties" then
    match v with
    | .obj c => c.flatMap (fun e => idsIn w base e.2)
    | _ => []
  else idsIn w base v

theorem idsInL_eq {w : World} {base} : ∀ {xs : List Json}, idsInL w base xs = xs.flatMap (idsIn w base)
  | [] => by simp [idsInL]
  | x :: xs => by rw [idsInL, idsInL_eq, List.flatMap_cons]

theorem idsInV_eq {w : World} {base} : ∀ {c : List (String × Json)}, idsInV w base c = c.flatMap (fun e => idsIn w base e.2)
  | [] => by simp [idsInV]
  | (k, x) :: xs => by rw [idsInV, idsInV_eq, List.flatMap_cons]

theorem idsInM_eq {w : World} {base} : ∀ {m : List (String × Json)},
    idsInM w base m = m.flatMap (fun e => memberIds w base e.1 e.2)
  | [] => by simp [idsInM]
  | (k, v) :: r => by
    have ih := idsInM_eq (w := w) (base := base) (m := r)
    rw [List.flatMap_cons, ← ih]
    cases v <;> simp only [idsInM, memberIds, idsIn, idsInV_eq, idsInL_eq, ite_self, List.nil_append]

/-- A computation that registers identifiers from `A` only, and returns something satisfying `Q`
if they are all free at the start. -/
def Uses (A : List String) (x : M LState α) (Q : α → Prop) : Prop :=
  ∀ l a l', (∀ k ∈ A, getKey k l.pool = none) → x l = (.ok a, l') →
    Q a ∧ ∀ k, getKey k l'.pool ≠ none → getKey k l.pool ≠ none ∨ k ∈ A

namespace Uses

theorem pure {a : α} {A} {Q : α → Prop} (h : Q a) : Uses A (Pure.pure a : M LState α) Q := by
  intro l b l' _ hb
  rw [M.pure_ok] at hb
  obtain ⟨rfl, rfl⟩ := hb
  exact ⟨h, fun _ h => .inl h⟩

theorem fail {e} {A} {Q : α → Prop} : Uses A (M.fail e : M LState α) Q := by
  intro l b l' _ hb; simp at hb

theorem bind {x : M LState α} {f : α → M LState β} {A B} {Q : α → Prop} {R : β → Prop} (hd : ∀ k ∈ A, k ∉ B)
    (h1 : Uses A x Q) (h2 : ∀ a, Q a → Uses B (f a) R) : Uses (A ++ B) (x >>= f) R := by
  intro l b l' hf h
  obtain ⟨a, s1, e1, e2⟩ := M.bind_ok.1 h
  obtain ⟨q1, r1⟩ := h1 l a s1 (fun k hk => hf k (by simp [hk])) e1
  have hfree : ∀ k ∈ B, getKey k s1.pool = none := by
    intro k hk
    by_cases hn : getKey k s1.pool = none
    · exact hn
    · rcases r1 k hn with h | h
      · exact absurd (hf k (by simp [hk])) h
      · exact absurd hk (hd k h)
  obtain ⟨q2, r2⟩ := h2 a q1 s1 b l' hfree e2
  refine ⟨q2, fun k hk => ?_⟩
  rcases r2 k hk with h | h
  · rcases r1 k h with h | h
    · exact .inl h
    · exact .inr (by simp [h])
  · exact .inr (by simp [h])

theorem mono {x : M LState α} {A} {Q R : α → Prop} (h : Uses A x Q) (hQR : ∀ a, Q a → R a) : Uses A x R :=
  fun l a l' hf hx => ⟨hQR a (h l a l' hf hx).1, (h l a l' hf hx).2⟩

theorem map {x : M LState α} {f : α → β} {A} {Q : α → Prop} {R : β → Prop} (h : Uses A x Q) (hQR : ∀ a, Q a → R (f a)) :
    Uses A (do let y ← x; return f y) R := by
  have := bind (B := []) (f := fun y => (Pure.pure (f y) : M LState β)) (R := R) (by simp) h
    (fun a ha => pure (hQR a ha))
  simpa using this

theorem perm {x : M LState α} {A B} {Q : α → Prop} (h : Uses A x Q) (hp : A.Perm B) : Uses B x Q :=
  fun l a l' hf hx => by
    obtain ⟨h1, h2⟩ := h l a l' (fun k hk => hf k (hp.mem_iff.1 hk)) hx
    exact ⟨h1, fun k hk => (h2 k hk).imp id hp.mem_iff.1⟩

theorem mapL {f : Nat → α → M LState β} {g : α → List String} {Q : α → β → Prop} : ∀ {xs : List α} {k : Nat},
    (xs.flatMap g).Nodup →
    (∀ k x, x ∈ xs → Uses (g x) (f k x) (Q x)) →
    Uses (xs.flatMap g) (GJS.mapL f k xs)
      (fun ys => ys.length = xs.length ∧ ∀ (i : Nat) x y, xs[i]? = some x → ys[i]? = some y → Q x y) := by
  intro xs
  induction xs with
  | nil => intro k _ _; exact pure (by simp)
  | cons x xs ih =>
    intro k hn hf
    rw [List.flatMap_cons] at hn ⊢
    obtain ⟨n1, n2, n3⟩ := List.nodup_append.1 hn
    refine bind (fun k h1 h2 => n3 k h1 k h2 rfl) (hf k x (by simp)) fun y hy => ?_
    refine map (ih n2 fun k x hx => hf k x (by simp [hx])) fun ys hys => ?_
    refine ⟨by simp [hys.1], ?_⟩
    intro i a b ha hb
    cases i with
    | zero => simp at ha hb; subst ha; subst hb; exact hy
    | succ i => simp at ha hb; exact hys.2 i a b ha hb

end Uses

theorem rangeKV_uses {f : Nat → String → Json → M LState Json} {g : String → Json → List String}
    {R : String → Json → Json → Prop} :
    ∀ {rest : List (String × Json)} {i m}, (rest.map Prod.fst).Nodup → (rest.flatMap (fun e => g e.1 e.2)).Nodup →
    (∀ i k v, (k, v) ∈ rest → Uses (g k v) (f i k v) (R k v)) →
    Uses (rest.flatMap (fun e => g e.1 e.2)) (rangeKV f i rest m) (fun m' => m'.map Prod.fst = m.map Prod.fst ∧
      ∀ (j : Nat) k v, m[j]? = some (k, v) → ∃ v', m'[j]? = some (k, v') ∧
        ((k ∉ rest.map Prod.fst ∧ v' = v) ∨ ∃ v0, (k, v0) ∈ rest ∧ R k v0 v')) := by
  intro rest
  induction rest with
  | nil =>
    intro i m _ _ _
    exact .pure ⟨rfl, fun j k v h => ⟨v, h, .inl ⟨by simp, rfl⟩⟩⟩
  | cons kv rest ih =>
    intro i m hn hg hf
    obtain ⟨k0, v0⟩ := kv
    simp only [List.map_cons, List.nodup_cons] at hn
    rw [List.flatMap_cons] at hg ⊢
    obtain ⟨n1, n2, n3⟩ := List.nodup_append.1 hg
    refine .bind (fun k h1 h2 => n3 k h1 k h2 rfl) (hf i k0 v0 (by simp)) fun v' hv' => ?_
    refine (ih hn.2 n2 fun i k v h => hf i k v (by simp [h])).mono ?_
    rintro m' ⟨hk, hm'⟩
    refine ⟨by rw [hk, keys_replaceKey], ?_⟩
    intro j k v hj
    by_cases hkk : k = k0
    · subst hkk
      have h1 : (replaceKey k v' m)[j]? = some (k, v') := by rw [getElem?_replaceKey, hj]; simp
      obtain ⟨v1, h2, h3⟩ := hm' j k v' h1
      refine ⟨v1, h2, .inr ?_⟩
      rcases h3 with ⟨_, rfl⟩ | ⟨v2, h4, _⟩
      · exact ⟨v0, by simp, hv'⟩
      · exact absurd (List.mem_map.2 ⟨_, h4, rfl⟩) hn.1
    · have h1 : (replaceKey k0 v' m)[j]? = some (k, v) := by
        rw [getElem?_replaceKey, hj]; simp [hkk]
      obtain ⟨v1, h2, h3⟩ := hm' j k v h1
      refine ⟨v1, h2, ?_⟩
      rcases h3 with ⟨h4, rfl⟩ | ⟨v2, h4, h5⟩
      · exact .inl ⟨by simp [hkk]; simpa using h4, rfl⟩
      · exact .inr ⟨v2, by simp [h4], h5⟩

/-- The loop over all members of a map, in any order. -/
theorem range_uses {f : Nat → String → Json → M LState Json} {g : String → Json → List String}
    {R : String → Json → Json → Prop} {σ : Sched} {q : Path} {i} {m : List (String × Json)}
    (hn : (m.map Prod.fst).Nodup) (hg : (m.flatMap (fun e => g e.1 e.2)).Nodup)
    (hf : ∀ i k v, (k, v) ∈ m → Uses (g k v) (f i k v) (R k v)) :
    Uses (m.flatMap (fun e => g e.1 e.2)) (rangeKV f i (σ.order q m) m) (fun m' => m.map Prod.fst = m'.map Prod.fst ∧
      ∀ (j : Nat) k v v', m[j]? = some (k, v) → m'[j]? = some (k, v') → R k v v') := by
  have hp := σ.perm q m
  have hp2 := hp.flatMap_right (fun e => g e.1 e.2)
  refine ((rangeKV_uses (R := R) ((hp.map Prod.fst).nodup_iff.2 hn) (hp2.nodup_iff.2 hg)
    fun i k v h => hf i k v (hp.mem_iff.1 h)).mono ?_).perm hp2
  rintro m' ⟨h1, h2⟩
  refine ⟨h1.symm, ?_⟩
  intro j k v v' hj hj'
  obtain ⟨v1, h3, h4⟩ := h2 j k v hj
  rw [hj'] at h3
  cases h3
  have hmem := List.mem_of_getElem? hj
  rcases h4 with ⟨h4, _⟩ | ⟨v0, h4, h5⟩
  · exact absurd ((hp.map Prod.fst).mem_iff.2 (List.mem_map.2 ⟨_, hmem, rfl⟩)) h4
  · have e1 := getKey_of_mem hn (hp.mem_iff.1 h4)
    have e2 := getKey_of_mem hn hmem
    rw [e1] at e2
    cases e2
    exact h5

theorem idScope_abs {w : World} {base m} {s s' : σ} {x} (h : (idScope w base (idOf m) : M σ _) s = (.ok x, s')) :
    x.2.toList = absId w base m ∧ s' = s := by
  unfold idScope at h
  unfold absId
  cases hi : idOf m with
  | none =>
    rw [hi] at h
    simp only [M.pure_ok] at h
    rw [← h.1]
    exact ⟨rfl, h.2.symm⟩
  | some t =>
    rw [hi] at h
    simp only at h
    cases hn : w.norm t with
    | none =>
      rw [hn] at h
      simp only [M.pure_ok] at h
      rw [← h.1]
      exact ⟨by simp [hn], h.2.symm⟩
    | some r =>
      rw [hn] at h
      simp only at h
      cases hu : w.inherits base r with
      | none => rw [hu] at h; simp at h
      | some u =>
        rw [hu] at h
        simp only [M.pure_ok] at h
        rw [← h.1]
        exact ⟨by simp [hn, hu], h.2.symm⟩

theorem rewriteMember_strict {w : World} {σ : Sched} {rec p base k v} (hv : v.WF) (hi : (memberIds w base k v).Nodup)
    (hrec : ∀ p x, x.WF → (idsIn w base x).Nodup → Uses (idsIn w base x) (rec p base x) (RwStrict w base x))
    (hk : k = "$ref" → ∀ t, v ≠ .str t) :
    Uses (memberIds w base k v) (rewriteMember σ rec p base k v) (RwMemberT w False base k v) := by
  by_cases hl : k = "const" ∨ k = "enum"
  · have e : rewriteMember σ rec p base k v = pure v := by simp [rewriteMember, hl]
    rw [e]
    exact .pure (.literal _ _ _ hl)
  by_cases hm : k = "properties" ∨ k = "dependencies" ∨ k = "patternProperties"
  · have hm1 := isSchemaMap_iff.2 hm
    simp only [memberIds, if_neg hl, if_pos hm] at hi ⊢
    simp only [rewriteMember, hm1, if_true]
    rw [if_neg (by simpa using hl)]
    cases v with
    | obj c =>
      simp only at hi ⊢
      refine .map (range_uses (g := fun _ x => idsIn w base x) (R := fun _ x x' => RwStrict w base x x') (wf_nodup hv)
        hi fun i n x hx => ?_) fun c' hc' => .map _ _ _ _ hm hc'.1 hc'.2
      refine hrec _ _ (wf_obj hv _ hx) ?_
      exact hi.sublist (List.sublist_flatten_of_mem (List.mem_map.2 ⟨_, hx, rfl⟩))
    | _ => exact .pure (.noMap _ _ _ hm (by simp))
  · have hm1 : ¬ (isSchemaMap k = true) := fun h => hm (isSchemaMap_iff.1 h)
    simp only [memberIds, if_neg hl, if_neg hm] at hi ⊢
    simp only [rewriteMember, hm1, if_false]
    rw [if_neg (by simpa using hl)]
    exact (hrec p v hv hi).mono fun v' h => .sub _ _ _ _ hl hm hk h

theorem rewriteObj_strict {w : World} {σ : Sched} {rec p base draft m} (hm : (Json.obj m).WF)
    (hids : (idsIn w base (.obj m)).Nodup)
    (hrec : ∀ p b x, x.WF → (idsIn w b x).Nodup → Uses (idsIn w b x) (rec p b x) (fun y => RwStrict w b x y.1)) :
    Uses (idsIn w base (.obj m)) (rewriteObj w σ rec p base draft m) (fun y => RwStrict w base (.obj m) y.1) := by
  have hn := wf_nodup hm
  rw [idsIn, idsInM_eq] at hids ⊢
  obtain ⟨nd1, nd2, nd3⟩ := List.nodup_append.1 hids
  intro l y l' hfree h
  unfold rewriteObj at h
  simp only [M.bind_ok] at h
  obtain ⟨o, s1, h1, sc, s2, h2, t, s3, h3, h⟩ := h
  have hst : s1 = l := idText_still.ok h1
  subst hst
  have := idText_eq h1
  subst this
  obtain ⟨e1, _⟩ := idScope_eq h2
  obtain ⟨e2, rfl⟩ := idScope_abs h2
  have ht : t = false ∧ s3 = s2 := by
    cases hs : sc.2 with
    | none => rw [hs] at h3; simp only [taken, M.pure_ok] at h3; exact ⟨h3.1.symm, h3.2.symm⟩
    | some k =>
      rw [hs] at h3
      simp only [taken, inPool, M.bind_ok, M.get_ok, M.pure_ok] at h3
      obtain ⟨_, _, ⟨rfl, rfl⟩, h4, rfl⟩ := h3
      refine ⟨?_, rfl⟩
      rw [← h4]
      simp only [existsMapKey]
      rw [hfree k (by rw [← e2, hs]; simp)]
      rfl
  obtain ⟨rfl, rfl⟩ := ht
  simp only [Bool.false_eq_true, if_false, M.bind_ok, M.pure_ok] at h
  obtain ⟨_, s4, h4, m1, s5, h5, m2, s6, h6, _, s7, h7, rfl, rfl⟩ := h
  have hreg : ∀ {d : PoolDoc} {s s' : LState}, register sc.2 d s = (.ok (), s') →
      ∀ k, getKey k s'.pool ≠ none → getKey k s.pool ≠ none ∨ k ∈ absId w base m := by
    intro d s s' hr k hk
    rw [← e2]
    cases hs : sc.2 with
    | none =>
      rw [hs] at hr
      simp only [register, M.pure_ok] at hr
      rw [hr.2]; exact .inl hk
    | some k0 =>
      rw [hs] at hr
      simp only [register, putPool, M.modify_ok] at hr
      subst hr
      by_cases hkk : k = k0
      · right; simp [hkk]
      · left
        simp only at hk
        rwa [getKey_putKey_ne hkk] at hk
  have hs5 : s5 = s4 := rewriteRef_still.ok h5
  subst hs5
  have hm1 := rewriteRef_eq h5
  rw [e1] at hm1 h6
  have hkeys : m1.map Prod.fst = m.map Prod.fst := by
    rw [hm1]
    split
    · split
      · exact keys_replaceKey
      · rfl
    · rfl
  have hwf1 : (Json.obj m1).WF := by
    rw [hm1]
    split
    · split
      · exact wf_replaceKey hm (.str _)
      · exact hm
    · exact hm
  have hids1 : m1.flatMap (fun e => memberIds w (scopeOf w base m) e.1 e.2)
      = m.flatMap (fun e => memberIds w (scopeOf w base m) e.1 e.2) := by
    rw [hm1]
    split
    · rename_i t0 hg
      split
      · rename_i a _
        unfold replaceKey
        rw [List.flatMap_map]
        refine List.flatMap_congr fun e he => ?_
        by_cases hk : e.1 = "$ref"
        · obtain ⟨k, v⟩ := e
          simp only at hk
          subst hk
          have := getKey_of_mem hn he
          rw [hg] at this
          cases this
          simp [memberIds, idsIn]
        · simp [hk]
      · rfl
    · rfl
  have key := range_uses (σ := σ) (q := 51 :: p) (i := 0) (g := memberIds w (scopeOf w base m))
    (R := fun k v v' => (k = "$ref" → ∀ t, v = .str t → v' = .str t) ∧
      ((k = "$ref" → ∀ t, v ≠ .str t) → RwMemberT w False (scopeOf w base m) k v v'))
    (f := fun k key v => rewriteMember σ (fun p r v => do let x ← rec p r v; return x.1) (k :: 52 :: p)
      (scopeOf w base m) key v) (m := m1) (by rw [hkeys]; exact hn) (by rw [hids1]; exact nd2) (by
      intro i k v hv
      have hvw := wf_obj hwf1 _ hv
      have hvi : (memberIds w (scopeOf w base m) k v).Nodup := by
        rw [← hids1] at nd2
        exact nd2.sublist (List.sublist_flatten_of_mem (List.mem_map.2 ⟨_, hv, rfl⟩))
      have hr : ∀ p x, x.WF → (idsIn w (scopeOf w base m) x).Nodup →
          Uses (idsIn w (scopeOf w base m) x) (do let y ← rec p (scopeOf w base m) x; return y.1)
          (RwStrict w (scopeOf w base m) x) := fun p x hx hi => .map (hrec p _ x hx hi) fun y hy => hy
      by_cases hk : k = "$ref" ∧ ∃ t, v = .str t
      · obtain ⟨rfl, t, rfl⟩ := hk
        have hst : Uses (memberIds w (scopeOf w base m) "$ref" (.str t))
            (rewriteMember σ (fun p r v => do let x ← rec p r v; return x.1) (i :: 52 :: p)
              (scopeOf w base m) "$ref" (.str t)) (fun v' => v' = .str t) := by
          have e : memberIds w (scopeOf w base m) "$ref" (.str t) = idsIn w (scopeOf w base m) (.str t) := by
            simp [memberIds]
          rw [e]
          refine (hr _ (.str t) (.str t) (by simp [idsIn])).mono fun v' h => ?_
          cases h with
          | scalar => rfl
        refine hst.mono fun v' hv' => ⟨?_, ?_⟩
        · rintro _ t' h; cases h; exact hv'
        · intro h; exact absurd rfl (h rfl t)
      · refine (rewriteMember_strict (w := w) hvw hvi hr ?_).mono fun v' hv' => ⟨?_, fun _ => hv'⟩
        · rintro rfl t rfl; exact hk ⟨rfl, t, rfl⟩
        · rintro rfl t rfl; exact absurd ⟨rfl, t, rfl⟩ hk)
  have hfree5 : ∀ k ∈ m1.flatMap (fun e => memberIds w (scopeOf w base m) e.1 e.2), getKey k s5.pool = none := by
    intro k hk
    rw [hids1] at hk
    by_cases hnn : getKey k s5.pool = none
    · exact hnn
    · rcases hreg h4 k hnn with h | h
      · exact absurd (hfree k (by simp only [List.mem_append]; exact .inr hk)) h
      · exact absurd rfl (nd3 k h k hk)
  obtain ⟨⟨k1, k2⟩, k3⟩ := key s5 m2 s6 hfree5 h6
  refine ⟨?_, ?_⟩
  · refine .obj _ _ _ (by rw [← k1, hkeys]) ?_
    intro j k v v' hj hj'
    by_cases hr : k = "$ref" ∧ ∃ t, v = .str t
    · obtain ⟨rfl, t, rfl⟩ := hr
      have hg := getKey_of_mem hn (List.mem_of_getElem? hj)
      rw [hg] at hm1
      simp only at hm1
      split at hm1
      · rename_i a ha
        have hj1 : m1[j]? = some ("$ref", .str a) := by rw [hm1, getElem?_replaceKey, hj]; rfl
        have := (k2 j _ _ _ hj1 hj').1 rfl a rfl
        subst this
        exact .ref _ _ _ ha
      · rename_i ha
        subst hm1
        have := (k2 j _ _ _ hj hj').1 rfl t rfl
        subst this
        exact .badRef _ _ ha
    · have hj1 : m1[j]? = some (k, v) := by
        rw [hm1]
        split
        · split
          · rename_i _ t hg _ a ha
            rw [getElem?_replaceKey, hj]
            have : k ≠ "$ref" := by
              rintro rfl
              have e := getKey_of_mem hn (List.mem_of_getElem? hj)
              rw [hg] at e
              cases e
              exact hr ⟨rfl, t, rfl⟩
            simp [this]
          · exact hj
        · exact hj
      exact (k2 j _ _ _ hj1 hj').2 (by rintro rfl t rfl; exact hr ⟨rfl, t, rfl⟩)
  · intro k hk
    rcases hreg h7 k hk with h | h
    · rcases k3 k h with h | h
      · rcases hreg h4 k h with h | h
        · exact .inl h
        · exact .inr (by simp [h])
      · rw [hids1] at h
        exact .inr (List.mem_append.2 (.inr h))
    · exact .inr (by simp [h])

theorem rewrite_strict {w : World} {σ : Sched} {draft} : ∀ n p base doc, doc.WF → (idsIn w base doc).Nodup →
    Uses (idsIn w base doc) (rewrite w σ draft n p base doc) (fun y => RwStrict w base doc y.1) := by
  intro n
  induction n with
  | zero => intro p base doc _ _; exact .fail
  | succ n ih =>
    intro p base doc hd hi
    unfold rewrite
    split
    · rename_i xs
      rw [idsIn, idsInL_eq] at hi ⊢
      refine .map (Uses.mapL (Q := fun x y => RwStrict w base x y) hi fun k x hx =>
        .map (ih _ _ x (wf_arr hd x hx) ?_) fun y hy => hy) fun ys hys => .arr _ _ _ hys.1.symm ?_
      · exact hi.sublist (List.sublist_flatten_of_mem (List.mem_map.2 ⟨_, hx, rfl⟩))
      · exact hys.2
    · exact rewriteObj_strict hd hi ih
    · rename_i h1 h2
      exact .pure (.scalar _ _ h1 h2)

/-- What `parseReferences` returns for a document with new and distinct identifiers. -/
theorem parseReferences_strict {w : World} {σ : Sched} {p doc ref pooled} (hd : doc.WF) (hi : (idsIn w ref doc).Nodup)
    {l x l'} (hf : ∀ k ∈ idsIn w ref doc, getKey k l.pool = none)
    (h : parseReferences w σ p doc ref pooled l = (.ok x, l')) :
    (x.1 = doc ∧ x.2.isSome ∧ pooled = true ∧ existsMapKey l.pool ref = true) ∨ RwStrict w ref doc x.1 := by
  simp only [parseReferences, M.bind_ok] at h
  obtain ⟨b, s1, hb, h⟩ := h
  simp only [inPool, M.bind_ok, M.get_ok, M.pure_ok] at hb
  obtain ⟨_, _, ⟨rfl, rfl⟩, rfl, rfl⟩ := hb
  split at h
  · rename_i hc
    rw [M.pure_ok] at h
    simp only [Bool.and_eq_true] at hc
    rw [← h.1]; exact .inl ⟨rfl, rfl, hc.1, hc.2⟩
  · simp only [M.bind_ok, M.pure_ok] at h
    obtain ⟨dr, s2, hdr, y, s3, h3, _, s4, _, rfl, rfl⟩ := h
    have hst : s2 = l := by
      have : Still (detectDraft w doc) := detectDraft_still
      exact this.ok hdr
    subst hst
    exact .inr ((rewrite_strict _ _ _ _ hd hi s2 _ _ hf h3).1)

end GJS

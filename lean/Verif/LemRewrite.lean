import Verif.LemPool
import Verif.LemParse
import Verif.SpecRewrite
/-
Helper lemmas: rewriting implements `Rw`.
-/
namespace GJS
open Spec

theorem getKey_of_mem {k : String} {v : α} {m : List (String × α)} (hn : (m.map Prod.fst).Nodup) (h : (k, v) ∈ m) :
    getKey k m = some v := by
  induction m with
  | nil => cases h
  | cons y ys ih =>
    obtain ⟨k', v'⟩ := y
    simp only [List.map_cons, List.nodup_cons] at hn
    simp only [getKey, List.lookup_cons]
    rcases List.mem_cons.1 h with h1 | h1
    · cases h1; simp
    · have : k ≠ k' := by
        rintro rfl
        exact hn.1 (List.mem_map.2 ⟨(k, v), h1, rfl⟩)
      have : (k == k') = false := by simpa using this
      rw [this]
      exact ih hn.2 h1

theorem getElem?_replaceKey {k : String} {v : α} {m : List (String × α)} {j : Nat} :
    (replaceKey k v m)[j]? = (m[j]?).map (fun e => if e.1 == k then (e.1, v) else e) := by
  simp [replaceKey]

/-- The loop visits every member of `rest` once. -/
theorem rangeKV_rel {P : σ → Prop} {f : Nat → String → Json → M σ Json} {R : String → Json → Json → Prop} :
    ∀ {rest : List (String × Json)} {i m}, (rest.map Prod.fst).Nodup →
    (∀ i k v, (k, v) ∈ rest → Tri P (f i k v) (R k v)) →
    Tri P (rangeKV f i rest m) (fun m' => m'.map Prod.fst = m.map Prod.fst ∧
      ∀ (j : Nat) k v, m[j]? = some (k, v) → ∃ v', m'[j]? = some (k, v') ∧
        ((k ∉ rest.map Prod.fst ∧ v' = v) ∨ ∃ v0, (k, v0) ∈ rest ∧ R k v0 v')) := by
  intro rest
  induction rest with
  | nil =>
    intro i m _ _
    exact .pure ⟨rfl, fun j k v h => ⟨v, h, .inl ⟨by simp, rfl⟩⟩⟩
  | cons kv rest ih =>
    intro i m hn hf
    obtain ⟨k0, v0⟩ := kv
    simp only [List.map_cons, List.nodup_cons] at hn
    refine .bind (hf i k0 v0 (by simp)) fun v' hv' => ?_
    refine (ih hn.2 fun i k v h => hf i k v (by simp [h])).mono ?_
    rintro m' ⟨hk, hm'⟩
    refine ⟨by rw [hk, keys_replaceKey], ?_⟩
    intro j k v hj
    by_cases hkk : k = k0
    · subst hkk
      have h1 : (replaceKey k v' m)[j]? = some (k, v') := by rw [getElem?_replaceKey, hj]; simp
      obtain ⟨v1, h2, h3⟩ := hm' j k v' h1
      refine ⟨v1, h2, .inr ?_⟩
      rcases h3 with ⟨_, rfl⟩ | ⟨v2, h4, _⟩
      · exact ⟨v0, by simp, hv'⟩
      · exact absurd (List.mem_map.2 ⟨_, h4, rfl⟩) hn.1
    · have h1 : (replaceKey k0 v' m)[j]? = some (k, v) := by
        rw [getElem?_replaceKey, hj]; simp [hkk]
      obtain ⟨v1, h2, h3⟩ := hm' j k v h1
      refine ⟨v1, h2, ?_⟩
      rcases h3 with ⟨h4, rfl⟩ | ⟨v2, h4, h5⟩
      · exact .inl ⟨by simp [hkk]; simpa using h4, rfl⟩
      · exact .inr ⟨v2, by simp [h4], h5⟩

/-- The loop over all members of a map, in any order. -/
theorem range_all {P : τ → Prop} {f : Nat → String → Json → M τ Json} {R : String → Json → Json → Prop}
    {σ : Sched} {q : Path} {i} {m : List (String × Json)} (hn : (m.map Prod.fst).Nodup)
    (hf : ∀ i k v, (k, v) ∈ m → Tri P (f i k v) (R k v)) :
    Tri P (rangeKV f i (σ.order q m) m) (fun m' => m.map Prod.fst = m'.map Prod.fst ∧
      ∀ (j : Nat) k v v', m[j]? = some (k, v) → m'[j]? = some (k, v') → R k v v') := by
  have hp := σ.perm q m
  refine (rangeKV_rel (R := R) ((hp.map Prod.fst).nodup_iff.2 hn) fun i k v h => hf i k v (hp.mem_iff.1 h)).mono ?_
  rintro m' ⟨h1, h2⟩
  refine ⟨h1.symm, ?_⟩
  intro j k v v' hj hj'
  obtain ⟨v1, h3, h4⟩ := h2 j k v hj
  rw [hj'] at h3
  cases h3
  have hmem := List.mem_of_getElem? hj
  rcases h4 with ⟨h4, _⟩ | ⟨v0, h4, h5⟩
  · exact absurd ((hp.map Prod.fst).mem_iff.2 (List.mem_map.2 ⟨_, hmem, rfl⟩)) h4
  · have e1 := getKey_of_mem hn (hp.mem_iff.1 h4)
    have e2 := getKey_of_mem hn hmem
    rw [e1] at e2
    cases e2
    exact h5

theorem idText_eq {w : World} {m} {s s' : σ} {o} (h : (idText w m : M σ _) s = (.ok o, s')) : o = idOf m := by
  unfold idText at h
  have e : idOf m = match getKey (if existsMapKey m "id" then "id" else "$id") m with
      | some (.str t) => some t
      | _ => none := rfl
  rw [e]
  cases hk : getKey (if existsMapKey m "id" then "id" else "$id") m with
  | none => simp only [hk, M.pure_ok] at h; exact h.1.symm
  | some v =>
    simp only [hk, M.bind_ok] at h
    obtain ⟨b, s1, h1, h⟩ := h
    have hb := isKind_ok h1
    cases v <;> (subst hb; simp [kindIn, rawKind] at h; exact h.1.symm)

theorem idScope_eq {w : World} {base m} {s s' : σ} {x} (h : (idScope w base (idOf m) : M σ _) s = (.ok x, s')) :
    x.1 = scopeOf w base m ∧ (∀ k, x.2 = some k → ∃ t, idOf m = some t) := by
  unfold idScope at h
  unfold scopeOf
  cases hi : idOf m with
  | none =>
    rw [hi] at h
    simp only [M.pure_ok] at h
    rw [← h.1]
    exact ⟨rfl, by simp⟩
  | some t =>
    rw [hi] at h
    simp only at h
    cases hn : w.norm t with
    | none =>
      rw [hn] at h
      simp only [M.pure_ok] at h
      rw [← h.1]
      exact ⟨by simp [hn], by simp⟩
    | some r =>
      rw [hn] at h
      simp only at h
      cases hu : w.inherits base r with
      | none => rw [hu] at h; simp at h
      | some u =>
        rw [hu] at h
        simp only [M.pure_ok] at h
        rw [← h.1]
        exact ⟨by simp [hn, hu], fun _ _ => ⟨t, rfl⟩⟩

/-- The outcome of `rewriteRef`. -/
theorem rewriteRef_eq {w : World} {base m} {s s' : σ} {m1} (h : (rewriteRef w base m : M σ _) s = (.ok m1, s')) :
    m1 = match getKey "$ref" m with
      | some (.str t) =>
        match (w.norm t).bind (w.inherits base) with
        | some a => replaceKey "$ref" (.str a) m
        | none => m
      | _ => m := by
  unfold rewriteRef at h
  cases hk : getKey "$ref" m with
  | none => rw [hk] at h; simp only [M.pure_ok] at h; exact h.1.symm
  | some v =>
    rw [hk] at h
    simp only [M.bind_ok] at h
    obtain ⟨b, s1, h1, h⟩ := h
    have hb := isKind_ok h1
    subst hb
    cases v with
    | str t =>
      have hc : kindIn (.str t) [.string] = true := rfl
      rw [hc] at h
      simp only at h ⊢
      cases ha : (w.norm t).bind (w.inherits base) with
      | none => rw [ha] at h; simp only [M.pure_ok] at h; exact h.1.symm
      | some a => rw [ha] at h; simp only [M.pure_ok] at h; exact h.1.symm
    | _ => simp [kindIn, rawKind] at h; exact h.1.symm

theorem isSchemaMap_iff {k : String} : isSchemaMap k = true ↔ SchemaMap k := by
  simp [isSchemaMap, SchemaMap, or_assoc]

theorem rewriteMember_rw {P : LState → Prop} {w : World} {σ : Sched} {rec p base k v} (hv : v.WF)
    (hrec : ∀ p x, x.WF → Tri P (rec p base x) (Rw w base x)) (hk : k = "$ref" → ∀ t, v ≠ .str t) :
    Tri P (rewriteMember σ rec p base k v) (RwMember w base k v) := by
  unfold rewriteMember
  split
  · rename_i h; exact .pure (.literal _ _ _ (by simpa [Literal] using h))
  · rename_i hl
    split
    · rename_i hm
      have hm := isSchemaMap_iff.1 hm
      split
      · rename_i c
        refine .bind (range_all (R := fun _ x x' => Rw w base x x') (wf_nodup hv) fun i n x hx => ?_) fun c' hc' =>
          .pure (.map _ _ _ _ hm hc'.1 hc'.2)
        exact hrec _ _ (wf_obj hv _ hx)
      · rename_i hne
        exact .pure (.noMap _ _ _ hm hne)
    · rename_i hm
      refine (hrec p v hv).mono fun v' h => .sub _ _ _ _ (by simpa [Literal] using hl) (fun h => hm (isSchemaMap_iff.2 h)) hk h

theorem rewriteMember_str {P : LState → Prop} {w : World} {σ : Sched} {rec p base t}
    (hrec : ∀ p x, x.WF → Tri P (rec p base x) (Rw w base x)) :
    Tri P (rewriteMember σ rec p base "$ref" (.str t)) (fun v' => v' = .str t) := by
  have : rewriteMember σ rec p base "$ref" (.str t) = rec p base (.str t) := rfl
  rw [this]
  refine (hrec p (.str t) (.str t)).mono fun v' h => ?_
  cases h with
  | scalar => rfl

theorem rewriteObj_rw {w : World} {σ : Sched} {rec p base draft m} (hm : (Json.obj m).WF)
    (hrec : ∀ p b x, x.WF → Tri (fun _ => True) (rec p b x) (fun y => Rw w b x y.1)) :
    Tri (fun _ => True) (rewriteObj w σ rec p base draft m) (fun y => Rw w base (.obj m) y.1) := by
  have hn := wf_nodup hm
  unfold rewriteObj
  intro l _
  refine ⟨trivial, ?_⟩
  intro y l' h
  simp only [M.bind_ok] at h
  obtain ⟨o, s1, h1, sc, s2, h2, t, s3, h3, h⟩ := h
  have := idText_eq h1
  subst this
  obtain ⟨e1, e2⟩ := idScope_eq h2
  split at h
  · rename_i ht
    rw [M.pure_ok] at h
    rw [← h.1]
    subst ht
    cases hs : sc.2 with
    | none => rw [hs] at h3; simp [taken] at h3
    | some k =>
      obtain ⟨t, ht⟩ := e2 k hs
      exact .taken _ _ _ trivial ht
  · simp only [M.bind_ok, M.pure_ok] at h
    obtain ⟨_, s4, h4, m1, s5, h5, m2, s6, h6, _, s7, h7, rfl, rfl⟩ := h
    have hm1 := rewriteRef_eq h5
    rw [e1] at hm1 h6
    have hkeys : m1.map Prod.fst = m.map Prod.fst := by
      rw [hm1]
      split
      · split
        · exact keys_replaceKey
        · rfl
      · rfl
    have hwf1 : (Json.obj m1).WF := by
      rw [hm1]
      split
      · split
        · exact wf_replaceKey hm (.str _)
        · exact hm
      · exact hm
    have key := range_all (P := fun _ : LState => True) (σ := σ) (q := 51 :: p) (i := 0)
      (R := fun k v v' => (k = "$ref" → ∀ t, v = .str t → v' = .str t) ∧
        ((k = "$ref" → ∀ t, v ≠ .str t) → RwMember w (scopeOf w base m) k v v'))
      (f := fun k key v => rewriteMember σ (fun p r v => do let x ← rec p r v; return x.1) (k :: 52 :: p)
        (scopeOf w base m) key v) (m := m1) (by rw [hkeys]; exact hn) (by
        intro i k v hv
        have hvw := wf_obj hwf1 _ hv
        have hr : ∀ p x, x.WF → Tri (fun _ : LState => True) (do let y ← rec p (scopeOf w base m) x; return y.1)
            (Rw w (scopeOf w base m) x) := fun p x hx => .bind (hrec p _ x hx) fun y hy => .pure hy
        by_cases hk : k = "$ref" ∧ ∃ t, v = .str t
        · obtain ⟨rfl, t, rfl⟩ := hk
          refine (rewriteMember_str (w := w) hr).mono fun v' hv' => ⟨?_, ?_⟩
          · rintro _ t' h; cases h; exact hv'
          · intro h; exact absurd rfl (h rfl t)
        · refine (rewriteMember_rw (w := w) hvw hr ?_).mono fun v' hv' => ⟨?_, fun _ => hv'⟩
          · rintro rfl t rfl; exact hk ⟨rfl, t, rfl⟩
          · rintro rfl t rfl; exact absurd ⟨rfl, t, rfl⟩ hk)
    obtain ⟨k1, k2⟩ := (key s5 trivial).2 _ _ h6
    refine .obj _ _ _ (by rw [← k1, hkeys]) ?_
    intro j k v v' hj hj'
    -- the member of m1 at j
    by_cases hr : k = "$ref" ∧ ∃ t, v = .str t
    · obtain ⟨rfl, t, rfl⟩ := hr
      have hg := getKey_of_mem hn (List.mem_of_getElem? hj)
      rw [hg] at hm1
      simp only at hm1
      split at hm1
      · rename_i a ha
        have hj1 : m1[j]? = some ("$ref", .str a) := by rw [hm1, getElem?_replaceKey, hj]; rfl
        have := (k2 j _ _ _ hj1 hj').1 rfl a rfl
        subst this
        exact .ref _ _ _ ha
      · rename_i ha
        subst hm1
        have := (k2 j _ _ _ hj hj').1 rfl t rfl
        subst this
        exact .badRef _ _ ha
    · have hj1 : m1[j]? = some (k, v) := by
        rw [hm1]
        split
        · split
          · rename_i _ t hg _ a ha
            rw [getElem?_replaceKey, hj]
            have : k ≠ "$ref" := by
              rintro rfl
              have e := getKey_of_mem hn (List.mem_of_getElem? hj)
              rw [hg] at e
              cases e
              exact hr ⟨rfl, t, rfl⟩
            simp [this]
          · exact hj
        · exact hj
      exact (k2 j _ _ _ hj1 hj').2 (by rintro rfl t rfl; exact hr ⟨rfl, t, rfl⟩)

theorem rewrite_rw {w : World} {σ : Sched} {draft} : ∀ n p base doc, doc.WF →
    Tri (fun _ => True) (rewrite w σ draft n p base doc) (fun y => Rw w base doc y.1) := by
  intro n
  induction n with
  | zero => intro p base doc _; exact .fail
  | succ n ih =>
    intro p base doc hd
    unfold rewrite
    split
    · rename_i xs
      refine .bind (Tri.mapL (Q := fun x y => Rw w base x y) fun k x hx =>
        .bind (ih _ _ x (wf_arr hd x hx)) fun y hy => .pure hy) fun ys hys => .pure (.arr _ _ _ hys.1.symm ?_)
      exact hys.2
    · exact rewriteObj_rw hd ih
    · rename_i h1 h2
      exact .pure (.scalar _ _ h1 h2)

/-- What `parseReferences` returns. -/
theorem parseReferences_rw {w : World} {σ : Sched} {p doc ref pooled} (hd : doc.WF) {l x l'}
    (h : parseReferences w σ p doc ref pooled l = (.ok x, l')) :
    (x.1 = doc ∧ x.2.isSome) ∨ Rw w ref doc x.1 := by
  simp only [parseReferences, M.bind_ok] at h
  obtain ⟨b, s1, _, h⟩ := h
  split at h
  · rw [M.pure_ok] at h
    rw [← h.1]; exact .inl ⟨rfl, rfl⟩
  · simp only [M.bind_ok, M.pure_ok] at h
    obtain ⟨dr, s2, _, y, s3, h3, _, s4, _, rfl, rfl⟩ := h
    exact .inr ((rewrite_rw _ _ _ _ hd s2 trivial).2 _ _ h3)

end GJS

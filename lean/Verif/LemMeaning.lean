import Verif.LemAbort
import Mathlib.Logic.Relation
/-
Helper lemmas: the keyword rules only look at the calls a node makes, so that a heap without
in-place cycles has exactly one meaning.
-/
namespace GJS
open Spec

theorem nodeRules_mono {env h} {S T : Id → Json → Prop} {i v}
    (H : ∀ s, h[i]? = some s → ∀ j w, Calls s v j w → (S j w ↔ T j w))
    (hS : NodeRules env h S i v) : NodeRules env h T i v := by
  obtain ⟨s, hs, hS⟩ := hS
  refine ⟨s, hs, ?_⟩
  have H := H s hs
  have IP : ∀ j, j ∈ inPlace s → (S j v ↔ T j v) := fun j hj => H j v (.inl ⟨hj, rfl⟩)
  have NS : ∀ j w, j ∈ nested s → Inside v w → (S j w ↔ T j w) := fun j w hj hw => H j w (.inr ⟨hj, hw⟩)
  split at hS
  · exact hS
  · split at hS
    · rename_i j hj
      exact (IP j (by simp [inPlace, hj])).1 hS
    · obtain ⟨h1, h2, h3, h4, h5, h6, h7, h8, h9, h10, h11, h12, h13, h14⟩ := hS
      refine ⟨h1, ?_, ?_, ?_, ?_, ?_, ?_, h8, h9, h10, ?_, ?_, h13, h14⟩
      · rcases h2 with h2 | ⟨j, hj, h2⟩
        · exact .inl h2
        · exact .inr ⟨j, hj, (IP j (by simp [inPlace, hj])).1 h2⟩
      · rcases h3 with h3 | ⟨k, j, hj, h3, h3'⟩
        · exact .inl h3
        · refine .inr ⟨k, j, hj, (IP j (by simp [inPlace, List.mem_of_getElem? hj])).1 h3, ?_⟩
          intro k' j' hj' ht
          exact h3' k' j' hj' ((IP j' (by simp [inPlace, List.mem_of_getElem? hj'])).2 ht)
      · intro j hj; exact (IP j (by simp [inPlace, hj])).1 (h4 j hj)
      · intro j hj ht; exact h5 j hj ((IP j (by simp [inPlace, hj])).2 ht)
      · intro kvs hv k hk
        obtain ⟨ha, hb⟩ := h6 kvs hv k hk
        refine ⟨ha, fun j hj => (IP j ?_).1 (hb j hj)⟩
        have := lookup_some_mem hj
        simp only [inPlace, List.mem_append, List.mem_filterMap]
        exact .inr ⟨_, this, rfl⟩
      · intro ii hii
        obtain ⟨ha, hb⟩ := h7 ii hii
        have e := IP ii (by simp [inPlace, hii])
        exact ⟨fun tt htt hs => (IP tt (by simp [inPlace, htt])).1 (ha tt htt (e.2 hs)),
          fun ee hee hs => (IP ee (by simp [inPlace, hee])).1 (hb ee hee (fun q => hs (e.1 q)))⟩
      · intro xs hv
        obtain ⟨ha, hb, hc, hd⟩ := h11 xs hv
        have ins : ∀ x ∈ xs, Inside v x := fun x hx => .inl ⟨xs, hv, hx⟩
        refine ⟨?_, hb, hc, ?_⟩
        · unfold ItemsRule at ha ⊢
          split at ha
          · rename_i hsing
            simp only [hsing, if_true]
            intro x hx
            obtain ⟨j, hj, hsat⟩ := ha x hx
            exact ⟨j, hj, (NS j x (by simp [nested, List.mem_of_mem_head? hj]) (ins x hx)).1 hsat⟩
          · rename_i hsing
            simp only [hsing]
            refine ⟨fun k j x hj hx => (NS j x (by simp [nested, List.mem_of_getElem? hj])
              (ins x (List.mem_of_getElem? hx))).1 (ha.1 k j x hj hx), fun hne => ?_⟩
            have := ha.2 hne
            unfold AdditionalItemsRule at this ⊢
            split
            · trivial
            · rename_i b hb; rw [hb] at this; exact this
            · rename_i j hj
              rw [hj] at this
              exact fun k x hk hx => (NS j x (by simp [nested, hj, extraId])
                (ins x (List.mem_of_getElem? hx))).1 (this k x hk hx)
        · intro j hj
          obtain ⟨x, hx, hs⟩ := hd j hj
          exact ⟨x, hx, (NS j x (by simp [nested, hj]) (ins x hx)).1 hs⟩
      · intro kvs hv
        obtain ⟨ha, hb, hc, hd, he, hf⟩ := h12 kvs hv
        have ins : ∀ k x, (k, x) ∈ kvs → Inside v x := fun k x hx => .inr ⟨kvs, hv, .inl ⟨k, hx⟩⟩
        refine ⟨ha, hb, ?_, ?_, ?_, ?_⟩
        · intro name j hj x hx
          exact (NS j x (by simp only [nested, List.mem_append]; exact .inl (.inl (.inl (.inl (.inl (.inr (List.mem_map.2 ⟨_, hj, rfl⟩)))))))
            (ins _ x (lookup_some_mem hx))).1 (hc name j hj x hx)
        · intro pat j hj k x hx hm
          exact (NS j x (by simp only [nested, List.mem_append]; exact .inl (.inl (.inl (.inl (.inr (List.mem_map.2 ⟨_, hj, rfl⟩))))))
            (ins k x hx)).1 (hd pat j hj k x hx hm)
        · intro k x hx h1 h2
          have := he k x hx h1 h2
          unfold ExtraRule at this ⊢
          split
          · trivial
          · rename_i b hb; rw [hb] at this; exact this
          · rename_i j hj; rw [hj] at this
            exact (NS j x (by simp [nested, hj, extraId]) (ins k x hx)).1 this
        · intro j hj k hk
          exact (NS j _ (by simp [nested, hj]) (.inr ⟨kvs, hv, .inr ⟨k, hk, rfl⟩⟩)).1 (hf j hj k hk)

theorem nodeRules_congr {env h} {S T : Id → Json → Prop} {i v}
    (H : ∀ s, h[i]? = some s → ∀ j w, Calls s v j w → (S j w ↔ T j w)) :
    NodeRules env h S i v ↔ NodeRules env h T i v :=
  ⟨nodeRules_mono H, nodeRules_mono fun s hs j w hc => (H s hs j w hc).symm⟩

open Classical in
/-- Number of nodes reachable from `i` in place. -/
noncomputable def reachRank (h : Heap) (i : Id) : Nat :=
  ((List.range h.length).filter fun k => Relation.ReflTransGen (InPlaceEdge h) i k).length

theorem reachRank_le (h : Heap) (i : Id) : reachRank h i ≤ h.length := by
  unfold reachRank
  refine Nat.le_trans (List.length_filter_le _ _) (by simp)

theorem filter_length_le {α : Type} {p q : α → Bool} : ∀ {l : List α}, (∀ x ∈ l, p x = true → q x = true) →
    (l.filter p).length ≤ (l.filter q).length := by
  intro l
  induction l with
  | nil => simp
  | cons y ys ih =>
    intro hpq
    have := hpq y (by simp)
    have ih := ih (fun z hz => hpq z (by simp [hz]))
    rw [List.filter_cons, List.filter_cons]
    split <;> split <;> simp_all <;> omega

theorem filter_length_lt {α : Type} {p q : α → Bool} : ∀ {l : List α} {a : α}, (∀ x ∈ l, p x = true → q x = true) →
    a ∈ l → q a = true → p a = false → (l.filter p).length < (l.filter q).length := by
  intro l
  induction l with
  | nil => intro a _ h; simp at h
  | cons x xs ih =>
    intro a hpq ha hq hp
    have le := filter_length_le (fun y (hy : y ∈ xs) => hpq y (by simp [hy]))
    simp only [List.mem_cons] at ha
    rw [List.filter_cons, List.filter_cons]
    rcases ha with rfl | ha
    · simp [hq, hp]; omega
    · have h1 := ih (fun y hy => hpq y (by simp [hy])) ha hq hp
      have h2 := hpq x (by simp)
      split <;> split <;> simp_all <;> omega

theorem reachRank_lt {h : Heap} (hac : Acyclic h) {i j : Id} (he : InPlaceEdge h i j) :
    reachRank h j < reachRank h i := by
  classical
  unfold reachRank
  have hi : i < h.length := by
    obtain ⟨s, hs, _⟩ := he
    rw [List.getElem?_eq_some_iff] at hs; exact hs.1
  refine filter_length_lt (a := i) ?_ (by simpa using hi) (by simp [Relation.ReflTransGen.refl]) ?_
  · intro k _ hk
    simp only [decide_eq_true_eq] at hk ⊢
    exact Relation.ReflTransGen.head he hk
  · simp only [decide_eq_false_iff_not]
    intro hji
    exact hac i (Relation.TransGen.head' he hji)

/-- Fuel that suffices for any run from any node on `v`. -/
def enough (h : Heap) (v : Json) : Nat := v.size * (h.length + 1) + h.length + 1

theorem no_fuel_acyclic {env σ h} (hac : Acyclic h) {n i v p c} (hn : enough h v ≤ n) :
    NE .fuel (validateRecursive env σ h n p i v c) :=
  no_fuel (R := h.length) (fun i => reachRank_le h i) (fun _ _ => reachRank_lt hac) n i v p c (by
    have := reachRank_le h i; unfold enough at hn; omega)

/-- On acyclic heaps any two sufficiently long unfoldings agree. -/
theorem unfold_stable {env h} (hac : Acyclic h) (P Q : Id → Json → Prop) : ∀ n m i v,
    v.size * (h.length + 1) + reachRank h i < n → v.size * (h.length + 1) + reachRank h i < m →
    (unfold env h P n i v ↔ unfold env h Q m i v) := by
  intro n
  induction n with
  | zero => intro m i v h; omega
  | succ n ih =>
    intro m i v h1 h2
    cases m with
    | zero => omega
    | succ m =>
      refine nodeRules_congr ?_
      rintro s hs j w (⟨hj, rfl⟩ | ⟨_, hw⟩)
      · have := reachRank_lt hac ⟨s, hs, hj⟩
        exact ih m j w (by omega) (by omega)
      · have h3 := inside_size hw
        have h4 := reachRank_le h j
        have : (w.size + 1) * (h.length + 1) ≤ v.size * (h.length + 1) := Nat.mul_le_mul_right _ h3
        rw [Nat.add_mul] at this
        exact ih m j w (by omega) (by omega)

theorem unfold_fix {env h} {Sat : Id → Json → Prop} (hm : IsMeaning env h Sat) : ∀ n i v,
    unfold env h Sat n i v ↔ Sat i v := by
  intro n
  induction n with
  | zero => intro i v; rfl
  | succ n ih =>
    intro i v
    rw [hm i v]
    exact nodeRules_congr fun _ _ j w _ => ih j w

theorem meaning_exists {env h} (hac : Acyclic h) : ∃ Sat, IsMeaning env h Sat := by
  refine ⟨fun i v => unfold env h (fun _ _ => True) (enough h v) i v, fun i v => ?_⟩
  have hr := reachRank_le h i
  have : enough h v = (v.size * (h.length + 1) + h.length) + 1 := rfl
  simp only [this, Spec.unfold]
  refine nodeRules_congr ?_
  rintro s hs j w (⟨hj, rfl⟩ | ⟨_, hw⟩)
  · have := reachRank_lt hac ⟨s, hs, hj⟩
    exact unfold_stable hac _ _ _ _ _ _ (by omega) (by unfold enough; omega)
  · have h3 := inside_size hw
    have h4 := reachRank_le h j
    have : (w.size + 1) * (h.length + 1) ≤ v.size * (h.length + 1) := Nat.mul_le_mul_right _ h3
    rw [Nat.add_mul] at this
    exact unfold_stable hac _ _ _ _ _ _ (by omega) (by unfold enough; omega)

theorem meaning_unique {env h} (hac : Acyclic h) {S T} (hS : IsMeaning env h S) (hT : IsMeaning env h T)
    (i v) : S i v ↔ T i v := by
  rw [← unfold_fix hS (enough h v), ← unfold_fix hT (enough h v)]
  have := reachRank_le h i
  exact unfold_stable hac _ _ _ _ _ _ (by unfold enough; omega) (by unfold enough; omega)

end GJS

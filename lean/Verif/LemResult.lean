import Verif.ResultApi
import Verif.LemMon
/-
Helper lemmas: memory of results.
-/
namespace GJS.Api
open GJS

/-- Cells of an array. -/
def cells (arrays : List (List (Option Nat))) (a : Nat) : List (Option Nat) := (arrays[a]?).getD []

/-- Slices lie in their arrays, and no two results share an array with cells. -/
structure Inv (st : Mem) : Prop where
  bound : ∀ (v : Nat) (r : ResObj), st.results[v]? = some r → r.errors.arr < st.arrays.length ∧
    r.errors.len ≤ (cells st.arrays r.errors.arr).length
  zero : cells st.arrays 0 = [] ∧ 0 < st.arrays.length
  apart : ∀ (v v' : Nat) (r r' : ResObj), st.results[v]? = some r → st.results[v']? = some r' →
    r.errors.arr = r'.errors.arr → v = v' ∨ cells st.arrays r.errors.arr = []

/-- No result can write into this slice. -/
def Frozen (st : Mem) (t : Slice) : Prop :=
  t.arr < st.arrays.length ∧ ∀ (v : Nat) (r : ResObj), st.results[v]? = some r → r.errors.arr = t.arr →
    t.len ≤ r.errors.len ∨ cells st.arrays t.arr = []

/-- The errors of result `v`. -/
def listOf (st : Mem) (v : Nat) : List (Option Nat) :=
  match st.results[v]? with
  | some r => read st.arrays r.errors
  | none => []

theorem append_read (lib : Lib) {arrays s xs} (hb : s.len ≤ (cells arrays s.arr).length) (ha : s.arr < arrays.length) :
    read (goAppend lib arrays s xs).1 (goAppend lib arrays s xs).2 = read arrays s ++ xs := by
  unfold goAppend
  simp only
  have hc : ((arrays[s.arr]?).getD []) = cells arrays s.arr := rfl
  rw [hc]
  split
  · rename_i h
    simp only [read, List.getElem?_set_self ha, Option.getD_some, hc]
    rw [List.take_append, List.take_of_length_le (by simp; omega)]
    have : s.len + xs.length - (List.take s.len (cells arrays s.arr) ++ xs).length = 0 := by simp; omega
    rw [this]
    simp
  · simp only [read, hc]
    rw [List.getElem?_append_right (Nat.le_refl _)]
    simp only [Nat.sub_self, List.getElem?_cons_zero, Option.getD_some]
    rw [List.take_append, List.take_of_length_le (by simp; omega)]
    have : s.len + xs.length - (List.take s.len (cells arrays s.arr) ++ xs).length = 0 := by simp; omega
    rw [this]
    simp

theorem append_other (lib : Lib) {arrays s xs} {t : Slice} (hb : s.len ≤ (cells arrays s.arr).length) (ht : t.arr < arrays.length)
    (hl : t.arr = s.arr → t.len ≤ s.len ∨ cells arrays t.arr = []) : read (goAppend lib arrays s xs).1 t = read arrays t := by
  unfold goAppend
  simp only
  have hc : ((arrays[s.arr]?).getD []) = cells arrays s.arr := rfl
  rw [hc]
  split
  · simp only [read]
    by_cases e : t.arr = s.arr
    · have hl := hl e
      rw [e] at ht hl ⊢
      rw [List.getElem?_set_self ht, hc]
      simp only [Option.getD_some]
      rcases hl with hl | hl
      · rw [List.append_assoc, List.take_append_of_le_length (by simp; omega), List.take_take]
        congr 1
        omega
      · rename_i hn
        rw [hl] at hn ⊢
        have : xs = [] := by simp at hn; exact hn.2
        simp [this]
    · rw [List.getElem?_set_ne (Ne.symm e)]
  · simp only [read]
    rw [List.getElem?_append_left ht]

theorem append_cells (lib : Lib) {arrays s xs} {a : Nat} (hb : s.len ≤ (cells arrays s.arr).length) (ha : a < arrays.length) :
    (cells (goAppend lib arrays s xs).1 a).length = (cells arrays a).length := by
  unfold goAppend
  simp only
  have hc : ((arrays[s.arr]?).getD []) = cells arrays s.arr := rfl
  rw [hc]
  split
  · simp only [cells]
    by_cases e : a = s.arr
    · subst e
      rw [List.getElem?_set_self ha, hc]
      simp
      omega
    · rw [List.getElem?_set_ne (Ne.symm e)]
  · simp only [cells]
    rw [List.getElem?_append_left ha]

theorem append_len (lib : Lib) {arrays s xs} : arrays.length ≤ (goAppend lib arrays s xs).1.length := by
  unfold goAppend
  simp only
  split <;> simp

theorem append_arr (lib : Lib) (arrays s xs) :
    (goAppend lib arrays s xs).2.len = s.len + xs.length ∧
    ((goAppend lib arrays s xs).2.arr = s.arr ∨ (goAppend lib arrays s xs).2.arr = arrays.length) := by
  unfold goAppend
  simp only
  split <;> simp

theorem append_bound (lib : Lib) {arrays s xs} (hb : s.len ≤ (cells arrays s.arr).length) (ha : s.arr < arrays.length) :
    (goAppend lib arrays s xs).2.arr < (goAppend lib arrays s xs).1.length ∧
    (goAppend lib arrays s xs).2.len ≤ (cells (goAppend lib arrays s xs).1 (goAppend lib arrays s xs).2.arr).length := by
  unfold goAppend
  simp only
  have hc : ((arrays[s.arr]?).getD []) = cells arrays s.arr := rfl
  rw [hc]
  split
  · refine ⟨by simpa using ha, ?_⟩
    simp only [cells]
    rw [List.getElem?_set_self ha, hc]
    simp
    omega
  · refine ⟨by simp, ?_⟩
    simp only [cells]
    rw [List.getElem?_append_right (Nat.le_refl _), hc]
    simp
    omega

/-- What every step keeps. -/
structure Grows (st st' : Mem) : Prop where
  inv : Inv st'
  frozen : ∀ t, Frozen st t → Frozen st' t ∧ read st'.arrays t = read st.arrays t
  lists : ∀ v, listOf st v <+: listOf st' v

theorem Grows.refl {st} (h : Inv st) : Grows st st := ⟨h, fun _ h => ⟨h, rfl⟩, fun _ => List.prefix_rfl⟩
theorem Grows.trans {a b c} (h1 : Grows a b) (h2 : Grows b c) : Grows a c :=
  ⟨h2.inv, fun t h => ⟨(h2.frozen t (h1.frozen t h).1).1, (h2.frozen t (h1.frozen t h).1).2.trans (h1.frozen t h).2⟩,
    fun v => (h1.lists v).trans (h2.lists v)⟩

/-- Same arrays and results. -/
def Same (st st' : Mem) : Prop := st'.arrays = st.arrays ∧ st'.results = st.results

theorem Same.refl (st) : Same st st := ⟨rfl, rfl⟩
theorem Same.trans {a b c} (h1 : Same a b) (h2 : Same b c) : Same a c := ⟨h2.1.trans h1.1, h2.2.trans h1.2⟩

theorem Same.inv {st st'} (h : Same st st') (hi : Inv st) : Inv st' := by
  obtain ⟨h1, h2⟩ := h
  constructor
  · rw [h1, h2]; exact hi.bound
  · rw [h1]; exact hi.zero
  · rw [h1, h2]; exact hi.apart

theorem Same.listOf {st st'} (h : Same st st') (v) : listOf st' v = listOf st v := by
  unfold Api.listOf; rw [h.1, h.2]

theorem Same.grows {st st'} (h : Same st st') (hi : Inv st) : Grows st st' := by
  refine ⟨h.inv hi, fun t ht => ⟨?_, by rw [h.1]⟩, fun v => by rw [h.listOf]; exact List.prefix_rfl⟩
  unfold Frozen; rw [h.1, h.2]; exact ht

/-- Slices of a result are frozen. -/
theorem Inv.frozen {st} (hi : Inv st) {v : Nat} {r : ResObj} (h : st.results[v]? = some r) : Frozen st r.errors := by
  refine ⟨(hi.bound v r h).1, fun v' r' h' e => ?_⟩
  rcases hi.apart v' v r' r h' h e with e' | e'
  · subst e'; rw [h] at h'; cases h'; exact .inl (Nat.le_refl _)
  · exact .inr (e ▸ e')

/-- Appending to result `v`. -/
theorem appended (lib : Lib) {st : Mem} (hi : Inv st) {v : Nat} {r : ResObj} (hr : st.results[v]? = some r) (xs : List (Option Nat))
    {st' : Mem} (ha : st'.arrays = (goAppend lib st.arrays r.errors xs).1)
    {k} (hres : st'.results = st.results.set v { r with errors := (goAppend lib st.arrays r.errors xs).2, score := k }) :
    Grows st st' ∧ listOf st' v = listOf st v ++ xs ∧ ∀ v', v' ≠ v → listOf st' v' = listOf st v' := by
  obtain ⟨b1, b2⟩ := hi.bound v r hr
  have hv : v < st.results.length := by
    rcases Nat.lt_or_ge v st.results.length with h | h
    · exact h
    · rw [List.getElem?_eq_none h] at hr; cases hr
  have hself : st'.results[v]? = some { r with errors := (goAppend lib st.arrays r.errors xs).2, score := k } := by
    rw [hres, List.getElem?_set_self hv]
  have hother : ∀ v' : Nat, v' ≠ v → st'.results[v']? = st.results[v']? := by
    intro v' hne
    rw [hres, List.getElem?_set_ne (Ne.symm hne)]
  obtain ⟨a1, a2⟩ := append_arr lib st.arrays r.errors xs
  obtain ⟨c1, c2⟩ := append_bound lib b2 b1 (xs := xs)
  have hfr : ∀ t, Frozen st t → read st'.arrays t = read st.arrays t := by
    intro t ht
    rw [ha]
    exact append_other lib b2 ht.1 fun e => ht.2 v r hr e.symm
  have nil_len : ∀ {l : List (Option Nat)}, l.length = 0 → l = [] := fun h => List.length_eq_zero_iff.1 h
  have hlself : listOf st' v = listOf st v ++ xs := by
    unfold listOf
    rw [hself, hr]
    simp only [ha]
    exact append_read lib b2 b1
  have hlother : ∀ v', v' ≠ v → listOf st' v' = listOf st v' := by
    intro v' hne
    unfold listOf
    rw [hother v' hne]
    cases h : st.results[v']? with
    | none => rfl
    | some r' => exact hfr _ (hi.frozen h)
  refine ⟨⟨⟨?_, ?_, ?_⟩, ?_, ?_⟩, hlself, hlother⟩
  · intro v' r' h'
    by_cases e : v' = v
    · subst e
      rw [hself] at h'; cases h'
      rw [ha]; exact ⟨c1, c2⟩
    · rw [hother v' e] at h'
      obtain ⟨d1, d2⟩ := hi.bound v' r' h'
      rw [ha, append_cells lib b2 d1]
      exact ⟨Nat.lt_of_lt_of_le d1 (append_len lib), d2⟩
  · rw [ha]
    refine ⟨nil_len ?_, Nat.lt_of_lt_of_le hi.zero.2 (append_len lib)⟩
    rw [append_cells lib b2 hi.zero.2, hi.zero.1]; rfl
  · have key : ∀ (v' : Nat) (r' : ResObj), v' ≠ v → st.results[v']? = some r' →
        (goAppend lib st.arrays r.errors xs).2.arr = r'.errors.arr →
        cells st'.arrays r'.errors.arr = [] := by
      intro v' r' hne h' e
      have d1 := (hi.bound v' r' h').1
      rw [ha]
      refine nil_len ?_
      rw [append_cells lib b2 d1]
      rcases a2 with a2 | a2
      · rcases hi.apart v v' r r' hr h' (a2.symm.trans e) with e' | e'
        · exact absurd e'.symm hne
        · rw [← e, a2, e']; rfl
      · rw [a2] at e; omega
    intro v1 v2 r1 r2 h1 h2 e
    by_cases e1 : v1 = v
    · by_cases e2 : v2 = v
      · exact .inl (e1.trans e2.symm)
      · subst e1
        rw [hself] at h1; cases h1
        rw [hother v2 e2] at h2
        right
        simp only at e ⊢
        rw [e]
        exact key v2 r2 e2 h2 e
    · rw [hother v1 e1] at h1
      by_cases e2 : v2 = v
      · subst e2
        rw [hself] at h2; cases h2
        right
        exact key v1 r1 e1 h1 e.symm
      · rw [hother v2 e2] at h2
        rcases hi.apart v1 v2 r1 r2 h1 h2 e with h | h
        · exact .inl h
        · right
          refine nil_len ?_
          rw [ha, append_cells lib b2 (hi.bound v1 r1 h1).1, h]; rfl
  · intro t ht
    refine ⟨⟨by rw [ha]; exact Nat.lt_of_lt_of_le ht.1 (append_len lib), ?_⟩, hfr t ht⟩
    have empty : cells st.arrays t.arr = [] → cells st'.arrays t.arr = [] := by
      intro h
      refine nil_len ?_
      rw [ha, append_cells lib b2 ht.1, h]; rfl
    intro v' r' h' e
    by_cases ev : v' = v
    · subst ev
      rw [hself] at h'; cases h'
      simp only at e ⊢
      rw [a1]
      rcases a2 with a2 | a2
      · rcases ht.2 v' r hr (a2.symm.trans e) with h | h
        · left; omega
        · right; exact empty h
      · rw [a2] at e; have := ht.1; omega
    · rw [hother v' ev] at h'
      rcases ht.2 v' r' h' e with h | h
      · exact .inl h
      · exact .inr (empty h)
  · intro v'
    by_cases ev : v' = v
    · subst ev; rw [hlself]; exact List.prefix_append _ _
    · rw [hlother v' ev]; exact List.prefix_rfl

/-- A computation that does not touch arrays and results. -/
def Quiet (x : M Mem α) : Prop := ∀ st, Same st (x st).2

namespace Quiet

theorem pure {a : α} : Quiet (Pure.pure a : M Mem α) := fun st => .refl st
theorem fail {e} : Quiet (M.fail e : M Mem α) := fun st => .refl st
theorem get : Quiet (M.get : M Mem Mem) := fun st => .refl st
theorem modify {f : Mem → Mem} (h : ∀ st, Same st (f st)) : Quiet (M.modify f) := h

theorem bind {x : M Mem α} {f : α → M Mem β} (hx : Quiet x) (hf : ∀ a, Quiet (f a)) : Quiet (x >>= f) := by
  intro st
  show Same st (M.seq x f st).2
  have h1 := hx st
  unfold M.seq
  cases h : x st with
  | mk r st1 =>
    rw [h] at h1
    cases r with
    | error e => exact h1
    | ok a => exact h1.trans (hf a st1)

theorem deref {l : List α} {i} : Quiet (deref l i) := by
  unfold Api.deref
  split
  · exact .pure
  · exact .fail

theorem ite {c : Prop} [Decidable c] {x y : M Mem α} (hx : Quiet x) (hy : Quiet y) : Quiet (if c then x else y) := by
  split <;> assumption

end Quiet

theorem detailsOf_quiet {details} : Quiet (detailsOf details) := by
  refine .bind .get fun st => ?_
  split
  · exact .pure
  · exact .deref

theorem addContext_quiet {err details} : Quiet (addContext err details) := by
  unfold addContext
  refine .bind detailsOf_quiet fun d => .ite ?_ .pure
  split
  · exact .pure
  · split
    · exact .fail
    · split
      · exact .fail
      · exact .modify fun _ => ⟨rfl, rfl⟩

theorem describe_quiet {lib e details} : Quiet (describe lib e details) :=
  .bind .get fun _ => .bind .deref fun _ => .bind detailsOf_quiet fun _ => .modify fun _ => ⟨rfl, rfl⟩

theorem deref_some {l : List α} {i : Nat} {x : α} (h : l[i]? = some x) (st : Mem) : deref l i st = (.ok x, st) := by
  unfold deref; rw [h]; rfl

theorem deref_none {l : List α} {i : Nat} (h : l[i]? = none) (st : Mem) : deref l i st = (.error .panic, st) := by
  unfold deref; rw [h]; rfl

theorem seq_run {x : M τ α} {f : α → M τ β} {s s1 a} (h : x s = (.ok a, s1)) : M.seq x f s = f a s1 := by
  simp [M.seq, h]

theorem seq_stop {x : M τ α} {f : α → M τ β} {s s1 e} (h : x s = (.error e, s1)) : M.seq x f s = (.error e, s1) := by
  simp [M.seq, h]

theorem appendTo_eq (lib v xs) (st : Mem) : appendTo lib v xs st = M.seq (deref st.results v) (fun r =>
    M.modify fun st1 => { st1 with
      arrays := (goAppend lib st.arrays r.errors xs).1,
      results := st1.results.set v { r with errors := (goAppend lib st.arrays r.errors xs).2 } }) st := rfl

theorem appendTo_run (lib : Lib) {st : Mem} {v : Nat} {r : ResObj} (hr : st.results[v]? = some r) (xs) :
    appendTo lib v xs st = (.ok (), { st with
      arrays := (goAppend lib st.arrays r.errors xs).1,
      results := st.results.set v { r with errors := (goAppend lib st.arrays r.errors xs).2 } }) := by
  rw [appendTo_eq, seq_run (deref_some hr st)]; rfl

theorem appendTo_stop (lib : Lib) {st : Mem} {v : Nat} (hr : st.results[v]? = none) (xs) :
    appendTo lib v xs st = (.error .panic, st) := by
  rw [appendTo_eq, seq_stop (deref_none hr st)]

theorem appendTo_grows (lib : Lib) {st : Mem} (hi : Inv st) (v xs) : Grows st (appendTo lib v xs st).2 := by
  cases hr : st.results[v]? with
  | none => rw [appendTo_stop lib hr]; exact .refl hi
  | some r => rw [appendTo_run lib hr]; exact (appended lib hi hr xs (k := r.score) rfl rfl).1

theorem newResult_grows {st : Mem} (hi : Inv st) : Grows st { st with results := st.results ++ [({} : ResObj)] } := by
  have get : ∀ (v : Nat) (r : ResObj), (st.results ++ [({} : ResObj)])[v]? = some r → st.results[v]? = some r ∨ r = {} := by
    intro v r h
    rcases Nat.lt_or_ge v st.results.length with hv | hv
    · rw [List.getElem?_append_left hv] at h; exact .inl h
    · rw [List.getElem?_append_right hv] at h
      cases hk : v - st.results.length with
      | zero => rw [hk] at h; simp at h; exact .inr h.symm
      | succ k => rw [hk] at h; simp at h
  refine Grows.mk (Inv.mk ?_ hi.zero ?_) ?_ ?_
  · intro v r h
    rcases get v r h with h | rfl
    · exact hi.bound v r h
    · exact ⟨hi.zero.2, Nat.zero_le _⟩
  · intro v v' r r' h h' e
    rcases Nat.lt_or_ge v st.results.length with hv | hv
    · simp only [List.getElem?_append_left hv] at h
      rcases Nat.lt_or_ge v' st.results.length with hv' | hv'
      · simp only [List.getElem?_append_left hv'] at h'
        exact hi.apart v v' r r' h h' e
      · right
        rcases get v' r' h' with h' | rfl
        · rw [List.getElem?_eq_none hv'] at h'; cases h'
        · rw [e]; exact hi.zero.1
    · right
      rcases get v r h with h | rfl
      · rw [List.getElem?_eq_none hv] at h; cases h
      · exact hi.zero.1
  · intro t ht
    refine ⟨⟨ht.1, fun v r h e => ?_⟩, rfl⟩
    rcases Nat.lt_or_ge v st.results.length with hv | hv
    · simp only [List.getElem?_append_left hv] at h; exact ht.2 v r h e
    · right
      rcases get v r h with h | rfl
      · rw [List.getElem?_eq_none hv] at h; cases h
      · rw [← e]; exact hi.zero.1
  · intro v
    unfold listOf
    rcases Nat.lt_or_ge v st.results.length with hv | hv
    · simp only [List.getElem?_append_left hv]; exact List.prefix_rfl
    · rw [List.getElem?_eq_none hv]; exact List.nil_prefix

theorem score_same {st st' : Mem} {v : Nat} {r : ResObj} (hi : Inv st) (hr : st.results[v]? = some r) {k}
    (ha : st'.arrays = st.arrays) (hres : st'.results = st.results.set v { r with score := k }) :
    Grows st st' ∧ ∀ v', listOf st' v' = listOf st v' := by
  have hget : ∀ (v' : Nat), (st'.results[v']?).map ResObj.errors = (st.results[v']?).map ResObj.errors := by
    intro v'
    have hv : v < st.results.length := by
      rcases Nat.lt_or_ge v st.results.length with h | h
      · exact h
      · rw [List.getElem?_eq_none h] at hr; cases hr
    by_cases e : v' = v
    · subst e; rw [hres, List.getElem?_set_self hv, hr]; rfl
    · rw [hres, List.getElem?_set_ne (Ne.symm e)]
  have back : ∀ (v' : Nat) (r' : ResObj), st'.results[v']? = some r' → ∃ r0, st.results[v']? = some r0 ∧ r0.errors = r'.errors := by
    intro v' r' h
    have := hget v'
    rw [h] at this
    cases h0 : st.results[v']? with
    | none => rw [h0] at this; cases this
    | some r0 => rw [h0] at this; simp at this; exact ⟨r0, rfl, this.symm⟩
  have hl : ∀ v', listOf st' v' = listOf st v' := by
    intro v'
    have := hget v'
    unfold listOf
    cases h0 : st.results[v']? with
    | none => rw [h0] at this; cases h1 : st'.results[v']? with
      | none => rfl
      | some r' => rw [h1] at this; cases this
    | some r0 =>
      rw [h0] at this
      cases h1 : st'.results[v']? with
      | none => rw [h1] at this; cases this
      | some r' => rw [h1] at this; simp at this; simp only [this, ha]
  refine ⟨⟨⟨?_, by rw [ha]; exact hi.zero, ?_⟩, ?_, fun v' => by rw [hl]; exact List.prefix_rfl⟩, hl⟩
  · intro v' r' h
    obtain ⟨r0, h0, e⟩ := back v' r' h
    rw [ha, ← e]; exact hi.bound v' r0 h0
  · intro v1 v2 r1 r2 h1 h2 e
    obtain ⟨s1, g1, e1⟩ := back v1 r1 h1
    obtain ⟨s2, g2, e2⟩ := back v2 r2 h2
    rw [← e1, ← e2] at e
    rw [← e1, ha]
    exact hi.apart v1 v2 s1 s2 g1 g2 e
  · intro t ht
    refine ⟨⟨by rw [ha]; exact ht.1, fun v' r' h e => ?_⟩, by rw [ha]⟩
    obtain ⟨r0, h0, e0⟩ := back v' r' h
    rw [← e0] at e ⊢
    rw [ha]
    exact ht.2 v' r0 h0 e

/-- A computation that only adds to results. -/
def Adds (x : M Mem α) : Prop := ∀ st, Inv st → Grows st (x st).2

theorem Quiet.adds {x : M Mem α} (h : Quiet x) : Adds x := fun st hi => (h st).grows hi

theorem Adds.bind {x : M Mem α} {f : α → M Mem β} (hx : Adds x) (hf : ∀ a, Adds (f a)) : Adds (x >>= f) := by
  intro st hi
  show Grows st (M.seq x f st).2
  have h1 := hx st hi
  unfold M.seq
  cases h : x st with
  | mk r st1 =>
    rw [h] at h1
    cases r with
    | error e => exact h1
    | ok a => exact h1.trans (hf a st1 h1.inv)

theorem addError_adds {lib v e details} : Adds (addError lib v e details) :=
  .bind Quiet.get.adds fun _ => .bind Quiet.deref.adds fun _ => .bind addContext_quiet.adds fun _ =>
    .bind describe_quiet.adds fun _ => fun _ hi => appendTo_grows lib hi v _

/-- `r.score = f(r)` -/
theorem score_adds {v : Nat} {g : Mem → ResObj → M Mem β} {sc : ResObj → β → Int} (hg : ∀ s r, Quiet (g s r)) :
    Adds (do
      let st ← M.get
      let r ← deref st.results v
      let k ← g st r
      M.modify fun st => { st with results := st.results.set v { r with score := sc r k } }) := by
  intro st hi
  show Grows st (M.seq (deref st.results v) (fun r => M.seq (g st r) fun k =>
    M.modify fun st => { st with results := st.results.set v { r with score := sc r k } }) st).2
  cases hr : st.results[v]? with
  | none => rw [seq_stop (deref_none hr st)]; exact .refl hi
  | some r =>
    rw [seq_run (deref_some hr st)]
    have hq := hg st r st
    cases h : g st r st with
    | mk res st1 =>
      rw [h] at hq
      cases res with
      | error e => rw [seq_stop h]; exact Same.grows hq hi
      | ok k =>
        rw [seq_run h]
        have hr1 : st1.results[v]? = some r := by rw [hq.2]; exact hr
        refine (Same.grows hq hi).trans ?_
        exact (score_same (st := st1) (st' := { st1 with results := st1.results.set v { r with score := sc r k } })
          (Same.inv hq hi) hr1 (k := sc r k) rfl rfl).1

theorem incrementScore_adds {v} : Adds (incrementScore v) :=
  score_adds (v := v) (g := fun _ _ => pure ()) (sc := fun r _ => r.score + 1) fun _ _ => .pure

theorem mergeErrors_adds {lib v other} : Adds (mergeErrors lib v other) :=
  .bind Quiet.get.adds fun _ => .bind Quiet.deref.adds fun _ =>
    .bind (fun _ hi => appendTo_grows lib hi v _) fun _ =>
      score_adds (v := v) (g := fun st _ => deref st.results other) (sc := fun r o => r.score + o.score) fun _ _ => .deref

theorem call_adds (lib : Lib) (c : Call) : Adds (call lib c) := by
  cases c with
  | newResult => exact fun _ hi => newResult_grows hi
  | newError o => exact Quiet.adds fun _ => ⟨rfl, rfl⟩
  | newDetails d => exact Quiet.adds fun _ => ⟨rfl, rfl⟩
  | setError e o => exact Quiet.adds fun _ => ⟨rfl, rfl⟩
  | setDetails i d => exact Quiet.adds fun _ => ⟨rfl, rfl⟩
  | addError v e d => exact addError_adds
  | mergeErrors v o => exact mergeErrors_adds
  | incrementScore v => exact incrementScore_adds

theorem runCalls_grows (lib : Lib) : ∀ (cs : List Call) {st : Mem}, Inv st → Grows st (runCalls lib cs st)
  | [], _, hi => .refl hi
  | c :: cs, _, hi => (call_adds lib c _ hi).trans (runCalls_grows lib cs (call_adds lib c _ hi).inv)

theorem inv_empty : Inv {} := by
  constructor
  · intro v r h; simp at h
  · exact ⟨rfl, by decide⟩
  · intro v v' r r' h; simp at h

end GJS.Api

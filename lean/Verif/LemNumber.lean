import Verif.SpecNumber
import Verif.LemMarshal
import Verif.LemNum
import Verif.PropValidate
/-
Helper lemmas: verdicts do not depend on the spelling of the instance.
-/
namespace GJS
open Spec

theorem Spec.Respell.symm {env : Env} {x y : Json} (h : Respell env x y) : Respell env y x := by
  induction h with
  | null => exact .null
  | bool b => exact .bool b
  | str s => exact .str s
  | num m n h1 h2 h3 => exact .num n m h1.symm h2.symm h3.symm
  | arr xs ys hl _ ih => exact .arr ys xs hl.symm (fun k x y hx hy => ih k y x hy hx)
  | obj a b hk _ ih => exact .obj b a (fun k => (hk k).symm) (fun k x y hx hy => ih k y x hy hx)

theorem respell_same {env : Env} {x y : Json} (h : Respell env x y) : SameVal x y := by
  induction h with
  | null => exact .null
  | bool b => exact .bool b
  | str s => exact .str s
  | num m n h1 h2 _ => exact .num m n (by unfold NumLit.toF64; rw [(NumLit.val_eq_iff.1 h1).1, h2])
  | arr xs ys hl _ ih => exact .arr xs ys hl ih
  | obj a b hk _ ih => exact .obj a b hk ih

theorem canonL_some : ∀ {xs : List Json}, (∀ x ∈ xs, canon x ≠ none) ↔ canonL xs ≠ none
  | [] => by simp [canonL]
  | x :: xs => by
    have ih := canonL_some (xs := xs)
    rw [List.forall_mem_cons, ih]
    simp only [canonL]
    cases canon x <;> cases canonL xs <;> simp

theorem canonKV_some : ∀ {xs : List (String × Json)}, (∀ kv ∈ xs, canon kv.2 ≠ none) ↔ canonKV xs ≠ none
  | [] => by simp [canonKV]
  | (k, x) :: xs => by
    have ih := canonKV_some (xs := xs)
    rw [List.forall_mem_cons, ih]
    simp only [canonKV]
    cases canon x <;> cases canonKV xs <;> simp

theorem canon_same_some {x y : Json} (h : SameVal x y) : canon x ≠ none ↔ canon y ≠ none := by
  induction h with
  | null => exact Iff.rfl
  | bool b => exact Iff.rfl
  | str s => exact Iff.rfl
  | num m n h => simp [canon, h]
  | arr xs ys hl _ ih =>
    simp only [canon, ne_eq, Option.map_eq_none_iff]
    have e1 := canonL_some (xs := xs)
    have e2 := canonL_some (xs := ys)
    simp only [ne_eq] at e1 e2 ih
    rw [← e1, ← e2]
    constructor
    · intro h y hy
      obtain ⟨k, hk⟩ := List.mem_iff_getElem?.1 hy
      have : k < xs.length := by rw [hl]; exact (List.getElem?_eq_some_iff.1 hk).1
      have hx := List.getElem?_eq_getElem this
      exact (ih k _ _ hx hk).1 (h _ (List.mem_of_getElem? hx))
    · intro h x hx
      obtain ⟨k, hk⟩ := List.mem_iff_getElem?.1 hx
      have : k < ys.length := by rw [← hl]; exact (List.getElem?_eq_some_iff.1 hk).1
      have hy := List.getElem?_eq_getElem this
      exact (ih k _ _ hk hy).2 (h _ (List.mem_of_getElem? hy))
  | obj a b hk _ ih =>
    simp only [canon, ne_eq, Option.map_eq_none_iff]
    have e1 := canonKV_some (xs := a)
    have e2 := canonKV_some (xs := b)
    simp only [ne_eq] at e1 e2 ih
    rw [← e1, ← e2]
    constructor
    · rintro h ⟨k, y⟩ hy
      obtain ⟨⟨k', x⟩, hx, rfl⟩ := List.mem_map.1 ((hk k).2 (List.mem_map.2 ⟨_, hy, rfl⟩))
      exact (ih _ _ _ hx hy).1 (h _ hx)
    · rintro h ⟨k, x⟩ hx
      obtain ⟨⟨k', y⟩, hy, rfl⟩ := List.mem_map.1 ((hk k).1 (List.mem_map.2 ⟨_, hx, rfl⟩))
      exact (ih _ _ _ hx hy).2 (h _ hy)

theorem marshal_same {fmt} {x y : Json} (hx : x.WF) (hy : y.WF) (h : SameVal x y) :
    marshalWithoutNumber fmt x = marshalWithoutNumber fmt y := by
  have hs := canon_same_some h
  simp only [marshalWithoutNumber]
  cases e1 : canon x with
  | none =>
    cases e2 : canon y with
    | none => rfl
    | some d => simp [e1, e2] at hs
  | some c =>
    cases e2 : canon y with
    | none => simp [e1, e2] at hs
    | some d => rw [(canon_eq_iff x y hx hy e1 e2).2 h]

theorem wfArr {xs : List Json} (h : (Json.arr xs).WF) {x} (hx : x ∈ xs) : x.WF := by
  cases h with | arr _ h => exact h x hx
theorem wfObj {m : List (String × Json)} (h : (Json.obj m).WF) : (m.map Prod.fst).Nodup ∧ ∀ kv ∈ m, kv.2.WF := by
  cases h with | obj _ h1 h2 => exact ⟨h1, h2⟩

theorem respell_type {env : Env} {x y t} (h : Respell env x y) (ht : HasType env x t) : HasType env y t := by
  cases h with
  | null => exact ht
  | bool => exact ht
  | str => exact ht
  | num m n h1 _ h3 =>
    cases ht with
    | num => exact .num _
    | int _ z hz1 hz2 => exact .int _ z (by rw [← h3]; exact hz1) (by rw [← h1]; exact hz2)
  | arr => cases ht; exact .arr _
  | obj => cases ht; exact .obj _

/-- Values that are the same up to spelling, both well formed. -/
def RW (env : Env) (x y : Json) : Prop := Respell env x y ∧ x.WF ∧ y.WF

theorem RW.symm {env x y} (h : RW env x y) : RW env y x := ⟨h.1.symm, h.2.2, h.2.1⟩

theorem respell_elem {env : Env} {xs ys : List Json} (h : RW env (.arr xs) (.arr ys)) {k : Nat} {y}
    (hy : ys[k]? = some y) : ∃ x, xs[k]? = some x ∧ RW env x y := by
  obtain ⟨h, w1, w2⟩ := h
  cases h with
  | arr _ _ hl h =>
    have : k < xs.length := by rw [hl]; exact (List.getElem?_eq_some_iff.1 hy).1
    have hx := List.getElem?_eq_getElem this
    exact ⟨_, hx, h _ _ _ hx hy, wfArr w1 (List.mem_of_getElem? hx), wfArr w2 (List.mem_of_getElem? hy)⟩

theorem respell_mem {env : Env} {xs ys : List Json} (h : RW env (.arr xs) (.arr ys)) {y} (hy : y ∈ ys) :
    ∃ x ∈ xs, RW env x y := by
  obtain ⟨k, hk⟩ := List.mem_iff_getElem?.1 hy
  obtain ⟨x, hx, hr⟩ := respell_elem h hk
  exact ⟨x, List.mem_of_getElem? hx, hr⟩

theorem respell_kv {env : Env} {a b : List (String × Json)} (h : RW env (.obj a) (.obj b)) {k y}
    (hy : (k, y) ∈ b) : ∃ x, (k, x) ∈ a ∧ RW env x y := by
  obtain ⟨h, w1, w2⟩ := h
  cases h with
  | obj _ _ hk h =>
    obtain ⟨⟨k', x⟩, hx, rfl⟩ := List.mem_map.1 ((hk k).2 (List.mem_map.2 ⟨_, hy, rfl⟩))
    exact ⟨x, hx, h _ _ _ hx hy, (wfObj w1).2 _ hx, (wfObj w2).2 _ hy⟩

theorem respell_get {env : Env} {a b : List (String × Json)} (h : RW env (.obj a) (.obj b)) {k y}
    (hy : getKey k b = some y) : ∃ x, getKey k a = some x ∧ RW env x y := by
  obtain ⟨x, hx, hr⟩ := respell_kv h (lookup_some_mem hy)
  exact ⟨x, lookup_eq_some_of_mem (wfObj h.2.1).1 hx, hr⟩

theorem respell_keys {env : Env} {a b : List (String × Json)} (h : RW env (.obj a) (.obj b)) (k : String) :
    k ∈ b.map Prod.fst ↔ k ∈ a.map Prod.fst := by
  obtain ⟨h, _, _⟩ := h
  cases h with | obj _ _ hk h => exact (hk k).symm

theorem respell_length {env : Env} {a b : List (String × Json)} (h : RW env (.obj a) (.obj b)) :
    b.length = a.length := by
  have := ((List.perm_ext_iff_of_nodup (wfObj h.2.2).1 (wfObj h.2.1).1).2 (respell_keys h)).length_eq
  simpa using this

theorem respell_arr {env : Env} {x : Json} {ys} (h : RW env x (.arr ys)) : ∃ xs, x = .arr xs ∧ xs.length = ys.length := by
  obtain ⟨h, _⟩ := h
  cases h with | arr xs _ hl => exact ⟨xs, rfl, hl⟩

theorem respell_obj {env : Env} {x : Json} {b} (h : RW env x (.obj b)) : ∃ a, x = .obj a := by
  obtain ⟨h, _⟩ := h
  cases h with | obj a => exact ⟨a, rfl⟩

theorem respell_marshal {env : Env} {x y} (h : RW env x y) : env.marshal y = env.marshal x :=
  (marshal_same h.2.1 h.2.2 (respell_same h.1)).symm

section
variable {env : Env} {Sat : Id → Json → Prop} (hS : ∀ i x y, RW env x y → (Sat i x ↔ Sat i y))
include hS

theorem respell_keywords (hf : FormatBlind env) {s : Sub} {x y : Json} (h : RW env x y)
    (hk : Keywords env Sat s x) : Keywords env Sat s y := by
  have hs := fun i => hS i x y h
  obtain ⟨h1, h2, h3, h4, h5, h6, h7, h8, h9, h10, h11, h12, h13, h14⟩ := hk
  refine ⟨?_, ?_, ?_, ?_, ?_, ?_, ?_, ?_, ?_, ?_, ?_, ?_, ?_, ?_⟩
  · rcases h1 with h1 | ⟨t, ht, h1⟩
    · exact .inl h1
    · exact .inr ⟨t, ht, respell_type h.1 h1⟩
  · simpa only [AnyOfRule, hs] using h2
  · simpa only [OneOfRule, hs] using h3
  · simpa only [AllOfRule, hs] using h4
  · simpa only [NotRule, hs] using h5
  · rintro b rfl k hk
    obtain ⟨a, rfl⟩ := respell_obj h
    obtain ⟨e1, e2⟩ := h6 a rfl k ((respell_keys h k).1 hk)
    exact ⟨fun ks hks q hq => (respell_keys h q).2 (e1 ks hks q hq), fun i hi => (hs i).1 (e2 i hi)⟩
  · simpa only [IfRule, hs] using h7
  · simpa only [ConstRule, respell_marshal h] using h8
  · simpa only [EnumRule, respell_marshal h] using h9
  · simpa only [FormatRule, hf _ _ _ h.1] using h10
  · rintro ys rfl
    obtain ⟨xs, rfl, hl⟩ := respell_arr h
    obtain ⟨a1, a2, a3, a4⟩ := h11 xs rfl
    refine ⟨?_, hl ▸ a2, ?_, ?_⟩
    · unfold ItemsRule at a1 ⊢
      split
      · rename_i hi
        rw [if_pos hi] at a1
        intro y hy
        obtain ⟨x, hx, hr⟩ := respell_mem h hy
        obtain ⟨i, e1, e2⟩ := a1 x hx
        exact ⟨i, e1, (hS i x y hr).1 e2⟩
      · rename_i hi
        rw [if_neg hi] at a1
        refine ⟨?_, fun hne => ?_⟩
        · intro k i y hk hy
          obtain ⟨x, hx, hr⟩ := respell_elem h hy
          exact (hS i x y hr).1 (a1.1 k i x hk hx)
        · have := a1.2 hne
          cases hai : s.additionalItems with
          | absent => trivial
          | bool b => rw [hai] at this; simpa only [AdditionalItemsRule, hl] using this
          | schema i =>
            rw [hai] at this
            intro k y hk hy
            obtain ⟨x, hx, hr⟩ := respell_elem h hy
            exact (hS i x y hr).1 (this k x hk hx)
    · intro hu a b x' y' hab hx hy
      obtain ⟨x1, e1, r1⟩ := respell_elem h hx
      obtain ⟨y1, e2, r2⟩ := respell_elem h hy
      rw [respell_marshal r1, respell_marshal r2]
      exact a3 hu a b x1 y1 hab e1 e2
    · intro i hi
      obtain ⟨x, hx, e⟩ := a4 i hi
      obtain ⟨y, hy, r⟩ := respell_mem h.symm hx
      exact ⟨y, hy, (hS i x y r.symm).1 e⟩
  · rintro b rfl
    obtain ⟨a, rfl⟩ := respell_obj h
    obtain ⟨o1, o2, o3, o4, o5, o6⟩ := h12 a rfl
    refine ⟨by rw [respell_length h]; exact o1, ?_, ?_, ?_, ?_, ?_⟩
    · intro q hq; exact (respell_keys h q).2 (o2 q hq)
    · intro name i hi y hy
      obtain ⟨x, hx, r⟩ := respell_get h hy
      exact (hS i x y r).1 (o3 name i hi x hx)
    · intro pat i hi k y hy hm
      obtain ⟨x, hx, r⟩ := respell_kv h hy
      exact (hS i x y r).1 (o4 pat i hi k x hx hm)
    · intro k y hy e1 e2
      obtain ⟨x, hx, r⟩ := respell_kv h hy
      have := o5 k x hx e1 e2
      cases hap : s.additionalProperties with
      | absent => trivial
      | bool b => rw [hap] at this; exact this
      | schema i => rw [hap] at this; exact (hS i x y r).1 this
    · intro i hi k hk
      exact o6 i hi k ((respell_keys h k).1 hk)
  · rintro t rfl
    obtain ⟨h, _⟩ := h
    cases h
    exact h13 t rfl
  · rintro n rfl
    obtain ⟨h, _⟩ := h
    cases h with
    | num m _ e => rw [← e]; exact h14 m rfl

end

theorem respell_unfold {env : Env} (hf : FormatBlind env) (h : Heap) : ∀ (n : Nat) (i : Id) (x y : Json), RW env x y →
    (unfold env h (fun _ _ => True) n i x ↔ unfold env h (fun _ _ => True) n i y)
  | 0, _, _, _, _ => Iff.rfl
  | n + 1, i, x, y, hr => by
    have ih := respell_unfold hf h n
    simp only [unfold, NodeRules]
    refine exists_congr fun s => and_congr_right fun _ => ?_
    cases s.pass with
    | some b => exact Iff.rfl
    | none =>
      cases s.refSchema with
      | some j => exact ih j x y hr
      | none => exact ⟨respell_keywords ih hf hr, respell_keywords ih hf hr.symm⟩

end GJS

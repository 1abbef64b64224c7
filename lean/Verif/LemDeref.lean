import Verif.SpecDeref
import Verif.LemLaws
/-
Helper lemmas: replacing references by what they stand for.
-/
namespace GJS
open Spec

section
variable {env : Env} {resolve : String → Option (Draft × Json)} {Sat : Draft → Json → Json → Prop} {d : Draft} {v : Json}
  {R : Json → Json → Prop} {m m' : List (String × Json)}

theorem Spec.PartOr.like {x y} (h : PartOr R x y) {R'} (hR : R x y → R' x y) : SaysLike R' x y := by
  rcases h with rfl | ⟨a, b, h1, h2, h3⟩
  · exact .inl rfl
  · exact .inr ⟨a, b, h1, h2, hR h3⟩

theorem like_list {R R' : Json → Json → Prop} {xs ys : List Json} (h : List.Forall₂ (PartOr R) xs ys) :
    (∀ x, ∀ y ∈ ys, R x y → R' x y) → ListLike R' xs ys := by
  induction h with
  | nil => exact fun _ => .nil
  | cons h _ ih =>
    exact fun hR => .cons (Spec.PartOr.like h (hR _ _ (List.mem_cons_self ..))) (ih fun x y hy => hR x y (List.mem_cons_of_mem _ hy))

theorem like_map {R R' : Json → Json → Prop} {xs ys : List (String × Json)}
    (h : List.Forall₂ (fun a b => a.1 = b.1 ∧ PartOr R a.2 b.2) xs ys) :
    (∀ x, ∀ kv ∈ ys, R x kv.2 → R' x kv.2) → MapLike R' xs ys := by
  induction h with
  | nil => exact fun _ => .nil
  | cons h _ ih =>
    exact fun hR => .cons ⟨h.1, Spec.PartOr.like h.2 (hR _ _ (List.mem_cons_self ..))⟩ (ih fun x y hy => hR x y (List.mem_cons_of_mem _ hy))

/-- A part of an object, not the whole. -/
def InnerPart (m : List (String × Json)) (y : Json) : Prop := Within (.obj m) y ∧ y.size < (Json.obj m).size

theorem Spec.KeywordsOr.near {R'} (h : KeywordsOr R m m') (hR : ∀ x y, InnerPart m' y → R x y → R' x y) : Near R' m m' := by
  intro k
  rcases h k with h | ⟨x, y, h1, h2, h3⟩
  · exact .inl h
  have hmem : (k, y) ∈ m' := lookup_some_mem h2
  have hsz : y.size < (Json.obj m').size := by have := Json.size_lt_of_mem_kv hmem; omega
  refine .inr ⟨x, y, h1, h2, ?_⟩
  cases h3 with
  | same => exact .refl _
  | schema _ _ hk h3 => exact .schema _ _ hk (Spec.PartOr.like h3 (hR _ _ ⟨.member _ k _ _ hmem (.self _), hsz⟩))
  | list xs ys hk h3 =>
    refine .list _ _ hk (like_list h3 fun x y hy => hR _ _ ⟨.member _ k _ _ hmem (.elem _ _ _ hy (.self _)), ?_⟩)
    have := Json.size_lt_of_mem hy
    omega
  | map xs ys hk h3 =>
    refine .map _ _ hk (like_map h3 fun x kv hy => hR _ _ ⟨.member _ k _ _ hmem (.member _ kv.1 _ _ hy (.self _)), ?_⟩)
    have := Json.size_lt_of_mem_kv (k := kv.1) (x := kv.2) hy
    omega

theorem near_ref (h : Near R m m') : getKey "$ref" m = getKey "$ref" m' := by
  rcases h "$ref" with h | ⟨x, y, h1, h2, h3⟩
  · rw [h.1, h.2]
  · rw [h1, h2]; cases h3 <;> first | rfl | (rename_i hk _; exact absurd hk (by decide))

/-- Without references nothing depends on what references stand for, nor on depth. -/
theorem unfold_noRef {resolve resolve' : String → Option (Draft × Json)} {P : Draft → Json → Json → Prop} :
    ∀ (n m : Nat) (D : Json), NoRef D → D.size ≤ n → D.size ≤ m → ∀ v,
    docUnfold env resolve P n d D v ↔ docUnfold env resolve' P m d D v
  | 0, _, D, _, h, _, _ => by have := D.size_pos; omega
  | _ + 1, 0, D, _, _, h, _ => by have := D.size_pos; omega
  | n + 1, m + 1, D, hr, hn, hm, v => by
    cases D with
    | obj ms =>
      have ih := fun X (hs : SubSchema d ms X) => unfold_noRef (resolve := resolve) (resolve' := resolve') (P := P) n m X
        (noRef_within hr (subSchema_within hs)) (by have := subSchema_size hs; omega) (by have := subSchema_size hs; omega)
      simp only [docUnfold, DocRules]
      have : getKey "$ref" ms = none := getKey_notIn (hr _ (.self _))
      rw [this]
      exact ⟨dkeywords_sat ih, dkeywords_sat fun D hs v => (ih D hs v).symm⟩
    | _ => exact Iff.rfl

theorem deref_unfold {P : Draft → Json → Json → Prop} : ∀ (N : Nat) (D D' : Json), Deref resolve d N D D' → NoRef D' →
    ∀ n, N + D'.size ≤ n → ∀ v, docUnfold env resolve P n d D v ↔ docUnfold env resolve P n d D' v
  | 0, D, D', h, _, _, _, _ => by rw [show D = D' from h]
  | N + 1, D, D', h, hr, 0, hn, v => by omega
  | N + 1, D, D', h, hr, n + 1, hn, v => by
    rcases h with rfl | ⟨m, t, X, rfl, h1, h2, h3⟩ | ⟨m, m', rfl, rfl, h1⟩
    · exact Iff.rfl
    · have ih := deref_unfold (P := P) N X D' h3 hr n (by omega) v
      have : docUnfold env resolve P (n + 1) d (.obj m) v ↔ docUnfold env resolve P n d X v := by
        have h1 : getKey "$ref" m = some (.str t) := h1
        simp only [docUnfold, DocRules, h1, h2, Option.some.injEq, Prod.mk.injEq]
        constructor
        · rintro ⟨_, _, ⟨rfl, rfl⟩, h⟩; exact h
        · exact fun h => ⟨_, _, ⟨rfl, rfl⟩, h⟩
      rw [this, ih]
      exact unfold_noRef _ _ _ hr (by omega) (by omega) v
    · have hN : Near (Eqv (docUnfold env resolve P n d)) m m' := Spec.KeywordsOr.near h1 fun x y hy hR =>
        deref_unfold (P := P) N x y hR (noRef_within hr hy.1) n (by have := hy.2; omega)
      have : getKey "$ref" m' = none := getKey_notIn (hr _ (.self _))
      simp only [docUnfold, DocRules, near_ref hN, this]
      exact ⟨dkeywords_near hN, dkeywords_near (hN.symm eqv_symm)⟩

end
end GJS

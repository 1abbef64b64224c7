import Verif.LemReject
import Verif.LemReach
import Verif.PropReach
/-
Helper lemmas: objects without faults.
-/
namespace GJS
open Spec

/-- An object of the right shape whose sub-schemas are of the right kind and whose reference leads
somewhere has no fault. -/
theorem no_fault {w : World} (hi : ∀ a b, w.inherits a b ≠ none) {l : LState} {d : Draft} {m : List (String × Json)}
    {e : CErr} (hS : Shape w d m) (sub : ∀ D, SubSchema d m D → ¬ NoSchema D)
    (defs : ∀ ps k D, Kw m "definitions" (.obj ps) → (k, D) ∈ ps → ¬ NoSchema D)
    (ref : ∀ v, Kw m "$ref" v → ∃ t u, v = .str t ∧ w.norm t = some u ∧ (∀ e, ¬ NotThere w l u e) ∧
      ∀ o D, ResolvedAs w l u o D → ¬ NoSchema D)
    (h : FaultIn w l d m e) : False := by
  have size : ∀ key ∈ sizeKeys, ∀ v, Kw m key v → SizeValue w.env v := by
    intro key hs v hv
    simp only [sizeKeys, List.mem_cons, List.not_mem_nil, or_false] at hs
    rcases hs with rfl | rfl | rfl | rfl | rfl | rfl
    · exact hS.minLength v hv
    · exact hS.maxLength v hv
    · exact hS.minItems v hv
    · exact hS.maxItems v hv
    · exact hS.minProperties v hv
    · exact hS.maxProperties v hv
  have strs : ∀ {ts : List String} {x}, x ∈ ts.map Json.str → ∃ t ∈ ts, x = .str t := by
    intro ts x h
    obtain ⟨t, h1, h2⟩ := List.mem_map.1 h
    exact ⟨t, h1, h2.symm⟩
  have twice : ∀ {ts : List String} {i j : Nat} {t}, ts.Nodup → i < j → (ts.map Json.str)[i]? = some (.str t) →
      (ts.map Json.str)[j]? = some (.str t) → False := by
    intro ts i j t hn hij h1 h2
    rw [List.getElem?_map] at h1 h2
    obtain ⟨a, h3, h4⟩ := Option.map_eq_some_iff.1 h1
    obtain ⟨b, h5, h6⟩ := Option.map_eq_some_iff.1 h2
    cases h4; cases h6
    obtain ⟨hi1, e1⟩ := List.getElem?_eq_some_iff.1 h3
    obtain ⟨hj1, e2⟩ := List.getElem?_eq_some_iff.1 h5
    have := (List.getElem_inj hn).1 (e1.trans e2.symm)
    omega
  cases h with
  | id v h1 h2 => obtain ⟨t, h3, _⟩ := hS.id v h1; exact h2 t h3
  | idText t h1 h2 => obtain ⟨t', h3, h4⟩ := hS.id _ h1; cases h3; exact h4 h2
  | idBase t u base h1 h2 h3 => exact hi _ _ h3
  | definitions v h1 h2 => obtain ⟨c, rfl⟩ := hS.definitions v h1; exact h2.2 c rfl
  | definition ps k D h1 h2 h3 => exact defs ps k D h1 h2 h3
  | text key v h1 h2 h3 =>
    simp only [List.mem_cons, List.not_mem_nil, or_false] at h1
    rcases h1 with rfl | rfl | rfl
    · obtain ⟨t, h⟩ := hS.title v h2; exact h3 t h
    · obtain ⟨t, h⟩ := hS.description v h2; exact h3 t h
    · obtain ⟨t, _, h, _⟩ := ref v h2; exact h3 t h
  | refText t h1 h2 => obtain ⟨_, u, h, h3, _⟩ := ref _ h1; cases h; rw [h2] at h3; cases h3
  | ref t u e h1 h2 h3 => obtain ⟨_, u', h, h4, h5, _⟩ := ref _ h1; cases h; rw [h2] at h4; cases h4; exact h5 e h3
  | target t u o D h1 h2 h3 h4 => obtain ⟨_, u', h, h5, _, h6⟩ := ref _ h1; cases h; rw [h2] at h5; cases h5; exact h6 o D h3 h4
  | type v h1 h2 h3 =>
    rcases hS.type v h1 with ⟨t, h, _⟩ | ⟨ts, h, _⟩
    · exact h2 t h
    · exact h3 _ h
  | typeElem vs x h1 h2 h3 _ =>
    rcases hS.type _ h1 with ⟨t, h, _⟩ | ⟨ts, h, _⟩
    · cases h
    · cases h
      obtain ⟨t, _, ht⟩ := strs h2
      exact h3 t ht
  | typeName t h1 h2 =>
    rcases hS.type _ h1 with ⟨t, h, h3⟩ | ⟨ts, h, _⟩
    · cases h; exact h2 h3
    · cases h
  | typeNames vs t h1 h2 h3 =>
    rcases hS.type _ h1 with ⟨t, h, _⟩ | ⟨ts, h, _, h4⟩
    · cases h
    · cases h
      obtain ⟨t', h5, ht⟩ := strs h2
      cases ht
      exact h3 (h4 _ h5)
  | typeTwice vs t i j h1 h2 h3 h4 =>
    rcases hS.type _ h1 with ⟨t, h, _⟩ | ⟨ts, h, h5, _⟩
    · cases h
    · cases h
      exact twice h5 h2 h3 h4
  | object key v h1 h2 h3 =>
    simp only [List.mem_cons, List.not_mem_nil, or_false] at h1
    rcases h1 with rfl | rfl
    · obtain ⟨c, h⟩ := hS.properties v h2; exact h3 c h
    · obtain ⟨c, h, _⟩ := hS.dependencies v h2; exact h3 c h
  | additional key v h1 h2 h3 =>
    simp only [List.mem_cons, List.not_mem_nil, or_false] at h1
    rcases h1 with rfl | rfl
    · rcases hS.additionalProperties v h2 with ⟨b, h⟩ | ⟨c, h⟩
      · exact h3.1 b h
      · exact h3.2 c h
    · rcases hS.additionalItems v h2 with ⟨b, h⟩ | ⟨c, h⟩
      · exact h3.1 b h
      · exact h3.2 c h
  | patternProperties v h1 h2 => obtain ⟨c, h, _⟩ := hS.patternProperties v h1; exact h2 c h
  | patternKey c k D h1 h2 h3 =>
    obtain ⟨c', h, h4⟩ := hS.patternProperties _ h1
    cases h
    have := h4 k (List.mem_map.2 ⟨_, h2, rfl⟩)
    rw [h3] at this; cases this
  | propertyNames v hd h1 h2 => exact sub _ (.name v hd h1) h2
  | dependency c k D h1 h2 h3 h4 => exact sub _ (.dependency c k D h1 h2 h4) h3
  | dependencyElem c k xs x h1 h2 h3 h4 =>
    obtain ⟨c', h, h5⟩ := hS.dependencies _ h1
    cases h
    obtain ⟨t, h⟩ := h5 k xs h2 x h3
    exact h4 t h
  | required v h1 h2 => obtain ⟨ts, h, _⟩ := hS.required v h1; exact h2 _ h
  | requiredElem vs x h1 h2 h3 =>
    obtain ⟨ts, h, _⟩ := hS.required _ h1
    cases h
    obtain ⟨t, _, h⟩ := strs h2
    exact h3 t h
  | requiredTwice vs t i j h1 h2 h3 h4 =>
    obtain ⟨ts, h, h5⟩ := hS.required _ h1
    cases h
    exact twice h5 h2 h3 h4
  | items v h1 h2 h3 => exact sub _ (.items v h1 h3) h2
  | item vs D h1 h2 h3 => exact sub _ (.item vs D h1 h2) h3
  | uniqueItems v h1 h2 => obtain ⟨b, h⟩ := hS.uniqueItems v h1; exact h2 b h
  | multipleOf v h1 h2 => obtain ⟨n, h, h3, _⟩ := hS.multipleOf v h1; exact h2 ⟨n, h, h3⟩
  | multipleOfSign n h1 h2 => obtain ⟨n', h, _, h3⟩ := hS.multipleOf _ h1; cases h; exact absurd h3 (not_lt.2 h2)
  | bound key v h1 h2 h3 =>
    simp only [List.mem_cons, List.not_mem_nil, or_false] at h1
    rcases h1 with rfl | rfl
    · exact h3 (hS.minimum v h2)
    · exact h3 (hS.maximum v h2)
  | exclusive4 xkey key v h1 h2 h3 h4 =>
    have : ExclusiveValue w.env d m key v := by
      simp only [exclusiveKeys, List.mem_cons, List.not_mem_nil, or_false, Prod.mk.injEq] at h1
      rcases h1 with ⟨rfl, rfl⟩ | ⟨rfl, rfl⟩
      · exact hS.exclusiveMinimum v h3
      · exact hS.exclusiveMaximum v h3
    unfold ExclusiveValue at this
    rw [if_pos h2] at this
    obtain ⟨⟨b, h⟩, _⟩ := this
    exact h4 b h
  | exclusiveHybrid xkey key v h1 h2 h3 h4 h5 =>
    have : ExclusiveValue w.env d m key v := by
      simp only [exclusiveKeys, List.mem_cons, List.not_mem_nil, or_false, Prod.mk.injEq] at h1
      rcases h1 with ⟨rfl, rfl⟩ | ⟨rfl, rfl⟩
      · exact hS.exclusiveMinimum v h3
      · exact hS.exclusiveMaximum v h3
    unfold ExclusiveValue at this
    rw [if_neg (by rw [h2]; decide), if_pos h2] at this
    rcases this with ⟨⟨b, h⟩, _⟩ | ⟨n, h, _⟩
    · exact h4 b h
    · exact h5 n h
  | exclusive6 xkey key v h1 h2 h3 h4 h5 =>
    have : ExclusiveValue w.env d m key v := by
      simp only [exclusiveKeys, List.mem_cons, List.not_mem_nil, or_false, Prod.mk.injEq] at h1
      rcases h1 with ⟨rfl, rfl⟩ | ⟨rfl, rfl⟩
      · exact hS.exclusiveMinimum v h4
      · exact hS.exclusiveMaximum v h4
    unfold ExclusiveValue at this
    rw [if_neg h2, if_neg h3] at this
    obtain ⟨n, h⟩ := this
    exact h5 n h
  | exclusiveAlone xkey key b h1 h2 h3 h4 =>
    have : ExclusiveValue w.env d m key (.bool b) := by
      simp only [exclusiveKeys, List.mem_cons, List.not_mem_nil, or_false, Prod.mk.injEq] at h1
      rcases h1 with ⟨rfl, rfl⟩ | ⟨rfl, rfl⟩
      · exact hS.exclusiveMinimum _ h3
      · exact hS.exclusiveMaximum _ h3
    unfold ExclusiveValue at this
    rw [h4] at this
    rcases h2 with h2 | h2
    · rw [if_pos h2] at this; simp at this
    · rw [if_neg (by rw [h2]; decide), if_pos h2] at this
      rcases this with ⟨_, h⟩ | ⟨n, h, _⟩
      · cases h
      · cases h
  | size key v h1 h2 h3 =>
    obtain ⟨n, h, h4, h5, h6, h7, h8⟩ := size key h1 v h2
    exact h3 n h h4 ⟨h5, h6, fun hn => by rw [h7 hn]; exact Nat.zero_le _, fun _ => h8⟩
  | sizeSign key n h1 h2 h3 =>
    obtain ⟨n', h, _, h4⟩ := size key h1 _ h2
    cases h
    obtain ⟨z, h5, h6⟩ := sizeLit_iff.1 h4
    rw [int64_val h5] at h3
    exact absurd h3 (not_lt.2 (by exact_mod_cast h6))
  | lengths a b h1 h2 h3 => exact absurd (hS.lengths a b h1 h2) (not_le.2 h3)
  | propertyCounts a b h1 h2 h3 => exact absurd (hS.propertyCounts a b h1 h2) (not_le.2 h3)
  | pattern v h1 h2 => obtain ⟨t, h, _⟩ := hS.pattern v h1; exact h2 t h
  | regex t h1 h2 => obtain ⟨t', h, h3⟩ := hS.pattern _ h1; cases h; rw [h2] at h3; cases h3
  | format v h1 h2 => obtain ⟨t, h⟩ := hS.format v h1; exact h2 t h
  | const v hd h1 h2 => exact h2 (hS.const hd v h1)
  | enum v h1 h2 => obtain ⟨cs, h, _⟩ := hS.enum v h1; exact h2 cs h
  | enumElem cs c h1 h2 h3 => obtain ⟨cs', h, h4, _⟩ := hS.enum _ h1; cases h; exact h3 (h4 c h2)
  | enumTwice cs a b i j h1 h2 h3 h4 h5 =>
    obtain ⟨cs', h, _, h6⟩ := hS.enum _ h1
    cases h
    exact h6 i j a b h2 h3 h4 h5
  | list key v h1 h2 h3 =>
    simp only [List.mem_cons, List.not_mem_nil, or_false] at h1
    rcases h1 with rfl | rfl
    · obtain ⟨c, h⟩ := hS.oneOf v h2; exact h3 c h
    · obtain ⟨c, h⟩ := hS.anyOf v h2; exact h3 c h
  | allOf v h1 h2 => obtain ⟨c, h⟩ := hS.allOf v h1; exact h2 c h
  | not v h1 h2 => exact sub _ (.not v h1) h2
  | branch key v h1 hd h2 h3 =>
    simp only [List.mem_cons, List.not_mem_nil, or_false] at h1
    rcases h1 with rfl | rfl | rfl
    · exact sub _ (.if_ v hd h2) h3
    · exact sub _ (.then_ v hd h2) h3
    · exact sub _ (.else_ v hd h2) h3

end GJS

import Verif.SpecTrim
import Verif.LemParse
/-
Helper lemmas: members that ask for nothing.
-/
namespace GJS
open Spec

theorem getKey_without (k a : String) (m : List (String × Json)) :
    getKey a (without k m) = if a = k then none else getKey a m := by
  induction m with
  | nil => simp [without, getKey]
  | cons e m ih =>
    unfold getKey without at *
    by_cases h : e.1 = k
    · rw [List.filter_cons_of_neg (by simp [h]), ih, List.lookup_cons]
      by_cases ha : a = k
      · simp [ha]
      · have : (a == e.1) = false := by simp [h, ha]
        simp [ha, this]
    · rw [List.filter_cons_of_pos (by simp [h]), List.lookup_cons, List.lookup_cons, ih]
      by_cases ha : a = k
      · subst ha
        have : (a == e.1) = false := by simp; exact fun x => h x.symm
        simp [this]
      · simp [ha]

/-- The rules read only the keywords that speak about instances. -/
theorem dkeywords_reads {env : Env} {sat : SatD} {d : Draft} {m m' : List (String × Json)} {v : Json}
    (h : ∀ k, Acts d k → getKey k m = getKey k m') : DKeywords env sat d m v ↔ DKeywords env sat d m' v := by
  have a : ∀ k, k ∈ assertions → k ∉ ["const", "contains", "propertyNames"] → k ∉ ["if", "then", "else"] →
      getKey k m' = getKey k m := fun k h1 h2 h3 => (h k ⟨h1, fun h => absurd h h2, fun h => absurd h h3⟩).symm
  have a6 : ∀ k, k ∈ ["const", "contains", "propertyNames"] → Draft6 ≤ d → getKey k m' = getKey k m :=
    fun k h1 h2 => (h k ⟨by revert h1; revert k; decide, fun _ => h2, fun h3 => absurd h3 (by revert h1; revert k; decide)⟩).symm
  have a7 : ∀ k, k ∈ ["if", "then", "else"] → Draft7 ≤ d → getKey k m' = getKey k m :=
    fun k h1 h2 => (h k ⟨by revert h1; revert k; decide, fun h3 => absurd h3 (by revert h1; revert k; decide), fun _ => h2⟩).symm
  unfold DKeywords
  refine and_congr ?_ <| and_congr ?_ <| and_congr ?_ <| and_congr ?_ <| and_congr ?_ <| and_congr ?_ <| and_congr ?_ <|
    and_congr ?_ <| and_congr ?_ <| and_congr ?_ <| and_congr ?_ <| and_congr ?_ <| and_congr ?_ <| and_congr ?_ ?_
  · simp only [DType, Kw, a "type" (by decide) (by decide) (by decide)]
  · simp only [DAnyOf, Kw, a "anyOf" (by decide) (by decide) (by decide)]
  · simp only [DOneOf, Kw, a "oneOf" (by decide) (by decide) (by decide)]
  · simp only [DAllOf, Kw, a "allOf" (by decide) (by decide) (by decide)]
  · simp only [DNot, Kw, a "not" (by decide) (by decide) (by decide)]
  · simp only [DDependencies, Kw, a "dependencies" (by decide) (by decide) (by decide)]
  · unfold DIf
    refine forall_congr' fun h7 => ?_
    simp only [Kw, a7 "if" (by decide) h7, a7 "then" (by decide) h7, a7 "else" (by decide) h7]
  · unfold DConst
    refine forall_congr' fun h6 => ?_
    simp only [Kw, a6 "const" (by decide) h6]
  · simp only [DEnum, Kw, a "enum" (by decide) (by decide) (by decide)]
  · simp only [DFormat, Kw, a "format" (by decide) (by decide) (by decide)]
  · simp only [DItems, Kw, a "items" (by decide) (by decide) (by decide), a "additionalItems" (by decide) (by decide) (by decide)]
  · have hc : (Draft6 ≤ d → ∀ D, Kw m "contains" D ↔ Kw m' "contains" D) := fun h6 D => by
      simp only [Kw, a6 "contains" (by decide) h6]
    unfold DArray
    refine forall_congr' fun xs => forall_congr' fun _ => and_congr ?_ (and_congr ?_ (forall_congr' fun h6 => ?_))
    · simp only [DSize, Kw, a "minItems" (by decide) (by decide) (by decide), a "maxItems" (by decide) (by decide) (by decide)]
    · simp only [Kw, a "uniqueItems" (by decide) (by decide) (by decide)]
    · simp only [hc h6]
  · have hc : (Draft6 ≤ d → ∀ D, Kw m "propertyNames" D ↔ Kw m' "propertyNames" D) := fun h6 D => by
      simp only [Kw, a6 "propertyNames" (by decide) h6]
    unfold DObject
    refine forall_congr' fun xs => forall_congr' fun _ => ?_
    rw [show (Draft6 ≤ d → ∀ D, Kw m "propertyNames" D → ∀ k ∈ keysOf xs, sat D (.str k)) ↔
      (Draft6 ≤ d → ∀ D, Kw m' "propertyNames" D → ∀ k ∈ keysOf xs, sat D (.str k)) from
      forall_congr' fun h6 => by simp only [hc h6]]
    simp only [DSize, Additional, Kw, a "minProperties" (by decide) (by decide) (by decide),
      a "maxProperties" (by decide) (by decide) (by decide), a "required" (by decide) (by decide) (by decide),
      a "properties" (by decide) (by decide) (by decide), a "patternProperties" (by decide) (by decide) (by decide),
      a "additionalProperties" (by decide) (by decide) (by decide)]
  · simp only [DString, DSize, Kw, a "minLength" (by decide) (by decide) (by decide),
      a "maxLength" (by decide) (by decide) (by decide), a "pattern" (by decide) (by decide) (by decide)]
  · simp only [DNumber, Kw, a "multipleOf" (by decide) (by decide) (by decide), a "minimum" (by decide) (by decide) (by decide),
      a "maximum" (by decide) (by decide) (by decide), a "exclusiveMinimum" (by decide) (by decide) (by decide),
      a "exclusiveMaximum" (by decide) (by decide) (by decide)]

macro "each_rule" h:term,* : tactic => `(tactic| (
  unfold DKeywords
  refine and_congr ?_ <| and_congr ?_ <| and_congr ?_ <| and_congr ?_ <| and_congr ?_ <| and_congr ?_ <| and_congr ?_ <|
    and_congr ?_ <| and_congr ?_ <| and_congr ?_ <| and_congr ?_ <| and_congr ?_ <| and_congr ?_ <| and_congr ?_ ?_ <;>
  simp [DType, DAnyOf, DOneOf, DAllOf, DNot, DDependencies, DIf, DConst, DEnum, DFormat, DItems, DArray, DObject,
    DString, DNumber, DSize, Additional, keysOf, Kw, getKey_without, $[$h:term],*]))

variable {env : Env} {sat : SatD} {d : Draft} {m : List (String × Json)} {v : Json}

theorem idle_list {k} (hx : getKey k m = some (.arr [])) (hk : k ∈ ["type", "enum", "anyOf", "oneOf", "allOf", "required", "items"]) :
    DKeywords env sat d m v ↔ DKeywords env sat d (without k m) v := by
  simp only [List.mem_cons, List.not_mem_nil, or_false] at hk
  rcases hk with rfl | rfl | rfl | rfl | rfl | rfl | rfl <;> each_rule hx

theorem idle_map {k} (hx : getKey k m = some (.obj [])) (hk : k ∈ ["properties", "patternProperties", "dependencies"]) :
    DKeywords env sat d m v ↔ DKeywords env sat d (without k m) v := by
  simp only [List.mem_cons, List.not_mem_nil, or_false] at hk
  rcases hk with rfl | rfl | rfl <;> each_rule hx
  rintro ds kvs rfl _ k D h
  cases h

theorem idle_any_true {k} (hx : getKey k m = some (.bool true)) (ht : ∀ v, sat (.bool true) v)
    (hk : k ∈ ["items", "additionalItems", "additionalProperties", "propertyNames"]) :
    DKeywords env sat d m v ↔ DKeywords env sat d (without k m) v := by
  simp only [List.mem_cons, List.not_mem_nil, or_false] at hk
  rcases hk with rfl | rfl | rfl | rfl <;> each_rule hx, ht

theorem idle_any_obj {k} (hx : getKey k m = some (.obj [])) (ht : ∀ v, sat (.obj []) v)
    (hk : k ∈ ["items", "additionalItems", "additionalProperties", "propertyNames"]) :
    DKeywords env sat d m v ↔ DKeywords env sat d (without k m) v := by
  simp only [List.mem_cons, List.not_mem_nil, or_false] at hk
  rcases hk with rfl | rfl | rfl | rfl <;> each_rule hx, ht

theorem idle_off {k} (hx : getKey k m = some (.bool false)) (hk : k ∈ ["uniqueItems", "exclusiveMinimum", "exclusiveMaximum"]) :
    DKeywords env sat d m v ↔ DKeywords env sat d (without k m) v := by
  simp only [List.mem_cons, List.not_mem_nil, or_false] at hk
  rcases hk with rfl | rfl | rfl <;> each_rule hx

theorem natCast_nonneg (n : Nat) : (0 : Rat) ≤ (n : Rat) := by exact_mod_cast Nat.zero_le n

theorem idle_zero {k n} (hx : getKey k m = some (.num n)) (hn : n.val = 0) (hk : k ∈ ["minLength", "minItems", "minProperties"]) :
    DKeywords env sat d m v ↔ DKeywords env sat d (without k m) v := by
  simp only [List.mem_cons, List.not_mem_nil, or_false] at hk
  rcases hk with rfl | rfl | rfl <;> each_rule hx, hn, natCast_nonneg

theorem idle_noFormat (hx : getKey "format" m = some (.str "")) :
    DKeywords env sat d m v ↔ DKeywords env sat d (without "format" m) v := by
  each_rule hx

theorem idle_noIf {k} (hk : k ∈ ["then", "else"]) (h : getKey "if" m = none) :
    DKeywords env sat d m v ↔ DKeywords env sat d (without k m) v := by
  simp only [List.mem_cons, List.not_mem_nil, or_false] at hk
  rcases hk with rfl | rfl <;> each_rule h

theorem idle_onlyIf (h1 : getKey "then" m = none) (h2 : getKey "else" m = none) :
    DKeywords env sat d m v ↔ DKeywords env sat d (without "if" m) v := by
  each_rule h1, h2

theorem idle_rest (h : ∀ D Ds, ¬ Kw m "items" (.arr (D :: Ds))) :
    DKeywords env sat d m v ↔ DKeywords env sat d (without "additionalItems" m) v := by
  have hI : DItems sat m v ↔ DItems sat (without "additionalItems" m) v := by
    unfold DItems
    refine forall_congr' fun xs => forall_congr' fun I => forall_congr' fun _ => ?_
    simp only [Kw, getKey_without]
    refine forall_congr' fun hI => ?_
    match I with
    | .arr [] => simp
    | .arr (D :: Ds) => exact absurd hI (h D Ds)
    | .obj _ | .null | .bool _ | .str _ | .num _ => exact Iff.rfl
  unfold DKeywords
  refine and_congr ?_ <| and_congr ?_ <| and_congr ?_ <| and_congr ?_ <| and_congr ?_ <| and_congr ?_ <| and_congr ?_ <|
    and_congr ?_ <| and_congr ?_ <| and_congr ?_ <| and_congr hI <| and_congr ?_ <| and_congr ?_ <| and_congr ?_ ?_ <;>
  simp [DType, DAnyOf, DOneOf, DAllOf, DNot, DDependencies, DIf, DConst, DEnum, DFormat, DArray, DObject,
    DString, DNumber, DSize, Additional, Kw, getKey_without]

/-- Taking out a member that asks for nothing. -/
theorem dkeywords_idle {k : String} {x : Json} (hx : Kw m k x) (hi : Idle d m k x) (ht : ∀ D v, Anything D → sat D v) :
    DKeywords env sat d m v ↔ DKeywords env sat d (without k m) v := by
  cases hi with
  | other k x h =>
    refine dkeywords_reads fun a ha => ?_
    rw [getKey_without, if_neg (by rintro rfl; exact h ha)]
  | list k hk => exact idle_list hx hk
  | map k hk => exact idle_map hx hk
  | any k D hk hD =>
    rcases hD with rfl | rfl
    · exact idle_any_true hx (fun v => ht _ v (.inl rfl)) hk
    · exact idle_any_obj hx (fun v => ht _ v (.inr rfl)) hk
  | off k hk => exact idle_off hx hk
  | noFormat => exact idle_noFormat hx
  | zero k n hk hn => exact idle_zero hx hn hk
  | rest x h => exact idle_rest h
  | noIf k x hk h => exact idle_noIf hk h
  | onlyIf x h1 h2 => exact idle_onlyIf h1 h2

end GJS

import Verif.LemLaws
import Verif.PropTrim
/-
C66: the verdict of a combined schema.  C67: laws by which schemas can be rewritten.
-/
namespace GJS
open Spec

section
variable (w : World) (d : Draft) (v : Json) (b : Bool)

/-- C66, allOf: the verdict is the conjunction of the verdicts of the parts, each compiled on its own. -/
theorem C66_allOf (Ds : List Json) (hw : (all Ds).WF) (hn : NoRef (all Ds)) (hp : ∀ D ∈ Ds, ∃ b, Says w d D v b)
    (h : Says w d (all Ds) v b) : b = true ↔ ∀ D ∈ Ds, Says w d D v true := by
  rw [says_sense hw hn h, sat_all (sense_obeys _)]
  exact forall₂_congr fun D hD => says_part hw hn (within_list hD) (hp D hD)

/-- C66, anyOf: the disjunction. -/
theorem C66_anyOf (Ds : List Json) (hne : Ds ≠ []) (hw : (any Ds).WF) (hn : NoRef (any Ds)) (hp : ∀ D ∈ Ds, ∃ b, Says w d D v b)
    (h : Says w d (any Ds) v b) : b = true ↔ ∃ D ∈ Ds, Says w d D v true := by
  rw [says_sense hw hn h, sat_any (sense_obeys _) hne]
  exact exists_congr fun D => and_congr_right fun hD => says_part hw hn (within_list hD) (hp D hD)

/-- C66, oneOf: exactly one of the parts, counted by position. -/
theorem C66_oneOf (Ds : List Json) (hne : Ds ≠ []) (hw : (one "oneOf" (.arr Ds)).WF) (hn : NoRef (one "oneOf" (.arr Ds)))
    (hp : ∀ D ∈ Ds, ∃ b, Says w d D v b) (h : Says w d (one "oneOf" (.arr Ds)) v b) :
    b = true ↔ ∃ i : Fin Ds.length, Says w d Ds[i] v true ∧ ∀ j : Fin Ds.length, Says w d Ds[j] v true → j = i := by
  have k : ∀ i : Fin Ds.length, sense w.env d Ds[i] v ↔ Says w d Ds[i] v true := fun i =>
    says_part hw hn (within_list (List.getElem_mem _)) (hp _ (List.getElem_mem _))
  rw [says_sense hw hn h, sat_oneOf (sense_obeys _) hne]
  constructor
  · rintro ⟨i, D, h1, h2, h3⟩
    obtain ⟨hi, rfl⟩ := List.getElem?_eq_some_iff.1 h1
    exact ⟨⟨i, hi⟩, (k ⟨i, hi⟩).1 h2, fun j hj => Fin.ext (h3 j _ (List.getElem?_eq_getElem j.2) ((k j).2 hj))⟩
  · rintro ⟨i, h1, h2⟩
    refine ⟨i, Ds[i], List.getElem?_eq_getElem i.2, (k i).2 h1, fun j D hj hs => ?_⟩
    obtain ⟨hl, rfl⟩ := List.getElem?_eq_some_iff.1 hj
    exact congrArg Fin.val (h2 ⟨j, hl⟩ ((k ⟨j, hl⟩).1 hs))

/-- C66, not: the opposite. -/
theorem C66_not (D : Json) (hw : (neg D).WF) (hn : NoRef (neg D)) (b' : Bool) (hp : Says w d D v b') (h : Says w d (neg D) v b) :
    b = !b' := by
  have k := says_sense hw hn h
  have k' := says_sense (wf_within within_one hw) (noRef_within hn within_one) hp
  rw [sat_neg (sense_obeys _), ← k'] at k
  clear h hp k'
  revert k
  cases b <;> cases b' <;> simp

/-- C66, if/then/else, from draft-07 on: the verdict of the branch that the verdict of the condition selects. -/
theorem C66_if (hd : Draft7 ≤ d) (I T E : Json) (hw : (Json.obj [("if", I), ("then", T), ("else", E)]).WF)
    (hn : NoRef (.obj [("if", I), ("then", T), ("else", E)])) (i t e : Bool) (hi : Says w d I v i) (ht : Says w d T v t)
    (he : Says w d E v e) (h : Says w d (.obj [("if", I), ("then", T), ("else", E)]) v b) : b = if i then t else e := by
  have k := says_sense hw hn h
  have part : ∀ {D b}, (∃ k, (k, D) ∈ [("if", I), ("then", T), ("else", E)]) → Says w d D v b → (b = true ↔ sense w.env d D v) := by
    rintro D b ⟨k, hk⟩ hb
    have hW : Within (.obj [("if", I), ("then", T), ("else", E)]) D := .member _ k _ _ hk (.self _)
    exact says_sense (wf_within hW hw) (noRef_within hn hW) hb
  rw [sat_ite (sense_obeys _) hd, ← part ⟨"if", by simp⟩ hi, ← part ⟨"then", by simp⟩ ht, ← part ⟨"else", by simp⟩ he] at k
  clear part h hi ht he
  revert k
  cases b <;> cases i <;> cases t <;> cases e <;> simp

/-- C66, items: the verdicts of the schema on all elements. -/
theorem C66_items (D : Json) (hD : ∀ Ds, D ≠ .arr Ds) (xs : List Json) (hw : (one "items" D).WF) (hn : NoRef (one "items" D))
    (hp : ∀ x ∈ xs, ∃ b, Says w d D x b) (h : Says w d (one "items" D) (.arr xs) b) : b = true ↔ ∀ x ∈ xs, Says w d D x true := by
  rw [says_sense hw hn h, sat_items (sense_obeys _) hD]
  constructor
  · exact fun hs x hx => (says_part hw hn within_one (hp x hx)).1 (hs xs rfl x hx)
  · rintro hs _ ⟨⟩ x hx
    exact (says_part hw hn within_one (hp x hx)).2 (hs x hx)

/-- C66, items as a list: the verdicts of the schemas on the elements at their positions. -/
theorem C66_tuple (Ds xs : List Json) (hw : (one "items" (.arr Ds)).WF) (hn : NoRef (one "items" (.arr Ds)))
    (hp : ∀ (k : Nat) D x, Ds[k]? = some D → xs[k]? = some x → ∃ b, Says w d D x b) (h : Says w d (one "items" (.arr Ds)) (.arr xs) b) :
    b = true ↔ ∀ (k : Nat) D x, Ds[k]? = some D → xs[k]? = some x → Says w d D x true := by
  rw [says_sense hw hn h, sat_tuple (sense_obeys _)]
  constructor
  · exact fun hs k D x hD hx => (says_part hw hn (within_list (List.mem_of_getElem? hD)) (hp k D x hD hx)).1 (hs xs rfl k D x hD hx)
  · rintro hs _ ⟨⟩ k D x hD hx
    exact (says_part hw hn (within_list (List.mem_of_getElem? hD)) (hp k D x hD hx)).2 (hs k D x hD hx)

/-- C66, contains, from draft-06 on: the schema accepts some element. -/
theorem C66_contains (hd : Draft6 ≤ d) (D : Json) (xs : List Json) (hw : (one "contains" D).WF) (hn : NoRef (one "contains" D))
    (hp : ∀ x ∈ xs, ∃ b, Says w d D x b) (h : Says w d (one "contains" D) (.arr xs) b) : b = true ↔ ∃ x ∈ xs, Says w d D x true := by
  rw [says_sense hw hn h, sat_contains (sense_obeys _) hd]
  constructor
  · intro hs
    obtain ⟨x, hx, hs⟩ := hs xs rfl
    exact ⟨x, hx, (says_part hw hn within_one (hp x hx)).1 hs⟩
  · rintro ⟨x, hx, hs⟩ _ ⟨⟩
    exact ⟨x, hx, (says_part hw hn within_one (hp x hx)).2 hs⟩

/-- C66, properties: the verdicts of the schemas on the members they name. -/
theorem C66_properties (ps kvs : List (String × Json)) (hw : (one "properties" (.obj ps)).WF) (hn : NoRef (one "properties" (.obj ps)))
    (hp : ∀ k D x, (k, D) ∈ ps → getKey k kvs = some x → ∃ b, Says w d D x b) (h : Says w d (one "properties" (.obj ps)) (.obj kvs) b) :
    b = true ↔ ∀ k D x, (k, D) ∈ ps → getKey k kvs = some x → Says w d D x true := by
  rw [says_sense hw hn h, sat_properties (sense_obeys _)]
  constructor
  · exact fun hs k D x hD hx => (says_part hw hn (within_map hD) (hp k D x hD hx)).1 (hs kvs rfl k D x hD hx)
  · rintro hs _ ⟨⟩ k D x hD hx
    exact (says_part hw hn (within_map hD) (hp k D x hD hx)).2 (hs k D x hD hx)

/-- C66, patternProperties: the verdicts of the schemas on the members whose names they match. -/
theorem C66_patterns (ps kvs : List (String × Json)) (hw : (one "patternProperties" (.obj ps)).WF)
    (hn : NoRef (one "patternProperties" (.obj ps)))
    (hp : ∀ q D k x, (q, D) ∈ ps → (k, x) ∈ kvs → w.env.reMatch q k = true → ∃ b, Says w d D x b)
    (h : Says w d (one "patternProperties" (.obj ps)) (.obj kvs) b) :
    b = true ↔ ∀ q D k x, (q, D) ∈ ps → (k, x) ∈ kvs → w.env.reMatch q k = true → Says w d D x true := by
  rw [says_sense hw hn h, sat_patterns (sense_obeys _)]
  constructor
  · exact fun hs q D k x hD hx hm => (says_part hw hn (within_map hD) (hp q D k x hD hx hm)).1 (hs kvs rfl q D k x hD hx hm)
  · rintro hs _ ⟨⟩ q D k x hD hx hm
    exact (says_part hw hn (within_map hD) (hp q D k x hD hx hm)).2 (hs q D k x hD hx hm)

/-- C66, additionalProperties, with no other keyword: the verdicts of the schema on all members. -/
theorem C66_rest (A kvs : List (String × Json)) (hw : (one "additionalProperties" (.obj A)).WF)
    (hn : NoRef (one "additionalProperties" (.obj A))) (hp : ∀ k x, (k, x) ∈ kvs → ∃ b, Says w d (.obj A) x b)
    (h : Says w d (one "additionalProperties" (.obj A)) (.obj kvs) b) : b = true ↔ ∀ k x, (k, x) ∈ kvs → Says w d (.obj A) x true := by
  rw [says_sense hw hn h, sat_rest (sense_obeys _)]
  constructor
  · exact fun hs k x hx => (says_part hw hn within_one (hp k x hx)).1 (hs kvs rfl k x hx)
  · rintro hs _ ⟨⟩ k x hx
    exact (says_part hw hn within_one (hp k x hx)).2 (hs k x hx)

/-- C66, propertyNames, from draft-06 on: the verdicts of the schema on the names of members. -/
theorem C66_names (hd : Draft6 ≤ d) (D : Json) (kvs : List (String × Json)) (hw : (one "propertyNames" D).WF)
    (hn : NoRef (one "propertyNames" D)) (hp : ∀ k ∈ keysOf kvs, ∃ b, Says w d D (.str k) b)
    (h : Says w d (one "propertyNames" D) (.obj kvs) b) : b = true ↔ ∀ k ∈ keysOf kvs, Says w d D (.str k) true := by
  rw [says_sense hw hn h, sat_names (sense_obeys _) hd]
  constructor
  · exact fun hs k hx => (says_part hw hn within_one (hp k hx)).1 (hs kvs rfl k hx)
  · rintro hs _ ⟨⟩ k hx
    exact (says_part hw hn within_one (hp k hx)).2 (hs k hx)

/-- C66, keywords: a schema object is the conjunction of any two parts of it, each compiled on its own, as long as keywords
that are read together stay together. -/
theorem C66_keywords (m m' : List (String × Json)) (hw : (Json.obj (m ++ m')).WF) (hn : NoRef (.obj (m ++ m'))) (hs : Separate m m')
    (b1 b2 : Bool) (h1 : Says w d (.obj m) v b1) (h2 : Says w d (.obj m') v b2) (h : Says w d (.obj (m ++ m')) v b) :
    b = (b1 && b2) := by
  have hk : (keysOf (m ++ m')).Nodup := by
    cases hw with
    | obj _ g _ => exact g
  have wl : (Json.obj m).WF := by
    cases hw with
    | obj _ g g' =>
      rw [List.map_append] at g
      exact .obj _ (List.nodup_append.1 g).1 fun kv hkv => g' kv (List.mem_append_left _ hkv)
  have wr : (Json.obj m').WF := by
    cases hw with
    | obj _ g g' =>
      rw [List.map_append] at g
      exact .obj _ (List.nodup_append.1 g).2.1 fun kv hkv => g' kv (List.mem_append_right _ hkv)
  have nl : NoRef (.obj m) := by
    intro x hx
    cases hx with
    | self => exact fun h => hn _ (.self _) (by unfold keysOf at *; rw [List.map_append]; exact List.mem_append_left _ h)
    | member _ k y _ g1 g2 => exact hn _ (.member _ k _ _ (List.mem_append_left _ g1) g2)
  have nr : NoRef (.obj m') := by
    intro x hx
    cases hx with
    | self => exact fun h => hn _ (.self _) (by unfold keysOf at *; rw [List.map_append]; exact List.mem_append_right _ h)
    | member _ k y _ g1 g2 => exact hn _ (.member _ k _ _ (List.mem_append_right _ g1) g2)
  have k := says_sense hw hn h
  rw [law_sat (sense_obeys _) (.split m m' hk (hn _ (.self _)) hs), sat_all (sense_obeys _)] at k
  simp only [List.mem_cons, List.not_mem_nil, or_false, forall_eq_or_imp, forall_eq] at k
  rw [← says_sense wl nl h1, ← says_sense wr nr h2] at k
  rw [Bool.eq_iff_iff, k, Bool.and_eq_true]

end

/-- C67, the rules: documents that are related by the laws, at any depth, say the same about every value, whatever
references stand for. -/
theorem C67_rules (env : Env) (resolve : String → Option (Draft × Json)) (Sat : Draft → Json → Json → Prop)
    (hS : IsDocMeaning env resolve Sat) (d : Draft) (D D' : Json) (h : Refactors d D D') (v : Json) : Sat d D v ↔ Sat d D' v :=
  refactors_sat (IsDocMeaning.obeys hS) h v

/-- C67.  Two schemas without `$ref` that are related by the laws, compiled under the same draft by loaders in whatever state,
give the same verdict on every instance. -/
theorem C67_verdict (w : World) (d : Draft) (D D' : Json) (hD : D.WF) (hD' : D'.WF) (hn : NoRef D) (hn' : NoRef D')
    (h : Refactors d D D') (v : Json) (b b' : Bool) (hb : Says w d D v b) (hb' : Says w d D' v b') : b = b' := by
  rw [Bool.eq_iff_iff, says_sense hD hn hb, says_sense hD' hn' hb']
  exact C67_rules _ _ _ (sense_meaning _) d D D' h v

namespace Demo

theorem says_of {d : Draft} {D v : Json} {b : Bool} (h1 : draftFor (world []) (fixed d) D = d) (h : verdictFrom (fixed d) D v = some b) :
    Says (world []) d D v b := ⟨fixed d, setting, h1, gives_of h⟩

def doubled : Json := one "oneOf" (.arr [.obj [], .obj []])
def single1 : Json := one "oneOf" (.arr [.obj []])
/-- A closed object, and the same with the two keywords given one by one. -/
def shutObj : Json := .obj [("properties", .obj [("a", .obj [])]), ("additionalProperties", .bool false)]
def shutApart : Json := all [one "properties" (.obj [("a", .obj [])]), one "additionalProperties" (.bool false)]
/-- A list of one element, and the same with the two keywords given one by one. -/
def shortList : Json := .obj [("items", .arr [.obj []]), ("additionalItems", .bool false)]
def shortApart : Json := all [one "items" (.arr [.obj []]), one "additionalItems" (.bool false)]

end Demo

open Demo in
/-- C67, what is no law: repeating an entry of oneOf changes the verdict; so does giving keywords that are read together one by
one; and the negation of an empty anyOf, which asks for nothing, is no empty allOf. -/
theorem C67_no_laws :
    (Says (world []) Draft7 doubled .null false ∧ Says (world []) Draft7 single1 .null true) ∧
    (Says (world []) Draft7 shutObj (.obj [("a", .null)]) true ∧ Says (world []) Draft7 shutApart (.obj [("a", .null)]) false) ∧
    (Says (world []) Draft7 shortList (.arr [.null, .null]) false ∧ Says (world []) Draft7 shortApart (.arr [.null, .null]) true) ∧
    (Says (world []) Draft7 (neg (any [])) .null false ∧ Says (world []) Draft7 (all []) .null true) :=
  ⟨⟨says_of rfl (by decide +kernel), says_of rfl (by decide +kernel)⟩, ⟨says_of rfl (by decide +kernel), says_of rfl (by decide +kernel)⟩,
    ⟨says_of rfl (by decide +kernel), says_of rfl (by decide +kernel)⟩, ⟨says_of rfl (by decide +kernel), says_of rfl (by decide +kernel)⟩⟩

namespace Demo

/-- Integers that are not 3, or words. -/
def before : Json := .obj [("type", .arr [.str "integer", .str "string"]),
  ("if", one "type" (.str "integer")), ("then", neg (one "const" (int 3))), ("else", one "minLength" (int 2))]
def after : Json := all [any [one "type" (.str "integer"), one "type" (.str "string")],
  any [all [one "type" (.str "integer"), neg (one "enum" (.arr [int 3]))], all [neg (one "type" (.str "integer")), one "minLength" (int 2)]]]

theorem before_after : Refactors Draft7 before after := by
  refine .trans _ _ _ (.law _ _ (.split [("type", _)] [("if", _), ("then", _), ("else", _)] (by decide) (by decide) (by unfold Separate; decide))) ?_
  refine .trans _ _ _ (.list [] [] "allOf" [] [_] _ _ (by decide) (.law _ _ (.types ["integer", "string"] (by decide)))) ?_
  refine .list [] [] "allOf" [_] [] _ _ (by decide) ?_
  refine .trans _ _ _ (.law _ _ (.ite _ _ _ (by decide))) ?_
  refine .list [] [] "anyOf" [] [_] _ _ (by decide) (.list [] [] "allOf" [_] [] _ _ (by decide) ?_)
  exact .one [] [] "not" _ _ (by decide) (.law _ _ (.const _ (by decide)))

end Demo

open Demo in
/-- Two documents related by six laws at several depths, with verdicts of both kinds. -/
example : before.WF ∧ after.WF ∧ NoRef before ∧ NoRef after ∧ Refactors Draft7 before after ∧
    Says (world []) Draft7 before (int 4) true ∧ Says (world []) Draft7 after (int 4) true ∧
    Says (world []) Draft7 before (int 3) false ∧ Says (world []) Draft7 after (int 3) false ∧
    Says (world []) Draft7 before (.str "x") false ∧ Says (world []) Draft7 after (.str "x") false :=
  ⟨wf_of _ (by decide +kernel), wf_of _ (by decide +kernel), noRef_of _ (by decide +kernel), noRef_of _ (by decide +kernel), before_after,
    says_of rfl (by decide +kernel), says_of rfl (by decide +kernel), says_of rfl (by decide +kernel), says_of rfl (by decide +kernel),
    says_of rfl (by decide +kernel), says_of rfl (by decide +kernel)⟩

open Demo in
/-- Parts and their combinations, with verdicts of both kinds. -/
example : Says (world []) Draft7 (one "minimum" (int 2)) (int 3) true ∧ Says (world []) Draft7 (one "maximum" (int 2)) (int 3) false ∧
    Says (world []) Draft7 (all [one "minimum" (int 2), one "maximum" (int 2)]) (int 3) false ∧
    Says (world []) Draft7 (any [one "minimum" (int 2), one "maximum" (int 2)]) (int 3) true ∧
    Says (world []) Draft7 (one "oneOf" (.arr [one "minimum" (int 2), one "maximum" (int 2)])) (int 3) true ∧
    Says (world []) Draft7 (neg (one "maximum" (int 2))) (int 3) true ∧
    Says (world []) Draft7 (.obj [("minimum", int 2), ("maximum", int 2)]) (int 3) false ∧
    Says (world []) Draft7 (.obj [("if", one "maximum" (int 2)), ("then", one "maximum" (int 2)), ("else", one "minimum" (int 2))]) (int 3) true ∧
    Says (world []) Draft7 (one "items" (one "maximum" (int 2))) (.arr [int 3]) false ∧
    Says (world []) Draft7 (one "items" (.arr [one "minimum" (int 2)])) (.arr [int 3]) true ∧
    Says (world []) Draft7 (one "contains" (one "minimum" (int 2))) (.arr [int 3]) true ∧
    Says (world []) Draft7 (one "properties" (.obj [("a", one "maximum" (int 2))])) (.obj [("a", int 3)]) false ∧
    Says (world []) Draft7 (one "patternProperties" (.obj [("a", one "maximum" (int 2))])) (.obj [("a", int 3)]) false ∧
    Says (world []) Draft7 (one "additionalProperties" (one "maximum" (int 2))) (.obj [("a", int 3)]) false ∧
    Says (world []) Draft7 (one "propertyNames" (one "maxLength" (int 2))) (.obj [("abc", int 3)]) false ∧
    Says (world []) Draft7 (one "maxLength" (int 2)) (.str "abc") false ∧
    Separate [("minimum", int 2)] [("maximum", int 2)] := by
  refine ⟨?_, ?_, ?_, ?_, ?_, ?_, ?_, ?_, ?_, ?_, ?_, ?_, ?_, ?_, ?_, ?_, by unfold Separate; decide⟩ <;> exact says_of rfl (by decide +kernel)

end GJS

import Verif.SpecMetaShape
import Verif.PropNumber
/-
Helper lemmas: what the sub-schemas of the meta-schemas say.
-/
namespace GJS
open Spec

/-- Evaluate the keywords of a concrete schema object. -/
macro "dkw" : tactic => `(tactic| simp [DKeywords, DType, DAnyOf, DOneOf, DAllOf, DNot, DDependencies, DIf, DConst, DEnum, DFormat,
  DItems, DArray, DObject, DString, DNumber, DSize, Additional, Kw, getKey, List.lookup])

theorem hasType_string {env : Env} {v : Json} : HasType env v "string" ↔ ∃ t, v = .str t := by
  constructor
  · generalize ht : "string" = t
    intro h
    cases h with
    | str n => exact ⟨n, rfl⟩
    | _ => simp at ht
  · rintro ⟨n, rfl⟩; exact .str n

theorem hasType_boolean {env : Env} {v : Json} : HasType env v "boolean" ↔ ∃ b, v = .bool b := by
  constructor
  · generalize ht : "boolean" = t
    intro h
    cases h with
    | bool n => exact ⟨n, rfl⟩
    | _ => simp at ht
  · rintro ⟨n, rfl⟩; exact .bool n

theorem hasType_array {env : Env} {v : Json} : HasType env v "array" ↔ ∃ b, v = .arr b := by
  constructor
  · generalize ht : "array" = t
    intro h
    cases h with
    | arr n => exact ⟨n, rfl⟩
    | _ => simp at ht
  · rintro ⟨n, rfl⟩; exact .arr n

theorem hasType_object {env : Env} {v : Json} : HasType env v "object" ↔ ∃ b, v = .obj b := by
  constructor
  · generalize ht : "object" = t
    intro h
    cases h with
    | obj n => exact ⟨n, rfl⟩
    | _ => simp at ht
  · rintro ⟨n, rfl⟩; exact .obj n

theorem num_val (n : Nat) : NumLit.val ⟨false, n, [], none⟩ = n := by
  simp [NumLit.val, NumLit.mag, NumLit.exp10, NumLit.mant, digitsVal]

section
variable {env : Env} {R : String → Option (Draft × Json)} {P : Draft → Json → Json → Prop} {n : Nat} {d : Draft} {v : Json}

theorem unfold_obj {m} (h : getKey "$ref" m = none) :
    docUnfold env R P (n + 1) d (.obj m) v ↔ DKeywords env (docUnfold env R P n d) d m v := by
  simp [docUnfold, DocRules, h]

theorem unfold_ref {t} : docUnfold env R P (n + 1) d (Meta.ref t) v ↔ ∃ d' D', R t = some (d', D') ∧ docUnfold env R P n d' D' v := by
  simp [docUnfold, DocRules, Meta.ref, getKey, List.lookup]

theorem unfold_bool {b} : docUnfold env R P (n + 1) d (.bool b) v ↔ b = true := by
  simp [docUnfold, DocRules]

/-- `anyOf` beside a default -/
theorem unfold_anyOf {Ds x} (h : Ds ≠ []) : docUnfold env R P (n + 1) d (.obj [("anyOf", .arr Ds), ("default", x)]) v ↔
    ∃ D ∈ Ds, docUnfold env R P n d D v := by
  rw [unfold_obj rfl]; dkw; simp [h]

theorem unfold_anyOf' {Ds} (h : Ds ≠ []) : docUnfold env R P (n + 1) d (.obj [("anyOf", .arr Ds)]) v ↔
    ∃ D ∈ Ds, docUnfold env R P n d D v := by
  rw [unfold_obj rfl]; dkw; simp [h]

theorem unfold_typ {s} : docUnfold env R P (n + 1) d (Meta.typ s) v ↔ HasType env v s := by
  unfold Meta.typ; rw [unfold_obj rfl]; dkw

theorem unfold_typ_default {s x} : docUnfold env R P (n + 1) d (.obj [("type", .str s), ("default", x)]) v ↔ HasType env v s := by
  rw [unfold_obj rfl]; dkw

theorem unfold_empty : docUnfold env R P (n + 1) d (.obj []) v := by
  rw [unfold_obj rfl]; dkw

theorem unfold_default {x} : docUnfold env R P (n + 1) d (.obj [("default", x)]) v := by
  rw [unfold_obj rfl]; dkw

theorem unfold_format {s f} (hf : f ≠ "") : docUnfold env R P (n + 1) d (.obj [("type", .str s), ("format", .str f)]) v ↔
    HasType env v s ∧ env.isFormat f v = true := by
  rw [unfold_obj rfl]; dkw; simp [hf]

theorem unfold_justFormat {f} (hf : f ≠ "") : docUnfold env R P (n + 1) d (.obj [("format", .str f)]) v ↔ env.isFormat f v = true := by
  rw [unfold_obj rfl]; dkw; simp [hf]

theorem unfold_multipleOf4 :
    docUnfold env R P (n + 1) d (.obj [("type", .str "number"), ("minimum", Meta.num 0), ("exclusiveMinimum", .bool true)]) v ↔
      ∃ q, v = .num q ∧ 0 < q.val := by
  unfold Meta.num
  rw [unfold_obj rfl]; dkw
  rw [hasType_number]
  constructor
  · rintro ⟨⟨q, rfl⟩, h⟩
    have := h q rfl
    rw [num_val] at this
    exact ⟨q, rfl, by simpa using this.2⟩
  · rintro ⟨q, rfl, h⟩
    refine ⟨⟨q, rfl⟩, ?_⟩
    rintro _ ⟨⟩
    rw [num_val]
    exact ⟨by simpa using le_of_lt h, by simpa using h⟩

theorem unfold_multipleOf6 (hz : env.ratOk ⟨false, 0, [], none⟩ = true) :
    docUnfold env R P (n + 1) d (.obj [("type", .str "number"), ("exclusiveMinimum", Meta.num 0)]) v ↔
      ∃ q, v = .num q ∧ 0 < q.val := by
  unfold Meta.num
  rw [unfold_obj rfl]; dkw
  rw [hasType_number]
  constructor
  · rintro ⟨⟨q, rfl⟩, h⟩
    have := h q rfl hz
    rw [num_val] at this
    exact ⟨q, rfl, by simpa using this⟩
  · rintro ⟨q, rfl, h⟩
    refine ⟨⟨q, rfl⟩, ?_⟩
    rintro _ ⟨⟩ _
    rw [num_val]
    simpa using h

theorem unfold_size : docUnfold env R P (n + 1) d (.obj [("type", .str "integer"), ("minimum", Meta.num 0)]) v ↔
    ∃ q, v = .num q ∧ env.ratOk q = true ∧ ∃ z : Nat, q.val = z := by
  unfold Meta.num
  rw [unfold_obj rfl]; dkw
  rw [hasType_integer]
  constructor
  · rintro ⟨⟨q, rfl, h1, z, h2⟩, h⟩
    have := h q rfl
    rw [num_val, h2] at this
    refine ⟨q, rfl, h1, z.toNat, ?_⟩
    have hz : 0 ≤ z := by simpa using this
    rw [h2]
    have : ((z.toNat : Int) : Rat) = (z : Rat) := by rw [Int.toNat_of_nonneg hz]
    rw [← this, Int.cast_natCast]
  · rintro ⟨q, rfl, h1, z, h2⟩
    refine ⟨⟨q, rfl, h1, z, by rw [h2]; simp⟩, ?_⟩
    rintro _ ⟨⟩
    rw [num_val, h2]
    simp

/-- an array of `D`s that is not empty -/
theorem unfold_array {D} (hD : ∀ xs, D ≠ .arr xs) :
    docUnfold env R P (n + 1) d (.obj [("type", .str "array"), ("minItems", Meta.num 1), ("items", D)]) v ↔
      ∃ xs, v = .arr xs ∧ xs ≠ [] ∧ ∀ x ∈ xs, docUnfold env R P n d D x := by
  unfold Meta.num
  rw [unfold_obj rfl]
  cases D with
  | arr xs => exact absurd rfl (hD xs)
  | _ =>
    dkw
    rw [hasType_array]
    constructor
    · rintro ⟨⟨q, rfl⟩, h1, h⟩
      have := h q rfl
      rw [num_val] at this
      refine ⟨q, rfl, ?_, h1 _ rfl⟩
      rintro rfl
      norm_num at this
    · rintro ⟨q, rfl, h1, h2⟩
      refine ⟨⟨q, rfl⟩, ?_, ?_⟩
      · rintro _ ⟨⟩
        exact h2
      · rintro _ ⟨⟩
        rw [num_val]
        have : 1 ≤ q.length := List.length_pos_iff.2 h1
        exact_mod_cast this

/-- an array of different `D`s that is not empty -/
theorem unfold_list {D} (hD : ∀ xs, D ≠ .arr xs) :
    docUnfold env R P (n + 1) d (.obj [("type", .str "array"), ("items", D), ("minItems", Meta.num 1), ("uniqueItems", .bool true)]) v ↔
      ∃ xs, v = .arr xs ∧ xs ≠ [] ∧ (∀ x ∈ xs, docUnfold env R P n d D x) ∧ Distinct env xs := by
  unfold Meta.num Distinct
  rw [unfold_obj rfl]
  cases D with
  | arr xs => exact absurd rfl (hD xs)
  | _ =>
    dkw
    rw [hasType_array]
    constructor
    · rintro ⟨⟨q, rfl⟩, h1, h⟩
      have := h q rfl
      rw [num_val] at this
      refine ⟨q, rfl, ?_, h1 _ rfl, this.2⟩
      rintro rfl
      norm_num at this
    · rintro ⟨q, rfl, h1, h2, h3⟩
      refine ⟨⟨q, rfl⟩, ?_, ?_⟩
      · rintro _ ⟨⟩
        exact h2
      · rintro _ ⟨⟩
        rw [num_val]
        have : 1 ≤ q.length := List.length_pos_iff.2 h1
        exact ⟨by exact_mod_cast this, h3⟩

/-- an array of different values that is not empty -/
theorem unfold_enum :
    docUnfold env R P (n + 1) d (.obj [("type", .str "array"), ("minItems", Meta.num 1), ("uniqueItems", .bool true)]) v ↔
      ∃ xs, v = .arr xs ∧ xs ≠ [] ∧ Distinct env xs := by
  unfold Meta.num Distinct
  rw [unfold_obj rfl]
  dkw
  rw [hasType_array]
  constructor
  · rintro ⟨⟨q, rfl⟩, h⟩
    have := h q rfl
    rw [num_val] at this
    refine ⟨q, rfl, ?_, this.2⟩
    rintro rfl
    norm_num at this
  · rintro ⟨q, rfl, h1, h3⟩
    refine ⟨⟨q, rfl⟩, ?_⟩
    rintro _ ⟨⟩
    rw [num_val]
    have : 1 ≤ q.length := List.length_pos_iff.2 h1
    exact ⟨by exact_mod_cast this, h3⟩

/-- an array of different `D`s -/
theorem unfold_list6 {D x} (hD : ∀ xs, D ≠ .arr xs) :
    docUnfold env R P (n + 1) d (.obj [("type", .str "array"), ("items", D), ("uniqueItems", .bool true), ("default", x)]) v ↔
      ∃ xs, v = .arr xs ∧ (∀ x ∈ xs, docUnfold env R P n d D x) ∧ Distinct env xs := by
  unfold Distinct
  rw [unfold_obj rfl]
  cases D with
  | arr xs => exact absurd rfl (hD xs)
  | _ =>
    dkw
    rw [hasType_array]
    constructor
    · rintro ⟨⟨q, rfl⟩, h1, h⟩
      exact ⟨q, rfl, h1 _ rfl, h q rfl⟩
    · rintro ⟨q, rfl, h2, h3⟩
      refine ⟨⟨q, rfl⟩, ?_, ?_⟩
      · rintro _ ⟨⟩
        exact h2
      · rintro _ ⟨⟩
        exact h3

/-- an array of `D`s -/
theorem unfold_examples {D} (hD : ∀ xs, D ≠ .arr xs) :
    docUnfold env R P (n + 1) d (.obj [("type", .str "array"), ("items", D)]) v ↔
      ∃ xs, v = .arr xs ∧ ∀ x ∈ xs, docUnfold env R P n d D x := by
  rw [unfold_obj rfl]
  cases D with
  | arr xs => exact absurd rfl (hD xs)
  | _ =>
    dkw
    rw [hasType_array]
    constructor
    · rintro ⟨⟨q, rfl⟩, h1⟩
      exact ⟨q, rfl, h1 _ rfl⟩
    · rintro ⟨q, rfl, h2⟩
      refine ⟨⟨q, rfl⟩, ?_⟩
      rintro _ ⟨⟩
      exact h2

/-- an object whose members satisfy `A` -/
theorem unfold_map {A x} :
    docUnfold env R P (n + 1) d (.obj [("type", .str "object"), ("additionalProperties", .obj A), ("default", x)]) v ↔
      ∃ c, v = .obj c ∧ ∀ k D, (k, D) ∈ c → docUnfold env R P n d (.obj A) D := by
  rw [unfold_obj rfl]
  dkw
  rw [hasType_object]
  constructor
  · rintro ⟨⟨q, rfl⟩, h1⟩
    exact ⟨q, rfl, h1 _ rfl⟩
  · rintro ⟨q, rfl, h2⟩
    refine ⟨⟨q, rfl⟩, ?_⟩
    rintro _ ⟨⟩
    exact h2

theorem unfold_map' {A} :
    docUnfold env R P (n + 1) d (.obj [("type", .str "object"), ("additionalProperties", .obj A)]) v ↔
      ∃ c, v = .obj c ∧ ∀ k D, (k, D) ∈ c → docUnfold env R P n d (.obj A) D := by
  rw [unfold_obj rfl]
  dkw
  rw [hasType_object]
  constructor
  · rintro ⟨⟨q, rfl⟩, h1⟩
    exact ⟨q, rfl, h1 _ rfl⟩
  · rintro ⟨q, rfl, h2⟩
    refine ⟨⟨q, rfl⟩, ?_⟩
    rintro _ ⟨⟩
    exact h2

/-- ... and whose names satisfy `N` -/
theorem unfold_map7 {A N x} (hd : Draft6 ≤ d) :
    docUnfold env R P (n + 1) d (.obj [("type", .str "object"), ("additionalProperties", .obj A), ("propertyNames", N), ("default", x)]) v ↔
      ∃ c, v = .obj c ∧ (∀ k D, (k, D) ∈ c → docUnfold env R P n d (.obj A) D) ∧ ∀ k ∈ keysOf c, docUnfold env R P n d N (.str k) := by
  rw [unfold_obj rfl]
  dkw
  rw [hasType_object]
  constructor
  · rintro ⟨⟨q, rfl⟩, h1⟩
    exact ⟨q, rfl, (h1 _ rfl).1, (h1 _ rfl).2 hd⟩
  · rintro ⟨q, rfl, h2, h3⟩
    refine ⟨⟨q, rfl⟩, ?_⟩
    rintro _ ⟨⟩
    exact ⟨h2, fun _ => h3⟩

theorem unfold_allOf {D E} : docUnfold env R P (n + 1) d (.obj [("allOf", .arr [D, E])]) v ↔
    docUnfold env R P n d D v ∧ docUnfold env R P n d E v := by
  rw [unfold_obj rfl]; dkw

/-- The names of the types. -/
theorem unfold_simpleTypes (hf : FmtOK env.fmtF64) (hv : v.WF) : docUnfold env R P (n + 1) d (.obj [
      ("enum", .arr [.str "array", .str "boolean", .str "integer", .str "null", .str "number", .str "object", .str "string"])]) v ↔
    ∃ t, v = .str t ∧ KnownType t := by
  have key : ∀ t, ValEq env v (.str t) ↔ v = .str t := by
    intro t
    constructor
    · rintro ⟨s, h1, h2⟩
      have := (marshal_eq_iff hf hv (y := .str t) (.str t) h1 h2).1 rfl
      cases this; rfl
    · rintro rfl
      obtain ⟨s, hs⟩ : ∃ s, env.marshal (.str t) = some s := ⟨_, rfl⟩
      exact ⟨s, hs, hs⟩
  rw [unfold_obj rfl]; dkw
  simp only [key]
  unfold KnownType
  constructor
  · rintro (rfl | rfl | rfl | rfl | rfl | rfl | rfl) <;> exact ⟨_, rfl, by decide⟩
  · rintro ⟨t, rfl, rfl | rfl | rfl | rfl | rfl | rfl | rfl⟩ <;> simp

end

/-- An array of different strings. -/
theorem distinct_strings {env : Env} (hf : FmtOK env.fmtF64) {ts : List String} :
    Distinct env (ts.map .str) ↔ ts.Nodup := by
  have key : ∀ a b, env.marshal (.str a) = env.marshal (.str b) ↔ a = b := by
    intro a b
    obtain ⟨s, hs⟩ : ∃ s, env.marshal (.str a) = some s := ⟨_, rfl⟩
    obtain ⟨t, ht⟩ : ∃ s, env.marshal (.str b) = some s := ⟨_, rfl⟩
    have := marshal_eq_iff hf (.str a) (.str b) hs ht
    rw [hs, ht, Option.some.injEq, this]
    constructor
    · intro h; cases h; rfl
    · rintro rfl; exact .str a
  rw [List.nodup_iff_getElem?_ne_getElem?]
  unfold Distinct
  constructor
  · intro h i j hij hj he
    have hi : i < ts.length := by omega
    refine h i j (.str ts[i]) (.str ts[j]) hij (by simp [hi]) (by simp [hj]) ?_
    rw [key]
    rw [List.getElem?_eq_getElem hi, List.getElem?_eq_getElem hj] at he
    exact Option.some.inj he
  · intro h a b x y hab hx hy he
    simp only [List.getElem?_map, Option.map_eq_some_iff] at hx hy
    obtain ⟨s, hs, rfl⟩ := hx
    obtain ⟨t, ht, rfl⟩ := hy
    rw [key] at he
    subst he
    exact h a b hab (List.getElem?_eq_some_iff.1 ht).1 (by rw [hs, ht])

theorem strings_map {xs : List Json} (h : ∀ x ∈ xs, ∃ t, x = .str t) : ∃ ts : List String, xs = ts.map .str := by
  induction xs with
  | nil => exact ⟨[], rfl⟩
  | cons x xs ih =>
    obtain ⟨t, rfl⟩ := h x (by simp)
    obtain ⟨ts, rfl⟩ := ih fun x hx => h x (by simp [hx])
    exact ⟨t :: ts, rfl⟩

end GJS

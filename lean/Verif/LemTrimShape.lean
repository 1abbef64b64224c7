import Verif.LemTrimIn
import Verif.LemPanic
import Verif.LemCorr
import Verif.LemRewrite
/-
Helper lemmas: taking members out of a well-formed schema.
-/
namespace GJS
open Spec

variable {w : World} {d : Draft} {m m' : List (String × Json)} {R : Json → Json → Prop}

theorem kw_without {k a : String} {x} (h : Kw (without k m) a x) : Kw m a x := by
  unfold Kw at *
  rw [getKey_without] at h
  by_cases e : a = k
  · rw [if_pos e] at h; cases h
  · rwa [if_neg e] at h

theorem mem_without {k : String} {e} (h : e ∈ without k m) : e ∈ m := (List.mem_filter.1 h).1

theorem idle_notBound {k x} (hi : Idle d m k x) : k ≠ "minimum" ∧ k ≠ "maximum" := by
  constructor <;> intro hk <;> cases hi with
  | other _ _ h => subst hk; exact h ⟨by decide, fun h => absurd h (by decide), fun h => absurd h (by decide)⟩
  | list _ h => subst hk; exact absurd h (by decide)
  | map _ h => subst hk; exact absurd h (by decide)
  | any _ _ h => subst hk; exact absurd h (by decide)
  | off _ h => subst hk; exact absurd h (by decide)
  | zero _ _ h => subst hk; exact absurd h (by decide)
  | noIf _ _ h => subst hk; exact absurd h (by decide)
  | noFormat => exact absurd hk (by decide)
  | rest => exact absurd hk (by decide)
  | onlyIf => exact absurd hk (by decide)

theorem shape_without {k x} (hi : Idle d m k x) (h : Shape w d m)
    (hid : ∀ v, Kw m "$id" v → ∃ t, v = .str t ∧ w.norm t ≠ none) : Shape w d (without k m) where
  id := by
    intro v hv
    have hv := kw_without hv
    unfold idKey at hv
    by_cases e : d = Draft4 ∨ (d = Hybrid ∧ (getKey "id" (without k m)).isSome)
    · rw [if_pos e] at hv
      refine h.id v ?_
      unfold idKey
      rw [if_pos]
      · exact hv
      · rcases e with e | ⟨e, _⟩
        · exact .inl e
        · exact .inr ⟨e, by rw [show getKey "id" m = some v from hv]; rfl⟩
    · rw [if_neg e] at hv
      exact hid v hv
  title v hv := h.title v (kw_without hv)
  description v hv := h.description v (kw_without hv)
  definitions v hv := h.definitions v (kw_without hv)
  type v hv := h.type v (kw_without hv)
  properties v hv := h.properties v (kw_without hv)
  additionalProperties v hv := h.additionalProperties v (kw_without hv)
  patternProperties v hv := h.patternProperties v (kw_without hv)
  dependencies v hv := h.dependencies v (kw_without hv)
  additionalItems v hv := h.additionalItems v (kw_without hv)
  multipleOf v hv := h.multipleOf v (kw_without hv)
  minimum v hv := h.minimum v (kw_without hv)
  exclusiveMinimum v hv := by
    have := h.exclusiveMinimum v (kw_without hv)
    have e : getKey "minimum" (without k m) = getKey "minimum" m := by
      rw [getKey_without, if_neg (fun e => (idle_notBound hi).1 e.symm)]
    unfold ExclusiveValue at *
    rwa [e]
  maximum v hv := h.maximum v (kw_without hv)
  exclusiveMaximum v hv := by
    have := h.exclusiveMaximum v (kw_without hv)
    have e : getKey "maximum" (without k m) = getKey "maximum" m := by
      rw [getKey_without, if_neg (fun e => (idle_notBound hi).2 e.symm)]
    unfold ExclusiveValue at *
    rwa [e]
  minLength v hv := h.minLength v (kw_without hv)
  maxLength v hv := h.maxLength v (kw_without hv)
  lengths a b ha hb := h.lengths a b (kw_without ha) (kw_without hb)
  pattern v hv := h.pattern v (kw_without hv)
  format v hv := h.format v (kw_without hv)
  minProperties v hv := h.minProperties v (kw_without hv)
  maxProperties v hv := h.maxProperties v (kw_without hv)
  propertyCounts a b ha hb := h.propertyCounts a b (kw_without ha) (kw_without hb)
  required v hv := h.required v (kw_without hv)
  minItems v hv := h.minItems v (kw_without hv)
  maxItems v hv := h.maxItems v (kw_without hv)
  uniqueItems v hv := h.uniqueItems v (kw_without hv)
  const hd v hv := h.const hd v (kw_without hv)
  enum v hv := h.enum v (kw_without hv)
  oneOf v hv := h.oneOf v (kw_without hv)
  anyOf v hv := h.anyOf v (kw_without hv)
  allOf v hv := h.allOf v (kw_without hv)

theorem subSchema_without {k D} (h : SubSchema d (without k m) D) : SubSchema d m D := by
  cases h with
  | property ps q D h1 h2 => exact .property ps q D (kw_without h1) h2
  | pattern ps q D h1 h2 => exact .pattern ps q D (kw_without h1) h2
  | additional A h1 => exact .additional A (kw_without h1)
  | name D h1 h2 => exact .name D h1 (kw_without h2)
  | dependency ps q D h1 h2 h3 => exact .dependency ps q D (kw_without h1) h2 h3
  | items D h1 h2 => exact .items D (kw_without h1) h2
  | item Ds D h1 h2 => exact .item Ds D (kw_without h1) h2
  | additionalItems A h1 => exact .additionalItems A (kw_without h1)
  | contains D h1 h2 => exact .contains D h1 (kw_without h2)
  | oneOf Ds D h1 h2 => exact .oneOf Ds D (kw_without h1) h2
  | anyOf Ds D h1 h2 => exact .anyOf Ds D (kw_without h1) h2
  | allOf Ds D h1 h2 => exact .allOf Ds D (kw_without h1) h2
  | not D h1 => exact .not D (kw_without h1)
  | if_ D h1 h2 => exact .if_ D h1 (kw_without h2)
  | then_ D h1 h2 => exact .then_ D h1 (kw_without h2)
  | else_ D h1 h2 => exact .else_ D h1 (kw_without h2)

theorem Near.kw (h : Near R m m') {k} (hk : k ∉ schemaKeywords ++ listKeywords ++ mapKeywords) {v} (hv : Kw m' k v) : Kw m k v := by
  unfold Kw at *
  rw [h.same k hk, hv]

/-- The value of a map keyword is a map before if it is one after. -/
theorem Near.mapAny (h : Near R m m') {k} (hk : k ∉ schemaKeywords ++ listKeywords) {v} (hv : Kw m' k v) :
    Kw m k v ∨ ∃ xs ys, Kw m k (.obj xs) ∧ v = .obj ys ∧ MapLike R xs ys := by
  simp only [List.mem_append, not_or] at hk
  unfold Kw at *
  rcases h k with ⟨h1, h2⟩ | ⟨x, y, h1, h2, h3⟩
  · rw [hv] at h2; cases h2
  · rw [hv] at h2; cases h2
    cases h3 with
    | refl => exact .inl h1
    | schema _ _ h => exact absurd h hk.1
    | list _ _ h => exact absurd h hk.2
    | map xs ys _ h => exact .inr ⟨xs, ys, h1, rfl, h⟩

theorem Near.boolOrObj (h : Near R m m') {k} (hk : k ∉ listKeywords ++ mapKeywords) {v} (hv : Kw m' k v)
    (hm : ∀ v, Kw m k v → (∃ b, v = .bool b) ∨ ∃ c, v = .obj c) : (∃ b, v = .bool b) ∨ ∃ c, v = .obj c := by
  obtain ⟨x, h1, h2⟩ := h.schema hk hv
  rcases h2 with rfl | ⟨a, b, _, rfl, _⟩
  · exact hm _ h1
  · exact .inr ⟨b, rfl⟩

theorem Near.arr (h : Near R m m') {k} (hk : k ∉ schemaKeywords ++ mapKeywords) {v} (hv : Kw m' k v)
    (hm : ∀ v, Kw m k v → ∃ Ds, v = .arr Ds) : ∃ Ds, v = .arr Ds := by
  simp only [List.mem_append, not_or] at hk
  unfold Kw at *
  rcases h k with ⟨h1, h2⟩ | ⟨x, y, h1, h2, h3⟩
  · rw [hv] at h2; cases h2
  · rw [hv] at h2; cases h2
    cases h3 with
    | refl => exact hm _ h1
    | schema _ _ h => exact absurd h hk.1
    | list xs ys _ h => exact ⟨_, rfl⟩
    | map xs ys h => exact absurd h hk.2

theorem shape_near (n : Near R m m') (h : Shape w d m) : Shape w d m' where
  id := by
    intro v hv
    refine h.id v ?_
    have : idKey d m = idKey d m' := by unfold idKey; rw [n.same "id" (by decide)]
    rw [this]
    refine n.kw ?_ hv
    unfold idKey
    split <;> decide
  title v hv := h.title v (n.kw (by decide) hv)
  description v hv := h.description v (n.kw (by decide) hv)
  definitions v hv := by
    rcases n.mapAny (by decide) hv with h1 | ⟨xs, ys, _, h2, _⟩
    · exact h.definitions v h1
    · exact ⟨ys, h2⟩
  type v hv := h.type v (n.kw (by decide) hv)
  properties v hv := by
    rcases n.mapAny (by decide) hv with h1 | ⟨xs, ys, _, h2, _⟩
    · exact h.properties v h1
    · exact ⟨ys, h2⟩
  additionalProperties v hv := n.boolOrObj (by decide) hv h.additionalProperties
  patternProperties v hv := by
    rcases n.mapAny (by decide) hv with h1 | ⟨xs, ys, h1, h2, h3⟩
    · exact h.patternProperties v h1
    · obtain ⟨c, h4, h5⟩ := h.patternProperties _ h1
      cases h4
      exact ⟨ys, h2, by rw [← h3.keys]; exact h5⟩
  dependencies v hv := by
    rcases n.mapAny (by decide) hv with h1 | ⟨xs, ys, h1, h2, h3⟩
    · exact h.dependencies v h1
    · obtain ⟨c, h4, h5⟩ := h.dependencies _ h1
      cases h4
      refine ⟨ys, h2, fun k zs hk => ?_⟩
      obtain ⟨D', h6, h7⟩ := (h3.symm (R' := fun a b => R b a) (fun _ _ h => h)).mem hk
      rcases h7 with rfl | ⟨_, _, h8, _⟩
      · exact h5 k zs h6
      · cases h8
  additionalItems v hv := n.boolOrObj (by decide) hv h.additionalItems
  multipleOf v hv := h.multipleOf v (n.kw (by decide) hv)
  minimum v hv := h.minimum v (n.kw (by decide) hv)
  exclusiveMinimum v hv := by
    have := h.exclusiveMinimum v (n.kw (by decide) hv)
    unfold ExclusiveValue at *
    rwa [← n.same "minimum" (by decide)]
  maximum v hv := h.maximum v (n.kw (by decide) hv)
  exclusiveMaximum v hv := by
    have := h.exclusiveMaximum v (n.kw (by decide) hv)
    unfold ExclusiveValue at *
    rwa [← n.same "maximum" (by decide)]
  minLength v hv := h.minLength v (n.kw (by decide) hv)
  maxLength v hv := h.maxLength v (n.kw (by decide) hv)
  lengths a b ha hb := h.lengths a b (n.kw (by decide) ha) (n.kw (by decide) hb)
  pattern v hv := h.pattern v (n.kw (by decide) hv)
  format v hv := h.format v (n.kw (by decide) hv)
  minProperties v hv := h.minProperties v (n.kw (by decide) hv)
  maxProperties v hv := h.maxProperties v (n.kw (by decide) hv)
  propertyCounts a b ha hb := h.propertyCounts a b (n.kw (by decide) ha) (n.kw (by decide) hb)
  required v hv := h.required v (n.kw (by decide) hv)
  minItems v hv := h.minItems v (n.kw (by decide) hv)
  maxItems v hv := h.maxItems v (n.kw (by decide) hv)
  uniqueItems v hv := h.uniqueItems v (n.kw (by decide) hv)
  const hd v hv := h.const hd v (n.kw (by decide) hv)
  enum v hv := h.enum v (n.kw (by decide) hv)
  oneOf v hv := n.arr (by decide) hv h.oneOf
  anyOf v hv := n.arr (by decide) hv h.anyOf
  allOf v hv := n.arr (by decide) hv h.allOf

theorem MapLike.mem' {xs ys} (h : MapLike R xs ys) {k D'} (hd : (k, D') ∈ ys) : ∃ D, (k, D) ∈ xs ∧ SaysLike R D D' := by
  obtain ⟨D, h1, h2⟩ := (h.symm (R' := fun a b => R b a) (fun _ _ h => h)).mem hd
  exact ⟨D, h1, h2.symm (fun _ _ h => h)⟩

theorem ListLike.mem' {xs ys} (h : ListLike R xs ys) {D'} (hd : D' ∈ ys) : ∃ D ∈ xs, SaysLike R D D' := by
  obtain ⟨D, h1, h2⟩ := (h.symm (R' := fun a b => R b a) (fun _ _ h => h)).mem hd
  exact ⟨D, h1, h2.symm (fun _ _ h => h)⟩

theorem subSchema_near (n : Near R m m') {E'} (h : SubSchema d m' E') : ∃ E, SubSchema d m E ∧ SaysLike R E E' := by
  cases h with
  | property ps q D h1 h2 =>
    obtain ⟨ps', h3, h4⟩ := n.map (by decide) h1
    obtain ⟨D, h5, h6⟩ := h4.mem' h2
    exact ⟨D, .property _ _ _ h3 h5, h6⟩
  | pattern ps q D h1 h2 =>
    obtain ⟨ps', h3, h4⟩ := n.map (by decide) h1
    obtain ⟨D, h5, h6⟩ := h4.mem' h2
    exact ⟨D, .pattern _ _ _ h3 h5, h6⟩
  | dependency ps q D h1 h2 h7 =>
    obtain ⟨ps', h3, h4⟩ := n.map (by decide) h1
    obtain ⟨D, h5, h6⟩ := h4.mem' h2
    exact ⟨D, .dependency _ _ _ h3 h5 (h6.notArr h7), h6⟩
  | additional A h1 =>
    obtain ⟨x, h2, h3⟩ := n.schema (by decide) h1
    obtain ⟨a, rfl⟩ := h3.obj
    exact ⟨_, .additional a h2, h3⟩
  | additionalItems A h1 =>
    obtain ⟨x, h2, h3⟩ := n.schema (by decide) h1
    obtain ⟨a, rfl⟩ := h3.obj
    exact ⟨_, .additionalItems a h2, h3⟩
  | name D h0 h1 =>
    obtain ⟨x, h2, h3⟩ := n.schema (by decide) h1
    exact ⟨_, .name _ h0 h2, h3⟩
  | contains D h0 h1 =>
    obtain ⟨x, h2, h3⟩ := n.schema (by decide) h1
    exact ⟨_, .contains _ h0 h2, h3⟩
  | if_ D h0 h1 =>
    obtain ⟨x, h2, h3⟩ := n.schema (by decide) h1
    exact ⟨_, .if_ _ h0 h2, h3⟩
  | then_ D h0 h1 =>
    obtain ⟨x, h2, h3⟩ := n.schema (by decide) h1
    exact ⟨_, .then_ _ h0 h2, h3⟩
  | else_ D h0 h1 =>
    obtain ⟨x, h2, h3⟩ := n.schema (by decide) h1
    exact ⟨_, .else_ _ h0 h2, h3⟩
  | not D h1 =>
    obtain ⟨x, h2, h3⟩ := n.schema (by decide) h1
    exact ⟨_, .not _ h2, h3⟩
  | items D h1 h2 =>
    obtain ⟨x, h3, h4⟩ := n.item h1 h2
    exact ⟨_, .items _ h3 (h4.notArr h2), h4⟩
  | item Ds D h1 h2 =>
    obtain ⟨Ds', h3, h4⟩ := n.list (by decide) h1
    obtain ⟨D, h5, h6⟩ := h4.mem' h2
    exact ⟨D, .item _ _ h3 h5, h6⟩
  | oneOf Ds D h1 h2 =>
    obtain ⟨Ds', h3, h4⟩ := n.list (by decide) h1
    obtain ⟨D, h5, h6⟩ := h4.mem' h2
    exact ⟨D, .oneOf _ _ h3 h5, h6⟩
  | anyOf Ds D h1 h2 =>
    obtain ⟨Ds', h3, h4⟩ := n.list (by decide) h1
    obtain ⟨D, h5, h6⟩ := h4.mem' h2
    exact ⟨D, .anyOf _ _ h3 h5, h6⟩
  | allOf Ds D h1 h2 =>
    obtain ⟨Ds', h3, h4⟩ := n.list (by decide) h1
    obtain ⟨D, h5, h6⟩ := h4.mem' h2
    exact ⟨D, .allOf _ _ h3 h5, h6⟩

theorem wellFormed_near (n : Near R m m') (hR : ∀ D D', R D D' → WellFormed w d D → WellFormed w d D')
    (h : WellFormed w d (.obj m)) : WellFormed w d (.obj m') := by
  have keep : ∀ {D D'}, SaysLike R D D' → WellFormed w d D → WellFormed w d D' := by
    intro D D' hs hD
    rcases hs with rfl | ⟨a, b, _, _, hr⟩
    · exact hD
    · exact hR _ _ hr hD
  cases h with
  | obj _ h1 h2 h3 =>
    refine .obj _ (shape_near n h1) (fun ds k D' h4 h5 => ?_) (fun D' h4 => ?_)
    · obtain ⟨ds', h6, h7⟩ := n.map (by decide) h4
      obtain ⟨D, h8, h9⟩ := h7.mem' h5
      exact keep h9 (h2 _ _ _ h6 h8)
    · obtain ⟨D, h5, h6⟩ := subSchema_near n h4
      exact keep h6 (h3 _ h5)

theorem idsRead_sub {D E} (h : IdsRead w D) (he : Within D E) : IdsRead w E :=
  fun m v hm hv => h m v (within_trans he hm) hv

theorem wellFormed_trim {D D'} (h : Trim d D D') : IdsRead w D → WellFormed w d D → WellFormed w d D' := by
  induction h with
  | here m k x hx hi =>
    intro hid hw
    cases hw with
    | obj _ h1 h2 h3 =>
      exact .obj _ (shape_without hi h1 (fun v hv => hid m v (.self _) hv)) (fun ds q D h4 h5 => h2 ds q D (kw_without h4) h5)
        (fun D h4 => h3 D (subSchema_without h4))
  | one a b k D D' hk ht ih =>
    intro hid hw
    obtain ⟨p, q, rfl, rfl⟩ := trim_obj ht
    refine wellFormed_near (R := fun E E' => E = .obj p ∧ E' = .obj q)
      (near_hole (.schema _ _ hk (.inr ⟨p, q, rfl, rfl, rfl, rfl⟩))) ?_ hw
    rintro _ _ ⟨rfl, rfl⟩
    exact ih (idsRead_sub hid (.member _ k _ _ (by simp) (.self _)))
  | list a b k xs ys D D' hk ht ih =>
    intro hid hw
    obtain ⟨p, q, rfl, rfl⟩ := trim_obj ht
    refine wellFormed_near (R := fun E E' => E = .obj p ∧ E' = .obj q)
      (near_hole (.list _ _ hk (listLike_hole (.inr ⟨p, q, rfl, rfl, rfl, rfl⟩)))) ?_ hw
    rintro _ _ ⟨rfl, rfl⟩
    exact ih (idsRead_sub hid (.member _ k (.arr (xs ++ .obj p :: ys)) _ (by simp) (.elem _ (.obj p) _ (by simp) (.self _))))
  | map a b k xs ys r D D' hk ht ih =>
    intro hid hw
    obtain ⟨p, q, rfl, rfl⟩ := trim_obj ht
    refine wellFormed_near (R := fun E E' => E = .obj p ∧ E' = .obj q)
      (near_hole (.map _ _ hk (mapLike_hole (.inr ⟨p, q, rfl, rfl, rfl, rfl⟩)))) ?_ hw
    rintro _ _ ⟨rfl, rfl⟩
    exact ih (idsRead_sub hid (.member _ k (.obj (xs ++ (r, .obj p) :: ys)) _ (by simp) (.member _ r (.obj p) _ (by simp) (.self _))))

/-- The second document is the first with members of one object left out. -/
inductive Less : Json → Json → Prop
  | refl (D) : Less D D
  | drop (a b) : (∀ e ∈ b, e ∈ a) → Less (.obj a) (.obj b)
  | arr (xs ys D D') : Less D D' → Less (.arr (xs ++ D :: ys)) (.arr (xs ++ D' :: ys))
  | obj (k xs ys D D') : Less D D' → Less (.obj (xs ++ (k, D) :: ys)) (.obj (xs ++ (k, D') :: ys))

theorem less_trim {D D'} (h : Trim d D D') : Less D D' := by
  induction h with
  | here m k x => exact .drop _ _ fun e he => mem_without he
  | one a b k D D' _ _ ih => exact .obj k a b _ _ ih
  | list a b k xs ys D D' _ _ ih => exact .obj k a b _ _ (.arr xs ys _ _ ih)
  | map a b k xs ys r D D' _ _ ih => exact .obj k a b _ _ (.obj r xs ys _ _ ih)

theorem less_mem {a b k y} (h : Less (.obj a) (.obj b)) (hy : (k, y) ∈ b) : ∃ x, (k, x) ∈ a ∧ Less x y := by
  cases h with
  | refl => exact ⟨y, hy, .refl _⟩
  | drop _ _ h => exact ⟨y, h _ hy, .refl _⟩
  | obj q xs ys D D' h =>
    simp only [List.mem_append, List.mem_cons, Prod.mk.injEq] at hy
    rcases hy with hy | ⟨rfl, rfl⟩ | hy
    · exact ⟨y, by simp [hy], .refl _⟩
    · exact ⟨D, by simp, h⟩
    · exact ⟨y, by simp [hy], .refl _⟩

theorem less_elem {a b y} (h : Less (.arr a) (.arr b)) (hy : y ∈ b) : ∃ x ∈ a, Less x y := by
  cases h with
  | refl => exact ⟨y, hy, .refl _⟩
  | arr xs ys D D' h =>
    simp only [List.mem_append, List.mem_cons] at hy
    rcases hy with hy | rfl | hy
    · exact ⟨y, by simp [hy], .refl _⟩
    · exact ⟨D, by simp, h⟩
    · exact ⟨y, by simp [hy], .refl _⟩

theorem less_toObj {D b} (h : Less D (.obj b)) : ∃ a, D = .obj a := by cases h <;> exact ⟨_, rfl⟩
theorem less_toArr {D b} (h : Less D (.arr b)) : ∃ a, D = .arr a := by cases h <;> exact ⟨_, rfl⟩

theorem within_less {D' x'} (h : Within D' x') : ∀ {D}, Less D D' → ∃ x, Within D x ∧ Less x x' := by
  induction h with
  | self => exact fun h => ⟨_, .self _, h⟩
  | elem xs y x hy hw ih =>
    intro D hl
    obtain ⟨a, rfl⟩ := less_toArr hl
    obtain ⟨y0, h1, h2⟩ := less_elem hl hy
    obtain ⟨x0, h3, h4⟩ := ih h2
    exact ⟨x0, .elem _ _ _ h1 h3, h4⟩
  | member m k y x hy hw ih =>
    intro D hl
    obtain ⟨a, rfl⟩ := less_toObj hl
    obtain ⟨y0, h1, h2⟩ := less_mem hl hy
    obtain ⟨x0, h3, h4⟩ := ih h2
    exact ⟨x0, .member _ _ _ _ h1 h3, h4⟩

theorem noRef_less {D D'} (h : Less D D') (hn : NoRef D) : NoRef D' := by
  intro m' hm' hk
  obtain ⟨x, h1, h2⟩ := within_less hm' h
  obtain ⟨⟨k, y⟩, hy, hk'⟩ := List.mem_map.1 hk
  obtain ⟨m, rfl⟩ := less_toObj h2
  obtain ⟨x, h3, _⟩ := less_mem h2 hy
  exact hn _ h1 (by rw [← hk']; exact List.mem_map.2 ⟨_, h3, rfl⟩)

theorem numsRat_less {env : Env} {D D'} (h : Less D D') (hn : NumsRat env D) : NumsRat env D' := by
  intro n hm
  obtain ⟨x, h1, h2⟩ := within_less hm h
  cases h2 with
  | refl => exact hn n h1

theorem wf_hole {D D' : Json} {k : String} {a b : List (String × Json)} (h : (Json.obj (a ++ (k, D) :: b)).WF) (hD : D.WF → D'.WF) :
    (Json.obj (a ++ (k, D') :: b)).WF := by
  cases h with
  | obj _ h1 h2 =>
    refine .obj _ ?_ fun kv hkv => ?_
    · simpa only [List.map_append, List.map_cons] using h1
    · simp only [List.mem_append, List.mem_cons] at hkv
      rcases hkv with hkv | rfl | hkv
      · exact h2 kv (by simp [hkv])
      · exact hD (h2 (k, D) (by simp))
      · exact h2 kv (by simp [hkv])

theorem wf_trim {D D'} (h : Trim d D D') : D.WF → D'.WF := by
  induction h with
  | here m k x =>
    intro h
    cases h with
    | obj _ h1 h2 =>
      refine .obj _ ?_ (fun kv hkv => h2 kv (mem_without hkv))
      exact h1.sublist (List.Sublist.map _ List.filter_sublist)
  | one a b k D D' _ _ ih => exact fun h => wf_hole h ih
  | list a b k xs ys D D' _ _ ih =>
    refine fun h => wf_hole h fun h => ?_
    cases h with
    | arr _ h =>
      refine .arr _ fun x hx => ?_
      simp only [List.mem_append, List.mem_cons] at hx
      rcases hx with hx | rfl | hx
      · exact h x (by simp [hx])
      · exact ih (h D (by simp))
      · exact h x (by simp [hx])
  | map a b k xs ys r D D' _ _ ih => exact fun h => wf_hole h fun h => wf_hole h ih

theorem idsRead_trim {D D'} (h : Trim d D D') (hD : D.WF) (hi : IdsRead w D) : IdsRead w D' := by
  intro m' v hm' hv
  obtain ⟨x, h1, h2⟩ := within_less hm' (less_trim h)
  obtain ⟨m, rfl⟩ := less_toObj h2
  obtain ⟨x, h3, h4⟩ := less_mem h2 (lookup_some_mem hv)
  obtain ⟨t, rfl, h5⟩ := hi m x h1 (getKey_of_mem (wf_nodup (wf_within h1 hD)) h3)
  cases h4
  exact ⟨t, rfl, h5⟩

structure Trimmable (w : World) (D : Json) : Prop where
  wf : D.WF
  noRef : NoRef D
  nums : NumsRat w.env D
  ids : IdsRead w D

theorem trimmable_trimmed {D D'} (h : Trimmed d D D') : Trimmable w D → Trimmable w D' ∧ (WellFormed w d D → WellFormed w d D') := by
  induction h with
  | refl => exact fun h => ⟨h, id⟩
  | out D D' D'' h _ ih =>
    intro hD
    have hl := less_trim h
    obtain ⟨h1, h2⟩ := ih ⟨wf_trim h hD.wf, noRef_less hl hD.noRef, numsRat_less hl hD.nums, idsRead_trim h hD.wf hD.ids⟩
    exact ⟨h1, fun hw => h2 (wellFormed_trim h hD.ids hw)⟩

theorem trims_of_trimmed {D D'} (h : Trimmed d D D') : Trims d D D' := by
  induction h with
  | refl => exact .refl _
  | out D D' D'' h _ ih => exact .out _ _ _ h ih

end GJS

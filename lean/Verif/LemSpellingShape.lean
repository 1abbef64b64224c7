import Verif.LemSpelling
import Verif.LemAccept
/-
Helper lemmas: well-formedness of schema documents does not depend on the order of members.
-/
namespace GJS
open Spec

/-- The same document with distinct names, members in any order. -/
def Reordered (x y : Json) : Prop := SameDoc x y ∧ x.WF ∧ y.WF

def SameL (xs ys : List Json) : Prop :=
  xs.length = ys.length ∧ ∀ (k : Nat) x y, xs[k]? = some x → ys[k]? = some y → Reordered x y

def SameO (a b : List (String × Json)) : Prop :=
  (a.map Prod.fst).Nodup ∧ (b.map Prod.fst).Nodup ∧ (a.map Prod.fst).Perm (b.map Prod.fst) ∧
    ∀ k x y, (k, x) ∈ a → (k, y) ∈ b → Reordered x y

theorem sameDoc_symm {x y} (h : SameDoc x y) : SameDoc y x := by
  induction h with
  | null => exact .null
  | bool => exact .bool _
  | str => exact .str _
  | num => exact .num _
  | arr xs ys hl _ ih => exact .arr _ _ hl.symm fun k x y hx hy => ih k y x hy hx
  | obj a b hp _ ih => exact .obj _ _ hp.symm fun k x y hx hy => ih k y x hy hx

theorem reordered_alike {env : Env} {x y} (h : Reordered x y) : Alike env x y := by
  obtain ⟨h1, h2, h3⟩ := h
  refine respell_alike ?_ h2 h3
  clear h2 h3
  induction h1 with
  | null => exact .null
  | bool => exact .bool _
  | str => exact .str _
  | num => exact .num _ _ rfl rfl rfl
  | arr xs ys hl _ ih => exact .arr _ _ hl ih
  | obj a b hp _ ih => exact .obj _ _ (fun k => hp.mem_iff) ih

theorem Reordered.symm {x y} (h : Reordered x y) : Reordered y x := ⟨sameDoc_symm h.1, h.2.2, h.2.1⟩

theorem SameL.symm {xs ys} (h : SameL xs ys) : SameL ys xs := ⟨h.1.symm, fun k x y hx hy => (h.2 k y x hy hx).symm⟩

theorem SameO.symm {a b} (h : SameO a b) : SameO b a :=
  ⟨h.2.1, h.1, h.2.2.1.symm, fun k x y hx hy => (h.2.2.2 k y x hy hx).symm⟩

theorem same_arr {xs y} (h : Reordered (.arr xs) y) : ∃ ys, y = .arr ys ∧ SameL xs ys := by
  obtain ⟨h1, h2, h3⟩ := h
  cases h1 with | arr _ ys hl hs =>
  cases h2 with | arr _ w2 =>
  cases h3 with | arr _ w3 =>
  exact ⟨ys, rfl, hl, fun k x y hx hy => ⟨hs k x y hx hy, w2 x (List.mem_of_getElem? hx), w3 y (List.mem_of_getElem? hy)⟩⟩

theorem same_obj {xs y} (h : Reordered (.obj xs) y) : ∃ ys, y = .obj ys ∧ SameO xs ys := by
  obtain ⟨h1, h2, h3⟩ := h
  cases h1 with | obj _ ys hp hs =>
  cases h2 with | obj _ n2 w2 =>
  cases h3 with | obj _ n3 w3 =>
  exact ⟨ys, rfl, n2, n3, hp, fun k x y hx hy => ⟨hs k x y hx hy, w2 _ hx, w3 _ hy⟩⟩

theorem same_str {s y} (h : Reordered (.str s) y) : y = .str s := by cases h.1; rfl
theorem same_bool {s y} (h : Reordered (.bool s) y) : y = .bool s := by cases h.1; rfl
theorem same_num {s y} (h : Reordered (.num s) y) : y = .num s := by cases h.1; rfl

theorem SameL.at {xs ys} (h : SameL xs ys) {k : Nat} {x} (hx : xs[k]? = some x) : ∃ y, ys[k]? = some y ∧ Reordered x y := by
  have hlt : k < ys.length := by rw [← h.1]; exact (List.getElem?_eq_some_iff.1 hx).1
  exact ⟨ys[k], List.getElem?_eq_getElem hlt, h.2 k x _ hx (List.getElem?_eq_getElem hlt)⟩

theorem SameL.mem {xs ys} (h : SameL xs ys) {x} (hx : x ∈ xs) : ∃ y ∈ ys, Reordered x y := by
  obtain ⟨k, hk⟩ := List.mem_iff_getElem?.1 hx
  obtain ⟨y, hy, ha⟩ := h.at hk
  exact ⟨y, List.mem_of_getElem? hy, ha⟩

theorem SameO.mem {a b} (h : SameO a b) {k x} (hx : (k, x) ∈ a) : ∃ y, (k, y) ∈ b ∧ Reordered x y := by
  obtain ⟨y, hy⟩ := key_partner h.2.2.1 hx
  exact ⟨y, hy, h.2.2.2 k x y hx hy⟩

theorem SameO.kw {a b} (h : SameO a b) {k x} (hx : Kw a k x) : ∃ y, Kw b k y ∧ Reordered x y := by
  obtain ⟨y, hy, ha⟩ := h.mem (lookup_some_mem hx)
  exact ⟨y, lookup_eq_some_of_mem h.2.1 hy, ha⟩

theorem SameO.isSome {a b} (h : SameO a b) (k) : (getKey k a).isSome = (getKey k b).isSome := by
  rw [Bool.eq_iff_iff, Option.isSome_iff_exists, Option.isSome_iff_exists]
  exact ⟨fun ⟨x, hx⟩ => (h.kw hx).imp fun _ h => h.1, fun ⟨x, hx⟩ => (h.symm.kw hx).imp fun _ h => h.1⟩

theorem sameL_strs : ∀ {ts : List String} {ys}, SameL (ts.map .str) ys → ys = ts.map .str := by
  intro ts ys h
  apply List.ext_getElem?
  intro k
  cases hx : (ts.map Json.str)[k]? with
  | none =>
    rw [List.getElem?_eq_none_iff] at hx ⊢
    rw [← h.1]; exact hx
  | some x =>
    obtain ⟨y, hy, hs⟩ := h.at hx
    rw [List.getElem?_map, Option.map_eq_some_iff] at hx
    obtain ⟨t, _, rfl⟩ := hx
    rw [hy, same_str hs]

/-- Well-formedness of one keyword's value carries over. -/
theorem kw_lift {m m' : List (String × Json)} (hm : SameO m m') {k : String} {Φ Φ' : Json → Prop}
    (hΦ : ∀ x y, Reordered x y → Φ x → Φ' y) (h : ∀ v, Kw m k v → Φ v) : ∀ v, Kw m' k v → Φ' v := by
  intro v hv
  obtain ⟨x, hx, hs⟩ := hm.symm.kw hv
  exact hΦ x v hs.symm (h x hx)

theorem isStr_same {P : String → Prop} (x y) (hs : Reordered x y) : (∃ t, x = .str t ∧ P t) → ∃ t, y = .str t ∧ P t := by
  rintro ⟨t, rfl, hp⟩; exact ⟨t, same_str hs, hp⟩
theorem str_same (x y) (hs : Reordered x y) : (∃ t, x = .str t) → ∃ t, y = .str t := by
  rintro ⟨t, rfl⟩; exact ⟨t, same_str hs⟩
theorem bool_same (x y) (hs : Reordered x y) : (∃ t, x = .bool t) → ∃ t, y = .bool t := by
  rintro ⟨t, rfl⟩; exact ⟨t, same_bool hs⟩
theorem isNum_same {P : NumLit → Prop} (x y) (hs : Reordered x y) : (∃ t, x = .num t ∧ P t) → ∃ t, y = .num t ∧ P t := by
  rintro ⟨t, rfl, hp⟩; exact ⟨t, same_num hs, hp⟩
theorem obj_same (x y) (hs : Reordered x y) : (∃ t, x = .obj t) → ∃ t, y = .obj t := by
  rintro ⟨t, rfl⟩; obtain ⟨ys, h, _⟩ := same_obj hs; exact ⟨ys, h⟩
theorem arr_same (x y) (hs : Reordered x y) : (∃ t, x = .arr t) → ∃ t, y = .arr t := by
  rintro ⟨t, rfl⟩; obtain ⟨ys, h, _⟩ := same_arr hs; exact ⟨ys, h⟩
theorem extra_same (x y) (hs : Reordered x y) : ((∃ b, x = .bool b) ∨ ∃ c, x = .obj c) → (∃ b, y = .bool b) ∨ ∃ c, y = .obj c :=
  Or.imp (bool_same x y hs) (obj_same x y hs)

theorem names_same (x y) (hs : Reordered x y) : NamesValue x → NamesValue y := by
  rintro ⟨ts, rfl, hn⟩
  obtain ⟨ys, rfl, hl⟩ := same_arr hs
  exact ⟨ts, by rw [sameL_strs hl], hn⟩

theorem type_same (x y) (hs : Reordered x y) : TypeValue x → TypeValue y := by
  rintro (h | ⟨ts, rfl, hn, hk⟩)
  · exact .inl (isStr_same x y hs h)
  · obtain ⟨ys, rfl, hl⟩ := same_arr hs
    exact .inr ⟨ts, by rw [sameL_strs hl], hn, hk⟩

theorem exclusive_same {env : Env} {d : Draft} {m m' : List (String × Json)} (hm : SameO m m') {key} (x y) (hs : Reordered x y) :
    ExclusiveValue env d m key x → ExclusiveValue env d m' key y := by
  unfold ExclusiveValue
  rw [hm.isSome key]
  split
  · exact fun h => ⟨bool_same x y hs h.1, h.2⟩
  · split
    · exact Or.imp (fun h => ⟨bool_same x y hs h.1, h.2⟩) (isNum_same x y hs)
    · rintro ⟨n, rfl⟩; exact ⟨n, same_num hs⟩

theorem within_reordered {D x} (h : Within D x) : ∀ {D'}, Reordered D D' → ∃ x', Within D' x' ∧ Reordered x x' := by
  induction h with
  | self => exact fun h => ⟨_, .self _, h⟩
  | elem xs y x hy _ ih =>
    intro D' ha
    obtain ⟨ys, rfl, hl⟩ := same_arr ha
    obtain ⟨y', hy', hb⟩ := hl.mem hy
    obtain ⟨x', h1, h2⟩ := ih hb
    exact ⟨x', .elem _ _ _ hy' h1, h2⟩
  | member m k y x hy _ ih =>
    intro D' ha
    obtain ⟨ys, rfl, hl⟩ := same_obj ha
    obtain ⟨y', hy', hb⟩ := hl.mem hy
    obtain ⟨x', h1, h2⟩ := ih hb
    exact ⟨x', .member _ _ _ _ hy' h1, h2⟩

theorem numsF64_same (x y) (hs : Reordered x y) : NumsF64 x → NumsF64 y := by
  intro h n hn
  obtain ⟨z, h1, h2⟩ := within_reordered hn hs.symm
  cases same_num h2
  exact h n h1

theorem numsRat_same {env : Env} {x y} (hs : Reordered x y) : NumsRat env x → NumsRat env y := by
  intro h n hn
  obtain ⟨z, h1, h2⟩ := within_reordered hn hs.symm
  cases same_num h2
  exact h n h1

theorem noRef_same {x y} (hs : Reordered x y) : NoRef x → NoRef y := by
  intro h m hm hk
  obtain ⟨z, h1, h2⟩ := within_reordered hm hs.symm
  obtain ⟨ys, rfl, ho⟩ := same_obj h2
  exact h ys h1 (ho.2.2.1.mem_iff.1 hk)

theorem same_sameVal_trans {a b c d : Json} (h1 : Reordered a b) (h2 : Reordered c d) (h : SameVal b d) (hb : ∃ e, canon b = some e) : SameVal a c := by
  have ea := canon_sameVal (sameDoc_val h1.1) h1.2.1 h1.2.2
  have ec := canon_sameVal (sameDoc_val h2.1) h2.2.1 h2.2.2
  have eb := canon_sameVal h h1.2.2 h2.2.2
  obtain ⟨e, he⟩ := hb
  refine (canon_eq_iff a c h1.2.1 h2.2.1 (ea.trans he) (ec.trans (eb.symm.trans he))).1 rfl

theorem enum_same (x y) (hs : Reordered x y) : EnumValue x → EnumValue y := by
  rintro ⟨cs, rfl, hf, hn⟩
  obtain ⟨ys, rfl, hl⟩ := same_arr hs
  have hf' : ∀ c ∈ ys, NumsF64 c := by
    intro c hc
    obtain ⟨z, hz, hzs⟩ := hl.symm.mem hc
    exact numsF64_same z c hzs.symm (hf z hz)
  refine ⟨ys, rfl, hf', fun i j a b hij ha hb hsv => ?_⟩
  obtain ⟨a', ha', hsa⟩ := hl.symm.at ha
  obtain ⟨b', hb', hsb⟩ := hl.symm.at hb
  exact hn i j a' b' hij ha' hb' (same_sameVal_trans hsa.symm hsb.symm hsv
    (Option.isSome_iff_exists.1 ((canon_none_iff a).2 (hf' a (List.mem_of_getElem? ha)))))

theorem pattern_same {P : String → Prop} (x y) (hs : Reordered x y) :
    (∃ c, x = .obj c ∧ ∀ k ∈ keysOf c, P k) → ∃ c, y = .obj c ∧ ∀ k ∈ keysOf c, P k := by
  rintro ⟨c, rfl, hp⟩
  obtain ⟨ys, rfl, ho⟩ := same_obj hs
  exact ⟨ys, rfl, fun k hk => hp k (ho.2.2.1.mem_iff.2 hk)⟩

theorem deps_same (x y) (hs : Reordered x y) :
    (∃ c, x = .obj c ∧ ∀ k xs, (k, .arr xs) ∈ c → ∀ z ∈ xs, ∃ t, z = .str t) →
    ∃ c, y = .obj c ∧ ∀ k xs, (k, .arr xs) ∈ c → ∀ z ∈ xs, ∃ t, z = .str t := by
  rintro ⟨c, rfl, hp⟩
  obtain ⟨ys, rfl, ho⟩ := same_obj hs
  refine ⟨ys, rfl, fun k xs hk z hz => ?_⟩
  obtain ⟨u, hu, hus⟩ := ho.symm.mem hk
  obtain ⟨us, rfl, hl⟩ := same_arr hus
  obtain ⟨q, hq, hqs⟩ := hl.mem hz
  exact str_same q z hqs.symm (hp k us hu q hq)

theorem num_back {m m' : List (String × Json)} (hm : SameO m m') {k n} (h : Kw m' k (.num n)) : Kw m k (.num n) := by
  obtain ⟨x, hx, hs⟩ := hm.symm.kw h
  cases same_num hs
  exact hx

theorem idKey_same {d : Draft} {m m' : List (String × Json)} (hm : SameO m m') : idKey d m = idKey d m' := by
  unfold idKey
  rw [hm.isSome "id"]

theorem shape_same {w : World} {d : Draft} {m m' : List (String × Json)} (hm : SameO m m') (h : Shape w d m) : Shape w d m' where
  id := by rw [← idKey_same hm]; exact kw_lift hm isStr_same h.id
  title := kw_lift hm str_same h.title
  description := kw_lift hm str_same h.description
  definitions := kw_lift hm obj_same h.definitions
  type := kw_lift hm type_same h.type
  properties := kw_lift hm obj_same h.properties
  additionalProperties := kw_lift hm extra_same h.additionalProperties
  patternProperties := kw_lift hm pattern_same h.patternProperties
  dependencies := kw_lift hm deps_same h.dependencies
  additionalItems := kw_lift hm extra_same h.additionalItems
  multipleOf := kw_lift hm isNum_same h.multipleOf
  minimum := kw_lift hm isNum_same h.minimum
  exclusiveMinimum := kw_lift hm (exclusive_same hm) h.exclusiveMinimum
  maximum := kw_lift hm isNum_same h.maximum
  exclusiveMaximum := kw_lift hm (exclusive_same hm) h.exclusiveMaximum
  minLength := kw_lift hm isNum_same h.minLength
  maxLength := kw_lift hm isNum_same h.maxLength
  lengths := fun a b ha hb => h.lengths a b (num_back hm ha) (num_back hm hb)
  pattern := kw_lift hm isStr_same h.pattern
  format := kw_lift hm str_same h.format
  minProperties := kw_lift hm isNum_same h.minProperties
  maxProperties := kw_lift hm isNum_same h.maxProperties
  propertyCounts := fun a b ha hb => h.propertyCounts a b (num_back hm ha) (num_back hm hb)
  required := kw_lift hm names_same h.required
  minItems := kw_lift hm isNum_same h.minItems
  maxItems := kw_lift hm isNum_same h.maxItems
  uniqueItems := kw_lift hm bool_same h.uniqueItems
  const := fun hd => kw_lift hm numsF64_same (h.const hd)
  enum := kw_lift hm enum_same h.enum
  oneOf := kw_lift hm arr_same h.oneOf
  anyOf := kw_lift hm arr_same h.anyOf
  allOf := kw_lift hm arr_same h.allOf

theorem subSchema_same {d : Draft} {m m' : List (String × Json)} (hm : SameO m m') {D} (h : SubSchema d m D) :
    ∃ D', SubSchema d m' D' ∧ Reordered D D' := by
  have inObj : ∀ {k k' ps D}, Kw m k (.obj ps) → (k', D) ∈ ps → ∃ ps' D', Kw m' k (.obj ps') ∧ (k', D') ∈ ps' ∧ Reordered D D' := by
    intro k k' ps D h1 h2
    obtain ⟨y, hy, hs⟩ := hm.kw h1
    obtain ⟨ps', rfl, ho⟩ := same_obj hs
    obtain ⟨D', h3, h4⟩ := ho.mem h2
    exact ⟨ps', D', hy, h3, h4⟩
  have inArr : ∀ {k ps D}, Kw m k (.arr ps) → D ∈ ps → ∃ ps' D', Kw m' k (.arr ps') ∧ D' ∈ ps' ∧ Reordered D D' := by
    intro k ps D h1 h2
    obtain ⟨y, hy, hs⟩ := hm.kw h1
    obtain ⟨ps', rfl, ho⟩ := same_arr hs
    obtain ⟨D', h3, h4⟩ := ho.mem h2
    exact ⟨ps', D', hy, h3, h4⟩
  have noArr : ∀ {D D'}, Reordered D D' → (∀ qs, D ≠ .arr qs) → ∀ qs, D' ≠ .arr qs := by
    rintro D _ hs hn qs rfl
    obtain ⟨ys, e, _⟩ := same_arr hs.symm
    exact hn ys e
  cases h with
  | property ps k D h1 h2 => obtain ⟨a, b, h3, h4, h5⟩ := inObj h1 h2; exact ⟨b, .property a k b h3 h4, h5⟩
  | pattern ps k D h1 h2 => obtain ⟨a, b, h3, h4, h5⟩ := inObj h1 h2; exact ⟨b, .pattern a k b h3 h4, h5⟩
  | dependency ps k D h1 h2 hn => obtain ⟨a, b, h3, h4, h5⟩ := inObj h1 h2; exact ⟨b, .dependency a k b h3 h4 (noArr h5 hn), h5⟩
  | additional A h1 => obtain ⟨y, hy, hs⟩ := hm.kw h1; obtain ⟨ys, rfl, _⟩ := same_obj hs; exact ⟨_, .additional _ hy, hs⟩
  | additionalItems A h1 => obtain ⟨y, hy, hs⟩ := hm.kw h1; obtain ⟨ys, rfl, _⟩ := same_obj hs; exact ⟨_, .additionalItems _ hy, hs⟩
  | name D hd h1 => obtain ⟨y, hy, hs⟩ := hm.kw h1; exact ⟨_, .name _ hd hy, hs⟩
  | contains D hd h1 => obtain ⟨y, hy, hs⟩ := hm.kw h1; exact ⟨_, .contains _ hd hy, hs⟩
  | items D h1 hn => obtain ⟨y, hy, hs⟩ := hm.kw h1; exact ⟨_, .items _ hy (noArr hs hn), hs⟩
  | item Ds D h1 h2 => obtain ⟨a, b, h3, h4, h5⟩ := inArr h1 h2; exact ⟨b, .item a b h3 h4, h5⟩
  | oneOf Ds D h1 h2 => obtain ⟨a, b, h3, h4, h5⟩ := inArr h1 h2; exact ⟨b, .oneOf a b h3 h4, h5⟩
  | anyOf Ds D h1 h2 => obtain ⟨a, b, h3, h4, h5⟩ := inArr h1 h2; exact ⟨b, .anyOf a b h3 h4, h5⟩
  | allOf Ds D h1 h2 => obtain ⟨a, b, h3, h4, h5⟩ := inArr h1 h2; exact ⟨b, .allOf a b h3 h4, h5⟩
  | not D h1 => obtain ⟨y, hy, hs⟩ := hm.kw h1; exact ⟨_, .not _ hy, hs⟩
  | if_ D hd h1 => obtain ⟨y, hy, hs⟩ := hm.kw h1; exact ⟨_, .if_ _ hd hy, hs⟩
  | then_ D hd h1 => obtain ⟨y, hy, hs⟩ := hm.kw h1; exact ⟨_, .then_ _ hd hy, hs⟩
  | else_ D hd h1 => obtain ⟨y, hy, hs⟩ := hm.kw h1; exact ⟨_, .else_ _ hd hy, hs⟩

theorem wellFormed_same {w : World} {d : Draft} {D} (h : WellFormed w d D) : ∀ {D'}, Reordered D D' → WellFormed w d D' := by
  induction h with
  | bool b hd => intro D' hs; cases same_bool hs; exact .bool _ hd
  | obj m hsh _ _ ih1 ih2 =>
    intro D' hs
    obtain ⟨m', rfl, hm⟩ := same_obj hs
    refine .obj _ (shape_same hm hsh) (fun ds k D hk hD => ?_) (fun D hD => ?_)
    · obtain ⟨y, hy, hys⟩ := hm.symm.kw hk
      obtain ⟨ds', rfl, ho⟩ := same_obj hys
      obtain ⟨E, hE, hEs⟩ := ho.mem hD
      exact ih1 ds' k E hy hE hEs.symm
    · obtain ⟨E, hE, hEs⟩ := subSchema_same hm.symm hD
      exact ih2 E hE hEs.symm

theorem schemaRead_same {w : World} {D D'} (hs : Reordered D D') (h : SchemaRead w D) : SchemaRead w D' := by
  rintro m v rfl hv
  obtain ⟨m', rfl, hm⟩ := same_obj hs.symm
  obtain ⟨x, hx, hxs⟩ := hm.kw hv
  exact isStr_same x v hxs.symm (h m' x rfl hx)

end GJS

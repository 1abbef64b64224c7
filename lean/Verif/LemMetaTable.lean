import Verif.LemMetaDraft
/-
Helper lemmas: the tables of properties in the meta-schemas, and the meta-schemas themselves, one
step at a time; first what they imply.
-/
namespace GJS
open Spec

theorem kw_mem {m : List (String × Json)} {k : String} {x : Json} (h : Kw m k x) : (k, x) ∈ m := by
  induction m with
  | nil => cases h
  | cons a m ih =>
    obtain ⟨k', y⟩ := a
    simp only [Kw, getKey, List.lookup_cons] at h
    split at h
    · next e => cases h; simp [beq_iff_eq.1 e]
    · exact List.mem_cons_of_mem _ (ih h)

theorem keysOf_kw {m : List (String × Json)} {k : String} : k ∈ keysOf m ↔ ∃ x, Kw m k x := by
  constructor
  · intro h
    cases hg : getKey k m with
    | some x => exact ⟨x, hg⟩
    | none =>
      simp only [keysOf, List.mem_map] at h
      obtain ⟨⟨k', x⟩, hm, rfl⟩ := h
      have := List.lookup_eq_none_iff.1 hg _ hm
      simp at this
  · rintro ⟨x, hx⟩
    by_contra h
    rw [Kw, getKey_none h] at hx
    cases hx

section
variable {env : Env} {R : String → Option (Draft × Json)} {P : Draft → Json → Json → Prop} {n : Nat} {d : Draft} {v : Json} {Q : Json → Prop}

/-- One step into the meta-schema of draft 4. -/
theorem unfold_doc4 {S F} : docUnfold env R P (n + 1) d (Meta.draft4At S F) v ↔ ∃ kvs, v = .obj kvs ∧
    (∀ k X, (k, X) ∈ Meta.props4 S F → ∀ x, Kw kvs k x → docUnfold env R P n d X x) ∧
    ∀ e ∈ [("exclusiveMinimum", "minimum"), ("exclusiveMaximum", "maximum")], ∀ x, Kw kvs e.1 x → e.2 ∈ keysOf kvs := by
  unfold Meta.draft4At
  generalize Meta.props4 S F = ps
  generalize Meta.defs4 S F = ds
  rw [unfold_obj rfl]
  simp [DKeywords, DType, DAnyOf, DOneOf, DAllOf, DNot, DDependencies, DIf, DConst, DEnum, DFormat,
    DItems, DArray, DObject, DString, DNumber, DSize, Additional, getKey, List.lookup, Kw, -forall_eq']
  have e : ∀ {kvs : List (String × Json)} {k}, k ∈ keysOf kvs ↔ ∃ x, List.lookup k kvs = some x := keysOf_kw
  constructor
  · rintro ⟨h0, h1, h2⟩
    obtain ⟨kvs, rfl⟩ := hasType_object.1 (h0 _ rfl)
    have h1 := h1 _ kvs rfl rfl
    refine ⟨kvs, rfl, fun k X hX x hx => h2 kvs rfl _ rfl k X hX x hx, fun x hx => ?_, fun x hx => ?_⟩
    · exact h1 "exclusiveMinimum" (.arr [.str "minimum"]) (by simp) (e.2 ⟨x, hx⟩) "minimum" (by simp)
    · exact h1 "exclusiveMaximum" (.arr [.str "maximum"]) (by simp) (e.2 ⟨x, hx⟩) "maximum" (by simp)
  · rintro ⟨kvs, rfl, h1, h2, h3⟩
    refine ⟨?_, ?_, ?_⟩
    · rintro _ rfl; exact hasType_object.2 ⟨kvs, rfl⟩
    · rintro _ _ rfl ⟨⟩ k D hD hk
      obtain ⟨x, hx⟩ := e.1 hk
      simp only [List.mem_cons, List.not_mem_nil, or_false, Prod.mk.injEq] at hD
      rcases hD with ⟨rfl, rfl⟩ | ⟨rfl, rfl⟩
      · simpa using h3 x hx
      · simpa using h2 x hx
    · rintro _ ⟨⟩ _ rfl k X hX x hx
      exact h1 k X hX x hx

theorem unfold_doc67 {m ps} (hm : (∃ S F, .obj m = Meta.draft6At S F ∧ ps = Meta.props6 S F) ∨ ∃ S F, .obj m = Meta.draft7At S F ∧ ps = Meta.props7 S F) :
    docUnfold env R P (n + 1) d (.obj m) v ↔ (∃ b, v = .bool b) ∨ ∃ kvs, v = .obj kvs ∧
      ∀ k X, (k, X) ∈ ps → ∀ x, Kw kvs k x → docUnfold env R P n d X x := by
  have key : docUnfold env R P (n + 1) d (.obj m) v ↔ (HasType env v "object" ∨ HasType env v "boolean") ∧
      ∀ kvs, v = .obj kvs → ∀ k X, (k, X) ∈ ps → ∀ x, Kw kvs k x → docUnfold env R P n d X x := by
    rcases hm with ⟨S, F, hm, hp⟩ | ⟨S, F, hm, hp⟩
    · unfold Meta.draft6At at hm
      rw [← hp] at hm
      generalize Meta.defs6 S F = ds at hm
      cases hm
      rw [unfold_obj rfl]
      dkw
    · unfold Meta.draft7At at hm
      rw [← hp] at hm
      generalize Meta.defs6 S F = ds at hm
      cases hm
      rw [unfold_obj rfl]
      dkw
  rw [key, hasType_object, hasType_boolean]
  constructor
  · rintro ⟨⟨c, rfl⟩ | h, h2⟩
    · exact .inr ⟨c, rfl, h2 c rfl⟩
    · exact .inl h
  · rintro (⟨b, rfl⟩ | ⟨c, rfl, h⟩)
    · exact ⟨.inr ⟨b, rfl⟩, fun _ e => nomatch e⟩
    · refine ⟨.inl ⟨c, rfl⟩, ?_⟩
      rintro _ ⟨⟩
      exact h

/-- Keywords a draft does not know mean nothing. -/
theorem kwMean_other4 {k x} (hk : k ∉ keysOf (Meta.props4 .null fun _ => .null)) : KwMean env Draft4 Q k x := by
  unfold KwMean
  split <;> first
    | exact trivial
    | exact absurd (by decide) hk
    | (intro h; exact absurd h (by decide))

theorem kwMean_other6 {k x} (hk : k ∉ keysOf (Meta.props6 .null fun _ => .null)) : KwMean env Draft6 Q k x := by
  unfold KwMean
  split <;> first
    | exact trivial
    | exact absurd (by decide) hk
    | (intro h; exact absurd h (by decide))

theorem kwMean_other7 {k x} (hk : k ∉ keysOf (Meta.props7 .null fun _ => .null)) : KwMean env Draft7 Q k x := by
  unfold KwMean
  split <;> first
    | exact trivial
    | exact absurd (by decide) hk
    | (intro h; exact absurd h (by decide))

section
variable {A : List (String × Json)} {F : String → Json} {k : String} {X x : Json}

theorem fw_props4 (hf : FmtOK env.fmtF64) (hQ : ∀ x, Q x → (∃ b, x = .bool b) ∨ ∃ c, x = .obj c)
    (hS : SelfIs env R Draft4 n A Q) (hF : DefsAre env R Draft4 n F Q "positiveInteger" "positiveIntegerDefault0")
    (hr : ∀ xs, F "simpleTypes" ≠ .arr xs) (hX : (k, X) ∈ Meta.props4 (.obj A) F) (hx : x.WF)
    (h : docUnfold env R Nothing n Draft4 X x) : KwMean env Draft4 Q k x := by
  have no6 : ¬ Draft6 ≤ Draft4 := by decide
  have no7 : ¬ Draft7 ≤ Draft4 := by decide
  simp only [Meta.props4, List.mem_cons, List.not_mem_nil, or_false, Prod.mk.injEq] at hX
  rcases hX with ⟨rfl, rfl⟩ | ⟨rfl, rfl⟩ | ⟨rfl, rfl⟩ | ⟨rfl, rfl⟩ | ⟨rfl, rfl⟩ | ⟨rfl, rfl⟩ | ⟨rfl, rfl⟩ | ⟨rfl, rfl⟩ |
    ⟨rfl, rfl⟩ | ⟨rfl, rfl⟩ | ⟨rfl, rfl⟩ | ⟨rfl, rfl⟩ | ⟨rfl, rfl⟩ | ⟨rfl, rfl⟩ | ⟨rfl, rfl⟩ | ⟨rfl, rfl⟩ | ⟨rfl, rfl⟩ | ⟨rfl, rfl⟩ |
    ⟨rfl, rfl⟩ | ⟨rfl, rfl⟩ | ⟨rfl, rfl⟩ | ⟨rfl, rfl⟩ | ⟨rfl, rfl⟩ | ⟨rfl, rfl⟩ | ⟨rfl, rfl⟩ | ⟨rfl, rfl⟩ | ⟨rfl, rfl⟩ | ⟨rfl, rfl⟩ |
    ⟨rfl, rfl⟩ | ⟨rfl, rfl⟩ | ⟨rfl, rfl⟩ | ⟨rfl, rfl⟩ | ⟨rfl, rfl⟩
  · exact fun _ => hasType_string.1 (fw_typ h)
  · exact ⟨hasType_string.1 (fw_typ h), fun h => absurd h no6⟩
  · exact hasType_string.1 (fw_typ h)
  · exact hasType_string.1 (fw_typ h)
  · trivial
  · exact fw_multipleOf4 h
  · exact hasType_number.1 (fw_typ h)
  · exact ⟨fun _ => hasType_boolean.1 (fw_typ_default h), fun h => absurd h no6⟩
  · exact hasType_number.1 (fw_typ h)
  · exact ⟨fun _ => hasType_boolean.1 (fw_typ_default h), fun h => absurd h no6⟩
  · exact hF.size n x le_rfl h
  · exact hF.size0 n x le_rfl h
  · exact (fw_format (by decide) h).imp_left hasType_string.1
  · exact fw_rest hS hx hQ h
  · exact fw_items hS hF hx h
  · exact hF.size n x le_rfl h
  · exact hF.size0 n x le_rfl h
  · exact hasType_boolean.1 (fw_typ_default h)
  · exact hF.size n x le_rfl h
  · exact hF.size0 n x le_rfl h
  · exact hF.stringArray n x le_rfl h
  · exact fw_rest hS hx hQ h
  · exact fw_map hS hx h
  · exact fw_map hS hx h
  · obtain ⟨c, h1, h2⟩ := fw_map hS hx h
    exact ⟨c, h1, h2, fun h => absurd h no7⟩
  · exact fw_dependencies hS hF hx h
  · exact fw_enum h
  · exact fw_type hf hF hr hx h
  · exact hasType_string.1 (fw_typ h)
  · exact hF.schemaArray n x le_rfl hx h
  · exact hF.schemaArray n x le_rfl hx h
  · exact hF.schemaArray n x le_rfl hx h
  · exact hS n x le_rfl hx h

theorem fw_props6 (hf : FmtOK env.fmtF64) (hz : env.ratOk ⟨false, 0, [], none⟩ = true) (hQ : ∀ x, Q x → (∃ b, x = .bool b) ∨ ∃ c, x = .obj c)
    (hS : SelfIs env R Draft6 n A Q) (hF : DefsAre env R Draft6 n F Q "nonNegativeInteger" "nonNegativeIntegerDefault0")
    (hr : ∀ xs, F "simpleTypes" ≠ .arr xs) (hX : (k, X) ∈ Meta.props6 (.obj A) F) (hx : x.WF)
    (h : docUnfold env R Nothing n Draft6 X x) : KwMean env Draft6 Q k x := by
  have no4 : ¬ Draft6 = Draft4 := by decide
  have no7 : ¬ Draft7 ≤ Draft6 := by decide
  have uri : ∀ {f}, f ≠ "" → docUnfold env R Nothing n Draft6 (.obj [("type", .str "string"), ("format", .str f)]) x →
      ∃ t, x = .str t ∧ env.isFormat f (.str t) = true := by
    intro f hf h
    obtain ⟨h1, h2⟩ := fw_format hf h
    obtain ⟨t, rfl⟩ := hasType_string.1 h1
    exact ⟨t, rfl, h2⟩
  simp only [Meta.props6, List.mem_cons, List.not_mem_nil, or_false, Prod.mk.injEq] at hX
  rcases hX with ⟨rfl, rfl⟩ | ⟨rfl, rfl⟩ | ⟨rfl, rfl⟩ | ⟨rfl, rfl⟩ | ⟨rfl, rfl⟩ | ⟨rfl, rfl⟩ | ⟨rfl, rfl⟩ | ⟨rfl, rfl⟩ |
    ⟨rfl, rfl⟩ | ⟨rfl, rfl⟩ | ⟨rfl, rfl⟩ | ⟨rfl, rfl⟩ | ⟨rfl, rfl⟩ | ⟨rfl, rfl⟩ | ⟨rfl, rfl⟩ | ⟨rfl, rfl⟩ | ⟨rfl, rfl⟩ | ⟨rfl, rfl⟩ |
    ⟨rfl, rfl⟩ | ⟨rfl, rfl⟩ | ⟨rfl, rfl⟩ | ⟨rfl, rfl⟩ | ⟨rfl, rfl⟩ | ⟨rfl, rfl⟩ | ⟨rfl, rfl⟩ | ⟨rfl, rfl⟩ | ⟨rfl, rfl⟩ | ⟨rfl, rfl⟩ |
    ⟨rfl, rfl⟩ | ⟨rfl, rfl⟩ | ⟨rfl, rfl⟩ | ⟨rfl, rfl⟩ | ⟨rfl, rfl⟩ | ⟨rfl, rfl⟩ | ⟨rfl, rfl⟩ | ⟨rfl, rfl⟩ | ⟨rfl, rfl⟩ | ⟨rfl, rfl⟩
  · exact fun _ => uri (by decide) h
  · exact (fw_format (by decide) h).imp hasType_string.1 fun h _ => h
  · exact fun _ => uri (by decide) h
  · exact hasType_string.1 (fw_typ h)
  · exact hasType_string.1 (fw_typ h)
  · trivial
  · exact fun _ => fw_examples (by intro xs e; cases e) h
  · exact fw_multipleOf6 hz h
  · exact hasType_number.1 (fw_typ h)
  · exact ⟨fun h => absurd h no4, fun _ => hasType_number.1 (fw_typ h)⟩
  · exact hasType_number.1 (fw_typ h)
  · exact ⟨fun h => absurd h no4, fun _ => hasType_number.1 (fw_typ h)⟩
  · exact hF.size n x le_rfl h
  · exact hF.size0 n x le_rfl h
  · exact (fw_format (by decide) h).imp_left hasType_string.1
  · exact fw_restSelf hS hx hQ h
  · exact fw_items hS hF hx h
  · exact hF.size n x le_rfl h
  · exact hF.size0 n x le_rfl h
  · exact hasType_boolean.1 (fw_typ_default h)
  · exact fun _ => hS n x le_rfl hx h
  · exact hF.size n x le_rfl h
  · exact hF.size0 n x le_rfl h
  · exact hF.stringArray n x le_rfl h
  · exact fw_restSelf hS hx hQ h
  · exact fw_map hS hx h
  · exact fw_map hS hx h
  · obtain ⟨c, h1, h2⟩ := fw_map hS hx h
    exact ⟨c, h1, h2, fun h => absurd h no7⟩
  · exact fw_dependencies hS hF hx h
  · exact fun _ => hS n x le_rfl hx h
  · trivial
  · exact fw_enum h
  · exact fw_type hf hF hr hx h
  · exact hasType_string.1 (fw_typ h)
  · exact hF.schemaArray n x le_rfl hx h
  · exact hF.schemaArray n x le_rfl hx h
  · exact hF.schemaArray n x le_rfl hx h
  · exact hS n x le_rfl hx h

theorem fw_props7 (hf : FmtOK env.fmtF64) (hz : env.ratOk ⟨false, 0, [], none⟩ = true) (hQ : ∀ x, Q x → (∃ b, x = .bool b) ∨ ∃ c, x = .obj c)
    (hS : SelfIs env R Draft7 n A Q) (hF : DefsAre env R Draft7 n F Q "nonNegativeInteger" "nonNegativeIntegerDefault0")
    (hr : ∀ xs, F "simpleTypes" ≠ .arr xs) (hX : (k, X) ∈ Meta.props7 (.obj A) F) (hx : x.WF)
    (h : docUnfold env R Nothing n Draft7 X x) : KwMean env Draft7 Q k x := by
  have no4 : ¬ Draft7 = Draft4 := by decide
  have uri : ∀ {f}, f ≠ "" → docUnfold env R Nothing n Draft7 (.obj [("type", .str "string"), ("format", .str f)]) x →
      ∃ t, x = .str t ∧ env.isFormat f (.str t) = true := by
    intro f hf h
    obtain ⟨h1, h2⟩ := fw_format hf h
    obtain ⟨t, rfl⟩ := hasType_string.1 h1
    exact ⟨t, rfl, h2⟩
  simp only [Meta.props7, List.mem_cons, List.not_mem_nil, or_false, Prod.mk.injEq] at hX
  rcases hX with ⟨rfl, rfl⟩ | ⟨rfl, rfl⟩ | ⟨rfl, rfl⟩ | ⟨rfl, rfl⟩ | ⟨rfl, rfl⟩ | ⟨rfl, rfl⟩ | ⟨rfl, rfl⟩ | ⟨rfl, rfl⟩ |
    ⟨rfl, rfl⟩ | ⟨rfl, rfl⟩ | ⟨rfl, rfl⟩ | ⟨rfl, rfl⟩ | ⟨rfl, rfl⟩ | ⟨rfl, rfl⟩ | ⟨rfl, rfl⟩ | ⟨rfl, rfl⟩ | ⟨rfl, rfl⟩ | ⟨rfl, rfl⟩ |
    ⟨rfl, rfl⟩ | ⟨rfl, rfl⟩ | ⟨rfl, rfl⟩ | ⟨rfl, rfl⟩ | ⟨rfl, rfl⟩ | ⟨rfl, rfl⟩ | ⟨rfl, rfl⟩ | ⟨rfl, rfl⟩ | ⟨rfl, rfl⟩ | ⟨rfl, rfl⟩ |
    ⟨rfl, rfl⟩ | ⟨rfl, rfl⟩ | ⟨rfl, rfl⟩ | ⟨rfl, rfl⟩ | ⟨rfl, rfl⟩ | ⟨rfl, rfl⟩ | ⟨rfl, rfl⟩ | ⟨rfl, rfl⟩ | ⟨rfl, rfl⟩ | ⟨rfl, rfl⟩ |
    ⟨rfl, rfl⟩ | ⟨rfl, rfl⟩ | ⟨rfl, rfl⟩ | ⟨rfl, rfl⟩ | ⟨rfl, rfl⟩ | ⟨rfl, rfl⟩ | ⟨rfl, rfl⟩
  · exact fun _ => uri (by decide) h
  · exact (fw_format (by decide) h).imp hasType_string.1 fun h _ => h
  · exact fun _ => uri (by decide) h
  · exact fun _ => hasType_string.1 (fw_typ h)
  · exact hasType_string.1 (fw_typ h)
  · exact hasType_string.1 (fw_typ h)
  · trivial
  · exact fun _ => hasType_boolean.1 (fw_typ_default h)
  · exact fun _ => fw_examples (by intro xs e; cases e) h
  · exact fw_multipleOf6 hz h
  · exact hasType_number.1 (fw_typ h)
  · exact ⟨fun h => absurd h no4, fun _ => hasType_number.1 (fw_typ h)⟩
  · exact hasType_number.1 (fw_typ h)
  · exact ⟨fun h => absurd h no4, fun _ => hasType_number.1 (fw_typ h)⟩
  · exact hF.size n x le_rfl h
  · exact hF.size0 n x le_rfl h
  · exact (fw_format (by decide) h).imp_left hasType_string.1
  · exact fw_restSelf hS hx hQ h
  · exact fw_items hS hF hx h
  · exact hF.size n x le_rfl h
  · exact hF.size0 n x le_rfl h
  · exact hasType_boolean.1 (fw_typ_default h)
  · exact fun _ => hS n x le_rfl hx h
  · exact hF.size n x le_rfl h
  · exact hF.size0 n x le_rfl h
  · exact hF.stringArray n x le_rfl h
  · exact fw_restSelf hS hx hQ h
  · exact fw_map hS hx h
  · exact fw_map hS hx h
  · obtain ⟨c, h1, h2, h3⟩ := fw_map7 (by decide) hS hx h
    exact ⟨c, h1, h2, fun _ => h3⟩
  · exact fw_dependencies hS hF hx h
  · exact fun _ => hS n x le_rfl hx h
  · trivial
  · exact fw_enum7 (by intro xs e; cases e) h
  · exact fw_type hf hF hr hx h
  · exact hasType_string.1 (fw_typ h)
  · exact fun _ => hasType_string.1 (fw_typ h)
  · exact fun _ => hasType_string.1 (fw_typ h)
  · exact fun _ => hS n x le_rfl hx h
  · exact fun _ => hS n x le_rfl hx h
  · exact fun _ => hS n x le_rfl hx h
  · exact hF.schemaArray n x le_rfl hx h
  · exact hF.schemaArray n x le_rfl hx h
  · exact hF.schemaArray n x le_rfl hx h
  · exact hS n x le_rfl hx h

end
end
end GJS

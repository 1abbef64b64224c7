import Verif.LemMetaExact
/-
Helper lemmas: `MetaValid` documents satisfy the meta-schema of their draft, at every depth that is
large enough.
-/
namespace GJS
open Spec

section
variable {env : Env} {R : String → Option (Draft × Json)} {P : Draft → Json → Json → Prop} {n N b : Nat} {d : Draft} {v : Json} {Q : Json → Prop}

theorem bw_ref {t X} (hR : R t = some (d, X)) (h : docUnfold env R P n d X v) : docUnfold env R P (n + 1) d (Meta.ref t) v :=
  unfold_ref.2 ⟨d, X, hR, h⟩

/-- The reference to the meta-schema holds of the values of size up to `b`, from depth `N` on. -/
def SelfHas (env : Env) (R : String → Option (Draft × Json)) (P : Draft → Json → Json → Prop) (d : Draft) (N b : Nat)
    (A : List (String × Json)) (Q : Json → Prop) : Prop :=
  ∀ k x, N ≤ k → sizeOf x ≤ b → Q x → docUnfold env R P k d (.obj A) x

theorem sizeOf_elem {xs : List Json} {x : Json} (h : x ∈ xs) (hb : sizeOf (Json.arr xs) ≤ b) : sizeOf x ≤ b := by
  have := List.sizeOf_lt_of_mem h
  simp at hb; omega

theorem sizeOf_member {xs : List (String × Json)} {k : String} {x : Json} (h : (k, x) ∈ xs) (hb : sizeOf (Json.obj xs) ≤ b) : sizeOf x + 1 ≤ b := by
  have := List.sizeOf_lt_of_mem h
  simp at hb this; omega

/-- What is needed of the definitions. -/
structure DefsHave (env : Env) (R : String → Option (Draft × Json)) (P : Draft → Json → Json → Prop) (d : Draft) (N b : Nat)
    (F : String → Json) (Q : Json → Prop) (size size0 : String) : Prop where
  schemaArray : ∀ k x, N + 4 ≤ k → sizeOf x ≤ b → SchemaList Q x → docUnfold env R P k d (F "schemaArray") x
  size : ∀ k x, 4 ≤ k → (∃ q, x = .num q ∧ env.ratOk q = true ∧ ∃ z : Nat, q.val = z) → docUnfold env R P k d (F size) x
  size0 : ∀ k x, 4 ≤ k → (∃ q, x = .num q ∧ env.ratOk q = true ∧ ∃ z : Nat, q.val = z) → docUnfold env R P k d (F size0) x
  simpleTypes : ∀ k t, 3 ≤ k → KnownType t → docUnfold env R P k d (F "simpleTypes") (.str t)
  stringArray : ∀ k x, 3 ≤ k → StringList d x → docUnfold env R P k d (F "stringArray") x

section
variable {F : String → Json} {size size0 : String} {A : List (String × Json)}

theorem bw_map {x} (hS : SelfHas env R P d N b A Q) (hn : N ≤ n) (hb : sizeOf v ≤ b)
    (h : ∃ c, v = .obj c ∧ ∀ k D, (k, D) ∈ c → Q D) :
    docUnfold env R P (n + 1) d (.obj [("type", .str "object"), ("additionalProperties", .obj A), ("default", x)]) v := by
  obtain ⟨c, rfl, h⟩ := h
  exact unfold_map.2 ⟨c, rfl, fun k D hk => hS n D hn (by have := sizeOf_member hk hb; omega) (h k D hk)⟩

theorem bw_map7 {x} (hd : Draft6 ≤ d) (hS : SelfHas env R P d N b A Q) (hn : N ≤ n) (hn1 : 1 ≤ n) (hb : sizeOf v ≤ b)
    (h : ∃ c, v = .obj c ∧ (∀ k D, (k, D) ∈ c → Q D) ∧ ∀ k ∈ keysOf c, env.isFormat "regex" (.str k) = true) :
    docUnfold env R P (n + 1) d (.obj [("type", .str "object"), ("additionalProperties", .obj A),
      ("propertyNames", .obj [("format", .str "regex")]), ("default", x)]) v := by
  obtain ⟨c, rfl, h, h2⟩ := h
  refine (unfold_map7 hd).2 ⟨c, rfl, fun k D hk => hS n D hn (by have := sizeOf_member hk hb; omega) (h k D hk), fun k hk => ?_⟩
  obtain ⟨n, rfl⟩ := Nat.exists_eq_succ_of_ne_zero (show n ≠ 0 by omega)
  exact (unfold_justFormat (by decide)).2 (h2 k hk)

theorem bw_rest {x} (hS : SelfHas env R P d N b A Q) (hn : N ≤ n) (hn1 : 1 ≤ n) (hb : sizeOf v ≤ b)
    (h : (∃ b, v = .bool b) ∨ ((∃ c, v = .obj c) ∧ Q v)) :
    docUnfold env R P (n + 1) d (.obj [("anyOf", .arr [Meta.typ "boolean", .obj A]), ("default", x)]) v := by
  refine (unfold_anyOf (by simp)).2 ?_
  rcases h with h | ⟨_, h⟩
  · refine ⟨_, List.mem_cons_self .., ?_⟩
    obtain ⟨n, rfl⟩ := Nat.exists_eq_succ_of_ne_zero (show n ≠ 0 by omega)
    exact unfold_typ.2 (hasType_boolean.2 h)
  · exact ⟨.obj A, by simp, hS n v hn hb h⟩

theorem bw_restSelf (hS : SelfHas env R P d N b A Q) (hQ : ∀ b, Q (.bool b)) (hn : N ≤ n) (hb : sizeOf v ≤ b)
    (h : (∃ b, v = .bool b) ∨ ((∃ c, v = .obj c) ∧ Q v)) : docUnfold env R P n d (.obj A) v := by
  rcases h with ⟨b, rfl⟩ | ⟨_, h⟩
  · exact hS n _ hn hb (hQ b)
  · exact hS n v hn hb h

theorem bw_items {x} (hS : SelfHas env R P d N b A Q) (hF : DefsHave env R P d N b F Q size size0) (hn : N + 4 ≤ n) (hb : sizeOf v ≤ b)
    (h : Q v ∨ SchemaList Q v) :
    docUnfold env R P (n + 1) d (.obj [("anyOf", .arr [.obj A, F "schemaArray"]), ("default", x)]) v := by
  refine (unfold_anyOf (by simp)).2 ?_
  rcases h with h | h
  · exact ⟨.obj A, by simp, hS n v (by omega) hb h⟩
  · exact ⟨F "schemaArray", by simp, hF.schemaArray n v hn hb h⟩

theorem bw_dependencies (hS : SelfHas env R P d N b A Q) (hF : DefsHave env R P d N b F Q size size0) (hn : N + 4 ≤ n) (hb : sizeOf v ≤ b)
    (h : ∃ c, v = .obj c ∧ ∀ k D, (k, D) ∈ c → Q D ∨ StringList d D) :
    docUnfold env R P (n + 1) d (.obj [("type", .str "object"),
      ("additionalProperties", .obj [("anyOf", .arr [.obj A, F "stringArray"])])]) v := by
  obtain ⟨c, rfl, h⟩ := h
  refine unfold_map'.2 ⟨c, rfl, fun k D hk => ?_⟩
  obtain ⟨n, rfl⟩ := Nat.exists_eq_succ_of_ne_zero (show n ≠ 0 by omega)
  refine (unfold_anyOf' (by simp)).2 ?_
  rcases h k D hk with h | h
  · exact ⟨.obj A, by simp, hS n D (by omega) (by have := sizeOf_member hk hb; omega) h⟩
  · exact ⟨F "stringArray", by simp, hF.stringArray n D (by omega) h⟩

theorem bw_type (hf : FmtOK env.fmtF64) (hF : DefsHave env R P d N b F Q size size0) (hr : ∀ xs, F "simpleTypes" ≠ .arr xs) (hn : N + 4 ≤ n)
    (h : (∃ t, v = .str t ∧ KnownType t) ∨
      ∃ ts : List String, v = .arr (ts.map .str) ∧ ts ≠ [] ∧ ts.Nodup ∧ ∀ t ∈ ts, KnownType t) :
    docUnfold env R P (n + 1) d (.obj [("anyOf", .arr [F "simpleTypes",
      .obj [("type", .str "array"), ("items", F "simpleTypes"), ("minItems", Meta.num 1), ("uniqueItems", .bool true)]])]) v := by
  refine (unfold_anyOf' (by simp)).2 ?_
  rcases h with ⟨t, rfl, h⟩ | ⟨ts, rfl, hne, hd, h⟩
  · exact ⟨F "simpleTypes", by simp, hF.simpleTypes n t (by omega) h⟩
  · refine ⟨_, List.mem_cons_of_mem _ (List.mem_cons_self ..), ?_⟩
    obtain ⟨n, rfl⟩ := Nat.exists_eq_succ_of_ne_zero (show n ≠ 0 by omega)
    refine (unfold_list hr).2 ⟨_, rfl, by simpa using hne, fun x hx => ?_, (distinct_strings hf).2 hd⟩
    obtain ⟨t, ht, rfl⟩ := List.mem_map.1 hx
    exact hF.simpleTypes n t (by omega) (h t ht)

end

theorem bw_size (h : ∃ q, v = .num q ∧ env.ratOk q = true ∧ ∃ z : Nat, q.val = z) :
    docUnfold env R P (n + 1) d (.obj [("type", .str "integer"), ("minimum", Meta.num 0)]) v := unfold_size.2 h

/-- From the references to the definitions. -/
theorem defs_have {s0 : String} {G : String → String} {size size0 : String} (hf : FmtOK env.fmtF64)
    (hS : SelfHas env R P d N b [("$ref", .str s0)] Q)
    (h1 : R (G "schemaArray") = some (d, .obj [("type", .str "array"), ("minItems", Meta.num 1), ("items", Meta.ref s0)]))
    (h2 : R (G size) = some (d, .obj [("type", .str "integer"), ("minimum", Meta.num 0)]))
    (h3 : R (G size0) = some (d, .obj [("allOf", .arr [Meta.ref (G size), .obj [("default", Meta.num 0)]])]))
    (h4 : R (G "simpleTypes") = some (d, .obj [
      ("enum", .arr [.str "array", .str "boolean", .str "integer", .str "null", .str "number", .str "object", .str "string"])]))
    (h5 : ∃ X, R (G "stringArray") = some (d, X) ∧ ∀ k x, 2 ≤ k → StringList d x → docUnfold env R P k d X x) :
    DefsHave env R P d N b (fun s => Meta.ref (G s)) Q size size0 where
  schemaArray := by
    rintro k _ hk hb ⟨xs, rfl, hne, h⟩
    obtain ⟨k, rfl⟩ := Nat.exists_eq_add_of_le' (show 2 ≤ k by omega)
    exact bw_ref h1 ((unfold_array (by intro xs e; cases e)).2 ⟨xs, rfl, hne, fun x hx => hS k x (by omega) (sizeOf_elem hx hb) (h x hx)⟩)
  size := by
    intro k x hk h
    obtain ⟨k, rfl⟩ := Nat.exists_eq_add_of_le' (show 2 ≤ k by omega)
    exact bw_ref h2 (bw_size h)
  size0 := by
    intro k x hk h
    obtain ⟨k, rfl⟩ := Nat.exists_eq_add_of_le' (show 4 ≤ k by omega)
    exact bw_ref h3 (unfold_allOf.2 ⟨bw_ref h2 (bw_size h), unfold_default⟩)
  simpleTypes := by
    intro k t hk h
    obtain ⟨k, rfl⟩ := Nat.exists_eq_add_of_le' (show 2 ≤ k by omega)
    exact bw_ref h4 ((unfold_simpleTypes hf (.str t)).2 ⟨t, rfl, h⟩)
  stringArray := by
    obtain ⟨X, hX, h⟩ := h5
    intro k x hk hx
    obtain ⟨k, rfl⟩ := Nat.exists_eq_succ_of_ne_zero (show k ≠ 0 by omega)
    exact bw_ref hX (h k x (by omega) hx)

theorem bw_strings4 (hf : FmtOK env.fmtF64) (hd : d = Draft4) (h : StringList d v) :
    docUnfold env R P (n + 2) d (.obj [("type", .str "array"), ("items", Meta.typ "string"), ("minItems", Meta.num 1), ("uniqueItems", .bool true)]) v := by
  obtain ⟨ts, rfl, h1, h2⟩ := h
  refine (unfold_list (by intro xs e; cases e)).2 ⟨_, rfl, by simpa using h2 hd, fun x hx => ?_, (distinct_strings hf).2 h1⟩
  obtain ⟨t, ht, rfl⟩ := List.mem_map.1 hx
  exact unfold_typ.2 (hasType_string.2 ⟨t, rfl⟩)

theorem bw_strings6 (hf : FmtOK env.fmtF64) {x} (h : StringList d v) :
    docUnfold env R P (n + 2) d (.obj [("type", .str "array"), ("items", Meta.typ "string"), ("uniqueItems", .bool true), ("default", x)]) v := by
  obtain ⟨ts, rfl, h1, h2⟩ := h
  refine (unfold_list6 (by intro xs e; cases e)).2 ⟨_, rfl, fun x hx => ?_, (distinct_strings hf).2 h1⟩
  obtain ⟨t, ht, rfl⟩ := List.mem_map.1 hx
  exact unfold_typ.2 (hasType_string.2 ⟨t, rfl⟩)

section
variable {A : List (String × Json)} {F : String → Json} {k : String} {X x : Json}

theorem bw_props4 (hf : FmtOK env.fmtF64)
    (hS : SelfHas env R P Draft4 N b A Q) (hF : DefsHave env R P Draft4 N b F Q "positiveInteger" "positiveIntegerDefault0")
    (hr : ∀ xs, F "simpleTypes" ≠ .arr xs) (hX : (k, X) ∈ Meta.props4 (.obj A) F) (hb : sizeOf x ≤ b) (hn : N + 4 ≤ n)
    (h : KwMean env Draft4 Q k x) : docUnfold env R P (n + 1) Draft4 X x := by
  simp only [Meta.props4, List.mem_cons, List.not_mem_nil, or_false, Prod.mk.injEq] at hX
  rcases hX with ⟨rfl, rfl⟩ | ⟨rfl, rfl⟩ | ⟨rfl, rfl⟩ | ⟨rfl, rfl⟩ | ⟨rfl, rfl⟩ | ⟨rfl, rfl⟩ | ⟨rfl, rfl⟩ | ⟨rfl, rfl⟩ |
    ⟨rfl, rfl⟩ | ⟨rfl, rfl⟩ | ⟨rfl, rfl⟩ | ⟨rfl, rfl⟩ | ⟨rfl, rfl⟩ | ⟨rfl, rfl⟩ | ⟨rfl, rfl⟩ | ⟨rfl, rfl⟩ | ⟨rfl, rfl⟩ | ⟨rfl, rfl⟩ |
    ⟨rfl, rfl⟩ | ⟨rfl, rfl⟩ | ⟨rfl, rfl⟩ | ⟨rfl, rfl⟩ | ⟨rfl, rfl⟩ | ⟨rfl, rfl⟩ | ⟨rfl, rfl⟩ | ⟨rfl, rfl⟩ | ⟨rfl, rfl⟩ | ⟨rfl, rfl⟩ |
    ⟨rfl, rfl⟩ | ⟨rfl, rfl⟩ | ⟨rfl, rfl⟩ | ⟨rfl, rfl⟩ | ⟨rfl, rfl⟩
  · exact unfold_typ.2 (hasType_string.2 (h rfl))
  · exact unfold_typ.2 (hasType_string.2 h.1)
  · exact unfold_typ.2 (hasType_string.2 h)
  · exact unfold_typ.2 (hasType_string.2 h)
  · exact unfold_empty
  · exact unfold_multipleOf4.2 h
  · exact unfold_typ.2 (hasType_number.2 h)
  · exact unfold_typ_default.2 (hasType_boolean.2 (h.1 rfl))
  · exact unfold_typ.2 (hasType_number.2 h)
  · exact unfold_typ_default.2 (hasType_boolean.2 (h.1 rfl))
  · exact hF.size _ x (by omega) h
  · exact hF.size0 _ x (by omega) h
  · exact (unfold_format (by decide)).2 ⟨hasType_string.2 h.1, h.2⟩
  · exact bw_rest hS (by omega) (by omega) hb h
  · exact bw_items hS hF hn hb h
  · exact hF.size _ x (by omega) h
  · exact hF.size0 _ x (by omega) h
  · exact unfold_typ_default.2 (hasType_boolean.2 h)
  · exact hF.size _ x (by omega) h
  · exact hF.size0 _ x (by omega) h
  · exact hF.stringArray _ x (by omega) h
  · exact bw_rest hS (by omega) (by omega) hb h
  · exact bw_map hS (by omega) hb h
  · exact bw_map hS (by omega) hb h
  · obtain ⟨c, h1, h2, _⟩ := h
    exact bw_map hS (by omega) hb ⟨c, h1, h2⟩
  · exact bw_dependencies hS hF hn hb h
  · exact unfold_enum.2 h
  · exact bw_type hf hF hr hn h
  · exact unfold_typ.2 (hasType_string.2 h)
  · exact hF.schemaArray _ x (by omega) hb h
  · exact hF.schemaArray _ x (by omega) hb h
  · exact hF.schemaArray _ x (by omega) hb h
  · exact hS _ x (by omega) hb h

theorem bw_props6 (hf : FmtOK env.fmtF64) (hz : env.ratOk ⟨false, 0, [], none⟩ = true) (hQ : ∀ b, Q (.bool b))
    (hS : SelfHas env R P Draft6 N b A Q) (hF : DefsHave env R P Draft6 N b F Q "nonNegativeInteger" "nonNegativeIntegerDefault0")
    (hr : ∀ xs, F "simpleTypes" ≠ .arr xs) (hX : (k, X) ∈ Meta.props6 (.obj A) F) (hb : sizeOf x ≤ b) (hn : N + 4 ≤ n)
    (h : KwMean env Draft6 Q k x) : docUnfold env R P (n + 1) Draft6 X x := by
  have d6 : Draft6 ≤ Draft6 := by decide
  have uri : ∀ {f}, f ≠ "" → (∃ t, x = .str t ∧ env.isFormat f (.str t) = true) →
      docUnfold env R P (n + 1) Draft6 (.obj [("type", .str "string"), ("format", .str f)]) x := by
    rintro f hf ⟨t, rfl, h2⟩
    exact (unfold_format hf).2 ⟨hasType_string.2 ⟨t, rfl⟩, h2⟩
  simp only [Meta.props6, List.mem_cons, List.not_mem_nil, or_false, Prod.mk.injEq] at hX
  rcases hX with ⟨rfl, rfl⟩ | ⟨rfl, rfl⟩ | ⟨rfl, rfl⟩ | ⟨rfl, rfl⟩ | ⟨rfl, rfl⟩ | ⟨rfl, rfl⟩ | ⟨rfl, rfl⟩ | ⟨rfl, rfl⟩ |
    ⟨rfl, rfl⟩ | ⟨rfl, rfl⟩ | ⟨rfl, rfl⟩ | ⟨rfl, rfl⟩ | ⟨rfl, rfl⟩ | ⟨rfl, rfl⟩ | ⟨rfl, rfl⟩ | ⟨rfl, rfl⟩ | ⟨rfl, rfl⟩ | ⟨rfl, rfl⟩ |
    ⟨rfl, rfl⟩ | ⟨rfl, rfl⟩ | ⟨rfl, rfl⟩ | ⟨rfl, rfl⟩ | ⟨rfl, rfl⟩ | ⟨rfl, rfl⟩ | ⟨rfl, rfl⟩ | ⟨rfl, rfl⟩ | ⟨rfl, rfl⟩ | ⟨rfl, rfl⟩ |
    ⟨rfl, rfl⟩ | ⟨rfl, rfl⟩ | ⟨rfl, rfl⟩ | ⟨rfl, rfl⟩ | ⟨rfl, rfl⟩ | ⟨rfl, rfl⟩ | ⟨rfl, rfl⟩ | ⟨rfl, rfl⟩ | ⟨rfl, rfl⟩ | ⟨rfl, rfl⟩
  · exact uri (by decide) (h d6)
  · exact (unfold_format (by decide)).2 ⟨hasType_string.2 h.1, h.2 d6⟩
  · exact uri (by decide) (h d6)
  · exact unfold_typ.2 (hasType_string.2 h)
  · exact unfold_typ.2 (hasType_string.2 h)
  · exact unfold_empty
  · obtain ⟨xs, rfl⟩ := h d6
    obtain ⟨n, rfl⟩ := Nat.exists_eq_succ_of_ne_zero (show n ≠ 0 by omega)
    exact (unfold_examples (by intro xs e; cases e)).2 ⟨xs, rfl, fun _ _ => unfold_empty⟩
  · exact (unfold_multipleOf6 hz).2 h
  · exact unfold_typ.2 (hasType_number.2 h)
  · exact unfold_typ.2 (hasType_number.2 (h.2 d6))
  · exact unfold_typ.2 (hasType_number.2 h)
  · exact unfold_typ.2 (hasType_number.2 (h.2 d6))
  · exact hF.size _ x (by omega) h
  · exact hF.size0 _ x (by omega) h
  · exact (unfold_format (by decide)).2 ⟨hasType_string.2 h.1, h.2⟩
  · exact bw_restSelf hS hQ (by omega) hb h
  · exact bw_items hS hF hn hb h
  · exact hF.size _ x (by omega) h
  · exact hF.size0 _ x (by omega) h
  · exact unfold_typ_default.2 (hasType_boolean.2 h)
  · exact hS _ x (by omega) hb (h d6)
  · exact hF.size _ x (by omega) h
  · exact hF.size0 _ x (by omega) h
  · exact hF.stringArray _ x (by omega) h
  · exact bw_restSelf hS hQ (by omega) hb h
  · exact bw_map hS (by omega) hb h
  · exact bw_map hS (by omega) hb h
  · obtain ⟨c, h1, h2, _⟩ := h
    exact bw_map hS (by omega) hb ⟨c, h1, h2⟩
  · exact bw_dependencies hS hF hn hb h
  · exact hS _ x (by omega) hb (h d6)
  · exact unfold_empty
  · exact unfold_enum.2 h
  · exact bw_type hf hF hr hn h
  · exact unfold_typ.2 (hasType_string.2 h)
  · exact hF.schemaArray _ x (by omega) hb h
  · exact hF.schemaArray _ x (by omega) hb h
  · exact hF.schemaArray _ x (by omega) hb h
  · exact hS _ x (by omega) hb h

theorem bw_props7 (hf : FmtOK env.fmtF64) (hz : env.ratOk ⟨false, 0, [], none⟩ = true) (hQ : ∀ b, Q (.bool b))
    (hS : SelfHas env R P Draft7 N b A Q) (hF : DefsHave env R P Draft7 N b F Q "nonNegativeInteger" "nonNegativeIntegerDefault0")
    (hr : ∀ xs, F "simpleTypes" ≠ .arr xs) (hX : (k, X) ∈ Meta.props7 (.obj A) F) (hb : sizeOf x ≤ b) (hn : N + 4 ≤ n)
    (h : KwMean env Draft7 Q k x) : docUnfold env R P (n + 1) Draft7 X x := by
  have d6 : Draft6 ≤ Draft7 := by decide
  have d7 : Draft7 ≤ Draft7 := by decide
  have uri : ∀ {f}, f ≠ "" → (∃ t, x = .str t ∧ env.isFormat f (.str t) = true) →
      docUnfold env R P (n + 1) Draft7 (.obj [("type", .str "string"), ("format", .str f)]) x := by
    rintro f hf ⟨t, rfl, h2⟩
    exact (unfold_format hf).2 ⟨hasType_string.2 ⟨t, rfl⟩, h2⟩
  obtain ⟨n, rfl⟩ := Nat.exists_eq_succ_of_ne_zero (show n ≠ 0 by omega)
  simp only [Meta.props7, List.mem_cons, List.not_mem_nil, or_false, Prod.mk.injEq] at hX
  rcases hX with ⟨rfl, rfl⟩ | ⟨rfl, rfl⟩ | ⟨rfl, rfl⟩ | ⟨rfl, rfl⟩ | ⟨rfl, rfl⟩ | ⟨rfl, rfl⟩ | ⟨rfl, rfl⟩ | ⟨rfl, rfl⟩ |
    ⟨rfl, rfl⟩ | ⟨rfl, rfl⟩ | ⟨rfl, rfl⟩ | ⟨rfl, rfl⟩ | ⟨rfl, rfl⟩ | ⟨rfl, rfl⟩ | ⟨rfl, rfl⟩ | ⟨rfl, rfl⟩ | ⟨rfl, rfl⟩ | ⟨rfl, rfl⟩ |
    ⟨rfl, rfl⟩ | ⟨rfl, rfl⟩ | ⟨rfl, rfl⟩ | ⟨rfl, rfl⟩ | ⟨rfl, rfl⟩ | ⟨rfl, rfl⟩ | ⟨rfl, rfl⟩ | ⟨rfl, rfl⟩ | ⟨rfl, rfl⟩ | ⟨rfl, rfl⟩ |
    ⟨rfl, rfl⟩ | ⟨rfl, rfl⟩ | ⟨rfl, rfl⟩ | ⟨rfl, rfl⟩ | ⟨rfl, rfl⟩ | ⟨rfl, rfl⟩ | ⟨rfl, rfl⟩ | ⟨rfl, rfl⟩ | ⟨rfl, rfl⟩ | ⟨rfl, rfl⟩ |
    ⟨rfl, rfl⟩ | ⟨rfl, rfl⟩ | ⟨rfl, rfl⟩ | ⟨rfl, rfl⟩ | ⟨rfl, rfl⟩ | ⟨rfl, rfl⟩ | ⟨rfl, rfl⟩
  · exact uri (by decide) (h d6)
  · exact (unfold_format (by decide)).2 ⟨hasType_string.2 h.1, h.2 d6⟩
  · exact uri (by decide) (h d6)
  · exact unfold_typ.2 (hasType_string.2 (h d7))
  · exact unfold_typ.2 (hasType_string.2 h)
  · exact unfold_typ.2 (hasType_string.2 h)
  · exact unfold_bool.2 rfl
  · exact unfold_typ_default.2 (hasType_boolean.2 (h d7))
  · obtain ⟨xs, rfl⟩ := h d6
    exact (unfold_examples (by intro xs e; cases e)).2 ⟨xs, rfl, fun _ _ => unfold_bool.2 rfl⟩
  · exact (unfold_multipleOf6 hz).2 h
  · exact unfold_typ.2 (hasType_number.2 h)
  · exact unfold_typ.2 (hasType_number.2 (h.2 d6))
  · exact unfold_typ.2 (hasType_number.2 h)
  · exact unfold_typ.2 (hasType_number.2 (h.2 d6))
  · exact hF.size _ x (by omega) h
  · exact hF.size0 _ x (by omega) h
  · exact (unfold_format (by decide)).2 ⟨hasType_string.2 h.1, h.2⟩
  · exact bw_restSelf hS hQ (by omega) hb h
  · exact bw_items hS hF hn hb h
  · exact hF.size _ x (by omega) h
  · exact hF.size0 _ x (by omega) h
  · exact unfold_typ_default.2 (hasType_boolean.2 h)
  · exact hS _ x (by omega) hb (h d6)
  · exact hF.size _ x (by omega) h
  · exact hF.size0 _ x (by omega) h
  · exact hF.stringArray _ x (by omega) h
  · exact bw_restSelf hS hQ (by omega) hb h
  · exact bw_map hS (by omega) hb h
  · exact bw_map hS (by omega) hb h
  · obtain ⟨c, h1, h2, h3⟩ := h
    exact bw_map7 d6 hS (by omega) (by omega) hb ⟨c, h1, h2, h3 d7⟩
  · exact bw_dependencies hS hF hn hb h
  · exact hS _ x (by omega) hb (h d6)
  · exact unfold_bool.2 rfl
  · obtain ⟨xs, h1, h2, h3⟩ := h
    exact (unfold_list (by intro xs e; cases e)).2 ⟨xs, h1, h2, fun _ _ => unfold_bool.2 rfl, h3⟩
  · exact bw_type hf hF hr hn h
  · exact unfold_typ.2 (hasType_string.2 h)
  · exact unfold_typ.2 (hasType_string.2 (h d7))
  · exact unfold_typ.2 (hasType_string.2 (h d7))
  · exact hS _ x (by omega) hb (h d7)
  · exact hS _ x (by omega) hb (h d7)
  · exact hS _ x (by omega) hb (h d7)
  · exact hF.schemaArray _ x (by omega) hb h
  · exact hF.schemaArray _ x (by omega) hb h
  · exact hF.schemaArray _ x (by omega) hb h
  · exact hS _ x (by omega) hb h

end

/-- The reference `s0` leads to the meta-schema `M`, `G s` to its definition `s`. -/
def RefsHave (R : String → Option (Draft × Json)) (d : Draft) (s0 : String) (G : String → String) (M : Json) (defs : List (String × Json)) : Prop :=
  R s0 = some (d, M) ∧ ∀ s X, (s, X) ∈ defs → R (G s) = some (d, X)

theorem RefsHave.are {d s0 G M defs} (h : RefsHave R d s0 G M defs) : RefsAre R d s0 G M defs := by
  refine ⟨fun d' D' h' => ?_, fun s X hX d' D' h' => ?_⟩
  · rw [h.1] at h'; cases h'; exact ⟨rfl, rfl⟩
  · rw [h.2 s X hX] at h'; cases h'; exact ⟨rfl, rfl⟩

/-- The depth at which the meta-schema has been seen through for a document. -/
noncomputable def metaDepth (D : Json) : Nat := 8 * sizeOf D + 8

section
variable {s0 : String} {G : String → String}

theorem selfHas_of {d M c} (hR : R s0 = some (d, M)) (ih : ∀ D, sizeOf D < sizeOf (Json.obj c) → MetaValid env d D →
      ∀ n, metaDepth D ≤ n → docUnfold env R P n d M D) {x : Json} (hx : sizeOf x < sizeOf (Json.obj c)) :
    SelfHas env R P d (8 * sizeOf (Json.obj c) + 1) (sizeOf x) [("$ref", .str s0)] (MetaValid env d) := by
  intro k D hk hb hD
  obtain ⟨k, rfl⟩ := Nat.exists_eq_succ_of_ne_zero (show k ≠ 0 by omega)
  exact bw_ref hR (ih D (by omega) hD k (by unfold metaDepth; omega))

theorem meta4_complete (hf : FmtOK env.fmtF64)
    (hR : RefsHave R Draft4 s0 G (Meta.draft4At (Meta.ref s0) fun s => Meta.ref (G s)) (Meta.defs4 (Meta.ref s0) fun s => Meta.ref (G s))) :
    ∀ D, MetaValid env Draft4 D → ∀ n, metaDepth D ≤ n →
      docUnfold env R P n Draft4 (Meta.draft4At (Meta.ref s0) fun s => Meta.ref (G s)) D := by
  intro D
  induction hs : sizeOf D using Nat.strong_induction_on generalizing D with
  | _ s ih =>
  subst hs
  intro hD n hn
  rcases metaValid_kind hD with ⟨b, rfl⟩ | ⟨c, rfl⟩
  · cases hD with | bool _ h => exact absurd h (by decide)
  obtain ⟨h1, h2⟩ := metaValid_elim hD
  unfold metaDepth at hn
  obtain ⟨n, rfl⟩ := Nat.exists_eq_add_of_le' (show 2 ≤ n by omega)
  refine unfold_doc4.2 ⟨c, rfl, fun k X hX x hx => ?_, h2 rfl⟩
  have hS := selfHas_of (P := P) hR.1 (fun D h hD => ih _ h D rfl hD) (x := x) (sizeOf_member (kw_mem hx) le_rfl)
  have hF := defs_have (G := G) (size := "positiveInteger") (size0 := "positiveIntegerDefault0") hf hS
    (hR.2 _ _ (by simp [Meta.defs4])) (hR.2 _ _ (by simp [Meta.defs4])) (hR.2 _ _ (by simp [Meta.defs4]))
    (hR.2 _ _ (by simp [Meta.defs4])) ⟨_, hR.2 "stringArray" _ (by simp [Meta.defs4]; rfl), fun k x hk h => by
      obtain ⟨k, rfl⟩ := Nat.exists_eq_add_of_le' hk
      exact bw_strings4 hf rfl h⟩
  exact bw_props4 hf hS hF (fun _ e => nomatch e) hX le_rfl (by omega) (h1 k x hx)

theorem meta6_complete (hf : FmtOK env.fmtF64) (hz : env.ratOk ⟨false, 0, [], none⟩ = true)
    (hR : RefsHave R Draft6 s0 G (Meta.draft6At (Meta.ref s0) fun s => Meta.ref (G s)) (Meta.defs6 (Meta.ref s0) fun s => Meta.ref (G s))) :
    ∀ D, MetaValid env Draft6 D → ∀ n, metaDepth D ≤ n →
      docUnfold env R P n Draft6 (Meta.draft6At (Meta.ref s0) fun s => Meta.ref (G s)) D := by
  intro D
  induction hs : sizeOf D using Nat.strong_induction_on generalizing D with
  | _ s ih =>
  subst hs
  intro hD n hn
  unfold metaDepth at hn
  obtain ⟨n, rfl⟩ := Nat.exists_eq_add_of_le' (show 2 ≤ n by omega)
  refine (unfold_doc67 (.inl ⟨_, _, rfl, rfl⟩)).2 ?_
  rcases metaValid_kind hD with ⟨b, rfl⟩ | ⟨c, rfl⟩
  · exact .inl ⟨b, rfl⟩
  obtain ⟨h1, _⟩ := metaValid_elim hD
  refine .inr ⟨c, rfl, fun k X hX x hx => ?_⟩
  have hS := selfHas_of (P := P) hR.1 (fun D h hD => ih _ h D rfl hD) (x := x) (sizeOf_member (kw_mem hx) le_rfl)
  have hF := defs_have (G := G) (size := "nonNegativeInteger") (size0 := "nonNegativeIntegerDefault0") hf hS
    (hR.2 _ _ (by simp [Meta.defs6])) (hR.2 _ _ (by simp [Meta.defs6])) (hR.2 _ _ (by simp [Meta.defs6]))
    (hR.2 _ _ (by simp [Meta.defs6])) ⟨_, hR.2 "stringArray" _ (by simp [Meta.defs6]; rfl), fun k x hk h => by
      obtain ⟨k, rfl⟩ := Nat.exists_eq_add_of_le' hk
      exact bw_strings6 hf h⟩
  exact bw_props6 hf hz (fun b => .bool b (by decide)) hS hF (fun _ e => nomatch e) hX le_rfl (by omega) (h1 k x hx)

theorem meta7_complete (hf : FmtOK env.fmtF64) (hz : env.ratOk ⟨false, 0, [], none⟩ = true)
    (hR : RefsHave R Draft7 s0 G (Meta.draft7At (Meta.ref s0) fun s => Meta.ref (G s)) (Meta.defs6 (Meta.ref s0) fun s => Meta.ref (G s))) :
    ∀ D, MetaValid env Draft7 D → ∀ n, metaDepth D ≤ n →
      docUnfold env R P n Draft7 (Meta.draft7At (Meta.ref s0) fun s => Meta.ref (G s)) D := by
  intro D
  induction hs : sizeOf D using Nat.strong_induction_on generalizing D with
  | _ s ih =>
  subst hs
  intro hD n hn
  unfold metaDepth at hn
  obtain ⟨n, rfl⟩ := Nat.exists_eq_add_of_le' (show 2 ≤ n by omega)
  refine (unfold_doc67 (.inr ⟨_, _, rfl, rfl⟩)).2 ?_
  rcases metaValid_kind hD with ⟨b, rfl⟩ | ⟨c, rfl⟩
  · exact .inl ⟨b, rfl⟩
  obtain ⟨h1, _⟩ := metaValid_elim hD
  refine .inr ⟨c, rfl, fun k X hX x hx => ?_⟩
  have hS := selfHas_of (P := P) hR.1 (fun D h hD => ih _ h D rfl hD) (x := x) (sizeOf_member (kw_mem hx) le_rfl)
  have hF := defs_have (G := G) (size := "nonNegativeInteger") (size0 := "nonNegativeIntegerDefault0") hf hS
    (hR.2 _ _ (by simp [Meta.defs6])) (hR.2 _ _ (by simp [Meta.defs6])) (hR.2 _ _ (by simp [Meta.defs6]))
    (hR.2 _ _ (by simp [Meta.defs6])) ⟨_, hR.2 "stringArray" _ (by simp [Meta.defs6]; rfl), fun k x hk h => by
      obtain ⟨k, rfl⟩ := Nat.exists_eq_add_of_le' hk
      exact bw_strings6 hf h⟩
  exact bw_props7 hf hz (fun b => .bool b (by decide)) hS hF (fun _ e => nomatch e) hX le_rfl (by omega) (h1 k x hx)

end
end
end GJS

import Verif.LemMetaValid
/-
Helper lemmas: the meta-schemas say what `MetaValid` says.
-/
namespace GJS
open Spec

/-- The reference `t` stands for nothing but `X`, read under draft `d`. -/
def RefIs (R : String → Option (Draft × Json)) (d : Draft) (t : String) (X : Json) : Prop :=
  ∀ d' D', R t = some (d', D') → d' = d ∧ D' = X

/-- Nothing is known to hold. -/
abbrev Nothing : Draft → Json → Json → Prop := fun _ _ _ => False

section
variable {env : Env} {R : String → Option (Draft × Json)} {n : Nat} {d : Draft} {v : Json} {Q : Json → Prop}

theorem nothing_pos {X} (h : docUnfold env R Nothing n d X v) : ∃ k, n = k + 1 := by
  cases n with
  | zero => exact h.elim
  | succ k => exact ⟨k, rfl⟩

theorem fw_ref {t X} (hR : RefIs R d t X) (h : docUnfold env R Nothing n d (Meta.ref t) v) :
    ∃ k, k < n ∧ docUnfold env R Nothing k d X v := by
  obtain ⟨k, rfl⟩ := nothing_pos h
  obtain ⟨d', D', h1, h2⟩ := unfold_ref.1 h
  obtain ⟨rfl, rfl⟩ := hR _ _ h1
  exact ⟨k, by omega, h2⟩

theorem fw_typ {s} (h : docUnfold env R Nothing n d (Meta.typ s) v) : HasType env v s := by
  obtain ⟨k, rfl⟩ := nothing_pos h
  exact unfold_typ.1 h

theorem fw_typ_default {s x} (h : docUnfold env R Nothing n d (.obj [("type", .str s), ("default", x)]) v) : HasType env v s := by
  obtain ⟨k, rfl⟩ := nothing_pos h
  exact unfold_typ_default.1 h

theorem fw_format {s f} (hf : f ≠ "") (h : docUnfold env R Nothing n d (.obj [("type", .str s), ("format", .str f)]) v) :
    HasType env v s ∧ env.isFormat f v = true := by
  obtain ⟨k, rfl⟩ := nothing_pos h
  exact (unfold_format hf).1 h

theorem fw_multipleOf4
    (h : docUnfold env R Nothing n d (.obj [("type", .str "number"), ("minimum", Meta.num 0), ("exclusiveMinimum", .bool true)]) v) :
    ∃ q, v = .num q ∧ 0 < q.val := by
  obtain ⟨k, rfl⟩ := nothing_pos h
  exact unfold_multipleOf4.1 h

theorem fw_multipleOf6 (hz : env.ratOk ⟨false, 0, [], none⟩ = true)
    (h : docUnfold env R Nothing n d (.obj [("type", .str "number"), ("exclusiveMinimum", Meta.num 0)]) v) :
    ∃ q, v = .num q ∧ 0 < q.val := by
  obtain ⟨k, rfl⟩ := nothing_pos h
  exact (unfold_multipleOf6 hz).1 h

theorem fw_enum (h : docUnfold env R Nothing n d (.obj [("type", .str "array"), ("minItems", Meta.num 1), ("uniqueItems", .bool true)]) v) :
    ∃ xs, v = .arr xs ∧ xs ≠ [] ∧ Distinct env xs := by
  obtain ⟨k, rfl⟩ := nothing_pos h
  exact unfold_enum.1 h

theorem fw_enum7 {D} (hD : ∀ xs, D ≠ .arr xs)
    (h : docUnfold env R Nothing n d (.obj [("type", .str "array"), ("items", D), ("minItems", Meta.num 1), ("uniqueItems", .bool true)]) v) :
    ∃ xs, v = .arr xs ∧ xs ≠ [] ∧ Distinct env xs := by
  obtain ⟨k, rfl⟩ := nothing_pos h
  obtain ⟨xs, h1, h2, _, h3⟩ := (unfold_list hD).1 h
  exact ⟨xs, h1, h2, h3⟩

theorem fw_examples {D} (hD : ∀ xs, D ≠ .arr xs) (h : docUnfold env R Nothing n d (.obj [("type", .str "array"), ("items", D)]) v) :
    ∃ xs, v = .arr xs := by
  obtain ⟨k, rfl⟩ := nothing_pos h
  obtain ⟨xs, h1, _⟩ := (unfold_examples hD).1 h
  exact ⟨xs, h1⟩

/-- What is assumed of the reference to the meta-schema itself, up to depth `n`. -/
def SelfIs (env : Env) (R : String → Option (Draft × Json)) (d : Draft) (n : Nat) (A : List (String × Json)) (Q : Json → Prop) : Prop :=
  ∀ k x, k ≤ n → x.WF → docUnfold env R Nothing k d (.obj A) x → Q x

theorem fw_map {A x} (hS : SelfIs env R d n A Q) (hv : v.WF)
    (h : docUnfold env R Nothing n d (.obj [("type", .str "object"), ("additionalProperties", .obj A), ("default", x)]) v) :
    ∃ c, v = .obj c ∧ ∀ k D, (k, D) ∈ c → Q D := by
  obtain ⟨k, rfl⟩ := nothing_pos h
  obtain ⟨c, rfl, h1⟩ := unfold_map.1 h
  exact ⟨c, rfl, fun k' D hk => hS k D (by omega) (wf_obj hv _ hk) (h1 k' D hk)⟩

theorem fw_map7 {A x} (hd : Draft6 ≤ d) (hS : SelfIs env R d n A Q) (hv : v.WF)
    (h : docUnfold env R Nothing n d (.obj [("type", .str "object"), ("additionalProperties", .obj A),
      ("propertyNames", .obj [("format", .str "regex")]), ("default", x)]) v) :
    ∃ c, v = .obj c ∧ (∀ k D, (k, D) ∈ c → Q D) ∧ ∀ k ∈ keysOf c, env.isFormat "regex" (.str k) = true := by
  obtain ⟨k, rfl⟩ := nothing_pos h
  obtain ⟨c, rfl, h1, h2⟩ := (unfold_map7 hd).1 h
  refine ⟨c, rfl, fun k' D hk => hS k D (by omega) (wf_obj hv _ hk) (h1 k' D hk), fun k' hk => ?_⟩
  have h3 := h2 k' hk
  obtain ⟨j, rfl⟩ := nothing_pos h3
  exact (unfold_justFormat (by decide)).1 h3

theorem fw_rest {A x} (hS : SelfIs env R d n A Q) (hv : v.WF) (hQ : ∀ x, Q x → (∃ b, x = .bool b) ∨ ∃ c, x = .obj c)
    (h : docUnfold env R Nothing n d (.obj [("anyOf", .arr [Meta.typ "boolean", .obj A]), ("default", x)]) v) :
    (∃ b, v = .bool b) ∨ ((∃ c, v = .obj c) ∧ Q v) := by
  obtain ⟨k, rfl⟩ := nothing_pos h
  obtain ⟨D, hD, h⟩ := (unfold_anyOf (by simp)).1 h
  simp only [List.mem_cons, List.not_mem_nil, or_false] at hD
  rcases hD with rfl | rfl
  · exact .inl (hasType_boolean.1 (fw_typ h))
  · have := hS k v (by omega) hv h
    rcases hQ v this with hb | hc
    · exact .inl hb
    · exact .inr ⟨hc, this⟩

theorem fw_restSelf {A} (hS : SelfIs env R d n A Q) (hv : v.WF) (hQ : ∀ x, Q x → (∃ b, x = .bool b) ∨ ∃ c, x = .obj c)
    (h : docUnfold env R Nothing n d (.obj A) v) :
    (∃ b, v = .bool b) ∨ ((∃ c, v = .obj c) ∧ Q v) := by
  have := hS n v (Nat.le_refl n) hv h
  rcases hQ v this with hb | hc
  · exact .inl hb
  · exact .inr ⟨hc, this⟩

/-- The definitions, as far as they are used. -/
structure DefsAre (env : Env) (R : String → Option (Draft × Json)) (d : Draft) (n : Nat) (F : String → Json) (Q : Json → Prop)
    (size size0 : String) : Prop where
  schemaArray : ∀ k x, k ≤ n → x.WF → docUnfold env R Nothing k d (F "schemaArray") x → SchemaList Q x
  size : ∀ k x, k ≤ n → docUnfold env R Nothing k d (F size) x → ∃ q, x = .num q ∧ env.ratOk q = true ∧ ∃ z : Nat, q.val = z
  size0 : ∀ k x, k ≤ n → docUnfold env R Nothing k d (F size0) x → ∃ q, x = .num q ∧ env.ratOk q = true ∧ ∃ z : Nat, q.val = z
  simpleTypes : ∀ k x, k ≤ n → x.WF → docUnfold env R Nothing k d (F "simpleTypes") x → ∃ t, x = .str t ∧ KnownType t
  stringArray : ∀ k x, k ≤ n → docUnfold env R Nothing k d (F "stringArray") x → StringList d x

section
variable {F : String → Json} {size size0 : String} {A : List (String × Json)}

theorem fw_items {x} (hS : SelfIs env R d n A Q) (hF : DefsAre env R d n F Q size size0) (hv : v.WF)
    (h : docUnfold env R Nothing n d (.obj [("anyOf", .arr [.obj A, F "schemaArray"]), ("default", x)]) v) : Q v ∨ SchemaList Q v := by
  obtain ⟨k, rfl⟩ := nothing_pos h
  obtain ⟨D, hD, h⟩ := (unfold_anyOf (by simp)).1 h
  simp only [List.mem_cons, List.not_mem_nil, or_false] at hD
  rcases hD with rfl | rfl
  · exact .inl (hS k v (by omega) hv h)
  · exact .inr (hF.schemaArray k v (by omega) hv h)

theorem fw_dependencies (hS : SelfIs env R d n A Q) (hF : DefsAre env R d n F Q size size0) (hv : v.WF)
    (h : docUnfold env R Nothing n d (.obj [("type", .str "object"),
      ("additionalProperties", .obj [("anyOf", .arr [.obj A, F "stringArray"])])]) v) :
    ∃ c, v = .obj c ∧ ∀ k D, (k, D) ∈ c → Q D ∨ StringList d D := by
  obtain ⟨k, rfl⟩ := nothing_pos h
  obtain ⟨c, rfl, h1⟩ := unfold_map'.1 h
  refine ⟨c, rfl, fun k' D hk => ?_⟩
  replace h := h1 k' D hk
  obtain ⟨k, rfl⟩ := nothing_pos h
  obtain ⟨X, hX, h⟩ := (unfold_anyOf' (by simp)).1 h
  simp only [List.mem_cons, List.not_mem_nil, or_false] at hX
  rcases hX with rfl | rfl
  · exact .inl (hS k D (by omega) (wf_obj hv _ hk) h)
  · exact .inr (hF.stringArray k D (by omega) h)

theorem fw_type {d : Draft} (hf : FmtOK env.fmtF64) (hF : DefsAre env R d n F Q size size0) (hr : ∀ xs, F "simpleTypes" ≠ .arr xs) (hv : v.WF)
    (h : docUnfold env R Nothing n d (.obj [("anyOf", .arr [F "simpleTypes",
      .obj [("type", .str "array"), ("items", F "simpleTypes"), ("minItems", Meta.num 1), ("uniqueItems", .bool true)]])]) v) :
    (∃ t, v = .str t ∧ KnownType t) ∨
      ∃ ts : List String, v = .arr (ts.map .str) ∧ ts ≠ [] ∧ ts.Nodup ∧ ∀ t ∈ ts, KnownType t := by
  obtain ⟨k, rfl⟩ := nothing_pos h
  obtain ⟨D, hD, h⟩ := (unfold_anyOf' (by simp)).1 h
  simp only [List.mem_cons, List.not_mem_nil, or_false] at hD
  rcases hD with rfl | rfl
  · exact .inl (hF.simpleTypes k v (by omega) hv h)
  · obtain ⟨k, rfl⟩ := nothing_pos h
    obtain ⟨xs, rfl, hne, h1, h2⟩ := (unfold_list hr).1 h
    have h1 : ∀ x ∈ xs, ∃ t, x = .str t ∧ KnownType t := fun x hx =>
      hF.simpleTypes k x (by omega) (wf_arr hv _ hx) (h1 x hx)
    obtain ⟨ts, rfl⟩ := strings_map fun x hx => (h1 x hx).imp fun _ h => h.1
    refine .inr ⟨ts, rfl, by simpa using hne, (distinct_strings hf).1 h2, fun t ht => ?_⟩
    obtain ⟨t', e, ht'⟩ := h1 (.str t) (List.mem_map.2 ⟨t, ht, rfl⟩)
    cases e; exact ht'

end

/-- From the references to the definitions. -/
theorem defs_are {s0 : String} {G : String → String} {size size0 : String} (hf : FmtOK env.fmtF64)
    (hS : SelfIs env R d n [("$ref", .str s0)] Q)
    (h1 : RefIs R d (G "schemaArray") (.obj [("type", .str "array"), ("minItems", Meta.num 1), ("items", Meta.ref s0)]))
    (h2 : RefIs R d (G size) (.obj [("type", .str "integer"), ("minimum", Meta.num 0)]))
    (h3 : RefIs R d (G size0) (.obj [("allOf", .arr [Meta.ref (G size), .obj [("default", Meta.num 0)]])]))
    (h4 : RefIs R d (G "simpleTypes") (.obj [
      ("enum", .arr [.str "array", .str "boolean", .str "integer", .str "null", .str "number", .str "object", .str "string"])]))
    (h5 : ∃ X, RefIs R d (G "stringArray") X ∧ ∀ k x, k ≤ n → docUnfold env R Nothing k d X x → StringList d x) :
    DefsAre env R d n (fun s => Meta.ref (G s)) Q size size0 where
  schemaArray := by
    intro k x hk hx h
    obtain ⟨j, hj, h⟩ := fw_ref h1 h
    obtain ⟨j, rfl⟩ := nothing_pos h
    obtain ⟨xs, rfl, hne, h⟩ := (unfold_array (by intro xs e; cases e)).1 h
    exact ⟨xs, rfl, hne, fun D hD => hS j D (by omega) (wf_arr hx _ hD) (h D hD)⟩
  size := by
    intro k x _ h
    obtain ⟨j, hj, h⟩ := fw_ref h2 h
    obtain ⟨j, rfl⟩ := nothing_pos h
    exact unfold_size.1 h
  size0 := by
    intro k x _ h
    obtain ⟨j, hj, h⟩ := fw_ref h3 h
    obtain ⟨j, rfl⟩ := nothing_pos h
    have h := (unfold_allOf.1 h).1
    obtain ⟨j, hj, h⟩ := fw_ref h2 h
    obtain ⟨j, rfl⟩ := nothing_pos h
    exact unfold_size.1 h
  simpleTypes := by
    intro k x _ hx h
    obtain ⟨j, hj, h⟩ := fw_ref h4 h
    obtain ⟨j, rfl⟩ := nothing_pos h
    exact (unfold_simpleTypes hf hx).1 h
  stringArray := by
    intro k x hk h
    obtain ⟨X, hX, hs⟩ := h5
    obtain ⟨j, hj, h⟩ := fw_ref hX h
    exact hs j x (by omega) h

theorem fw_strings4 (hf : FmtOK env.fmtF64)
    (h : docUnfold env R Nothing n d (.obj [("type", .str "array"), ("items", Meta.typ "string"), ("minItems", Meta.num 1), ("uniqueItems", .bool true)]) v) :
    StringList d v := by
  obtain ⟨k, rfl⟩ := nothing_pos h
  obtain ⟨xs, rfl, hne, h1, h2⟩ := (unfold_list (by intro xs e; cases e)).1 h
  obtain ⟨ts, rfl⟩ := strings_map fun x hx => hasType_string.1 (fw_typ (h1 x hx))
  exact ⟨ts, rfl, (distinct_strings hf).1 h2, fun _ => by simpa using hne⟩

theorem fw_strings6 (hf : FmtOK env.fmtF64) (hd : d ≠ Draft4) {x}
    (h : docUnfold env R Nothing n d (.obj [("type", .str "array"), ("items", Meta.typ "string"), ("uniqueItems", .bool true), ("default", x)]) v) :
    StringList d v := by
  obtain ⟨k, rfl⟩ := nothing_pos h
  obtain ⟨xs, rfl, h1, h2⟩ := (unfold_list6 (by intro xs e; cases e)).1 h
  obtain ⟨ts, rfl⟩ := strings_map fun x hx => hasType_string.1 (fw_typ (h1 x hx))
  exact ⟨ts, rfl, (distinct_strings hf).1 h2, fun h => absurd h hd⟩

end

end GJS

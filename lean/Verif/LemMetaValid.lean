import Verif.LemMetaShape
/-
Helper lemmas: `MetaValid`, keyword by keyword.
-/
namespace GJS
open Spec

/-- A list of schemas. -/
def SchemaList (Q : Json → Prop) (x : Json) : Prop := ∃ Ds, x = .arr Ds ∧ Ds ≠ [] ∧ ∀ D ∈ Ds, Q D

/-- What `MetaValid` asks of the value of one keyword, if `Q` is what it asks of sub-schemas. -/
def KwMean (env : Env) (d : Draft) (Q : Json → Prop) : String → Json → Prop
  | "title" => fun x => ∃ t, x = .str t
  | "description" => fun x => ∃ t, x = .str t
  | "format" => fun x => ∃ t, x = .str t
  | "$schema" => fun x => (∃ t, x = .str t) ∧ (Draft6 ≤ d → env.isFormat "uri" x = true)
  | "pattern" => fun x => (∃ t, x = .str t) ∧ env.isFormat "regex" x = true
  | "id" => fun x => d = Draft4 → ∃ t, x = .str t
  | "$id" => fun x => Draft6 ≤ d → ∃ t, x = .str t ∧ env.isFormat "uri-reference" (.str t) = true
  | "$ref" => fun x => Draft6 ≤ d → ∃ t, x = .str t ∧ env.isFormat "uri-reference" (.str t) = true
  | "$comment" => fun x => Draft7 ≤ d → ∃ t, x = .str t
  | "contentMediaType" => fun x => Draft7 ≤ d → ∃ t, x = .str t
  | "contentEncoding" => fun x => Draft7 ≤ d → ∃ t, x = .str t
  | "minimum" => fun x => ∃ n, x = .num n
  | "maximum" => fun x => ∃ n, x = .num n
  | "multipleOf" => fun x => ∃ n, x = .num n ∧ 0 < n.val
  | "exclusiveMinimum" => fun x => (d = Draft4 → ∃ b, x = .bool b) ∧ (Draft6 ≤ d → ∃ n, x = .num n)
  | "exclusiveMaximum" => fun x => (d = Draft4 → ∃ b, x = .bool b) ∧ (Draft6 ≤ d → ∃ n, x = .num n)
  | "minLength" => fun x => ∃ n, x = .num n ∧ env.ratOk n = true ∧ ∃ z : Nat, n.val = z
  | "maxLength" => fun x => ∃ n, x = .num n ∧ env.ratOk n = true ∧ ∃ z : Nat, n.val = z
  | "minItems" => fun x => ∃ n, x = .num n ∧ env.ratOk n = true ∧ ∃ z : Nat, n.val = z
  | "maxItems" => fun x => ∃ n, x = .num n ∧ env.ratOk n = true ∧ ∃ z : Nat, n.val = z
  | "minProperties" => fun x => ∃ n, x = .num n ∧ env.ratOk n = true ∧ ∃ z : Nat, n.val = z
  | "maxProperties" => fun x => ∃ n, x = .num n ∧ env.ratOk n = true ∧ ∃ z : Nat, n.val = z
  | "uniqueItems" => fun x => ∃ b, x = .bool b
  | "readOnly" => fun x => Draft7 ≤ d → ∃ b, x = .bool b
  | "definitions" => fun x => ∃ c, x = .obj c ∧ ∀ k D, (k, D) ∈ c → Q D
  | "properties" => fun x => ∃ c, x = .obj c ∧ ∀ k D, (k, D) ∈ c → Q D
  | "patternProperties" => fun x => ∃ c, x = .obj c ∧ (∀ k D, (k, D) ∈ c → Q D) ∧
      (Draft7 ≤ d → ∀ k ∈ keysOf c, env.isFormat "regex" (.str k) = true)
  | "dependencies" => fun x => ∃ c, x = .obj c ∧ ∀ k D, (k, D) ∈ c → Q D ∨ StringList d D
  | "additionalItems" => fun x => (∃ b, x = .bool b) ∨ ((∃ c, x = .obj c) ∧ Q x)
  | "additionalProperties" => fun x => (∃ b, x = .bool b) ∨ ((∃ c, x = .obj c) ∧ Q x)
  | "allOf" => SchemaList Q
  | "anyOf" => SchemaList Q
  | "oneOf" => SchemaList Q
  | "items" => fun x => Q x ∨ SchemaList Q x
  | "not" => Q
  | "contains" => fun x => Draft6 ≤ d → Q x
  | "propertyNames" => fun x => Draft6 ≤ d → Q x
  | "if" => fun x => Draft7 ≤ d → Q x
  | "then" => fun x => Draft7 ≤ d → Q x
  | "else" => fun x => Draft7 ≤ d → Q x
  | "examples" => fun x => Draft6 ≤ d → ∃ xs, x = .arr xs
  | "required" => StringList d
  | "enum" => fun x => ∃ cs, x = .arr cs ∧ cs ≠ [] ∧ Distinct env cs
  | "type" => fun x => (∃ t, x = .str t ∧ KnownType t) ∨
    ∃ ts : List String, x = .arr (ts.map .str) ∧ ts ≠ [] ∧ ts.Nodup ∧ ∀ t ∈ ts, KnownType t
  | _ => fun _ => True

section
variable {env : Env} {d : Draft} {m : List (String × Json)}

theorem metaValid_arr {xs} : ¬ MetaValid env d (.arr xs) := by intro h; cases h
theorem stringList_arr {x} (h : StringList d x) : ∃ xs, x = .arr xs := by
  obtain ⟨ts, rfl, _⟩ := h; exact ⟨_, rfl⟩

/-- `MetaValid` of an object, keyword by keyword. -/
theorem metaValid_intro (h : ∀ k x, Kw m k x → KwMean env d (MetaValid env d) k x)
    (h4 : d = Draft4 → ∀ e ∈ [("exclusiveMinimum", "minimum"), ("exclusiveMaximum", "maximum")], ∀ v, Kw m e.1 v → e.2 ∈ keysOf m) :
    MetaValid env d (.obj m) := by
  refine .obj m ?_ ?_ ?_
  · constructor
    · intro k hk v hv
      have := h k v hv
      simp only [List.mem_cons, List.not_mem_nil, or_false] at hk
      rcases hk with rfl | rfl | rfl | rfl | rfl
      · exact this.1
      · exact this
      · exact this
      · exact this.1
      · exact this
    · exact fun hd v hv => h "id" v hv hd
    · intro hd k hk v hv
      have := h k v hv
      simp only [List.mem_cons, List.not_mem_nil, or_false] at hk
      rcases hk with rfl | rfl <;> exact this hd
    · exact fun hd v hv => (h "$schema" v hv).2 hd
    · intro hd k hk v hv
      have := h k v hv
      simp only [List.mem_cons, List.not_mem_nil, or_false] at hk
      rcases hk with rfl | rfl | rfl <;> exact this hd
    · exact fun v hv => (h "pattern" v hv).2
    · intro hd ps hv
      obtain ⟨c, e, _, h2⟩ := h "patternProperties" _ hv
      cases e
      exact h2 hd
    · intro k hk v hv
      have := h k v hv
      simp only [List.mem_cons, List.not_mem_nil, or_false] at hk
      rcases hk with rfl | rfl <;> exact this
    · exact fun v hv => h "multipleOf" v hv
    · intro hd e he v hv
      refine ⟨?_, h4 hd e he v hv⟩
      have := h e.1 v hv
      simp only [List.mem_cons, List.not_mem_nil, or_false] at he
      rcases he with rfl | rfl <;> exact this.1 hd
    · intro hd k hk v hv
      have := h k v hv
      simp only [List.mem_cons, List.not_mem_nil, or_false] at hk
      rcases hk with rfl | rfl <;> exact this.2 hd
    · intro k hk v hv
      have := h k v hv
      simp only [List.mem_cons, List.not_mem_nil, or_false] at hk
      rcases hk with rfl | rfl | rfl | rfl | rfl | rfl <;> exact this
    · exact fun v hv => h "uniqueItems" v hv
    · exact fun hd v hv => h "readOnly" v hv hd
    · intro k hk v hv
      have := h k v hv
      simp only [List.mem_cons, List.not_mem_nil, or_false] at hk
      rcases hk with rfl | rfl | rfl | rfl <;> (obtain ⟨c, hc, _⟩ := this; exact ⟨c, hc⟩)
    · intro k hk v hv
      have := h k v hv
      simp only [List.mem_cons, List.not_mem_nil, or_false] at hk
      rcases hk with rfl | rfl <;> (rcases this with hb | hb; exacts [.inl hb, .inr hb.1])
    · intro k hk v hv
      have := h k v hv
      simp only [List.mem_cons, List.not_mem_nil, or_false] at hk
      rcases hk with rfl | rfl | rfl <;> (obtain ⟨c, hc, hne, _⟩ := this; exact ⟨c, hc, hne⟩)
    · intro Ds hv
      rcases h "items" _ hv with hq | ⟨c, e, hne, _⟩
      · exact absurd hq metaValid_arr
      · cases e; exact hne
    · exact fun hd v hv => h "examples" v hv hd
    · exact fun v hv => h "required" v hv
    · intro ds hv k xs hk
      obtain ⟨c, e, h2⟩ := h "dependencies" _ hv
      cases e
      exact (h2 _ _ hk).resolve_left metaValid_arr
    · exact fun v hv => h "enum" v hv
    · exact fun v hv => h "type" v hv
  · intro ds k D hv hk
    obtain ⟨c, e, h2⟩ := h "definitions" _ hv
    cases e
    exact h2 _ _ hk
  · intro D hD
    cases hD with
    | property ps k D hv hk =>
      obtain ⟨c, e, h2⟩ := h "properties" _ hv
      cases e
      exact h2 _ _ hk
    | pattern ps k D hv hk =>
      obtain ⟨c, e, h2, _⟩ := h "patternProperties" _ hv
      cases e
      exact h2 _ _ hk
    | additional A hv =>
      rcases h "additionalProperties" _ hv with ⟨b, e⟩ | h2
      · cases e
      · exact h2.2
    | name D hd hv => exact h "propertyNames" _ hv hd
    | dependency ps k D hv hk hne =>
      obtain ⟨c, e, h2⟩ := h "dependencies" _ hv
      cases e
      rcases h2 _ _ hk with h2 | h2
      · exact h2
      · obtain ⟨xs, rfl⟩ := stringList_arr h2
        exact absurd rfl (hne xs)
    | items D hv hne =>
      rcases h "items" _ hv with hq | ⟨c, e, _⟩
      · exact hq
      · exact absurd e (hne c)
    | item Ds D hv hk =>
      rcases h "items" _ hv with hq | ⟨c, e, _, h2⟩
      · exact absurd hq metaValid_arr
      · cases e; exact h2 _ hk
    | additionalItems A hv =>
      rcases h "additionalItems" _ hv with ⟨b, e⟩ | h2
      · cases e
      · exact h2.2
    | contains D hd hv => exact h "contains" _ hv hd
    | oneOf Ds D hv hk =>
      obtain ⟨c, e, _, h2⟩ := h "oneOf" _ hv
      cases e; exact h2 _ hk
    | anyOf Ds D hv hk =>
      obtain ⟨c, e, _, h2⟩ := h "anyOf" _ hv
      cases e; exact h2 _ hk
    | allOf Ds D hv hk =>
      obtain ⟨c, e, _, h2⟩ := h "allOf" _ hv
      cases e; exact h2 _ hk
    | not D hv => exact h "not" _ hv
    | if_ D hd hv => exact h "if" _ hv hd
    | then_ D hd hv => exact h "then" _ hv hd
    | else_ D hd hv => exact h "else" _ hv hd

theorem schemaList_of {k} (hm : MetaShape env d m) (hk : k ∈ ["allOf", "anyOf", "oneOf"]) {x} (hx : Kw m k x)
    {Q : Json → Prop} (hQ : ∀ Ds D, Kw m k (.arr Ds) → D ∈ Ds → Q D) : SchemaList Q x := by
  obtain ⟨Ds, rfl, hne⟩ := hm.lists k hk x hx
  exact ⟨Ds, rfl, hne, fun D hD => hQ Ds D hx hD⟩

theorem rest_of {k} (hm : MetaShape env d m) (hk : k ∈ ["additionalItems", "additionalProperties"]) {x} (hx : Kw m k x)
    {Q : Json → Prop} (hQ : ∀ A, Kw m k (.obj A) → Q (.obj A)) : (∃ b, x = .bool b) ∨ ((∃ c, x = .obj c) ∧ Q x) := by
  rcases hm.rest k hk x hx with h | ⟨c, rfl⟩
  · exact .inl h
  · exact .inr ⟨⟨c, rfl⟩, hQ c hx⟩

theorem metaValid_elim (h : MetaValid env d (.obj m)) :
    (∀ k x, Kw m k x → KwMean env d (MetaValid env d) k x) ∧
    (d = Draft4 → ∀ e ∈ [("exclusiveMinimum", "minimum"), ("exclusiveMaximum", "maximum")], ∀ v, Kw m e.1 v → e.2 ∈ keysOf m) := by
  cases h with
  | obj _ hm hd hs =>
  refine ⟨?_, fun h4 e he v hv => (hm.exclusive4 h4 e he v hv).2⟩
  intro k x hx
  have maps : ∀ k ∈ ["definitions", "properties", "patternProperties", "dependencies"], Kw m k x → ∃ c, x = .obj c :=
    fun k hk hx => hm.maps k hk x hx
  have items : Kw m "items" x → MetaValid env d x ∨ SchemaList (MetaValid env d) x := by
    intro hx
    by_cases ha : ∃ Ds, x = .arr Ds
    · obtain ⟨Ds, rfl⟩ := ha
      exact .inr ⟨Ds, rfl, hm.items Ds hx, fun D hD => hs D (.item Ds D hx hD)⟩
    · exact .inl (hs x (.items x hx fun Ds e => ha ⟨Ds, e⟩))
  unfold KwMean
  split
  · exact hm.texts _ (by decide) x hx
  · exact hm.texts _ (by decide) x hx
  · exact hm.texts _ (by decide) x hx
  · exact ⟨hm.texts _ (by decide) x hx, fun h => hm.schema6 h x hx⟩
  · exact ⟨hm.texts _ (by decide) x hx, hm.pattern x hx⟩
  · exact fun h => hm.id4 h x hx
  · exact fun h => hm.uris6 h _ (by decide) x hx
  · exact fun h => hm.uris6 h _ (by decide) x hx
  · exact fun h => hm.texts7 h _ (by decide) x hx
  · exact fun h => hm.texts7 h _ (by decide) x hx
  · exact fun h => hm.texts7 h _ (by decide) x hx
  · exact hm.numbers _ (by decide) x hx
  · exact hm.numbers _ (by decide) x hx
  · exact hm.multipleOf x hx
  · exact ⟨fun h => (hm.exclusive4 h ("exclusiveMinimum", "minimum") (by decide) x hx).1, fun h => hm.exclusive6 h _ (by decide) x hx⟩
  · exact ⟨fun h => (hm.exclusive4 h ("exclusiveMaximum", "maximum") (by decide) x hx).1, fun h => hm.exclusive6 h _ (by decide) x hx⟩
  · exact hm.sizes _ (by decide) x hx
  · exact hm.sizes _ (by decide) x hx
  · exact hm.sizes _ (by decide) x hx
  · exact hm.sizes _ (by decide) x hx
  · exact hm.sizes _ (by decide) x hx
  · exact hm.sizes _ (by decide) x hx
  · exact hm.uniqueItems x hx
  · exact fun h => hm.readOnly7 h x hx
  · obtain ⟨c, rfl⟩ := maps _ (by decide) hx
    exact ⟨c, rfl, fun k D hk => hd c k D hx hk⟩
  · obtain ⟨c, rfl⟩ := maps _ (by decide) hx
    exact ⟨c, rfl, fun k D hk => hs D (.property c k D hx hk)⟩
  · obtain ⟨c, rfl⟩ := maps _ (by decide) hx
    exact ⟨c, rfl, fun k D hk => hs D (.pattern c k D hx hk), fun h => hm.patterns7 h c hx⟩
  · obtain ⟨c, rfl⟩ := maps _ (by decide) hx
    refine ⟨c, rfl, fun k D hk => ?_⟩
    by_cases ha : ∃ xs, D = .arr xs
    · obtain ⟨xs, rfl⟩ := ha
      exact .inr (hm.dependencies c hx k xs hk)
    · exact .inl (hs D (.dependency c k D hx hk fun xs e => ha ⟨xs, e⟩))
  · exact rest_of hm (by decide) hx fun A hA => hs _ (.additionalItems A hA)
  · exact rest_of hm (by decide) hx fun A hA => hs _ (.additional A hA)
  · exact schemaList_of hm (by decide) hx fun Ds D h1 h2 => hs D (.allOf Ds D h1 h2)
  · exact schemaList_of hm (by decide) hx fun Ds D h1 h2 => hs D (.anyOf Ds D h1 h2)
  · exact schemaList_of hm (by decide) hx fun Ds D h1 h2 => hs D (.oneOf Ds D h1 h2)
  · exact items hx
  · exact hs x (.not x hx)
  · exact fun h => hs x (.contains x h hx)
  · exact fun h => hs x (.name x h hx)
  · exact fun h => hs x (.if_ x h hx)
  · exact fun h => hs x (.then_ x h hx)
  · exact fun h => hs x (.else_ x h hx)
  · exact fun h => hm.examples6 h x hx
  · exact hm.required x hx
  · exact hm.enum x hx
  · exact hm.type x hx
  · trivial

end

end GJS

import Verif.SpecGap
import Verif.LemNumber
import Verif.LemAccept
/-
Helper lemmas: shapes asked by the meta-schema and by the compiler.
-/
namespace GJS
open Spec

/-- The drafts with a meta-schema. -/
def Spec.Numbered (d : Draft) : Prop := d = Draft4 ∨ d = Draft6 ∨ d = Draft7

section
variable {w : World} {d : Draft} {m : List (String × Json)}

theorem Spec.Numbered.notHybrid (h : Numbered d) : d ≠ Hybrid := by
  rcases h with rfl | rfl | rfl <;> decide

theorem Spec.Numbered.later (h : Numbered d) (h4 : d ≠ Draft4) : Draft6 ≤ d := by
  rcases h with rfl | rfl | rfl
  · exact absurd rfl h4
  · decide
  · decide

theorem Spec.Numbered.idKey (h : Numbered d) : idKey d m = if d = Draft4 then "id" else "$id" := by
  rcases h with rfl | rfl | rfl <;> rfl

theorem isSome_keys {k : String} : (getKey k m).isSome ↔ k ∈ keysOf m := by
  unfold keysOf getKey
  induction m with
  | nil => simp [List.lookup]
  | cons x m ih =>
    obtain ⟨a, b⟩ := x
    rw [List.lookup_cons]
    by_cases h : k = a
    · subst h; simp
    · simp [beq_false_of_ne h, ih, h]

theorem str_inj : Function.Injective Json.str := fun _ _ h => Json.str.inj h

theorem nodup_strs {ts : List String} : (ts.map Json.str).Nodup ↔ ts.Nodup := by
  constructor
  · exact fun h => List.Pairwise.imp (fun h e => h (congrArg _ e)) (List.pairwise_map.1 h)
  · exact fun h => List.pairwise_map.2 (List.Pairwise.imp (fun h e => h (Json.str.inj e)) h)

theorem size_nat {n : NumLit} (h : SizeLit n) : ∃ z : Nat, n.val = z := by
  obtain ⟨z, h1, h2⟩ := sizeLit_iff.1 h
  refine ⟨z.toNat, ?_⟩
  rw [int64_val h1]
  have : ((z.toNat : Int) : Rat) = (z : Rat) := by rw [Int.toNat_of_nonneg h2]
  exact_mod_cast this.symm

/-- Shape and what is left give the shape the compiler asks. -/
theorem shape_of (hm : ∀ kv ∈ m, kv.2.WF) (hd : Numbered d)
    (hre : ∀ t, w.env.isFormat "regex" (.str t) = true → w.env.reOk t = true)
    (h : MetaShape w.env d m) (hL : Leftover w d m) : Shape w d m := by
  have text : ∀ k, k ∈ ["$schema", "title", "description", "pattern", "format"] → ∀ v, Kw m k v → ∃ t, v = .str t :=
    fun k hk v hv => h.texts k hk v hv
  have num : ∀ k, k ∈ ["minimum", "maximum"] → ∀ v, Kw m k v → NumValue w.env v := by
    intro k hk v hv
    obtain ⟨n, rfl⟩ := h.numbers k hk v hv
    exact ⟨n, rfl, hL.numbers k (List.mem_cons_of_mem _ hk) n hv⟩
  have size : ∀ k, k ∈ sizeKeywords → ∀ v, Kw m k v → SizeValue w.env v := by
    intro k hk v hv
    obtain ⟨n, rfl, h1, _⟩ := h.sizes k hk v hv
    exact ⟨n, rfl, h1, hL.sizes k hk n hv⟩
  have excl : ∀ x k, (x, k) ∈ [("exclusiveMinimum", "minimum"), ("exclusiveMaximum", "maximum")] → ∀ v, Kw m x v →
      ExclusiveValue w.env d m k v := by
    intro x k hx v hv
    unfold ExclusiveValue
    by_cases h4 : d = Draft4
    · rw [if_pos h4]
      obtain ⟨h1, h2⟩ := h.exclusive4 h4 _ hx v hv
      exact ⟨h1, isSome_keys.2 h2⟩
    · rw [if_neg h4, if_neg hd.notHybrid]
      refine h.exclusive6 (hd.later h4) x ?_ v hv
      simp only [List.mem_cons, Prod.mk.injEq, List.not_mem_nil, or_false] at hx
      rcases hx with ⟨rfl, _⟩ | ⟨rfl, _⟩ <;> simp
  exact {
    id := by
      intro v hv
      have hk := hd.idKey (m := m)
      have : ∃ t, v = .str t := by
        rw [hk] at hv
        by_cases h4 : d = Draft4
        · rw [if_pos h4] at hv; exact h.id4 h4 v hv
        · rw [if_neg h4] at hv
          obtain ⟨t, h1, _⟩ := h.uris6 (hd.later h4) "$id" (by simp) v hv
          exact ⟨t, h1⟩
      obtain ⟨t, rfl⟩ := this
      exact ⟨t, rfl, hL.id t hv⟩
    title := text _ (by simp)
    description := text _ (by simp)
    definitions := h.maps _ (by simp)
    type := by
      intro v hv
      rcases h.type v hv with h1 | ⟨ts, h1, _, h2⟩
      · exact .inl h1
      · exact .inr ⟨ts, h1, h2⟩
    properties := h.maps _ (by simp)
    additionalProperties := h.rest _ (by simp)
    patternProperties := by
      intro v hv
      obtain ⟨c, rfl⟩ := h.maps _ (by simp) v hv
      refine ⟨c, rfl, fun k hk => ?_⟩
      by_cases h7 : d < Draft7
      · exact hL.patterns h7 c hv k hk
      · exact hre k (h.patterns7 (Int.not_lt.1 h7) c hv k hk)
    dependencies := by
      intro v hv
      obtain ⟨c, rfl⟩ := h.maps _ (by simp) v hv
      refine ⟨c, rfl, fun k xs hk x hx => ?_⟩
      obtain ⟨ts, h1, _⟩ := h.dependencies c hv k xs hk
      cases h1
      obtain ⟨t, _, ht⟩ := List.mem_map.1 hx
      exact ⟨t, ht.symm⟩
    additionalItems := h.rest _ (by simp)
    multipleOf := by
      intro v hv
      obtain ⟨n, rfl, h1⟩ := h.multipleOf v hv
      exact ⟨n, rfl, hL.numbers _ (by simp) n hv, h1⟩
    minimum := num _ (by simp)
    exclusiveMinimum := excl _ _ (by simp)
    maximum := num _ (by simp)
    exclusiveMaximum := excl _ _ (by simp)
    minLength := size _ (by simp [sizeKeywords])
    maxLength := size _ (by simp [sizeKeywords])
    lengths := hL.lengths
    pattern := by
      intro v hv
      obtain ⟨t, rfl⟩ := text "pattern" (by simp) v hv
      exact ⟨t, rfl, hre t (h.pattern _ hv)⟩
    format := text _ (by simp)
    minProperties := size _ (by simp [sizeKeywords])
    maxProperties := size _ (by simp [sizeKeywords])
    propertyCounts := hL.propertyCounts
    required := by
      intro v hv
      obtain ⟨ts, h1, h2, _⟩ := h.required v hv
      exact ⟨ts, h1, h2⟩
    minItems := size _ (by simp [sizeKeywords])
    maxItems := size _ (by simp [sizeKeywords])
    uniqueItems := h.uniqueItems
    const := hL.const
    enum := by
      intro v hv
      obtain ⟨cs, rfl, _, h1⟩ := h.enum v hv
      refine ⟨cs, rfl, hL.enum cs hv, fun i j a b hij hi hj hs => h1 i j a b hij hi hj ?_⟩
      have hw : ∀ c ∈ cs, c.WF := by
        have := hm _ (lookup_some_mem hv)
        intro c hc
        cases this with
        | arr _ h => exact h c hc
      exact marshal_same (hw a (List.mem_of_getElem? hi)) (hw b (List.mem_of_getElem? hj)) hs
    oneOf := fun v hv => by obtain ⟨Ds, h1, _⟩ := h.lists _ (by simp) v hv; exact ⟨Ds, h1⟩
    anyOf := fun v hv => by obtain ⟨Ds, h1, _⟩ := h.lists _ (by simp) v hv; exact ⟨Ds, h1⟩
    allOf := fun v hv => by obtain ⟨Ds, h1, _⟩ := h.lists _ (by simp) v hv; exact ⟨Ds, h1⟩ }

theorem leftover_of (h : Shape w d m) : Leftover w d m where
  id := fun t ht => by obtain ⟨t', h1, h2⟩ := h.id _ ht; cases h1; exact h2
  patterns := fun _ c hc k hk => by obtain ⟨c', h1, h2⟩ := h.patternProperties _ hc; cases h1; exact h2 k hk
  numbers := by
    intro k hk n hn
    simp only [List.mem_cons, List.not_mem_nil, or_false] at hk
    rcases hk with rfl | rfl | rfl
    · obtain ⟨n', h1, h2, _⟩ := h.multipleOf _ hn; cases h1; exact h2
    · obtain ⟨n', h1, h2⟩ := h.minimum _ hn; cases h1; exact h2
    · obtain ⟨n', h1, h2⟩ := h.maximum _ hn; cases h1; exact h2
  sizes := by
    intro k hk n hn
    have key : SizeValue w.env (.num n) := by
      simp only [sizeKeywords, List.mem_cons, List.not_mem_nil, or_false] at hk
      rcases hk with rfl | rfl | rfl | rfl | rfl | rfl
      · exact h.minLength _ hn
      · exact h.maxLength _ hn
      · exact h.minItems _ hn
      · exact h.maxItems _ hn
      · exact h.minProperties _ hn
      · exact h.maxProperties _ hn
    obtain ⟨n', h1, _, h2⟩ := key
    cases h1; exact h2
  lengths := h.lengths
  propertyCounts := h.propertyCounts
  const := h.const
  enum := fun cs hc => by obtain ⟨cs', h1, h2, _⟩ := h.enum _ hc; cases h1; exact h2

theorem stricter_of (h : MetaShape w.env d m) : Stricter w.env d m where
  schema := h.texts _ (by simp)
  uris6 := fun h6 t ht => by obtain ⟨t', h1, h2⟩ := h.uris6 h6 "$id" (by simp) _ ht; cases h1; exact h2
  ref6 := fun h6 v hv => h.uris6 h6 "$ref" (by simp) v hv
  schema6 := h.schema6
  pattern := h.pattern
  patterns7 := h.patterns7
  texts7 := h.texts7
  readOnly7 := h.readOnly7
  examples6 := h.examples6
  nonempty := by
    intro k hk hv
    simp only [List.mem_cons, List.not_mem_nil, or_false] at hk
    rcases hk with rfl | rfl | rfl | rfl | rfl | rfl
    · obtain ⟨Ds, h1, h2⟩ := h.lists "allOf" (by simp) _ hv; cases h1; exact h2 rfl
    · obtain ⟨Ds, h1, h2⟩ := h.lists "anyOf" (by simp) _ hv; cases h1; exact h2 rfl
    · obtain ⟨Ds, h1, h2⟩ := h.lists "oneOf" (by simp) _ hv; cases h1; exact h2 rfl
    · exact h.items _ hv rfl
    · obtain ⟨cs, h1, h2, _⟩ := h.enum _ hv; cases h1; exact h2 rfl
    · rcases h.type _ hv with ⟨t, h1, _⟩ | ⟨ts, h1, h2, _⟩
      · cases h1
      · injection h1 with h1; exact h2 (List.map_eq_nil_iff.1 h1.symm)
  required4 := fun h4 hv => by
    obtain ⟨ts, h1, _, h2⟩ := h.required _ hv
    injection h1 with h1
    exact h2 h4 (List.map_eq_nil_iff.1 h1.symm)
  dependencies := fun ds hds k xs hk => by
    obtain ⟨ts, h1, h2, h3⟩ := h.dependencies ds hds k xs hk
    cases h1
    exact ⟨nodup_strs.2 h2, fun h4 => by simpa using h3 h4⟩

/-- The shape the compiler asks and what the meta-schema asks beyond it give the shape of the
meta-schema. -/
theorem metaShape_of (hf : FmtOK w.env.fmtF64) (hm : ∀ kv ∈ m, kv.2.WF) (hd : Numbered d)
    (h : Shape w d m) (hS : Stricter w.env d m) : MetaShape w.env d m where
  texts := by
    intro k hk v hv
    simp only [List.mem_cons, List.not_mem_nil, or_false] at hk
    rcases hk with rfl | rfl | rfl | rfl | rfl
    · exact hS.schema v hv
    · exact h.title v hv
    · exact h.description v hv
    · obtain ⟨t, h1, _⟩ := h.pattern v hv; exact ⟨t, h1⟩
    · exact h.format v hv
  id4 := fun h4 v hv => by
    have : Kw m (idKey d m) v := by rw [hd.idKey, if_pos h4]; exact hv
    obtain ⟨t, h1, _⟩ := h.id v this; exact ⟨t, h1⟩
  uris6 := by
    intro h6 k hk v hv
    have h4 : d ≠ Draft4 := by rintro rfl; exact absurd h6 (by decide)
    simp only [List.mem_cons, List.not_mem_nil, or_false] at hk
    rcases hk with rfl | rfl
    · have : Kw m (idKey d m) v := by rw [hd.idKey, if_neg h4]; exact hv
      obtain ⟨t, rfl, _⟩ := h.id v this
      exact ⟨t, rfl, hS.uris6 h6 t hv⟩
    · exact hS.ref6 h6 v hv
  schema6 := hS.schema6
  texts7 := hS.texts7
  pattern := hS.pattern
  patterns7 := hS.patterns7
  numbers := by
    intro k hk v hv
    simp only [List.mem_cons, List.not_mem_nil, or_false] at hk
    rcases hk with rfl | rfl
    · obtain ⟨n, h1, _⟩ := h.minimum v hv; exact ⟨n, h1⟩
    · obtain ⟨n, h1, _⟩ := h.maximum v hv; exact ⟨n, h1⟩
  multipleOf := fun v hv => by obtain ⟨n, h1, _, h2⟩ := h.multipleOf v hv; exact ⟨n, h1, h2⟩
  exclusive4 := by
    intro h4 e he v hv
    simp only [List.mem_cons, List.not_mem_nil, or_false] at he
    rcases he with rfl | rfl
    · have := h.exclusiveMinimum v hv
      unfold ExclusiveValue at this
      rw [if_pos h4] at this
      exact ⟨this.1, isSome_keys.1 this.2⟩
    · have := h.exclusiveMaximum v hv
      unfold ExclusiveValue at this
      rw [if_pos h4] at this
      exact ⟨this.1, isSome_keys.1 this.2⟩
  exclusive6 := by
    intro h6 k hk v hv
    have h4 : d ≠ Draft4 := by rintro rfl; exact absurd h6 (by decide)
    simp only [List.mem_cons, List.not_mem_nil, or_false] at hk
    rcases hk with rfl | rfl
    · have := h.exclusiveMinimum v hv
      unfold ExclusiveValue at this
      rwa [if_neg h4, if_neg hd.notHybrid] at this
    · have := h.exclusiveMaximum v hv
      unfold ExclusiveValue at this
      rwa [if_neg h4, if_neg hd.notHybrid] at this
  sizes := by
    intro k hk v hv
    have key : SizeValue w.env v := by
      simp only [List.mem_cons, List.not_mem_nil, or_false] at hk
      rcases hk with rfl | rfl | rfl | rfl | rfl | rfl
      · exact h.minLength _ hv
      · exact h.maxLength _ hv
      · exact h.minItems _ hv
      · exact h.maxItems _ hv
      · exact h.minProperties _ hv
      · exact h.maxProperties _ hv
    obtain ⟨n, h1, h2, h3⟩ := key
    exact ⟨n, h1, h2, size_nat h3⟩
  uniqueItems := h.uniqueItems
  readOnly7 := hS.readOnly7
  maps := by
    intro k hk v hv
    simp only [List.mem_cons, List.not_mem_nil, or_false] at hk
    rcases hk with rfl | rfl | rfl | rfl
    · exact h.definitions v hv
    · exact h.properties v hv
    · obtain ⟨c, h1, _⟩ := h.patternProperties v hv; exact ⟨c, h1⟩
    · obtain ⟨c, h1, _⟩ := h.dependencies v hv; exact ⟨c, h1⟩
  rest := by
    intro k hk v hv
    simp only [List.mem_cons, List.not_mem_nil, or_false] at hk
    rcases hk with rfl | rfl
    · exact h.additionalItems v hv
    · exact h.additionalProperties v hv
  lists := by
    intro k hk v hv
    have key : ∃ Ds, v = .arr Ds := by
      simp only [List.mem_cons, List.not_mem_nil, or_false] at hk
      rcases hk with rfl | rfl | rfl
      · exact h.allOf v hv
      · exact h.anyOf v hv
      · exact h.oneOf v hv
    obtain ⟨Ds, rfl⟩ := key
    refine ⟨Ds, rfl, ?_⟩
    rintro rfl
    exact hS.nonempty k (by clear hv; revert k; decide) hv
  items := fun Ds hv e => hS.nonempty "items" (by decide) (e ▸ hv)
  examples6 := hS.examples6
  required := fun v hv => by
    obtain ⟨ts, rfl, h2⟩ := h.required v hv
    exact ⟨ts, rfl, h2, fun h4 e => hS.required4 h4 (by subst e; exact hv)⟩
  dependencies := fun ds hds k xs hk => by
    obtain ⟨c, h1, h2⟩ := h.dependencies _ hds
    cases h1
    have : ∃ ts : List String, xs = ts.map .str := by
      have := h2 k xs hk
      clear hk
      induction xs with
      | nil => exact ⟨[], rfl⟩
      | cons x xs ih =>
        obtain ⟨ts, rfl⟩ := ih fun x hx => this x (List.mem_cons_of_mem _ hx)
        obtain ⟨t, rfl⟩ := this x (List.mem_cons_self ..)
        exact ⟨t :: ts, rfl⟩
    obtain ⟨ts, rfl⟩ := this
    obtain ⟨h3, h4⟩ := hS.dependencies ds hds k _ hk
    exact ⟨ts, rfl, nodup_strs.1 h3, fun e => by simpa using h4 e⟩
  enum := fun v hv => by
    obtain ⟨cs, rfl, h1, h2⟩ := h.enum v hv
    refine ⟨cs, rfl, fun e => hS.nonempty "enum" (by decide) (e ▸ hv), fun i j a b hij hi hj hs => h2 i j a b hij hi hj ?_⟩
    have hw : ∀ c ∈ cs, c.WF := by
      have := hm _ (lookup_some_mem hv)
      intro c hc
      cases this with
      | arr _ h => exact h c hc
    have ha := (marshal_isSome (env := w.env)).2 (h1 a (List.mem_of_getElem? hi))
    obtain ⟨s, hsa⟩ := Option.isSome_iff_exists.1 (ha : (w.env.marshal a).isSome = true)
    exact (marshal_eq_iff hf (hw a (List.mem_of_getElem? hi)) (hw b (List.mem_of_getElem? hj)) hsa (hs.symm.trans hsa)).1 rfl
  type := fun v hv => by
    rcases h.type v hv with h1 | ⟨ts, rfl, h1⟩
    · exact .inl h1
    · exact .inr ⟨ts, rfl, fun e => hS.nonempty "type" (by decide) (by subst e; exact hv), h1⟩

end
end GJS

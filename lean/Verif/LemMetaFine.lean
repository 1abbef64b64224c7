import Verif.LemMetaUse
import Verif.LemGap
/-
Helper lemmas: the compiler finds no fault in the built-in meta-schemas.
-/
namespace GJS
open Spec

namespace Fine

def isStr : Json → Bool
  | .str _ => true
  | _ => false

def isBool : Json → Bool
  | .bool _ => true
  | _ => false

/-- 0 or 1. -/
def small : Json → Bool
  | .num n => decide (n = ⟨false, 0, [], none⟩) || decide (n = ⟨false, 1, [], none⟩)
  | _ => false

def types : List String := ["array", "boolean", "integer", "number", "null", "object", "string"]

/-- Different strings, out of a list if one is given. -/
def strs : List Json → Option (List String)
  | [] => some []
  | .str t :: xs => (strs xs).bind fun ts => if t ∈ ts then none else some (t :: ts)
  | _ => none

def typeOK : Json → Bool
  | .str t => decide (t ∈ types)
  | .arr xs => match strs xs with
    | some ts => ts.all fun t => decide (t ∈ types)
    | none => false
  | _ => false

def namesOK : Json → Bool
  | .arr xs => (strs xs).isSome
  | _ => false

/-- The keywords that occur in the meta-schemas, with values of the right form. -/
def fineB (u : String) (d : Draft) : Nat → Json → Bool
  | 0, _ => false
  | _ + 1, .bool _ => decide (Draft6 ≤ d)
  | n + 1, .obj m => m.all fun kv =>
    if kv.1 = "default" then true
    else if kv.1 ∈ ["$ref", "$schema", "title", "description", "format"] then isStr kv.2
    else if kv.1 ∈ ["id", "$id"] then match kv.2 with
      | .str t => decide (t = u ++ "#")
      | _ => false
    else if kv.1 = "type" then typeOK kv.2
    else if kv.1 ∈ ["minimum", "minItems"] then small kv.2
    else if kv.1 = "exclusiveMinimum" then
      if d = Draft4 then isBool kv.2 && (getKey "minimum" m).isSome else small kv.2 && decide (d ≠ Hybrid)
    else if kv.1 = "uniqueItems" then isBool kv.2
    else if kv.1 = "enum" then namesOK kv.2
    else if kv.1 ∈ ["properties", "definitions"] then match kv.2 with
      | .obj c => c.all fun x => fineB u d n x.2
      | _ => false
    else if kv.1 = "dependencies" then match kv.2 with
      | .obj c => c.all fun x => namesOK x.2
      | _ => false
    else if kv.1 = "additionalProperties" then match kv.2 with
      | .obj c => fineB u d n (.obj c)
      | _ => false
    else if kv.1 ∈ ["items", "propertyNames"] then fineB u d n kv.2
    else if kv.1 ∈ ["anyOf", "allOf"] then match kv.2 with
      | .arr xs => xs.all fun x => fineB u d n x
      | _ => false
    else false
  | _, _ => false

theorem strs_of : ∀ {xs ts}, strs xs = some ts → xs = ts.map .str ∧ ts.Nodup := by
  intro xs
  induction xs with
  | nil => intro ts h; cases h; exact ⟨rfl, .nil⟩
  | cons x xs ih =>
    intro ts h
    cases x with
    | str t =>
      unfold strs at h
      cases hs : strs xs with
      | none => rw [hs] at h; cases h
      | some ts' =>
        rw [hs] at h
        simp only [Option.bind_some] at h
        split at h
        · cases h
        · rename_i hn
          cases h
          obtain ⟨h1, h2⟩ := ih hs
          exact ⟨by rw [h1]; rfl, List.nodup_cons.2 ⟨hn, h2⟩⟩
    | _ => cases h

theorem names_of {v} (h : namesOK v = true) : ∃ ts : List String, v = .arr (ts.map .str) ∧ ts.Nodup := by
  cases v with
  | arr xs =>
    obtain ⟨ts, hs⟩ := Option.isSome_iff_exists.1 (show (strs xs).isSome = true from h)
    obtain ⟨h1, h2⟩ := strs_of hs
    exact ⟨ts, by rw [h1], h2⟩
  | _ => cases h

theorem knownType_of {t} (h : t ∈ types) : KnownType t := by
  unfold types at h
  unfold KnownType
  simpa using h

theorem type_of {v} (h : typeOK v = true) : TypeValue v := by
  cases v with
  | str t => exact .inl ⟨t, rfl, knownType_of (by simpa [typeOK] using h)⟩
  | arr xs =>
    unfold typeOK at h
    simp only at h
    cases hs : strs xs with
    | none => rw [hs] at h; cases h
    | some ts =>
      rw [hs] at h
      obtain ⟨h1, h2⟩ := strs_of hs
      refine .inr ⟨ts, by rw [h1], h2, fun t ht => knownType_of ?_⟩
      simpa using List.all_eq_true.1 h t ht
  | _ => cases h

theorem small_of {v} (h : small v = true) : ∃ n : NumLit, v = .num n ∧ (n = ⟨false, 0, [], none⟩ ∨ n = ⟨false, 1, [], none⟩) := by
  cases v with
  | num n => exact ⟨n, rfl, by simpa [small] using h⟩
  | _ => cases h

theorem str_of {v} (h : isStr v = true) : ∃ t, v = .str t := by
  cases v with
  | str t => exact ⟨t, rfl⟩
  | _ => cases h

theorem bool_of {v} (h : isBool v = true) : ∃ t, v = .bool t := by
  cases v with
  | bool t => exact ⟨t, rfl⟩
  | _ => cases h

section
variable {w : World} {u : String} {d : Draft} {m : List (String × Json)} {n : Nat}

/-- Sub-schemas are fine too. -/
theorem sub (h : fineB u d (n + 1) (.obj m) = true) {D} (hs : SubSchema d m D) : fineB u d n D = true := by
  have key : ∀ {k v}, Kw m k v → _ := fun hk => List.all_eq_true.1 (show m.all _ = true from h) _ (lookup_some_mem hk)
  cases hs with
  | property ps k D h1 h2 => have := key h1; simp only [] at this; exact List.all_eq_true.1 this _ h2
  | pattern ps k D h1 h2 => have := key h1; simp at this
  | additional A h1 => exact key h1
  | name D h6 h1 => exact key h1
  | dependency ps k D h1 h2 h3 =>
    have := key h1
    obtain ⟨ts, h4, _⟩ := names_of (List.all_eq_true.1 this _ h2)
    exact absurd h4 (h3 _)
  | items D h1 h2 => exact key h1
  | item Ds D h1 h2 =>
    have := key h1
    replace this : fineB u d n (.arr Ds) = true := this
    cases n <;> simp [fineB] at this
  | additionalItems A h1 => have := key h1; simp at this
  | contains D h6 h1 => have := key h1; simp at this
  | oneOf Ds D h1 h2 => have := key h1; simp at this
  | anyOf Ds D h1 h2 => exact List.all_eq_true.1 (show Ds.all _ = true from key h1) _ h2
  | allOf Ds D h1 h2 => exact List.all_eq_true.1 (show Ds.all _ = true from key h1) _ h2
  | not D h1 => have := key h1; simp at this
  | if_ D h6 h1 => have := key h1; simp at this
  | then_ D h6 h1 => have := key h1; simp at this
  | else_ D h6 h1 => have := key h1; simp at this

theorem definition (h : fineB u d (n + 1) (.obj m) = true) {ps k D} (h1 : Kw m "definitions" (.obj ps)) (h2 : (k, D) ∈ ps) :
    fineB u d n D = true := by
  have := List.all_eq_true.1 (show m.all _ = true from h) _ (lookup_some_mem h1)
  exact List.all_eq_true.1 this _ h2

theorem schema {D} (h : fineB u d n D = true) : ¬ NoSchema D := by
  intro hn
  cases n with
  | zero => cases h
  | succ n =>
    cases D with
    | bool b => exact hn.1 b rfl
    | obj m => exact hn.2 m rfl
    | _ => cases h

/-- Faults of a fine object are about its reference. -/
theorem faults (h : fineB u d (n + 1) (.obj m) = true) (hn : w.norm (u ++ "#") ≠ none) (hi : ∀ a b, w.inherits a b ≠ none)
    (hz : w.env.ratOk ⟨false, 0, [], none⟩ = true) (ho : w.env.ratOk ⟨false, 1, [], none⟩ = true) {l e}
    (hF : FaultIn w l d m e) : ∃ t, Kw m "$ref" (.str t) ∧ (w.norm t = none ∨
      ∃ u', w.norm t = some u' ∧ (NotThere w l u' e ∨ ∃ o D, ResolvedAs w l u' o D ∧ NoSchema D)) := by
  have key : ∀ {k v}, Kw m k v → _ := fun hk => List.all_eq_true.1 (show m.all _ = true from h) _ (lookup_some_mem hk)
  have strs : ∀ {ts : List String} {x}, x ∈ ts.map Json.str → ∃ t ∈ ts, x = .str t := by
    intro ts x h
    obtain ⟨t, h1, h2⟩ := List.mem_map.1 h
    exact ⟨t, h1, h2.symm⟩
  have twice : ∀ {ts : List String} {i j : Nat} {a b}, ts.Nodup → i < j → (ts.map Json.str)[i]? = some a →
      (ts.map Json.str)[j]? = some b → a = b → False := by
    intro ts i j a b hn hij h1 h2 e
    rw [List.getElem?_map] at h1 h2
    obtain ⟨a, h3, rfl⟩ := Option.map_eq_some_iff.1 h1
    obtain ⟨b, h5, rfl⟩ := Option.map_eq_some_iff.1 h2
    cases e
    obtain ⟨hi1, e1⟩ := List.getElem?_eq_some_iff.1 h3
    obtain ⟨hj1, e2⟩ := List.getElem?_eq_some_iff.1 h5
    have := (List.getElem_inj hn).1 (e1.trans e2.symm)
    omega
  have ids : ∀ {v}, Kw m (idKey d m) v → v = .str (u ++ "#") := by
    intro v hv
    have := key hv
    have h2 : idKey d m = "id" ∨ idKey d m = "$id" := by unfold idKey; split <;> simp
    cases v with
    | str t => rcases h2 with h2 | h2 <;> rw [h2] at this <;> simp at this <;> rw [this]
    | _ => rcases h2 with h2 | h2 <;> rw [h2] at this <;> simp at this
  have num : ∀ {v}, small v = true → NumValue w.env v := by
    intro v hv
    obtain ⟨n, rfl, rfl | rfl⟩ := small_of hv
    · exact ⟨_, rfl, hz⟩
    · exact ⟨_, rfl, ho⟩
  cases hF with
  | id v h1 h2 => exact absurd (ids h1) (h2 _)
  | idText t h1 h2 => cases ids h1; exact absurd h2 hn
  | idBase t u' base h1 h2 h3 => exact absurd h3 (hi _ _)
  | definitions v h1 h2 =>
    have := key h1
    cases v with
    | obj c => exact absurd rfl (h2.2 c)
    | _ => simp at this
  | definition ps k D h1 h2 h3 => exact absurd h3 (schema (definition h h1 h2))
  | text k v h1 h2 h3 =>
    simp only [List.mem_cons, List.not_mem_nil, or_false] at h1
    rcases h1 with rfl | rfl | rfl <;> (obtain ⟨t, h⟩ := str_of (key h2); exact absurd h (h3 t))
  | refText t h1 h2 => exact ⟨t, h1, .inl h2⟩
  | ref t u' e h1 h2 h3 => exact ⟨t, h1, .inr ⟨u', h2, .inl h3⟩⟩
  | target t u' o D h1 h2 h3 h4 => exact ⟨t, h1, .inr ⟨u', h2, .inr ⟨o, D, h3, h4⟩⟩⟩
  | type v h1 h2 h3 =>
    rcases type_of (key h1) with ⟨t, h, _⟩ | ⟨ts, h, _⟩
    · exact absurd h (h2 t)
    · exact absurd h (h3 _)
  | typeElem vs x h1 h2 h3 _ =>
    rcases type_of (v := .arr vs) (key h1) with ⟨t, h, _⟩ | ⟨ts, h, _⟩
    · cases h
    · cases h
      obtain ⟨t, _, ht⟩ := strs h2
      exact absurd ht (h3 t)
  | typeName t h1 h2 =>
    rcases type_of (v := .str t) (key h1) with ⟨t', h, h3⟩ | ⟨ts, h, _⟩
    · cases h; exact absurd h3 h2
    · cases h
  | typeNames vs t h1 h2 h3 =>
    rcases type_of (v := .arr vs) (key h1) with ⟨t', h, _⟩ | ⟨ts, h, _, h4⟩
    · cases h
    · cases h
      obtain ⟨t', ht, e⟩ := strs h2
      cases e
      exact absurd (h4 t ht) h3
  | typeTwice vs t i j h1 h2 h3 h4 =>
    rcases type_of (v := .arr vs) (key h1) with ⟨t', h, _⟩ | ⟨ts, h, h5, _⟩
    · cases h
    · cases h; exact (twice h5 h2 h3 h4 rfl).elim
  | object k v h1 h2 h3 =>
    have := key h2
    simp only [List.mem_cons, List.not_mem_nil, or_false] at h1
    cases v with
    | obj c => exact absurd rfl (h3 c)
    | _ => rcases h1 with rfl | rfl <;> simp at this
  | additional k v h1 h2 h3 =>
    have := key h2
    simp only [List.mem_cons, List.not_mem_nil, or_false] at h1
    cases v with
    | obj c => exact absurd rfl (h3.2 c)
    | _ => rcases h1 with rfl | rfl <;> simp at this
  | patternProperties v h1 h2 => have := key h1; simp at this
  | patternKey c k D h1 h2 h3 => have := key h1; simp at this
  | propertyNames v h6 h1 h2 => exact absurd h2 (schema (sub h (.name v h6 h1)))
  | dependency c k D h1 h2 h3 h4 => exact absurd h3 (schema (sub h (.dependency c k D h1 h2 h4)))
  | dependencyElem c k xs x h1 h2 h3 h4 =>
    obtain ⟨ts, h5, _⟩ := names_of (List.all_eq_true.1 (show c.all _ = true from key h1) _ h2)
    cases h5
    obtain ⟨t, _, ht⟩ := strs h3
    exact absurd ht (h4 t)
  | required v h1 h2 => have := key h1; simp at this
  | requiredElem vs x h1 h2 h3 => have := key h1; simp at this
  | requiredTwice vs t i j h1 h2 h3 h4 => have := key h1; simp at this
  | items v h1 h2 h3 => exact absurd h2 (schema (sub h (.items v h1 h3)))
  | item vs D h1 h2 h3 => exact absurd h3 (schema (sub h (.item vs D h1 h2)))
  | uniqueItems v h1 h2 => obtain ⟨b, h⟩ := bool_of (key h1); exact absurd h (h2 b)
  | multipleOf v h1 h2 => have := key h1; simp at this
  | multipleOfSign n h1 h2 => have := key h1; simp at this
  | bound k v h1 h2 h3 =>
    have := key h2
    simp only [List.mem_cons, List.not_mem_nil, or_false] at h1
    rcases h1 with rfl | rfl
    · exact absurd (num this) h3
    · simp at this
  | exclusive4 xkey k v h1 h2 h3 h4 =>
    have := key h3
    simp only [exclusiveKeys, List.mem_cons, Prod.mk.injEq, List.not_mem_nil, or_false] at h1
    rcases h1 with ⟨rfl, rfl⟩ | ⟨rfl, rfl⟩
    · simp [h2] at this
      obtain ⟨b, h⟩ := bool_of this.1
      exact absurd h (h4 b)
    · simp at this
  | exclusiveHybrid xkey k v h1 h2 h3 h4 h5 =>
    have := key h3
    simp only [exclusiveKeys, List.mem_cons, Prod.mk.injEq, List.not_mem_nil, or_false] at h1
    rcases h1 with ⟨rfl, rfl⟩ | ⟨rfl, rfl⟩
    · simp [h2, show Hybrid ≠ Draft4 by decide] at this
    · simp at this
  | exclusive6 xkey k v h1 h2 h3 h4 h5 =>
    have := key h4
    simp only [exclusiveKeys, List.mem_cons, Prod.mk.injEq, List.not_mem_nil, or_false] at h1
    rcases h1 with ⟨rfl, rfl⟩ | ⟨rfl, rfl⟩
    · simp [h2] at this
      obtain ⟨n, h, _⟩ := small_of this.1
      exact absurd h (h5 n)
    · simp at this
  | exclusiveAlone xkey k b h1 h2 h3 h4 =>
    have := key h3
    simp only [exclusiveKeys, List.mem_cons, Prod.mk.injEq, List.not_mem_nil, or_false] at h1
    rcases h1 with ⟨rfl, rfl⟩ | ⟨rfl, rfl⟩
    · by_cases h5 : d = Draft4
      · simp [h5, h4] at this
      · simp [h5] at this
        obtain ⟨n, h, _⟩ := small_of this.1
        cases h
    · simp at this
  | size k v h1 h2 h3 =>
    have := key h2
    simp only [List.mem_cons, List.not_mem_nil, or_false] at h1
    rcases h1 with rfl | rfl | rfl | rfl | rfl | rfl <;> try (simp at this; done)
    obtain ⟨n, h, rfl | rfl⟩ := small_of this
    · exact absurd ⟨rfl, rfl, by decide, by decide⟩ (h3 _ h hz)
    · exact absurd ⟨rfl, rfl, by decide, by decide⟩ (h3 _ h ho)
  | sizeSign k n h1 h2 h3 =>
    have := key h2
    simp only [List.mem_cons, List.not_mem_nil, or_false] at h1
    rcases h1 with rfl | rfl | rfl | rfl | rfl | rfl <;> try (simp at this; done)
    obtain ⟨n, h, rfl | rfl⟩ := small_of (v := .num n) this <;> cases h <;> exact absurd h3 (by decide +kernel)
  | lengths a b h1 h2 h3 => have := key h1; simp at this
  | propertyCounts a b h1 h2 h3 => have := key h1; simp at this
  | pattern v h1 h2 => have := key h1; simp at this
  | regex t h1 h2 => have := key h1; simp at this
  | format v h1 h2 => obtain ⟨t, h⟩ := str_of (key h1); exact absurd h (h2 t)
  | const v h6 h1 h2 => have := key h1; simp at this
  | enum v h1 h2 => obtain ⟨ts, h, _⟩ := names_of (key h1); exact absurd h (h2 _)
  | enumElem cs c h1 h2 h3 =>
    obtain ⟨ts, h, _⟩ := names_of (v := .arr cs) (key h1)
    cases h
    obtain ⟨t, _, rfl⟩ := strs h2
    exact absurd (fun n hw => by cases hw) h3
  | enumTwice cs a b i j h1 h2 h3 h4 h5 =>
    obtain ⟨ts, h, h6⟩ := names_of (v := .arr cs) (key h1)
    cases h
    obtain ⟨s, _, rfl⟩ := strs (List.mem_of_getElem? h3)
    cases h5
    exact (twice h6 h2 h3 h4 rfl).elim
  | list k v h1 h2 h3 =>
    have := key h2
    simp only [List.mem_cons, List.not_mem_nil, or_false] at h1
    cases v with
    | arr c => exact absurd rfl (h3 c)
    | _ => rcases h1 with rfl | rfl <;> simp at this
  | allOf v h1 h2 =>
    have := key h1
    cases v with
    | arr c => exact absurd rfl (h2 c)
    | _ => simp at this
  | not v h1 h2 => have := key h1; simp at this
  | branch k v h1 h7 h2 h3 =>
    have := key h2
    simp only [List.mem_cons, List.not_mem_nil, or_false] at h1
    rcases h1 with rfl | rfl | rfl <;> simp at this

theorem built_in (hk : Known u d) : fineB u d 6 (Meta.absolute u d) = true := by
  rcases hk with ⟨rfl, rfl⟩ | ⟨rfl, rfl⟩ | ⟨rfl, rfl⟩ <;> decide +kernel

end
end Fine
end GJS

namespace GJS
open Spec

section
variable {w : World} {u : String} {d : Draft} {l : LState}

theorem known_loads (h : MetaWorld w u) (hk : Known u d) {n f r} (hr : w.base r = u) (hn : w.norm r ≠ none) :
    loadReference w n f r ≠ none := by
  unfold loadReference
  cases hx : w.norm r with
  | none => exact absurd hx hn
  | some r' =>
    have e1 := (h.base_norm r r' hx).trans hr
    have e2 := h.web r' e1
    simp only [e1, e2, Bool.false_eq_true, if_false]
    unfold loadFromHTTP
    rw [h.decode]
    obtain hd := known_text hk
    have hne : (getMetaSchema u != "") = true := by
      rw [bne_iff_ne]
      intro e
      rw [e] at hd
      cases (show Text.decode Text.maxDepth (utf8 "") = .error .eof from rfl).symm.trans hd
    rw [hd, if_pos hne]
    simp [Except.toOption]

/-- The references of the meta-schema can be followed. -/
theorem meta_there (h : MetaWorld w u) (hk : Known u d) (hc : Clean w u d l) (hcan : ∀ r, w.base r = u → w.canonical r = true)
    {t} (ht : t ∈ metaRefs u d) {e} : ¬ NotThere w l t e := by
  obtain ⟨h1, h2, X, h3, _⟩ := metaRefs_to h hk ht
  intro hN
  cases hN with
  | relative _ _ hx => rw [hcan t h2] at hx; cases hx
  | unloaded n f _ hx => exact known_loads h hk h2 (by rw [h1]; simp) hx
  | inside e he hp _ =>
    rw [h2] at he
    rw [(clean_main h hc he).1, h3] at hp
    cases hp
  | loaded n f doc hl _ hb _ =>
    rw [known_load h hk h2 hl] at hb
    have := hb.draft
    rw [(known_declared h hk).1] at this
    cases this

theorem meta_fine (h : MetaWorld w u) (hk : Known u d) (hc : Clean w u d l) {d' D'}
    (hD : Compiled w l d (Meta.absolute u d) d' D') : d' = d ∧ ∃ n, Fine.fineB u d n D' = true := by
  refine ⟨(meta_compiled h hk hc hD).1, ?_⟩
  induction hD with
  | root => exact ⟨_, Fine.built_in hk⟩
  | sub d' m D' hm hs ih =>
    obtain ⟨n, hn⟩ := ih
    rw [(meta_compiled h hk hc hm).1] at hs
    cases n with
    | zero => cases hn
    | succ n => exact ⟨n, Fine.sub hn hs⟩
  | definition d' m ps k D' hm h1 h2 ih =>
    obtain ⟨n, hn⟩ := ih
    cases n with
    | zero => cases hn
    | succ n => exact ⟨n, Fine.definition hn h1 h2⟩
  | ref d' m t v o D' hm h1 hn hr ih =>
    obtain ⟨g1, g2, X, g3, _, g4⟩ := metaRefs_to h hk (known_refs hk (meta_compiled h hk hc hm).2 h1)
    rw [g1] at hn; cases hn
    obtain ⟨k1, _⟩ := meta_resolved h hk hc g2 hr
    rw [g3] at k1; cases k1
    rcases g4 with ⟨_, rfl⟩ | ⟨s, _, hs⟩
    · exact ⟨_, Fine.built_in hk⟩
    · obtain ⟨m', ds, e, a1, _, a2, _⟩ := known_defs hk hs
      have hb := Fine.built_in hk
      rw [e] at hb
      exact ⟨_, Fine.definition hb a1 a2⟩

/-- The compiler finds no fault in the meta-schema. -/
theorem meta_accepted (h : MetaWorld w u) (hk : Known u d) {l'} (hc : Clean w u d l')
    (hcan : ∀ r, w.base r = u → w.canonical r = true) (hd : draftFor w l (Meta.absolute u d) = d) {e} :
    ¬ Rejected w l l' (.reference u 0) e := by
  have href : (LoaderArg.reference u 0).ref w = some u := h.self.1
  have hu : u ∈ metaRefs u d := List.mem_cons_self ..
  have hne := known_ne hk
  intro hR
  cases hR with
  | source h1 => rw [href] at h1; cases h1
  | notThere ref e h1 _ h2 => rw [href] at h1; cases h1; exact meta_there h hk hc hcan hu h2
  | noDocument h1 _ => rw [href] at h1; cases h1; exact hne rfl
  | notLoaded n s f h1 _ _ => rw [href] at h1; cases h1; exact hne rfl
  | second h1 _ => rw [href] at h1; cases h1; exact hne rfl
  | taken m t v k h1 _ _ _ _ _ => rw [href] at h1; cases h1; exact hne rfl
  | schema D e _ h1 h2 =>
    rcases h1 with ⟨h1, _⟩ | h1
    · rw [href] at h1; cases h1; exact hne rfl
    · cases meta_root h hk hc h1
      have key : ∃ m, Meta.absolute u d = .obj m ∧ Kw m "$schema" (.str (u ++ "#")) := by
        rcases hk with ⟨rfl, rfl⟩ | ⟨rfl, rfl⟩ | ⟨rfl, rfl⟩ <;> exact ⟨_, rfl, rfl⟩
      obtain ⟨m, e1, e2⟩ := key
      rw [e1] at h2
      cases h2 with
      | kind _ h3 => exact h3.2 m rfl
      | text _ v h3 h4 => cases e2.symm.trans h3; exact h4 _ rfl
      | url _ t h3 h4 => cases e2.symm.trans h3; rw [h.hash] at h4; cases h4
  | fault D d' D' e h1 h2 h3 =>
    cases meta_root h hk hc h1
    rw [hd] at h2
    obtain ⟨rfl, n, hn⟩ := meta_fine h hk hc h2
    cases h3 with
    | kind _ h4 => exact Fine.schema hn h4
    | bool b h4 =>
      cases n with
      | zero => cases hn
      | succ n => exact h4 (of_decide_eq_true hn)
    | fault m e h4 =>
      cases n with
      | zero => cases hn
      | succ n =>
        obtain ⟨t, ht, h5⟩ := Fine.faults hn (by rw [h.hash]; simp) h.inherits h.zero h.one h4
        have hm := known_refs hk (meta_compiled h hk hc h2).2 ht
        obtain ⟨g1, g2, X, g3, _, g4⟩ := metaRefs_to h hk hm
        rw [g1] at h5
        rcases h5 with h5 | ⟨_, h5, h6⟩
        · cases h5
        · cases h5
          rcases h6 with h6 | ⟨o, D, h6, h7⟩
          · exact meta_there h hk hc hcan hm h6
          · obtain ⟨n', hn'⟩ := (meta_fine h hk hc (.ref _ m t _ o D h2 ht g1 h6)).2
            exact Fine.schema hn' h7

end
end GJS

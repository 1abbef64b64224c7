import Verif.LemGap
import Verif.PropReject
import Verif.PropMetaShape
import Verif.LemMetaFine
/-
C59: what the check against the meta-schema leaves to the compiler, and what it asks beyond it.
-/
namespace GJS
open Spec

/-- C59, one schema object: the two shapes differ by `Leftover` and `Stricter`. -/
theorem C59_object (w : World) (hf : FmtOK w.env.fmtF64)
    (hre : ∀ t, w.env.isFormat "regex" (.str t) = true → w.env.reOk t = true) (d : Draft) (hd : Numbered d)
    (m : List (String × Json)) (hm : (Json.obj m).WF) :
    MetaShape w.env d m ∧ Leftover w d m ↔ Shape w d m ∧ Stricter w.env d m := by
  have hm' : ∀ kv ∈ m, kv.2.WF := by cases hm with | obj _ _ h => exact h
  exact ⟨fun h => ⟨shape_of hm' hd hre h.1 h.2, stricter_of h.1⟩, fun h => ⟨metaShape_of hf hm' hd h.1 h.2, leftover_of h.1⟩⟩

/-- C59, documents: a document has the shape of its meta-schema and nothing is left to complain about
exactly if it is well-formed and obeys what the meta-schema asks in addition. -/
theorem C59_document (w : World) (hf : FmtOK w.env.fmtF64)
    (hre : ∀ t, w.env.isFormat "regex" (.str t) = true → w.env.reOk t = true) (d : Draft) (hd : Numbered d) (D : Json) (hD : D.WF) :
    MetaValid w.env d D ∧ Everywhere d (Leftover w d) D ↔ WellFormed w d D ∧ Everywhere d (Stricter w.env d) D := by
  constructor
  · rintro ⟨h1, h2⟩
    induction h1 with
    | bool b h6 => exact ⟨.bool b h6, .other _ (by simp)⟩
    | obj m hs hdef hsub ih1 ih2 =>
      cases h2 with
      | other _ h => exact absurd rfl (h m)
      | obj _ hL e1 e2 =>
        have g := (C59_object w hf hre d hd m hD).1 ⟨hs, hL⟩
        have r1 : ∀ ds k D, Kw m "definitions" (.obj ds) → (k, D) ∈ ds → WellFormed w d D ∧ Everywhere d (Stricter w.env d) D :=
          fun ds k D a b => ih1 ds k D a b (wf_obj (wf_member hD a) _ b) (e1 ds k D a b)
        have r2 : ∀ D, SubSchema d m D → WellFormed w d D ∧ Everywhere d (Stricter w.env d) D :=
          fun D a => ih2 D a (wf_within (within_sub a) hD) (e2 D a)
        exact ⟨.obj m g.1 (fun ds k D a b => (r1 ds k D a b).1) fun D a => (r2 D a).1,
          .obj m g.2 (fun ds k D a b => (r1 ds k D a b).2) fun D a => (r2 D a).2⟩
  · rintro ⟨h1, h2⟩
    induction h1 with
    | bool b h6 => exact ⟨.bool b h6, .other _ (by simp)⟩
    | obj m hs hdef hsub ih1 ih2 =>
      cases h2 with
      | other _ h => exact absurd rfl (h m)
      | obj _ hL e1 e2 =>
        have g := (C59_object w hf hre d hd m hD).2 ⟨hs, hL⟩
        have r1 : ∀ ds k D, Kw m "definitions" (.obj ds) → (k, D) ∈ ds → MetaValid w.env d D ∧ Everywhere d (Leftover w d) D :=
          fun ds k D a b => ih1 ds k D a b (wf_obj (wf_member hD a) _ b) (e1 ds k D a b)
        have r2 : ∀ D, SubSchema d m D → MetaValid w.env d D ∧ Everywhere d (Leftover w d) D :=
          fun D a => ih2 D a (wf_within (within_sub a) hD) (e2 D a)
        exact ⟨.obj m g.1 (fun ds k D a b => (r1 ds k D a b).1) fun D a => (r2 D a).1,
          .obj m g.2 (fun ds k D a b => (r1 ds k D a b).2) fun D a => (r2 D a).2⟩

theorem leftover_everywhere {w : World} {d D} (h : WellFormed w d D) : Everywhere d (Leftover w d) D := by
  induction h with
  | bool b _ => exact .other _ (by simp)
  | obj m hs _ _ ih1 ih2 => exact .obj m (leftover_of hs) ih1 ih2

theorem metaValid_schema {env : Env} {d D} (h : MetaValid env d D) : ¬ NoSchema D := by
  intro hn
  cases h with
  | bool b _ => exact hn.1 b rfl
  | obj m _ _ _ => exact hn.2 m rfl

/-- C59: a document with the shape of its meta-schema has only faults of the kinds in `Residue`. -/
theorem C59_residue (w : World) (hre : ∀ t, w.env.isFormat "regex" (.str t) = true → w.env.reOk t = true) (l : LState)
    (d : Draft) (hd : Numbered d) (D : Json) (hD : D.WF) (hM : MetaValid w.env d D) (e : CErr) (h : Malformed w l d D e) :
    ∃ m, D = .obj m ∧ Residue w l d m e := by
  cases h with
  | kind _ h => exact absurd h (metaValid_schema hM)
  | bool b h => cases hM with | bool _ h6 => exact absurd h6 h
  | fault m e h =>
  refine ⟨m, rfl, ?_⟩
  cases hM with
  | obj _ hS hdef hsub =>
  have strs : ∀ {ts : List String} {x}, x ∈ ts.map Json.str → ∃ t ∈ ts, x = .str t := by
    intro ts x h
    obtain ⟨t, h1, h2⟩ := List.mem_map.1 h
    exact ⟨t, h1, h2.symm⟩
  have twice : ∀ {ts : List String} {i j : Nat} {t}, ts.Nodup → i < j → (ts.map Json.str)[i]? = some (.str t) →
      (ts.map Json.str)[j]? = some (.str t) → False := by
    intro ts i j t hn hij h1 h2
    rw [List.getElem?_map] at h1 h2
    obtain ⟨a, h3, h4⟩ := Option.map_eq_some_iff.1 h1
    obtain ⟨b, h5, h6⟩ := Option.map_eq_some_iff.1 h2
    cases h4; cases h6
    obtain ⟨hi1, e1⟩ := List.getElem?_eq_some_iff.1 h3
    obtain ⟨hj1, e2⟩ := List.getElem?_eq_some_iff.1 h5
    have := (List.getElem_inj hn).1 (e1.trans e2.symm)
    omega
  have ids : ∀ {v}, Kw m (idKey d m) v → ∃ t, v = .str t := by
    intro v hv
    rw [hd.idKey] at hv
    by_cases h4 : d = Draft4
    · rw [if_pos h4] at hv; exact hS.id4 h4 v hv
    · rw [if_neg h4] at hv
      obtain ⟨t, h1, _⟩ := hS.uris6 (hd.later h4) "$id" (by simp) v hv
      exact ⟨t, h1⟩
  have not4 : d ≠ Draft4 → Draft6 ≤ d := hd.later
  have xkeys : ∀ {x k}, (x, k) ∈ exclusiveKeys → x ∈ ["exclusiveMinimum", "exclusiveMaximum"] := by
    intro x k hx
    simp only [exclusiveKeys, List.mem_cons, Prod.mk.injEq, List.not_mem_nil, or_false] at hx
    rcases hx with ⟨rfl, _⟩ | ⟨rfl, _⟩ <;> simp
  cases h with
  | id v h1 h2 => obtain ⟨t, h3⟩ := ids h1; exact absurd h3 (h2 t)
  | idText t h1 h2 => exact .idText t h1 h2
  | idBase t u base h1 h2 h3 => exact .idBase t u base h1 h2 h3
  | definitions v h1 h2 => obtain ⟨c, rfl⟩ := hS.maps "definitions" (by simp) v h1; exact absurd rfl (h2.2 c)
  | definition ps k D h1 h2 h3 => exact absurd h3 (metaValid_schema (hdef ps k D h1 h2))
  | text key v h1 h2 h3 =>
    simp only [List.mem_cons, List.not_mem_nil, or_false] at h1
    rcases h1 with rfl | rfl | rfl
    · obtain ⟨t, h⟩ := hS.texts "title" (by simp) v h2; exact absurd h (h3 t)
    · obtain ⟨t, h⟩ := hS.texts "description" (by simp) v h2; exact absurd h (h3 t)
    · by_cases h4 : d = Draft4
      · exact .refKind4 v h4 h2 h3
      · obtain ⟨t, h, _⟩ := hS.uris6 (not4 h4) "$ref" (by simp) v h2; exact absurd h (h3 t)
  | refText t h1 h2 => exact .refText t h1 h2
  | ref t u e h1 h2 h3 => exact .ref t u e h1 h2 h3
  | target t u o D h1 h2 h3 h4 => exact .target t u o D h1 h2 h3 h4
  | type v h1 h2 h3 =>
    rcases hS.type v h1 with ⟨t, h, _⟩ | ⟨ts, h, _⟩
    · exact absurd h (h2 t)
    · exact absurd h (h3 _)
  | typeElem vs x h1 h2 h3 _ =>
    rcases hS.type _ h1 with ⟨t, h, _⟩ | ⟨ts, h, _⟩
    · cases h
    · cases h
      obtain ⟨t, _, ht⟩ := strs h2
      exact absurd ht (h3 t)
  | typeName t h1 h2 =>
    rcases hS.type _ h1 with ⟨t', h, h3⟩ | ⟨ts, h, _⟩
    · cases h; exact absurd h3 h2
    · cases h
  | typeNames vs t h1 h2 h3 =>
    rcases hS.type _ h1 with ⟨t', h, _⟩ | ⟨ts, h, _, _, h4⟩
    · cases h
    · cases h
      obtain ⟨t', ht, e⟩ := strs h2
      cases e
      exact absurd (h4 t ht) h3
  | typeTwice vs t i j h1 h2 h3 h4 =>
    rcases hS.type _ h1 with ⟨t', h, _⟩ | ⟨ts, h, _, h5, _⟩
    · cases h
    · cases h; exact (twice h5 h2 h3 h4).elim
  | object key v h1 h2 h3 =>
    obtain ⟨c, h⟩ := hS.maps key (by clear h2; revert key; decide) v h2
    exact absurd h (h3 c)
  | additional key v h1 h2 h3 =>
    rcases hS.rest key (by clear h2; revert key; decide) v h2 with ⟨b, h⟩ | ⟨c, h⟩
    · exact absurd h (h3.1 b)
    · exact absurd h (h3.2 c)
  | patternProperties v h1 h2 => obtain ⟨c, h⟩ := hS.maps "patternProperties" (by simp) v h1; exact absurd h (h2 c)
  | patternKey c k D h1 h2 h3 =>
    by_cases h7 : d < Draft7
    · exact .patternKey c k D h7 h1 h2 h3
    · have := hre k (hS.patterns7 (Int.not_lt.1 h7) c h1 k (List.mem_map.2 ⟨_, h2, rfl⟩))
      rw [this] at h3; cases h3
  | propertyNames v h6 h1 h2 => exact absurd h2 (metaValid_schema (hsub v (.name v h6 h1)))
  | dependency c k D h1 h2 h3 h4 => exact absurd h3 (metaValid_schema (hsub D (.dependency c k D h1 h2 h4)))
  | dependencyElem c k xs x h1 h2 h3 h4 =>
    obtain ⟨ts, h, _⟩ := hS.dependencies c h1 k xs h2
    cases h
    obtain ⟨t, _, ht⟩ := strs h3
    exact absurd ht (h4 t)
  | required v h1 h2 => obtain ⟨ts, h, _⟩ := hS.required v h1; exact absurd h (h2 _)
  | requiredElem vs x h1 h2 h3 =>
    obtain ⟨ts, h, _⟩ := hS.required _ h1
    cases h
    obtain ⟨t, _, ht⟩ := strs h2
    exact absurd ht (h3 t)
  | requiredTwice vs t i j h1 h2 h3 h4 =>
    obtain ⟨ts, h, h5, _⟩ := hS.required _ h1
    cases h
    exact (twice h5 h2 h3 h4).elim
  | items v h1 h2 h3 => exact absurd h2 (metaValid_schema (hsub v (.items v h1 h3)))
  | item vs D h1 h2 h3 => exact absurd h3 (metaValid_schema (hsub D (.item vs D h1 h2)))
  | uniqueItems v h1 h2 => obtain ⟨b, h⟩ := hS.uniqueItems v h1; exact absurd h (h2 b)
  | multipleOf v h1 h2 =>
    obtain ⟨n, rfl, _⟩ := hS.multipleOf v h1
    refine .multipleOf n h1 ?_
    cases hr : w.env.ratOk n with
    | false => rfl
    | true => exact absurd ⟨n, rfl, hr⟩ h2
  | multipleOfSign n h1 h2 =>
    obtain ⟨n', h, h3⟩ := hS.multipleOf _ h1
    cases h
    exact absurd h3 (not_lt.2 h2)
  | bound key v h1 h2 h3 =>
    obtain ⟨n, rfl⟩ := hS.numbers key h1 v h2
    refine .bound key n h1 h2 ?_
    cases hr : w.env.ratOk n with
    | false => rfl
    | true => exact absurd ⟨n, rfl, hr⟩ h3
  | exclusive4 xkey key v h1 h2 h3 h4 =>
    obtain ⟨⟨b, h⟩, _⟩ := hS.exclusive4 h2 _ h1 v h3
    exact absurd h (h4 b)
  | exclusiveHybrid xkey key v h1 h2 h3 h4 h5 => exact absurd h2 hd.notHybrid
  | exclusive6 xkey key v h1 h2 h3 h4 h5 =>
    obtain ⟨n, h⟩ := hS.exclusive6 (not4 h2) xkey (xkeys h1) v h4
    exact absurd h (h5 n)
  | exclusiveAlone xkey key b h1 h2 h3 h4 =>
    rcases h2 with h2 | h2
    · obtain ⟨_, h⟩ := hS.exclusive4 h2 _ h1 _ h3
      have := isSome_keys.2 h
      rw [h4] at this; cases this
    · exact absurd h2 hd.notHybrid
  | size key v h1 h2 h3 =>
    obtain ⟨n, rfl, h4, z, h5⟩ := hS.sizes key h1 v h2
    exact .size key n z h1 h2 h5 (h3 n rfl h4)
  | sizeSign key n h1 h2 h3 =>
    obtain ⟨n', h, _, z, h5⟩ := hS.sizes key h1 _ h2
    cases h
    rw [h5] at h3
    exact absurd h3 (not_lt.2 (Nat.cast_nonneg z))
  | lengths a b h1 h2 h3 => exact .lengths a b h1 h2 h3
  | propertyCounts a b h1 h2 h3 => exact .propertyCounts a b h1 h2 h3
  | pattern v h1 h2 => obtain ⟨t, h⟩ := hS.texts "pattern" (by simp) v h1; exact absurd h (h2 t)
  | regex t h1 h2 =>
    have := hre t (hS.pattern _ h1)
    rw [this] at h2; cases h2
  | format v h1 h2 => obtain ⟨t, h⟩ := hS.texts "format" (by simp) v h1; exact absurd h (h2 t)
  | const v h6 h1 h2 => exact .const v h6 h1 h2
  | enum v h1 h2 => obtain ⟨cs, h, _⟩ := hS.enum v h1; exact absurd h (h2 cs)
  | enumElem cs c h1 h2 h3 => exact .enumElem cs c h1 h2 h3
  | enumTwice cs a b i j h1 h2 h3 h4 h5 =>
    obtain ⟨cs', h, _, h6⟩ := hS.enum _ h1
    cases h
    have hw : ∀ c ∈ cs, c.WF := by
      have := wf_member hD h1
      intro c hc
      cases this with
      | arr _ h => exact h c hc
    exact absurd (marshal_same (hw a (List.mem_of_getElem? h3)) (hw b (List.mem_of_getElem? h4)) h5) (h6 i j a b h2 h3 h4)
  | list key v h1 h2 h3 =>
    obtain ⟨Ds, h, _⟩ := hS.lists key (by clear h2; revert key; decide) v h2
    exact absurd h (h3 Ds)
  | allOf v h1 h2 => obtain ⟨Ds, h, _⟩ := hS.lists "allOf" (by simp) v h1; exact absurd h (h2 Ds)
  | not v h1 h2 => exact absurd h2 (metaValid_schema (hsub v (.not v h1)))
  | branch key v h1 h7 h2 h3 =>
    simp only [List.mem_cons, List.not_mem_nil, or_false] at h1
    rcases h1 with rfl | rfl | rfl
    · exact absurd h3 (metaValid_schema (hsub v (.if_ v h7 h2)))
    · exact absurd h3 (metaValid_schema (hsub v (.then_ v h7 h2)))
    · exact absurd h3 (metaValid_schema (hsub v (.else_ v h7 h2)))

/-! ### The check itself -/

/-- The draft of a document checked against a built-in meta-schema is that of the meta-schema. -/
theorem draftFor_meta {w : World} {u d} {l : LState} {D} (hk : Known u d) (hM : MetaFor w l D u) : draftFor w l D = d := by
  have hg : getDraftVersion u = some d := by
    rcases hk with ⟨rfl, rfl⟩ | ⟨rfl, rfl⟩ | ⟨rfl, rfl⟩ <;> decide +kernel
  unfold draftFor
  cases hM with
  | declared m t _ h1 h2 h3 h4 h5 =>
    subst h2
    have h3 : getKey "$schema" m = some (.str t) := h3
    rw [if_pos h1]
    simp [declaredDraft, h3, h4, hg]
  | default _ h1 h2 h3 =>
    have e : l.draft = d := by
      rcases hk with ⟨rfl, rfl⟩ | ⟨rfl, rfl⟩ | ⟨rfl, rfl⟩ <;> rcases h3 with ⟨h, h'⟩ | ⟨h, h'⟩ | ⟨h, h'⟩ <;>
        first | exact h' | exact absurd h (by decide)
    split
    · rename_i ha
      have : declaredDraft w D = none := by
        cases D with
        | obj m =>
          show (match getKey "$schema" m with
            | some (.str t) => (w.norm t).bind getDraftVersion
            | _ => none) = none
          split
          · rename_i t ht
            cases hn : w.norm t with
            | none => rfl
            | some u' =>
              rw [h1 ha m t u' rfl ht hn]
              decide +kernel
          · rfl
        | _ => rfl
      rw [this]; exact e
    · exact e

/-- C59: `Compile` finds no fault in a built-in meta-schema, whatever else the loader knows. -/
theorem C59_meta (w : World) (hw : Lawful w) (hf : FmtOK w.env.fmtF64) (u : String) (d : Draft) (hm : MetaWorld w u) (hk : Known u d)
    (hA : Apart w u) (hcan : ∀ r, w.base r = u → w.canonical r = true) (σ : Sched) (fuel : Fuel) (p : Path) (l : LState)
    (hl : PoolWF l) (hc : Clean w u d l) (hv : l.validate = false) (hd : l.autoDetect = true ∨ l.draft = d) (e : CErr) :
    (compile w σ fuel p (.reference u 0) l).1 ≠ .error (.err e) := by
  intro h
  have c := (compile_safe (σ := σ) (fuel := fuel) (p := p) (a := .reference u 0) (clean_inv hw hm hk hA) id (clean_refsOK hw hm hA)
    (argOK_compile hw hm hA (by intro D h; cases h)) hm.root l hc).1
  refine meta_accepted hm hk c hcan ?_ (C57_compile_off w hw hf σ fuel p _ l _ e hv hl (by intro D h; cases h) (Prod.ext h rfl))
  unfold draftFor
  split
  · rw [(known_declared hm hk).2]; rfl
  · rename_i ha
    rcases hd with hd | hd
    · exact absurd hd ha
    · exact hd

/-- The only errors of the check against a built-in meta-schema are those of the instance, and a bad
`$schema`. -/
theorem check_only {w : World} {σ : Sched} (hw : Lawful w) (hf : FmtOK w.env.fmtF64) {u d} (hm : MetaWorld w u) (hk : Known u d)
    (hA : Apart w u) (hcan : ∀ r, w.base r = u → w.canonical r = true) {l l' : LState} {fuel p D e} (hl : PoolWF l)
    (hc : Clean w u d l) (hM : MetaFor w l D u) (h : validateMetaschema w σ fuel p D l = (.error (.err e), l')) :
    (l.autoDetect = true ∧ SchemaFault w D e) ∨ ((∃ es, e = .metaSchema es) ∧ ¬ MetaValid w.env d D) := by
  have h' := h
  unfold validateMetaschema at h
  rcases M.bind_error.1 h with h | ⟨o, l1, h1, h⟩
  · exact .inl (metaSchemaURL_err h)
  refine .inr ?_
  suffices ∃ es, e = .metaSchema es by
    obtain ⟨es, rfl⟩ := this
    exact ⟨⟨es, rfl⟩, refused_shape hw hm hk hA hf hl hc hM h'⟩
  have e := metaSchemaURL_still.ok h1
  subst e
  cases metaSchemaURL_ok h1 hM
  simp only at h
  rcases M.bind_error.1 h with h | ⟨_, l2, h2, h⟩
  · simp [M.modify] at h
  rw [M.modify_ok] at h2
  rcases M.bind_error.1 h with h | ⟨s, l3, h3, h⟩
  · exfalso
    have c := (compileInner_safe (σ := σ) (fuel := fuel) (p := 63 :: p) (a := .reference u 0) (clean_inv hw hm hk hA)
      (fun e n D hld => clean_refsOK hw hm hA n 0 u D e hld) hm.root l2 (by rw [← h2]; exact hc)).1
    rw [h] at c
    rcases compileG_err hw hf hookOK_pure (by rw [← h2]; exact hl) (by intro D h; cases h) h with g | ⟨_, _, g, _⟩
    · exact meta_accepted hm hk c hcan (meta_draft hm hk hM (by rw [← h2]; exact ⟨rfl, rfl⟩)) g
    · rw [← h2] at g; cases g
  rcases M.bind_error.1 h with h | ⟨_, l4, h4, h⟩
  · simp [M.modify] at h
  unfold checkDocument at h
  cases hr : validateDocument w.env σ s.heap fuel.validate s.root D with
  | ok r =>
    rw [hr] at h
    simp only at h
    cases hv : r.valid with
    | true => rw [hv] at h; simp [M.pure_def] at h
    | false =>
      rw [hv] at h
      simp only [Bool.false_eq_true, if_false, M.err, M.fail, Prod.mk.injEq, Except.error.injEq, Fail.err.injEq] at h
      exact ⟨_, h.1.symm⟩
  | error e => rw [hr] at h; cases e <;> simp [M.fail] at h

/-- C59: an error of `Compile` with `Validate` on and a built-in meta-schema is the report of a document that
does not have the shape of the meta-schema, or an error of `Compile` with `Validate` off. -/
theorem C59_compile (w : World) (hw : Lawful w) (hf : FmtOK w.env.fmtF64) (u : String) (d : Draft) (hm : MetaWorld w u) (hk : Known u d)
    (hA : Apart w u) (hcan : ∀ r, w.base r = u → w.canonical r = true) (σ : Sched) (fuel : Fuel) (p : Path) (a : LoaderArg)
    (l l' : LState) (hl : PoolWF l) (hc : Clean w u d l) (ha : ∀ D, a = .direct (some D) → D.WF ∧ Foreign w u D)
    (hM : ∀ D, RootDoc w l' a D → MetaFor w l D u) (e : CErr) (h : compile w σ fuel p a l = (.error (.err e), l')) :
    Rejected w l l' a e ∨ ∃ es D, e = .metaSchema es ∧ RootDoc w l' a D ∧ ¬ MetaValid w.env d D := by
  rcases compileG_err hw hf hookOK_meta hl (fun D e => (ha D e).1) h with g | ⟨D, l1, h1, h2, h3, h4, h5, h6, h7, ref, h8, h9⟩
  · exact .inl g
  · have c := (rootDocument_safe (σ := σ) (p := p) (ref := ref) (a := a) (clean_inv hw hm hk hA)
      (fun e => argOK_compile hw hm hA ha (e ▸ h8)) hm.root { l with factory := a.factory } hc).1
    rw [h9] at c
    have k := (validateMetaschema_safe (doc := D) (fuel := fuel) (p := p) (since_inv w l1 σ) id
      (fun _ _ _ _ _ _ => trivial) trivial trivial l1 (since_refl w l1)).1
    rw [h7] at k
    obtain ⟨new, el, _⟩ := k.log
    have hR := h2.mono k.keeps (by rw [el]; exact List.prefix_append _ _)
    rcases check_only hw hf hm hk hA hcan h4 c ((hM D hR).same h5) h7 with ⟨g1, g2⟩ | ⟨⟨es, g1⟩, g2⟩
    · exact .inl (.schema D e (by rw [← h5.1]; exact g1) (.inr hR) g2)
    · exact .inr ⟨es, D, g1, hR, g2⟩

/-- C59: a document without `$ref` that has the shape of its built-in meta-schema and where nothing is left
to complain about is not refused, `Validate` on or off. -/
theorem C59_accept (w : World) (hw : Lawful w) (hf : FmtOK w.env.fmtF64) (h0 : w.norm "#" = some "")
    (hre : ∀ t, w.env.isFormat "regex" (.str t) = true → w.env.reOk t = true) (u : String) (d : Draft) (hm : MetaWorld w u)
    (hk : Known u d) (hA : Apart w u) (hcan : ∀ r, w.base r = u → w.canonical r = true) (σ : Sched) (fuel : Fuel) (p : Path)
    (l : LState) (hl : PoolWF l) (hc : Clean w u d l) (D : Json) (hD : D.WF) (hF : Foreign w u D) (hn : NoRef D)
    (hM : MetaFor w l D u) (hs : l.autoDetect = true → SchemaRead w D) (hp : Free w l D)
    (hV : MetaValid w.env d D) (hL : Everywhere d (Leftover w d) D) (e : CErr) :
    (compile w σ fuel p (.direct (some D)) l).1 ≠ .error (.err e) := by
  intro h
  have hd : Numbered d := by
    rcases hk with ⟨_, rfl⟩ | ⟨_, rfl⟩ | ⟨_, rfl⟩
    · exact .inl rfl
    · exact .inr (.inl rfl)
    · exact .inr (.inr rfl)
  have ref : (LoaderArg.direct (some D)).ref w = some "" := h0
  have root : ∀ {l' D'}, RootDoc w l' (.direct (some D)) D' → D' = D := by
    rintro l' D' ⟨ref', h1, ⟨h2, _⟩ | ⟨_, D0, h3, h4⟩⟩
    · rw [ref] at h1; cases h1; exact absurd rfl h2
    · cases h3; exact rw_noRef h4 hn
  rcases C59_compile w hw hf u d hm hk hA hcan σ fuel p _ l _ hl hc (fun D' e => by cases e; exact ⟨hD, hF⟩)
    (fun D' h => by rw [root h]; exact hM) e (Prod.ext h rfl) with g | ⟨es, D', _, h2, h3⟩
  · refine C57_wellFormed w h0 hm.inherits l _ D hp hn hs ?_ e g
    rw [draftFor_meta hk hM]
    exact ((C59_document w hf hre d hd D hD).1 ⟨hV, hL⟩).1
  · rw [root h2] at h3; exact h3 hV

/-- C59, the converse: what `Compile` accepts with `Validate` on has the shape of its meta-schema and leaves
nothing to complain about. -/
theorem C59_accepted (w : World) (hw : Lawful w) (hf : FmtOK w.env.fmtF64) (h0 : w.norm "#" = some "") (u : String) (d : Draft)
    (hm : MetaWorld w u) (hk : Known u d) (hA : Apart w u) (σ : Sched) (fuel : Fuel) (p : Path) (l l' : LState) (s : Schema)
    (hl : PoolWF l) (hc : Clean w u d l) (hv : l.validate = true) (D : Json) (hD : D.WF) (hF : Foreign w u D) (hn : NoRef D)
    (hM : MetaFor w l D u) (hsz : D.size ≤ fuel.parse + 1) (h : compile w σ fuel p (.direct (some D)) l = (.ok s, l')) :
    MetaValid w.env d D ∧ Everywhere d (Leftover w d) D := by
  have ref : (LoaderArg.direct (some D)).ref w = some "" := h0
  obtain ⟨D', n, h1, h2, h3, h4⟩ := C55_compile w hw u d hm hk hA hf σ fuel p _ l l' s hl hc hv
    (fun D' e => by cases e; exact ⟨hD, hF⟩) h
  have : D' = D := by
    obtain ⟨ref', h1, ⟨h2, _⟩ | ⟨_, D0, h3, h4⟩⟩ := h1
    · rw [ref] at h1; cases h1; exact absurd rfl h2
    · cases h3; exact rw_noRef h4 hn
  subst this
  have hV := h4 hM
  have hW := C15_never_malformed w h0 hm.inherits hf σ fuel p D' l l' s hD hn hsz h
  rw [draftFor_meta hk hM] at hW
  exact ⟨hV, leftover_everywhere hW⟩

/-! ### Witnesses -/

namespace Demo
/-- Documents with the shape of the meta-schema that the compiler refuses. -/
def crossed : Json := .obj [("$schema", .str u7), ("minLength", int 2), ("maxLength", int 1)]
@[inherit_doc crossed] def fractional : Json := .obj [("$schema", .str u7), ("minItems", int 0), ("maxItems", .num ⟨false, 1, [0], none⟩)]
/-- A document that the compiler takes and the meta-schema does not. -/
def noChoice : Json := .obj [("$schema", .str u7), ("enum", .arr [])]
/-- The two kinds of errors of the documents above, with their arguments. -/
def errorOf : Except Fail α × LState → Option (String × String × String)
  | (.error (.err (.cannotBeGT x y)), _) => some ("cannotBeGT", x, y)
  | (.error (.err (.mustBeOfAn x y)), _) => some ("mustBeOfAn", x, y)
  | _ => none
theorem ok_of {x : Except Fail α × LState} (h : x.1.isOk = true) : ∃ s l', x = (.ok s, l') := by
  obtain ⟨r, l⟩ := x
  cases r with
  | error e => cases h
  | ok s => exact ⟨s, l, rfl⟩
/-- A document with both shapes. -/
def plain : Json := .obj [("$schema", .str u7), ("minLength", int 1), ("maxLength", int 2)]

/-- A document with two sizes has the shape of the meta-schema of draft 7. -/
theorem sized_shape {k k' : String} (hk : k ∈ sizeKeywords) (hk' : k' ∈ sizeKeywords) {a b : NumLit} {x y : Nat} (ha : a.val = x)
    (hb : b.val = y) : MetaValid env Draft7 (.obj [("$schema", .str u7), (k, .num a), (k', .num b)]) := by
  have kw : ∀ {key v}, Kw [("$schema", .str u7), (k, .num a), (k', .num b)] key v →
      (key = "$schema" ∧ v = .str u7) ∨ (key ∈ sizeKeywords ∧ ∃ n, v = .num n ∧ ∃ z : Nat, n.val = z) := by
    intro key v h
    have := lookup_some_mem h
    simp only [List.mem_cons, Prod.mk.injEq, List.not_mem_nil, or_false] at this
    rcases this with h | ⟨rfl, rfl⟩ | ⟨rfl, rfl⟩
    · exact .inl h
    · exact .inr ⟨hk, _, rfl, x, ha⟩
    · exact .inr ⟨hk', _, rfl, y, hb⟩
  have no : ∀ (ks : List String) {key v}, Kw [("$schema", .str u7), (k, .num a), (k', .num b)] key v → key ∈ ks →
      (∀ x ∈ ks, x ≠ "$schema" ∧ x ∉ sizeKeywords) → False := by
    intro ks key v h h1 h2
    rcases kw h with h | h
    · exact (h2 _ h1).1 h.1
    · exact (h2 _ h1).2 h.1
  refine .obj _ ?_ ?_ ?_
  · constructor
    case sizes =>
      intro key hkey v hv
      rcases kw hv with ⟨rfl, rfl⟩ | ⟨_, n, rfl, z, hz⟩
      · simp at hkey
      · exact ⟨_, rfl, rfl, z, hz⟩
    case exclusive4 => intro h; exact absurd h (by decide)
    case texts =>
      intro key hkey v hv
      rcases kw hv with ⟨rfl, rfl⟩ | ⟨h, _⟩
      · exact ⟨_, rfl⟩
      · exfalso; clear hv; revert key; decide
    all_goals
      intros
      first
        | exact rfl
        | exact (no _ ‹Kw _ _ _› ‹_ ∈ _› (by decide)).elim
        | exact (no [_] ‹Kw _ _ _› (List.mem_singleton.2 rfl) (by decide)).elim
  · intro ds k D h
    rcases kw h with h | h <;> exact absurd h.1 (by decide)
  · intro D h
    cases h <;> (rcases kw ‹Kw _ _ _› with h | h <;> exact absurd h.1 (by decide))
end Demo

open Demo

/-- C59, neither implies the other: documents with the shape of the meta-schema that `Compile` refuses for another
reason, and a document that it takes with `Validate` off and not with `Validate` on. -/
theorem C59_gap : (MetaValid env Draft7 crossed ∧
      errorOf (compile (webWorld []) .id ⟨200, 200⟩ [] (.direct (some crossed)) knowing) = some ("cannotBeGT", "minLength", "maxLength")) ∧
    (MetaValid env Draft7 fractional ∧
      errorOf (compile (webWorld []) .id ⟨200, 200⟩ [] (.direct (some fractional)) knowing) = some ("mustBeOfAn", "maxItems", "integer")) ∧
    ¬ MetaValid env Draft7 noChoice ∧
    refused (compile (webWorld []) .id ⟨200, 200⟩ [] (.direct (some noChoice)) knowing) = true ∧
    (compile (webWorld []) .id ⟨200, 200⟩ [] (.direct (some noChoice)) newSchemaLoader).1.isOk = true := by
  refine ⟨⟨sized_shape (x := 2) (y := 1) (by decide) (by decide) (by decide +kernel) (by decide +kernel), by decide +kernel⟩,
    ⟨sized_shape (x := 0) (y := 1) (by decide) (by decide) (by decide +kernel) (by decide +kernel), by decide +kernel⟩, ?_,
    by decide +kernel, by decide +kernel⟩
  intro h
  cases h with
  | obj m h =>
    obtain ⟨cs, h1, h2, _⟩ := h.enum (.arr []) rfl
    cases h1
    exact h2 rfl

-- the hypotheses of the theorems can be met
example : ∀ r, (webWorld []).base r = u7 → (webWorld []).canonical r = true := by
  intro r h
  have h : baseOf r = u7 := h
  show (baseOf r != "") = true
  rw [h]; decide
example : Free (webWorld []) knowing shaped := ⟨by decide +kernel, by intro m t u k h1 h2; cases h1; cases h2⟩
example : NoRef shaped := noRef_of _ (by decide +kernel)
example : SchemaRead (webWorld []) shaped := by
  intro m v h1 h2; cases h1; cases h2; exact ⟨_, rfl, by decide +kernel⟩
example : MetaValid env Draft7 plain ∧ Everywhere Draft7 (Leftover (webWorld []) Draft7) plain := by
  obtain ⟨s, l', h⟩ := ok_of (x := compile (webWorld []) .id ⟨200, 200⟩ [] (.direct (some plain)) knowing) (by decide +kernel)
  refine C59_accepted (webWorld []) (webWorld_lawful (by intro k d h; cases h)) Demo.fmtOK (by decide) u7 Draft7 (webWorld_meta [] known7)
    known7 (webWorld_apart (by intro k D h; cases h)) .id ⟨200, 200⟩ [] knowing _ _ ?_ knowing_clean rfl plain
    (wf_of _ (by decide +kernel)) (by intro b _ k h; simp [plain, int, idsIn, idsInM, absId, idOf, getKey, List.lookup] at h)
    (noRef_of _ (by decide +kernel)) (.declared _ _ _ rfl rfl rfl rfl (by decide)) (by decide +kernel) h
  intro k e h
  have := lookup_some_mem h
  simp only [knowing, List.mem_singleton, Prod.mk.injEq] at this
  rw [this.2]
  exact wf_of _ (by decide +kernel)

end GJS

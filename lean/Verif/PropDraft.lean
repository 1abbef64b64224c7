import Verif.LemDraft
import Verif.PropNumber
/-
Drafts and references: C19, C21, C40, and the meaning of documents without references.
-/
namespace GJS
open Spec

/-! ### Documents without references -/

/-- C01 for documents without `$ref`: the verdict is what the keyword rules say, unfolded often
enough; nothing else in the loader or the outside world plays a role. -/
theorem C01_noRef (w : World) (l : LState) (hw : Setting w l) (D : Json) (hD : D.WF) (hn : NoRef D) (v : Json) (b : Bool)
    (h : Gives w l D v b) :
    ∃ n0, ∀ n, n0 ≤ n → ∀ (resolve : String → Option (Draft × Json)) (P : Draft → Json → Json → Prop),
      b = true ↔ docUnfold w.env resolve P n (draftFor w l D) D v := by
  obtain ⟨σ, fuel, p, s, l', σ', n0, r, hc, hv, rfl⟩ := h
  obtain ⟨D', resolve, ⟨ref, e, hroot⟩, _, _, h4⟩ := C01_verdict w hw.lawful σ fuel p _ l l' s hw.pool
    (fun D h => by cases h; exact hD) hc
  simp only [LoaderArg.ref, hw.root] at e
  cases e
  rcases hroot with ⟨h, _⟩ | ⟨_, D0, h2, h3⟩
  · exact absurd rfl h
  cases h2
  cases rw_noRef h3 hn
  refine ⟨n0, fun n hle resolve' P => ?_⟩
  obtain ⟨r', hr', _, _, e⟩ := C03_order_independent _ σ' σ' _ _ _ hle _ _ _ hv
  rw [e, (h4 σ' n v r' hr').2 P]
  exact docUnfold_noRef n _ _ hn v

/-- C01 for documents without `$ref`: two loaders in whatever state that read the document under
the same draft give the same verdict. -/
theorem C01_noRef_same (w w' : World) (l l' : LState) (hw : Setting w l) (hw' : Setting w' l') (he : w.env = w'.env)
    (D : Json) (hD : D.WF) (hn : NoRef D) (hd : draftFor w l D = draftFor w' l' D) (v : Json) (b b' : Bool)
    (h : Gives w l D v b) (h' : Gives w' l' D v b') : b = b' := by
  obtain ⟨n1, h1⟩ := C01_noRef w l hw D hD hn v b h
  obtain ⟨n2, h2⟩ := C01_noRef w' l' hw' D hD hn v b' h'
  rw [Bool.eq_iff_iff, h1 _ (Nat.le_max_left n1 n2) (fun _ => none) (fun _ _ _ => True),
    h2 _ (Nat.le_max_right n1 n2) (fun _ => none) (fun _ _ _ => True), he, hd]

/-! ### C19 -/

theorem lt_absurd {a b : Draft} (h1 : a ≤ b) (h2 : b < a) : False := Int.not_le.2 h2 h1

theorem optOK_none {h : Heap} {d : Draft} {a m k o} (ho : OptOK h d (a ≤ d) m k o) (hd : d < a) : o = none := by
  rcases ho with ⟨h, _⟩ | ⟨h, _⟩
  · exact h
  · exact absurd hd (Int.not_lt.2 h)

/-- C19, every schema at every depth: below draft-06 no compiled schema is boolean or has `const`,
`contains` or `propertyNames`, and below draft-07 none has `if`, `then` or `else`, whatever the
document says. -/
theorem C19_compiled (w : World) (hw : Lawful w) (σ : Sched) (fuel : Fuel) (p : Path) (a : LoaderArg)
    (l l' : LState) (s : Schema) (hl : PoolWF l) (ha : ∀ D, a = .direct (some D) → D.WF)
    (hc : compile w σ fuel p a l = (.ok s, l')) (i : Id) (n : Sub) (hn : s.heap[i]? = some n) :
    (n.draft < Draft6 → n.pass = none ∧ n.const = none ∧ n.contains = none ∧ n.propertyNames = none) ∧
    (n.draft < Draft7 → n.if_ = none ∧ n.then_ = none ∧ n.else_ = none) := by
  obtain ⟨D, _, _, g⟩ := compile_good hw hl ha hc
  have fields : ∀ {m}, FieldsOK w s.heap n.draft m n →
      (n.draft < Draft6 → n.const = none ∧ n.contains = none ∧ n.propertyNames = none) ∧
      (n.draft < Draft7 → n.if_ = none ∧ n.then_ = none ∧ n.else_ = none) := by
    intro m F
    refine ⟨fun hd => ⟨?_, optOK_none F.contains hd, optOK_none F.propNames hd⟩,
      fun hd => ⟨optOK_none F.if_ hd, optOK_none F.then_ hd, optOK_none F.else_ hd⟩⟩
    rcases F.const with ⟨h, _⟩ | ⟨h, _⟩
    · exact h
    · exact absurd hd (Int.not_lt.2 h)
  cases g.nodes i n hn with
  | bool b hb hd =>
    refine ⟨fun h => absurd h (Int.not_lt.2 hd), fun _ => ?_⟩
    rw [hb]; exact ⟨rfl, rfl, rfl⟩
  | plain m _ _ _ hp F => exact ⟨fun h => ⟨hp, (fields F).1 h⟩, (fields F).2⟩
  | ref m r u j _ _ _ _ _ hp F =>
    rcases F with F | F
    · exact ⟨fun h => ⟨hp, (fields F).1 h⟩, (fields F).2⟩
    · rw [F]; exact ⟨fun _ => ⟨rfl, rfl, rfl, rfl⟩, fun _ => ⟨rfl, rfl, rfl⟩⟩

/-- C19: no boolean stands for a schema below draft-06, neither in the document nor in what it
refers to; so a document with a boolean schema is rejected there. -/
theorem C19_boolean (w : World) (hw : Lawful w) (σ : Sched) (fuel : Fuel) (p : Path) (a : LoaderArg)
    (l l' : LState) (s : Schema) (hl : PoolWF l) (ha : ∀ D, a = .direct (some D) → D.WF)
    (hc : compile w σ fuel p a l = (.ok s, l')) :
    ∃ D resolve, RootDoc w l' a D ∧
      (∀ t d' D', resolve t = some (d', D') → ∃ u, w.norm t = some u ∧
        ReadAs w l' (draftFor w l D) D u d' D') ∧
      (∀ d' m t, Used resolve (draftFor w l D) D d' (.obj m) → Kw m "$ref" (.str t) → resolve t ≠ none) ∧
      ∀ d' b, Used resolve (draftFor w l D) D d' (.bool b) → Draft6 ≤ d' := by
  obtain ⟨D, h1, _, g⟩ := compile_good hw hl ha hc
  refine ⟨D, resolveIn w s.heap s.refs, h1, fun t d' D' h => g.resolve h, ?_, ?_⟩
  · intro d' m t hu hk hn
    obtain ⟨i, hi⟩ := g.used hu
    obtain ⟨d2, D2, _, h2, _⟩ := g.ref hi hk
    rw [hn] at h2; cases h2
  · intro d' b hu
    obtain ⟨i, n, hi, rfl, hdoc⟩ := g.used hu
    cases g.nodes i n hi with
    | bool _ _ hd => exact hd
    | plain m e => rw [e] at hdoc; cases hdoc
    | ref m _ _ _ e => rw [e] at hdoc; cases hdoc

/-- C19: a document that is a boolean is rejected under draft-04. -/
theorem C19_boolean_root (w : World) (l : LState) (hw : Setting w l) (hd : l.draft < Draft6) (b : Bool) (σ : Sched)
    (fuel : Fuel) (p : Path) (s : Schema) (l' : LState) :
    compile w σ fuel p (.direct (some (.bool b))) l ≠ (.ok s, l') := by
  intro hc
  obtain ⟨D, resolve, ⟨ref, e, hroot⟩, _, _, h⟩ := C19_boolean w hw.lawful σ fuel p _ l l' s hw.pool
    (fun D h => by cases h; exact .bool b) hc
  simp only [LoaderArg.ref, hw.root] at e
  cases e
  rcases hroot with ⟨h, _⟩ | ⟨_, D0, h2, h3⟩
  · exact absurd rfl h
  cases h2
  cases rwT_scalar h3 (.inl scalar_bool)
  have := h _ b .root
  have e : draftFor w l (.bool b) = l.draft := by unfold draftFor; split <;> rfl
  rw [e] at this
  exact lt_absurd this hd

/-- C19: a reference-free document with a boolean in schema position, directly in the root schema,
is rejected below draft-06. -/
theorem C19_boolean_sub (w : World) (l : LState) (hw : Setting w l) (m : List (String × Json)) (hm : (Json.obj m).WF)
    (hn : NoRef (.obj m)) (hd : draftFor w l (.obj m) < Draft6) (b : Bool)
    (hb : SubSchema (draftFor w l (.obj m)) m (.bool b)) (σ : Sched) (fuel : Fuel) (p : Path) (s : Schema) (l' : LState) :
    compile w σ fuel p (.direct (some (.obj m))) l ≠ (.ok s, l') := by
  intro hc
  obtain ⟨D, resolve, ⟨ref, e, hroot⟩, _, _, h⟩ := C19_boolean w hw.lawful σ fuel p _ l l' s hw.pool
    (fun D h => by cases h; exact hm) hc
  simp only [LoaderArg.ref, hw.root] at e
  cases e
  rcases hroot with ⟨h, _⟩ | ⟨_, D0, h2, h3⟩
  · exact absurd rfl h
  cases h2
  cases rw_noRef h3 hn
  exact lt_absurd (h _ b (.sub _ m _ .root (noRef_get hn rfl) hb)) hd

/-- C19: two reference-free documents that differ only in keywords the draft does not have give the
same verdict on every instance. -/
theorem C19_no_effect (w : World) (l l' : LState) (hw : Setting w l) (hw' : Setting w l') (m m' : List (String × Json))
    (hm : (Json.obj m).WF) (hm' : (Json.obj m').WF) (hn : NoRef (.obj m)) (hn' : NoRef (.obj m'))
    (hd : draftFor w l (.obj m) = draftFor w l' (.obj m'))
    (hk : ∀ k, ¬ Gated (draftFor w l (.obj m)) k → getKey k m = getKey k m') (v : Json) (b b' : Bool)
    (h : Gives w l (.obj m) v b) (h' : Gives w l' (.obj m') v b') : b = b' := by
  obtain ⟨n1, h1⟩ := C01_noRef w l hw _ hm hn v b h
  obtain ⟨n2, h2⟩ := C01_noRef w l' hw' _ hm' hn' v b' h'
  rw [Bool.eq_iff_iff, h1 (max n1 n2 + 1) (Nat.le_succ_of_le (Nat.le_max_left ..)) (fun _ => none) (fun _ _ _ => True),
    h2 (max n1 n2 + 1) (Nat.le_succ_of_le (Nat.le_max_right ..)) (fun _ => none) (fun _ _ _ => True), ← hd]
  simp only [docUnfold, DocRules, noRef_get hn rfl, noRef_get hn' rfl]
  exact dkeywords_gated hk

/-! ### C21 -/

/-- C21.  In every compiled schema, a schema object with `$ref` gives on every instance, in every
context, exactly the `Result` of a schema compiled from the document the reference stands for:
verdict, errors and score, whatever its other keywords are. -/
theorem C21_ref_result (w : World) (hw : Lawful w) (σ : Sched) (fuel : Fuel) (p : Path) (a : LoaderArg)
    (l l' : LState) (s : Schema) (hl : PoolWF l) (ha : ∀ D, a = .direct (some D) → D.WF)
    (hc : compile w σ fuel p a l = (.ok s, l')) (i : Id) (n : Sub) (hn : s.heap[i]? = some n)
    (m : List (String × Json)) (hm : n.doc = .obj m) (t : String) (ht : Kw m "$ref" (.str t)) :
    ∃ (j : Id) (n' : Sub) (u : String), s.heap[j]? = some n' ∧ w.norm t = some u ∧ Resolved w l' u n'.doc ∧
      ∀ σ' k q v c, validateRecursive w.env σ' s.heap (k + 1) q i v c = validateRecursive w.env σ' s.heap k (20 :: q) j v c := by
  obtain ⟨D, _, _, g⟩ := compile_good hw hl ha hc
  cases g.nodes i n hn with
  | bool b hb => rw [hb] at hm; cases hm
  | plain m' e1 e2 => rw [e1] at hm; cases hm; rw [Kw, e2] at ht; cases ht
  | ref m' r u j e1 e2 e3 e4 e5 e6 =>
    rw [e1] at hm; cases hm; rw [Kw, e2] at ht; cases ht
    obtain ⟨d, D', ⟨n', h1, h2, h3⟩, h4⟩ := g.refs u j e4
    refine ⟨j, n', u, h1, e3, h3 ▸ h4.resolved, ?_⟩
    intro σ' k q v c
    simp only [validateRecursive, validateStep, hn, e6, e5]

/-- C21, at the root: a document that is an object with `$ref` gives exactly the `Result` of the
schema the reference stands for. -/
theorem C21_root (w : World) (l : LState) (hw : Setting w l) (m : List (String × Json)) (hm : (Json.obj m).WF) (t : String)
    (ht : Kw m "$ref" (.str t)) (σ : Sched) (fuel : Fuel) (p : Path) (s : Schema) (l' : LState)
    (hc : compile w σ fuel p (.direct (some (.obj m))) l = (.ok s, l')) :
    ∃ (j : Id) (n' : Sub) (t' u : String), (t' = t ∨ (w.norm t).bind (w.inherits (scopeOf w "" m)) = some t') ∧
      s.heap[j]? = some n' ∧ w.norm t' = some u ∧ Resolved w l' u n'.doc ∧
      ∀ σ' k v, validateDocument w.env σ' s.heap (k + 1) s.root v =
        validateRecursive w.env σ' s.heap k [20] j v rootCtx := by
  obtain ⟨D, ⟨ref, e, hroot⟩, _, g⟩ := compile_good hw.lawful hw.pool (fun D h => by cases h; exact hm) hc
  simp only [LoaderArg.ref, hw.root] at e
  cases e
  rcases hroot with ⟨h, _⟩ | ⟨_, D0, h2, h3⟩
  · exact absurd rfl h
  cases h2
  have : ∃ m' t', D = .obj m' ∧ Kw m' "$ref" (.str t') ∧ (t' = t ∨ (w.norm t).bind (w.inherits (scopeOf w "" m)) = some t') := by
    rcases rw_member hm h3 ht with ⟨_, h⟩ | ⟨m', v', h4, h5, h6⟩
    · exact ⟨m, t, h, ht, .inl rfl⟩
    · obtain ⟨t', rfl, h⟩ : ∃ t', v' = .str t' ∧ (t' = t ∨ (w.norm t).bind (w.inherits (scopeOf w "" m)) = some t') := by
        generalize hk : "$ref" = k at h6
        generalize hv : Json.str t = v at h6
        cases h6 with
        | literal => exact ⟨t, hv.symm, .inl rfl⟩
        | ref _ t0 t' h => cases hv; exact ⟨t', rfl, .inr h⟩
        | badRef => exact ⟨t, hv.symm, .inl rfl⟩
        | map => cases hv
        | noMap => exact ⟨t, hv.symm, .inl rfl⟩
        | sub _ _ _ _ _ _ h => exact absurd hv.symm (h hk.symm t)
      exact ⟨m', t', h4, h5, h⟩
  obtain ⟨m', t', rfl, h4, h5⟩ := this
  obtain ⟨n, hi, _, hdoc⟩ := g.root
  obtain ⟨j, n', u, h6, h7, h8, h9⟩ := C21_ref_result w hw.lawful σ fuel p _ l l' s hw.pool
    (fun D h => by cases h; exact hm) hc _ n hi m' hdoc t' h4
  exact ⟨j, n', t', u, h5, h6, h7, h8, fun σ' k v => h9 σ' k [] v rootCtx⟩

/-! ### C40 -/

theorem find_draft (url : String) :
    (url = "http://json-schema.org/draft-04/schema" ∧ drafts.find? (fun c => c.metaSchemaURL == url) = some ⟨Draft4, url, metaSchema4⟩) ∨
    (url = "http://json-schema.org/draft-06/schema" ∧ drafts.find? (fun c => c.metaSchemaURL == url) = some ⟨Draft6, url, metaSchema6⟩) ∨
    (url = "http://json-schema.org/draft-07/schema" ∧ drafts.find? (fun c => c.metaSchemaURL == url) = some ⟨Draft7, url, metaSchema7⟩) ∨
    (url ≠ "http://json-schema.org/draft-04/schema" ∧ url ≠ "http://json-schema.org/draft-06/schema" ∧
      url ≠ "http://json-schema.org/draft-07/schema" ∧ drafts.find? (fun c => c.metaSchemaURL == url) = none) := by
  unfold drafts
  by_cases h4 : url = "http://json-schema.org/draft-04/schema"
  · subst h4; exact .inl ⟨rfl, by simp⟩
  by_cases h6 : url = "http://json-schema.org/draft-06/schema"
  · subst h6; exact .inr (.inl ⟨rfl, by simp⟩)
  by_cases h7 : url = "http://json-schema.org/draft-07/schema"
  · subst h7; exact .inr (.inr (.inl ⟨rfl, by simp⟩))
  refine .inr (.inr (.inr ⟨h4, h6, h7, ?_⟩))
  simp [Ne.symm h4, Ne.symm h6, Ne.symm h7]

/-- C40: exactly the URLs of the three drafts are recognised, each as its draft. -/
theorem C40_version (url : String) (d : Draft) : getDraftVersion url = some d ↔ Known url d := by
  unfold getDraftVersion Known
  rcases find_draft url with ⟨rfl, h⟩ | ⟨rfl, h⟩ | ⟨rfl, h⟩ | ⟨h4, h6, h7, h⟩ <;> rw [h]
  · simp [Draft4, eq_comm]
  · simp [Draft6, eq_comm]
  · simp [Draft7, eq_comm]
  · simp [h4, h6, h7]

/-- C40: exactly the URLs of the three drafts have an embedded meta-schema. -/
theorem C40_meta (url : String) : getMetaSchema url ≠ "" ↔ ∃ d, Known url d := by
  unfold getMetaSchema Known
  rcases find_draft url with ⟨rfl, h⟩ | ⟨rfl, h⟩ | ⟨rfl, h⟩ | ⟨h4, h6, h7, h⟩ <;> rw [h]
  · simp [metaSchema4]
  · simp [metaSchema6]
  · simp [metaSchema7]
  · simp [h4, h6, h7]

/-- C40: the table read the other way. -/
theorem C40_url (url : String) (d : Draft) : (getSchemaURL d = url ∧ url ≠ "") ↔ Known url d := by
  unfold getSchemaURL Known drafts Draft4 Draft6 Draft7
  by_cases h4 : d = 4
  · subst h4; simp; constructor
    · rintro ⟨rfl, _⟩; rfl
    · rintro rfl; simp
  by_cases h6 : d = 6
  · subst h6; simp; constructor
    · rintro ⟨rfl, _⟩; rfl
    · rintro rfl; simp
  by_cases h7 : d = 7
  · subst h7; simp; constructor
    · rintro ⟨rfl, _⟩; rfl
    · rintro rfl; simp
  simp [h4, h6, h7, Ne.symm h4, Ne.symm h6, Ne.symm h7]

/-- C40: the drafts of the table are different, so version and URL determine each other. -/
theorem C40_unique (url url' : String) (d d' : Draft) (h : Known url d) (h' : Known url' d') : url = url' ↔ d = d' := by
  unfold Known at h h'
  rcases h with ⟨rfl, rfl⟩ | ⟨rfl, rfl⟩ | ⟨rfl, rfl⟩ <;> rcases h' with ⟨rfl, rfl⟩ | ⟨rfl, rfl⟩ | ⟨rfl, rfl⟩ <;> simp

/-- C40: what `parseSchemaURL` reports for a document: a draft exactly if the normal form of its
`$schema` is a URL of the table. -/
theorem C40_detected {α : Type} (w : World) (D : Json) (st st' : α) (t : String) (o : Option Draft)
    (h : parseSchemaURL w D st = (.ok (t, o), st')) :
    (∀ d, o = some d ↔ ∃ m x u, D = .obj m ∧ Kw m "$schema" (.str x) ∧ w.norm x = some u ∧ Known u d) ∧
    ((∀ m, D = .obj m → "$schema" ∉ keysOf m) → o = none) := by
  have e : o = declaredDraft w D := parseSchemaURL_ok h
  subst e
  clear h
  have key : ∀ d, declaredDraft w D = some d ↔ ∃ m x u, D = .obj m ∧ Kw m "$schema" (.str x) ∧ w.norm x = some u ∧ Known u d := by
    intro d
    constructor
    · intro h
      unfold declaredDraft at h
      split at h
      · rename_i m
        split at h
        · rename_i x hx
          obtain ⟨u, h1, h2⟩ := Option.bind_eq_some_iff.1 h
          exact ⟨m, x, u, rfl, hx, h1, (C40_version u d).1 h2⟩
        · cases h
      · cases h
    · rintro ⟨m, x, u, rfl, h1, h2, h3⟩
      simp only [declaredDraft, show getKey "$schema" m = _ from h1, h2, Option.bind_some]
      exact (C40_version u d).2 h3
  refine ⟨key, fun hn => ?_⟩
  cases hd : declaredDraft w D with
  | none => rfl
  | some d =>
    obtain ⟨m, x, _, e, hk, _⟩ := (key d).1 hd
    exact absurd (List.mem_map.2 ⟨_, lookup_some_mem hk, rfl⟩) (hn m e)

/-! ### Examples -/

open Demo

-- C19: draft-04 ignores `const`, draft-06 does not; draft-06 ignores `if`, draft-07 does not
example : Gives (world []) (fixed Draft4) (.obj [("const", int 1)]) (int 2) true := gives_of (by decide +kernel)
example : Gives (world []) (fixed Draft6) (.obj [("const", int 1)]) (int 2) false := gives_of (by decide +kernel)
example : Gives (world []) (fixed Draft6) (.obj [("if", .bool true), ("then", .bool false)]) (int 2) true := gives_of (by decide +kernel)
example : Gives (world []) (fixed Draft7) (.obj [("if", .bool true), ("then", .bool false)]) (int 2) false := gives_of (by decide +kernel)
example : Gives (world []) (fixed Hybrid) (.obj [("if", .bool true), ("then", .bool false)]) (int 2) false := gives_of (by decide +kernel)
-- a boolean schema is rejected under draft-04 only
example : verdictFrom (fixed Draft4) (.obj [("not", .bool true)]) .null = none := by decide +kernel
example : Gives (world []) (fixed Draft6) (.obj [("not", .bool true)]) .null false := gives_of (by decide +kernel)
example : Gated Draft4 "const" ∧ Gated Draft6 "if" ∧ ¬ Gated Draft6 "const" ∧ ¬ Gated Hybrid "if" := by
  unfold Gated; decide
-- the exception of `C19_no_effect`: a reference may point into a keyword the draft does not have
example : Gives (world []) (fixed Draft4) (.obj [("const", .obj [("type", .str "string")]), ("not", .obj [("$ref", .str "#/const")])])
    (.str "") false := gives_of (by decide +kernel)
-- C21: siblings of `$ref` do not matter
example : Gives (world []) (fixed Draft7)
    (.obj [("definitions", .obj [("a", .obj [("type", .str "string")])]), ("$ref", .str "#/definitions/a"), ("maxLength", int 0)])
    (.str "abc") true := gives_of (by decide +kernel)
-- C40
example : getDraftVersion "http://json-schema.org/draft-06/schema" = some 6 := by decide

end GJS

import Verif.LemReturn
import Verif.LemReturnDoc
import Verif.CasesValidate
/-
C74: exactly when a validation comes back, and with which verdict.
-/
namespace GJS
open Spec

/-- C74.  `Validate` returns the verdict `b` exactly if there is an answer and it is `b`: every question that has to be
asked, in the order in which they are asked, has an answer.  (For instances whose numbers are in range, and compiled
schemas, all of which are `HeapOK`.) -/
theorem C74_answers (env : Env) (σ : Sched) (h : Heap) (hh : HeapOK h) (root : Id) (hroot : root < h.length) (v : Json)
    (hv : InRange env v) (b : Bool) :
    (∃ n r, validateDocument env σ h n root v = .ok r ∧ r.valid = b) ↔ Answers env h root v b := by
  constructor
  · rintro ⟨n, r, hr, rfl⟩
    exact answers_of_ok hr
  · intro ha
    obtain ⟨N, hN⟩ := ok_of_answers hh ha hroot hv
    obtain ⟨r, hr⟩ := hN N (Nat.le_refl _) σ [] rootCtx
    exact ⟨N, r, hr⟩

/-- C74: it never comes back exactly if there is no answer. -/
theorem C74_silent (env : Env) (σ : Sched) (h : Heap) (hh : HeapOK h) (root : Id) (hroot : root < h.length) (v : Json)
    (hv : InRange env v) :
    (∀ n, validateDocument env σ h n root v = .error .fuel) ↔ ∀ b, ¬ Answers env h root v b := by
  constructor
  · intro hn b ha
    obtain ⟨n, r, hr, _⟩ := (C74_answers env σ h hh root hroot v hv b).2 ha
    rw [hn n] at hr
    cases hr
  · intro hn n
    cases hx : validateDocument env σ h n root v with
    | ok r => exact absurd (answers_of_ok hx) (hn _)
    | error e =>
      cases e with
      | fuel => rfl
      | panic => exact absurd hx (no_panic hh n root v _ _ hroot hv)

/-- C74: with enough fuel it comes back whatever the order of map iteration, always with the same verdict. -/
theorem C74_order (env : Env) (h : Heap) (hh : HeapOK h) (root : Id) (hroot : root < h.length) (v : Json)
    (hv : InRange env v) (b : Bool) (ha : Answers env h root v b) :
    ∃ N, ∀ n, N ≤ n → ∀ σ : Sched, ∃ r, validateDocument env σ h n root v = .ok r ∧ r.valid = b := by
  obtain ⟨N, hN⟩ := ok_of_answers hh ha hroot hv
  exact ⟨N, fun n hn σ => hN n hn σ _ _⟩

/-- C74: there is at most one answer. -/
theorem C74_unique (env : Env) (h : Heap) (i : Id) (v : Json) (b b' : Bool) (ha : Answers env h i v b) (ha' : Answers env h i v b') :
    b = b' := by
  obtain ⟨N, hN⟩ := unfold_of_answers (fun _ _ => True) ha
  obtain ⟨M, hM⟩ := unfold_of_answers (fun _ _ => True) ha'
  rw [Bool.eq_iff_iff, ← hN (max N M) (by omega), ← hM (max N M) (by omega)]

/-- C74: where there is an answer, every meaning of the schema agrees with it. -/
theorem C74_meaning (env : Env) (h : Heap) (Sat : Id → Json → Prop) (hs : IsMeaning env h Sat) (i : Id) (v : Json) (b : Bool)
    (ha : Answers env h i v b) : Sat i v ↔ b = true := by
  induction ha with
  | pass i v s b h1 h2 => rw [hs]; simp [NodeRules, h1, h2]
  | ref i v s j b h1 h2 h3 _ ih => rw [hs, ← ih]; simp [NodeRules, h1, h2, h3]
  | type i v s h1 h2 h3 h4 => rw [hs]; simp [NodeRules, Keywords, h1, h2, h3, h4]
  | node i v s b d h1 h2 h3 h4 _ h5 ih =>
    rw [hs, h5, keywords_needs fun j w hn => (ih j w hn).symm]
    simp [NodeRules, h1, h2, h3, h4]

/-- C74: an endless chain of questions, each of which has to be asked to answer the one before, has no answer. -/
theorem C74_loop (env : Env) (h : Heap) (f : Nat → Id × Json)
    (hf : ∀ k, MustAsk env h (f k).1 (f k).2 (f (k + 1)).1 (f (k + 1)).2) (b : Bool) : ¬ Answers env h (f 0).1 (f 0).2 b := by
  have key : ∀ i v b, Answers env h i v b → ∀ k, (f k) ≠ (i, v) := by
    intro i v b ha
    induction ha with
    | pass i v s b h1 h2 =>
      intro k hk
      obtain ⟨s', a1, a2, _⟩ := hf k
      simp_all
    | ref i v s j b h1 h2 h3 _ ih =>
      intro k hk
      obtain ⟨s', a1, a2, ⟨a3, a4⟩ | ⟨a3, _⟩⟩ := hf k
      · rw [hk] at a1 a4
        rw [h1] at a1; cases a1
        rw [h3] at a3
        refine ih (k + 1) (Prod.ext (Option.some.inj a3).symm a4)
      · simp_all
    | type i v s h1 h2 h3 h4 =>
      intro k hk
      obtain ⟨s', a1, a2, ⟨a3, a4⟩ | ⟨a3, a4, _⟩⟩ := hf k
      · simp_all
      · simp_all
    | node i v s b d h1 h2 h3 h4 _ h5 ih =>
      intro k hk
      obtain ⟨s', a1, a2, ⟨a3, a4⟩ | ⟨a3, a4, a5⟩⟩ := hf k
      · simp_all
      · rw [hk] at a1 a5
        rw [h1] at a1; cases a1
        exact ih _ _ (a5 _) (k + 1) rfl
  intro ha
  exact key _ _ _ ha 0 rfl

/-- C74: a reachable endless chain means that `Validate` never comes back. -/
theorem C74_never (env : Env) (σ : Sched) (h : Heap) (hh : HeapOK h) (f : Nat → Id × Json)
    (hf : ∀ k, MustAsk env h (f k).1 (f k).2 (f (k + 1)).1 (f (k + 1)).2) (hroot : (f 0).1 < h.length) (hv : InRange env (f 0).2) (n : Nat) :
    validateDocument env σ h n (f 0).1 (f 0).2 = .error .fuel :=
  (C74_silent env σ h hh _ hroot _ hv).2 (C74_loop env h f hf) n

/-- C74, end to end: on a compiled schema, `Validate` returns `b` exactly if that is the answer, and never comes back
exactly if there is none. -/
theorem C74_compiled (w : World) (hw : Lawful w) (σ : Sched) (fuel : Fuel) (p : Path) (a : LoaderArg) (l l' : LState) (s : Schema)
    (hl : PoolWF l) (ha : ∀ D, a = .direct (some D) → D.WF) (hc : compile w σ fuel p a l = (.ok s, l')) (σ' : Sched) (v : Json)
    (hv : InRange w.env v) :
    (∀ b, (∃ n r, validateDocument w.env σ' s.heap n s.root v = .ok r ∧ r.valid = b) ↔ Answers w.env s.heap s.root v b) ∧
    ((∀ n, validateDocument w.env σ' s.heap n s.root v = .error .fuel) ↔ ∀ b, ¬ Answers w.env s.heap s.root v b) := by
  obtain ⟨D, _, _, g⟩ := compile_good hw hl ha hc
  exact ⟨C74_answers w.env σ' s.heap g.heapOK s.root g.root.lt v hv, C74_silent w.env σ' s.heap g.heapOK s.root g.root.lt v hv⟩

/-- C74, told from the documents: there are the document `D` the loader argument stands for and a reading `resolve` of its
`$ref` texts as in `C01_verdict`, such that `Validate` returns `b` exactly if that is the answer of `D`, and never comes
back exactly if `D` has none. -/
theorem C74_document (w : World) (hw : Lawful w) (σ : Sched) (fuel : Fuel) (p : Path) (a : LoaderArg) (l l' : LState) (s : Schema)
    (hl : PoolWF l) (ha : ∀ D, a = .direct (some D) → D.WF) (hc : compile w σ fuel p a l = (.ok s, l')) :
    ∃ (D : Json) (resolve : String → Option (Draft × Json)),
      RootDoc w l' a D ∧
      (∀ t d' D', resolve t = some (d', D') → ∃ u, w.norm t = some u ∧ ReadAs w l' (draftFor w l D) D u d' D') ∧
      (∀ d' m t, Used resolve (draftFor w l D) D d' (.obj m) → Kw m "$ref" (.str t) → resolve t ≠ none) ∧
      ∀ (σ' : Sched) (v : Json), InRange w.env v →
        (∀ b, (∃ n r, validateDocument w.env σ' s.heap n s.root v = .ok r ∧ r.valid = b) ↔
          DocAnswers w.env resolve (draftFor w l D) D v b) ∧
        ((∀ n, validateDocument w.env σ' s.heap n s.root v = .error .fuel) ↔
          ∀ b, ¬ DocAnswers w.env resolve (draftFor w l D) D v b) := by
  obtain ⟨D, h1, _, g⟩ := compile_good hw hl ha hc
  refine ⟨D, resolveIn w s.heap s.refs, h1, fun t d' D' h => g.resolve h, ?_, ?_⟩
  · intro d' m t hu hk hn
    obtain ⟨i, hi⟩ := g.used hu
    obtain ⟨d2, D2, _, h2, _⟩ := g.ref hi hk
    rw [hn] at h2; cases h2
  · intro σ' v hv
    have key : ∀ b, Answers w.env s.heap s.root v b ↔ DocAnswers w.env (resolveIn w s.heap s.refs) (draftFor w l D) D v b :=
      fun b => ⟨fun h => g.doc_of_answers h g.root, fun h => g.answers_of_doc h g.root⟩
    constructor
    · intro b
      rw [← key]
      exact C74_answers w.env σ' s.heap g.heapOK s.root g.root.lt v hv b
    · simp only [← key]
      exact C74_silent w.env σ' s.heap g.heapOK s.root g.root.lt v hv

/-- C74: an endless chain of documents, each of which has to be asked to answer the one before, has no answer. -/
theorem C74_document_loop (env : Env) (resolve : String → Option (Draft × Json)) (f : Nat → Draft × Json × Json)
    (hf : ∀ k, DMustAsk env resolve (f k) (f (k + 1))) (b : Bool) : ¬ DocAnswers env resolve (f 0).1 (f 0).2.1 (f 0).2.2 b := by
  have key : ∀ d D v b, DocAnswers env resolve d D v b → ∀ k, f k ≠ (d, D, v) := by
    intro d D v b ha
    induction ha with
    | bool d b v =>
      intro k hk
      have := hf k
      rw [hk] at this
      cases this
    | ref d m r d' D' v b h1 h2 _ ih =>
      intro k hk
      have := hf k
      rw [hk] at this
      generalize e : f (k + 1) = q at this
      cases this with
      | ref _ _ r' d2 D2 _ a1 a2 =>
        rw [Kw, h1] at a1; cases a1
        rw [h2] at a2; cases a2
        exact ih (k + 1) e
      | sub _ _ _ _ _ a1 => exact absurd h1 (a1 r)
    | type d m v h1 h2 =>
      intro k hk
      have := hf k
      rw [hk] at this
      generalize e : f (k + 1) = q at this
      cases this with
      | ref _ _ r' d2 D2 _ a1 a2 => exact absurd a1 (h1 _)
      | sub _ _ _ _ _ _ a2 => exact absurd a2 h2
    | object d m v b a h1 h2 _ h4 ih =>
      intro k hk
      have := hf k
      rw [hk] at this
      generalize e : f (k + 1) = q at this
      cases this with
      | ref _ _ r' d2 D2 _ a1 a2 => exact absurd a1 (h1 _)
      | sub _ _ _ D w _ a2 a3 => exact ih D w (a3 _) (k + 1) e
  exact fun ha => key _ _ _ _ ha 0 rfl

namespace Demo

/-- The schema itself, or else anything. -/
def selfFirst : Json := .obj [("anyOf", .arr [.obj [("$ref", .str "#")], .obj []])]
/-- Anything, or else the schema itself. -/
def selfLast : Json := .obj [("anyOf", .arr [.obj [], .obj [("$ref", .str "#")]])]
/-- A string that is what the schema says. -/
def selfText : Json := .obj [("type", .str "string"), ("allOf", .arr [.obj [("$ref", .str "#")]])]

theorem selfFirst_compiles : okB (compile (world []) Sched.id ⟨20, 20⟩ [] (.direct (some selfFirst)) (fixed Draft7)) = true := by
  decide +kernel
theorem selfLast_compiles : okB (compile (world []) Sched.id ⟨20, 20⟩ [] (.direct (some selfLast)) (fixed Draft7)) = true := by
  decide +kernel
theorem selfText_compiles : okB (compile (world []) Sched.id ⟨20, 20⟩ [] (.direct (some selfText)) (fixed Draft7)) = true := by
  decide +kernel

/-- What a node asks first. -/
def opening (h : Heap) (i : Nat) : Option (Option Bool × Option Id × List String × List Id × List Id) :=
  h[i]?.map fun s => (s.pass, s.refSchema, s.types, s.anyOf, s.allOf)

theorem opening_node {h : Heap} {i a b c d e} (hq : opening h i = some (a, b, c, d, e)) :
    ∃ s, h[i]? = some s ∧ s.pass = a ∧ s.refSchema = b ∧ s.types = c ∧ s.anyOf = d ∧ s.allOf = e := by
  unfold opening at hq
  cases hi : h[i]? with
  | none => simp [hi] at hq
  | some s => simp [hi] at hq; exact ⟨s, rfl, hq⟩

/-- Node 0 asks node 1, that asks node 2, and nodes 2 and 3 ask each other. -/
def round : Nat → Id
  | 0 => 0
  | 1 => 1
  | k + 2 => if k % 2 = 0 then 2 else 3

theorem round_asks {env : Env} {h : Heap} {v : Json} (h0 : MustAsk env h 0 v 1 v) (h1 : MustAsk env h 1 v 2 v)
    (h2 : MustAsk env h 2 v 3 v) (h3 : MustAsk env h 3 v 2 v) (k : Nat) : MustAsk env h (round k) v (round (k + 1)) v := by
  match k with
  | 0 => exact h0
  | 1 => exact h1
  | k + 2 =>
    rcases Nat.mod_two_eq_zero_or_one k with e | e
    · rw [show round (k + 2) = 2 by simp [round, e], show round (k + 2 + 1) = 3 by simp [round]; omega]; exact h2
    · rw [show round (k + 2) = 3 by simp [round, e], show round (k + 2 + 1) = 2 by simp [round]; omega]; exact h3

/-- The first alternative has to be asked. -/
theorem asks_first {env : Env} {h : Heap} {i j v d e} (hq : opening h i = some (none, none, [], j :: d, e)) : MustAsk env h i v j v := by
  obtain ⟨s, h1, h2, h3, h4, h5, _⟩ := opening_node hq
  exact ⟨s, h1, h2, .inr ⟨h3, .inl h4, fun _ => .anyOf 0 _ _ (by simp [h5]) (by simp)⟩⟩

/-- All of `allOf` has to be asked, once the type fits. -/
theorem asks_all {env : Env} {h : Heap} {i j v t d e} (hq : opening h i = some (none, none, [t], d, j :: e)) (ht : HasType env v t) :
    MustAsk env h i v j v := by
  obtain ⟨s, h1, h2, h3, h4, h5, h6⟩ := opening_node hq
  exact ⟨s, h1, h2, .inr ⟨h3, .inr ⟨t, by simp [h4], ht⟩, fun _ => .allOf _ _ (by simp [h6])⟩⟩

/-- The target of a `$ref` has to be asked. -/
theorem asks_ref {env : Env} {h : Heap} {i j v c d e} (hq : opening h i = some (none, some j, c, d, e)) : MustAsk env h i v j v := by
  obtain ⟨s, h1, h2, h3, _⟩ := opening_node hq
  exact ⟨s, h1, h2, .inl ⟨h3, rfl⟩⟩

/-- No keyword but `anyOf`. -/
def bareB (s : Sub) : Bool :=
  s.pass.isNone && s.types.isEmpty && s.refSchema.isNone && s.itemsChildren.isEmpty && !s.itemsChildrenIsSingleSchema &&
  s.propertiesChildren.isEmpty && s.multipleOf.isNone && s.maximum.isNone && s.exclusiveMaximum.isNone && s.minimum.isNone &&
  s.exclusiveMinimum.isNone && s.minLength.isNone && s.maxLength.isNone && s.pattern.isNone && s.format == "" &&
  s.minProperties.isNone && s.maxProperties.isNone && s.required.isEmpty && s.dependencies.isEmpty &&
  (match s.additionalProperties with | .absent => true | _ => false) && s.patternProperties.isEmpty && s.propertyNames.isNone &&
  s.minItems.isNone && s.maxItems.isNone && !s.uniqueItems && s.contains.isNone &&
  (match s.additionalItems with | .absent => true | _ => false) && s.const.isNone && s.enum.isEmpty && s.oneOf.isEmpty &&
  s.allOf.isEmpty && s.not.isNone && s.if_.isNone && s.then_.isNone && s.else_.isNone

theorem bare_eq {s : Sub} (h : bareB s = true) : s = { doc := s.doc, draft := s.draft, anyOf := s.anyOf } := by
  have extra : ∀ e : Extra, (match e with | .absent => true | _ => false) = true → e = .absent := by
    intro e he; cases e <;> first | rfl | cases he
  simp only [bareB, Bool.and_eq_true, Option.isNone_iff_eq_none, List.isEmpty_iff, Bool.not_eq_true', beq_iff_eq] at h
  obtain ⟨⟨⟨⟨⟨⟨⟨⟨⟨⟨⟨⟨⟨⟨⟨⟨⟨⟨⟨⟨⟨⟨⟨⟨⟨⟨⟨⟨⟨⟨⟨⟨⟨⟨a1, a2⟩, a3⟩, a4⟩, a5⟩, a6⟩, a7⟩, a8⟩, a9⟩, b1⟩, b2⟩, b3⟩, b4⟩, b5⟩, b6⟩, b7⟩, b8⟩, b9⟩, c1⟩, c2⟩, c3⟩, c4⟩, c5⟩, c6⟩, c7⟩, c8⟩, c9⟩, d1⟩, d2⟩, d3⟩, d4⟩, d5⟩, d6⟩, d7⟩, d8⟩ := h
  have c2 := extra _ c2
  have c9 := extra _ c9
  cases s
  simp_all

/-- Such a node keeps the rules if `anyOf` does. -/
theorem bare_rules {env : Env} {Sat : Id → Json → Prop} {doc draft any} {v : Json} (h : AnyOfRule Sat any v) :
    Keywords env Sat { doc := doc, draft := draft, anyOf := any } v := by
  refine ⟨.inl rfl, h, .inl rfl, by simp [AllOfRule], by simp [NotRule], by simp [DependenciesRule, getKey], by simp [IfRule],
    by simp [ConstRule], .inl rfl, .inl rfl, ?_, ?_, by simp [StringRules, SizeRule], by simp [NumberRules]⟩
  · simp [ArrayRules, ItemsRule, SizeRule, UniqueRule, ContainsRule]
  · simp [ObjectRules, SizeRule, RequiredRule, PropertiesRule, PatternRule, AdditionalRule, ExtraRule, PropertyNamesRule]

/-- Such a node asks only the alternatives. -/
theorem bare_needs {env : Env} {Sat : Id → Json → Prop} {doc draft any j w} {v : Json}
    (h : Needs env Sat { doc := doc, draft := draft, anyOf := any } v j w) :
    w = v ∧ ∃ k : Nat, any[k]? = some j ∧ ∀ (k' : Nat) i', k' < k → any[k']? = some i' → ¬ Sat i' v := by
  cases h with
  | anyOf k i v h1 h2 => exact ⟨rfl, k, h1, h2⟩
  | _ => simp_all [getKey]

end Demo
open Demo

/-- C74, the order of `anyOf` matters for coming back at all: no validation against
`{"anyOf": [{"$ref": "#"}, {}]}` ever returns, ... -/
theorem C74_first_never (σ : Sched) (n : Nat) (v : Json) (hv : InRange (world []).env v) :
    validateDocument (world []).env σ (outOf _ selfFirst_compiles).heap n (outOf _ selfFirst_compiles).root v = .error .fuel := by
  refine ((C74_compiled _ lawful0 _ _ _ _ _ _ _ pool0 (direct_wf (by decide +kernel)) (out_eq selfFirst_compiles) σ v hv).2).2
    (fun b => ?_) n
  rw [show (outOf _ selfFirst_compiles).root = 0 by decide +kernel]
  refine C74_loop _ _ (fun k => (round k, v)) (round_asks ?_ ?_ ?_ ?_) b
  · exact asks_first (j := 1) (d := [5]) (e := []) (by decide +kernel)
  · exact asks_ref (j := 2) (c := []) (d := []) (e := []) (by decide +kernel)
  · exact asks_first (j := 3) (d := [4]) (e := []) (by decide +kernel)
  · exact asks_ref (j := 2) (c := []) (d := []) (e := []) (by decide +kernel)

/-- ... and every validation against `{"anyOf": [{}, {"$ref": "#"}]}` returns and accepts. -/
theorem C74_last_returns (σ : Sched) (v : Json) (hv : InRange (world []).env v) :
    ∃ n r, validateDocument (world []).env σ (outOf _ selfLast_compiles).heap n (outOf _ selfLast_compiles).root v = .ok r ∧
      r.valid = true := by
  refine ((C74_compiled _ lawful0 _ _ _ _ _ _ _ pool0 (direct_wf (by decide +kernel)) (out_eq selfLast_compiles) σ v hv).1 true).2 ?_
  rw [show (outOf _ selfLast_compiles).root = 0 by decide +kernel]
  have bare : ∀ i : Nat, (outOf _ selfLast_compiles).heap[i]?.any bareB = true → ∀ any,
      (outOf _ selfLast_compiles).heap[i]?.map (·.anyOf) = some any →
      ∃ doc draft, (outOf _ selfLast_compiles).heap[i]? = some { doc := doc, draft := draft, anyOf := any } := by
    intro i hb any ha
    cases hi : (outOf _ selfLast_compiles).heap[i]? with
    | none => rw [hi] at ha; cases ha
    | some s =>
      rw [hi] at hb ha
      simp only [Option.any_some, Option.map_some, Option.some.injEq] at hb ha
      exact ⟨s.doc, s.draft, by rw [← ha, ← bare_eq hb]⟩
  obtain ⟨doc, draft, h0⟩ := bare 0 (by decide +kernel) [1, 2] (by decide +kernel)
  obtain ⟨doc', draft', h1⟩ := bare 1 (by decide +kernel) [] (by decide +kernel)
  refine .node 0 v _ true (fun j _ => j == 1) h0 rfl rfl (.inl rfl) ?_ ?_
  · intro j w hn
    obtain ⟨rfl, k, hk, hno⟩ := bare_needs hn
    match k with
    | 0 =>
      cases (by simpa using hk : 1 = j)
      refine .node 1 w _ true (fun _ _ => true) h1 rfl rfl (.inl rfl) ?_ ?_
      · intro j w hn
        obtain ⟨_, k, hk, _⟩ := bare_needs hn
        simp at hk
      · simpa using bare_rules (.inl rfl)
    | k + 1 => exact absurd rfl (hno 0 1 (by omega) rfl)
  · simpa using bare_rules (.inr ⟨1, by simp, rfl⟩)

/-- C74, it depends on the instance: no validation of a string against
`{"type": "string", "allOf": [{"$ref": "#"}]}` returns, all others do and reject. -/
theorem C74_string_never (σ : Sched) (v : Json) (hv : InRange (world []).env v) :
    (HasType (world []).env v "string" → ∀ n,
      validateDocument (world []).env σ (outOf _ selfText_compiles).heap n (outOf _ selfText_compiles).root v = .error .fuel) ∧
    (¬ HasType (world []).env v "string" → ∃ n r,
      validateDocument (world []).env σ (outOf _ selfText_compiles).heap n (outOf _ selfText_compiles).root v = .ok r ∧ r.valid = false) := by
  have key := C74_compiled _ lawful0 _ _ _ _ _ _ _ pool0 (direct_wf (by decide +kernel)) (out_eq selfText_compiles) σ v hv
  rw [show (outOf _ selfText_compiles).root = 0 by decide +kernel] at key ⊢
  have e0 : opening (outOf _ selfText_compiles).heap 0 = some (none, none, ["string"], [], [1]) := by decide +kernel
  constructor
  · intro ht
    refine key.2.2 (C74_loop _ _ (fun k => (round k, v)) (round_asks (asks_all e0 ht) ?_ ?_ ?_))
    · exact asks_ref (j := 2) (c := []) (d := []) (e := []) (by decide +kernel)
    · exact asks_all (t := "string") (j := 3) (d := []) (e := []) (by decide +kernel) ht
    · exact asks_ref (j := 2) (c := []) (d := []) (e := []) (by decide +kernel)
  · intro ht
    obtain ⟨s, a1, a2, a3, a4, _⟩ := opening_node e0
    refine (key.1 false).2 (.type 0 v s a1 a2 a3 ?_)
    rw [a4]
    rintro (h | ⟨t, h, h'⟩)
    · cases h
    · cases (by simpa using h : t = "string")
      exact ht h'

example := C74_first_never Sched.id 100 .null .null
example := C74_last_returns Sched.rev (.str "x") (.str _)
example := (C74_string_never Sched.id (.str "x") (.str _)).1 (.str _)
example := (C74_string_never Sched.id .null .null).2 (fun h => absurd (null_type _ h) (by decide))
example := C74_answers env Sched.id listHeap listHeap_ok 0 (by decide) list2
example := C74_silent env Sched.id listHeap listHeap_ok 0 (by decide) (.arr [int 1]) (.arr _ (by simp; exact .num _ rfl (by decide +kernel)))
/-- A string is no list: that is the answer. -/
theorem text_answer : Answers env listHeap 0 (.str "x") false :=
  .type 0 _ _ rfl rfl rfl (by
    rintro (h | ⟨t, h, h'⟩)
    · cases h
    · cases (by simpa using h : t = "object")
      exact absurd h' (by
        generalize e : "object" = t
        intro h'
        cases h'
        exact absurd e (by decide)))
example := C74_order env listHeap listHeap_ok 0 (by decide) (.str "x") (.str _) false text_answer
example := C74_unique env listHeap 0 (.str "x") false false text_answer text_answer
example := fun Sat hs => C74_meaning env listHeap Sat hs 0 (.str "x") false text_answer
example := C74_never env Sched.id [{ doc := .null, draft := Draft7, refSchema := some 0 }]
  (by intro s hs; simp at hs; subst hs; simp [inPlace, nested, extraId]) (fun _ => (0, .null))
  (fun _ => ⟨_, rfl, rfl, .inl ⟨rfl, rfl⟩⟩) (by decide) .null 9

example := C74_document _ lawful0 Sched.id ⟨20, 20⟩ [] (.direct (some selfFirst)) (fixed Draft7) _ _ pool0 (direct_wf (by decide +kernel))
  (out_eq selfFirst_compiles)
/-- A schema that refers to itself for a member, on a value without it. -/
example (resolve : String → Option (Draft × Json)) : DocAnswers env resolve Draft7
    (.obj [("properties", .obj [("a", .obj [("$ref", .str "#")])])]) (.str "x") true := by
  refine .object _ _ _ _ (fun _ _ => true) (by simp [Kw, getKey, List.lookup]) ⟨by simp [Kw, getKey, List.lookup], by simp [Kw, getKey, List.lookup]⟩ ?_ ?_
  · intro D w h
    cases h <;> simp_all [Kw, getKey, List.lookup]
  · simp [DKeywords, DType, DAnyOf, DOneOf, DAllOf, DNot, DDependencies, DIf, DConst, DEnum, DFormat, DItems, DArray, DObject, DString, DSize, DNumber, Kw, getKey, List.lookup]
example := C74_document_loop env (fun _ => some (Draft7, .obj [("not", .obj [("$ref", .str "#")])]))
  (fun k => if k % 2 = 0 then (Draft7, .obj [("not", .obj [("$ref", .str "#")])], .null) else (Draft7, .obj [("$ref", .str "#")], .null))
  (by
    intro k
    rcases Nat.mod_two_eq_zero_or_one k with e | e
    · rw [if_pos e, if_neg (by omega)]
      refine .sub _ _ _ _ _ (by simp [Kw, getKey, List.lookup]) ⟨by simp [Kw, getKey, List.lookup], by simp [Kw, getKey, List.lookup]⟩ fun sat => .not _ _ rfl
    · rw [if_neg (by omega), if_pos (by omega)]
      exact .ref _ _ "#" _ _ _ rfl rfl) true

end GJS

import Verif.LemKeywords
import Verif.DemoCheck
/-
Single keywords, from the document to the verdict or the reported errors: C08, C11, C12, C13, C14.
-/
namespace GJS
open Spec

/-! ### C11: const and enum -/

theorem valEq_same {env : Env} (hf : FmtOK env.fmtF64) {x y : Json} (hx : x.WF) (hy : y.WF) {t : String}
    (ht : env.marshal y = some t) : ValEq env x y ↔ SameVal x y := by
  constructor
  · rintro ⟨s, h1, h2⟩
    exact (C11_same_serialisation env hf x y hx hy s s h1 h2).1 rfl
  · intro h
    exact ⟨t, (marshal_same hx hy h).trans ht, ht⟩

theorem forall2_left {α β : Type} {R : α → β → Prop} {xs : List α} {ys : List β} (h : List.Forall₂ R xs ys) :
    ∀ x ∈ xs, ∃ y, R x y := by
  induction h with
  | nil => simp
  | cons h _ ih => intro x hx; rcases List.mem_cons.1 hx with rfl | hx; exacts [⟨_, h⟩, ih x hx]

/-- C11, const, from the document: a schema object with `const` and no other keyword accepts exactly
the values equal to it. -/
theorem C11_const_document (w : World) (l : LState) (hw : Setting w l) (hf : FmtOK w.env.fmtF64)
    (m : List (String × Json)) (hm : (Json.obj m).WF) (ho : Only m ["const"]) (hd : Draft6 ≤ draftFor w l (.obj m))
    (k : Json) (hk : Kw m "const" k) (v : Json) (hv : v.WF) (b : Bool) (h : Gives w l (.obj m) v b) :
    b = true ↔ SameVal v k := by
  have hr := only_noRef ho (by decide)
  have hkw : k.WF := wf_get hm hk
  obtain ⟨σ, fuel, p, s, l', σ', n, r, h1, h2, rfl⟩ := h
  obtain ⟨m1, nd, e1, _, _, _, _, e2, e3⟩ := root_node hw hm hr h1
  have ht : ∃ t, w.env.marshal k = some t := by
    have hk' := (rw_literal hm e1 (.inl rfl)).2 hk
    rcases e3.const with ⟨_, h⟩ | ⟨_, c, t, h, h', _⟩
    · rw [Kw, h (e2 ▸ hd)] at hk'; cases hk'
    · rw [Kw, h] at hk'; cases hk'; exact ⟨t, h'⟩
  obtain ⟨t, ht⟩ := ht
  obtain ⟨m', sat, g1, g2⟩ := root_verdict hw.lawful hw.pool hw.root hm hr h1 h2
  have ho := only_rw g1 ho
  rw [g2, ← valEq_same hf hv hkw ht]
  constructor
  · rintro ⟨_, _, _, _, _, _, _, h3, _⟩
    exact h3 hd k ((rw_literal hm g1 (.inl rfl)).2 hk)
  · intro h3
    rest_hold ho
    intro _ c hc
    have := (rw_literal hm g1 (.inl rfl)).1 hc
    rw [Kw, hk] at this; cases this; exact h3

/-- C11, enum, from the document: a schema object with a non-empty `enum` and no other keyword
accepts exactly the values equal to a member of the list. -/
theorem C11_enum_document (w : World) (l : LState) (hw : Setting w l) (hf : FmtOK w.env.fmtF64)
    (m : List (String × Json)) (hm : (Json.obj m).WF) (ho : Only m ["enum"]) (ks : List Json) (hne : ks ≠ [])
    (hk : Kw m "enum" (.arr ks)) (v : Json) (hv : v.WF) (b : Bool) (h : Gives w l (.obj m) v b) :
    b = true ↔ ∃ k ∈ ks, SameVal v k := by
  have hr := only_noRef ho (by decide)
  have hkw : ∀ k ∈ ks, k.WF := by
    have := wf_get hm hk
    cases this with | arr _ h => exact h
  obtain ⟨σ, fuel, p, s, l', σ', n, r, h1, h2, rfl⟩ := h
  obtain ⟨m1, nd, e1, _, _, _, _, e2, e3⟩ := root_node hw hm hr h1
  have ht : ∀ k ∈ ks, ∃ t, w.env.marshal k = some t := by
    have hk' := (rw_literal hm e1 (.inr rfl)).2 hk
    rcases e3.enum with ⟨h, _⟩ | ⟨c, h, h'⟩
    · rw [Kw, h] at hk'; cases hk'
    · rw [Kw, h] at hk'; cases hk'
      intro k hk
      exact forall2_left h' k hk
  obtain ⟨m', sat, g1, g2⟩ := root_verdict hw.lawful hw.pool hw.root hm hr h1 h2
  have ho := only_rw g1 ho
  rw [g2]
  have hiff : (∃ k ∈ ks, SameVal v k) ↔ ∃ k ∈ ks, ValEq w.env v k := by
    constructor
    · rintro ⟨k, hk, h⟩
      obtain ⟨t, ht⟩ := ht k hk
      exact ⟨k, hk, (valEq_same hf hv (hkw k hk) ht).2 h⟩
    · rintro ⟨k, hk, h⟩
      obtain ⟨t, ht⟩ := ht k hk
      exact ⟨k, hk, (valEq_same hf hv (hkw k hk) ht).1 h⟩
  rw [hiff]
  constructor
  · rintro ⟨_, _, _, _, _, _, _, _, h3, _⟩
    rcases h3 ks ((rw_literal hm g1 (.inr rfl)).2 hk) with h | h
    · exact absurd h hne
    · exact h
  · intro h3
    rest_hold ho
    intro c hc
    have := (rw_literal hm g1 (.inr rfl)).1 hc
    rw [Kw, hk] at this; cases this; exact .inr h3

/-- C11, soundness: whatever else the schema object says, a value it accepts equals its `const` and
a member of its `enum`. -/
theorem C11_sound (w : World) (l : LState) (hw : Setting w l) (hf : FmtOK w.env.fmtF64)
    (m : List (String × Json)) (hm : (Json.obj m).WF) (hr : "$ref" ∉ keysOf m) (v : Json) (hv : v.WF)
    (h : Gives w l (.obj m) v true) :
    (Draft6 ≤ draftFor w l (.obj m) → ∀ k, Kw m "const" k → SameVal v k) ∧
    (∀ ks, ks ≠ [] → Kw m "enum" (.arr ks) → ∃ k ∈ ks, SameVal v k) := by
  obtain ⟨m', sat, g1, g2⟩ := gives_keywords hw hm hr h
  obtain ⟨_, _, _, _, _, _, _, h3, h4, _⟩ := g2.1 rfl
  constructor
  · intro hd k hk
    obtain ⟨t, e1, e2⟩ := h3 hd k ((rw_literal hm g1 (.inl rfl)).2 hk)
    exact (C11_same_serialisation w.env hf v k hv (wf_get hm hk) t t e1 e2).1 rfl
  · intro ks hne hk
    rcases h4 ks ((rw_literal hm g1 (.inr rfl)).2 hk) with h | ⟨c, hc, t, e1, e2⟩
    · exact absurd h hne
    · have hkw := wf_get hm hk
      cases hkw with
      | arr _ hkw => exact ⟨c, hc, (C11_same_serialisation w.env hf v c hv (hkw c hc) t t e1 e2).1 rfl⟩

/-! ### C12: exact on safe integers only -/

/-- C12, from the document: `{"const": m}` with an integer of magnitude at most `2^53` accepts, of
the integers of that size, exactly the one with the same value (and, for zero, the same sign). -/
theorem C12_const_document (w : World) (l : LState) (hw : Setting w l) (hf : FmtOK w.env.fmtF64)
    (d : Draft6 ≤ draftFor w l (.obj [("const", .num k)])) (n : NumLit) (a b : Int) (hk : k.val = a) (hn : n.val = b)
    (ha : a.natAbs ≤ 2 ^ 53) (hb : b.natAbs ≤ 2 ^ 53) (v : Bool) (h : Gives w l (.obj [("const", .num k)]) (.num n) v) :
    v = true ↔ b = a ∧ (b = 0 → n.neg = k.neg) := by
  rw [C11_const_document w l hw hf [("const", .num k)] (.obj _ (by simp) (by simp; exact .num _))
    (by unfold Only; simp [keysOf]) d (.num k) rfl (.num n) (.num n) v h]
  exact C12_safe_integers n k b a hn hk hb ha

/-- C12, from the document: `{"const": 9007199254740992}` accepts `9007199254740993`, in every
setting in which it compiles. -/
theorem C12_const_document_beyond (w : World) (l : LState) (hw : Setting w l) (hf : FmtOK w.env.fmtF64)
    (v : Bool) (h : Gives w l (.obj [("const", Demo.int 9007199254740992)]) (Demo.int 9007199254740993) v) : v = true := by
  by_cases hd : Draft6 ≤ draftFor w l (.obj [("const", Demo.int 9007199254740992)])
  · exact (C11_const_document w l hw hf _ (.obj _ (by simp) (by simp; exact .num _)) (by unfold Only; simp [keysOf]) hd
      (Demo.int 9007199254740992) rfl _ (.num _) v h).2 C12_not_exact_beyond.1
  · obtain ⟨m', sat, g1, g2⟩ := gives_keywords hw (.obj _ (by simp) (by simp; exact .num _)) (by simp [keysOf]) h
    have ho : Only m' ["const"] := only_rw g1 (by unfold Only; simp [keysOf])
    rw [g2]
    rest_hold ho
    exact fun h => absurd h hd

/-! ### C13: uniqueItems -/

/-- C13, from the document: a schema object with `"uniqueItems": true` and no other keyword accepts
exactly the arrays in which no two elements are equal. -/
theorem C13_document (w : World) (l : LState) (hw : Setting w l) (hf : FmtOK w.env.fmtF64)
    (m : List (String × Json)) (hm : (Json.obj m).WF) (ho : Only m ["uniqueItems"]) (hk : Kw m "uniqueItems" (.bool true))
    (xs : List Json) (hv : ∀ x ∈ xs, x.WF) (b : Bool) (h : Gives w l (.obj m) (.arr xs) b) :
    b = true ↔ ∀ (i j : Nat) x y, i < j → xs[i]? = some x → xs[j]? = some y → ¬ SameVal x y := by
  have hr := only_noRef ho (by decide)
  obtain ⟨σ, fuel, p, s, l', σ', n, r, h1, h2, rfl⟩ := h
  obtain ⟨m1, nd, e1, _, hn, hp, hrs, e2, e3⟩ := root_node hw hm hr h1
  have hsome : ∀ x ∈ xs, ∃ t, w.env.marshal x = some t := by
    have hu : nd.uniqueItems = true := by
      have hk' := (rw_kw hm e1 (by simp) scalar_bool).2 hk
      rcases e3.uniqueItems with ⟨h, _⟩ | h
      · rw [Kw, h] at hk'; cases hk'
      · rw [Kw, h] at hk'; simpa using hk'
    have hty : nd.types = [] := by
      have ho1 := only_rw e1 ho
      rcases e3.types with ⟨_, h⟩ | ⟨t, h, _⟩ | h
      · exact h
      · rw [only_get ho1 (by decide)] at h; cases h
      · rw [only_get ho1 (by decide)] at h; cases h
    cases n with
    | zero => simp [validateDocument, validateRecursive] at h2
    | succ n =>
      obtain ⟨a, ha, _⟩ := validateRecursive_node hn hp hrs (.inl hty) h2
      simp only [validateNode, validateArray, Exec.bind_ok, Exec.pure_ok] at ha
      obtain ⟨_, _, _, ⟨_, _, _, hc, _⟩, _⟩ := ha
      exact checkUnique_some hu hc
  obtain ⟨m', sat, g1, g2⟩ := root_verdict hw.lawful hw.pool hw.root hm hr h1 h2
  have ho := only_rw g1 ho
  have hk' := (rw_kw hm g1 (by simp) scalar_bool).2 hk
  rw [g2]
  constructor
  · rintro ⟨_, _, _, _, _, _, _, _, _, _, _, h3, _⟩ i j x y hij hx hy hs
    exact (h3 xs rfl).2.1 hk' i j x y hij hx hy
      (marshal_same (hv x (List.mem_of_getElem? hx)) (hv y (List.mem_of_getElem? hy)) hs)
  · intro h3
    rest_hold ho
    rintro xs' ⟨⟩
    refine ⟨?_, ?_, ?_⟩
    · simp [DSize, Kw, only_get ho (k := "minItems") (by decide), only_get ho (k := "maxItems") (by decide)]
    · intro _ i j x y hij hx hy e
      obtain ⟨t, ht⟩ := hsome x (List.mem_of_getElem? hx)
      exact h3 i j x y hij hx hy ((C11_same_serialisation w.env hf x y (hv x (List.mem_of_getElem? hx))
        (hv y (List.mem_of_getElem? hy)) t t ht (e ▸ ht)).1 rfl)
    · intro _ D hD
      rw [Kw, only_get ho (by decide)] at hD; cases hD

/-- C13, soundness: whatever else the schema object says, with `"uniqueItems": true` the arrays it
accepts have no two equal elements. -/
theorem C13_document_sound (w : World) (l : LState) (hw : Setting w l)
    (m : List (String × Json)) (hm : (Json.obj m).WF) (hr : "$ref" ∉ keysOf m) (hk : Kw m "uniqueItems" (.bool true))
    (xs : List Json) (hv : ∀ x ∈ xs, x.WF) (h : Gives w l (.obj m) (.arr xs) true) (i j : Nat) (x y : Json)
    (hij : i < j) (hx : xs[i]? = some x) (hy : xs[j]? = some y) : ¬ SameVal x y := by
  intro hs
  obtain ⟨m', sat, g1, g2⟩ := gives_keywords hw hm hr h
  obtain ⟨_, _, _, _, _, _, _, _, _, _, _, h3, _⟩ := g2.1 rfl
  exact (h3 xs rfl).2.1 ((rw_kw hm g1 (by simp) scalar_bool).2 hk) i j x y hij hx hy
    (marshal_same (hv x (List.mem_of_getElem? hx)) (hv y (List.mem_of_getElem? hy)) hs)

/-! ### C08: required -/

/-- C08, from the document: an object that misses some of the names a schema document requires gets
exactly one 'required' error per missing name, in the order of the document, and no other 'required'
error at the root.  The schema object may have all keywords but those that apply further schemas to
the same value (whose 'required' errors are their own), `propertyNames` and `type`. -/
theorem C08_document (w : World) (l : LState) (hw : Setting w l) (m : List (String × Json)) (hm : (Json.obj m).WF)
    (ho : ∀ k ∈ ["$ref", "type", "anyOf", "oneOf", "allOf", "not", "dependencies", "if", "then", "else", "propertyNames"],
      k ∉ keysOf m) (qs : List String) (hq : Kw m "required" (.arr (qs.map .str)))
    (σ : Sched) (fuel : Fuel) (p : Path) (s : Schema) (l' : LState)
    (hc : compile w σ fuel p (.direct (some (.obj m))) l = (.ok s, l'))
    (kvs : List (String × Json)) (σ' : Sched) (n : Nat) (r : Result)
    (hr : validateDocument w.env σ' s.heap n s.root (.obj kvs) = .ok r) :
    r.errors.filter (fun e => match e.kind with | .required _ => decide (e.ctx = ["(root)"]) | _ => false) =
      (qs.filter (fun q => decide (q ∉ keysOf kvs))).map fun q => ⟨.required q, ["(root)"], .obj kvs⟩ := by
  obtain ⟨m', nd, e1, _, hn, hp, hrs, e2, e3⟩ := root_node hw hm (ho _ (by simp)) hc
  have no : ∀ k ∈ ["$ref", "type", "anyOf", "oneOf", "allOf", "not", "dependencies", "if", "then", "else", "propertyNames"],
      getKey k m' = none := fun k hk => getKey_none (by rw [rw_keys e1]; exact ho k hk)
  have list : ∀ {k ids}, k ∈ ["$ref", "type", "anyOf", "oneOf", "allOf", "not", "dependencies", "if", "then", "else", "propertyNames"] →
      ListOK s.heap nd.draft m' k ids → ids = [] := by
    rintro k ids hk (⟨_, h⟩ | ⟨_, h, _⟩)
    · exact h
    · rw [no k hk] at h; cases h
  have opt : ∀ {k o P}, k ∈ ["$ref", "type", "anyOf", "oneOf", "allOf", "not", "dependencies", "if", "then", "else", "propertyNames"] →
      OptOK s.heap nd.draft P m' k o → o = none := by
    rintro k o P hk (⟨h, _⟩ | ⟨_, _, _, h, _⟩)
    · exact h
    · rw [no k hk] at h; cases h
  have hdep : nd.dependencies = [] := by
    rcases e3.deps with ⟨_, h⟩ | ⟨_, _, _, h, _⟩
    · exact h
    · rw [no _ (by simp)] at h; cases h
  have hty : nd.types = [] := by
    rcases e3.types with ⟨_, h⟩ | ⟨_, h, _⟩ | h
    · exact h
    · rw [no _ (by simp)] at h; cases h
    · rw [no _ (by simp)] at h; cases h
  have hreq : nd.required = qs := by
    have hq' := rw_strs hm e1 hq
    rcases e3.required with ⟨h, _⟩ | h
    · rw [Kw, h] at hq'; cases hq'
    · rw [Kw, h] at hq'
      simp only [Option.some.injEq, Json.arr.injEq] at hq'
      exact List.map_injective_iff.2 (fun a b h => by cases h; rfl) hq'
  have hin : inPlace nd = [] := by
    simp [inPlace, hrs, list (by simp) e3.anyOf, list (by simp) e3.oneOf, list (by simp) e3.allOf, opt (by simp) e3.not,
      opt (by simp) e3.if_, opt (by simp) e3.then_, opt (by simp) e3.else_, hdep]
  have := C08_required w.env σ' s.heap n [] s.root nd kvs rootCtx r hn hp hin (opt (by simp) e3.propNames) (.inl hty) hr
  rw [hreq] at this
  exact this

/-! ### C14: what is reported, and that it is all that is reported -/

/-- A node with no keyword but these. -/
def Bare (s : Sub) (anyOf oneOf : List Id) (contains : Option Id) : Prop :=
  s = { doc := s.doc, draft := s.draft, anyOf := anyOf, oneOf := oneOf, contains := contains }

theorem forEach_quiet {α : Type} {f : Nat → α → Exec Result} : ∀ {l : List α} {k r},
    (∀ k x r, x ∈ l → f k x = .ok r → r.errors = []) → forEach f k l = .ok r → r.errors = [] := by
  intro l
  induction l with
  | nil => intro k r _ h; simp [forEach] at h; subst h; rfl
  | cons x xs ih =>
    intro k r hf h
    simp only [forEach, Exec.bind_ok, Exec.pure_ok] at h
    obtain ⟨a, ha, b, hb, rfl⟩ := h
    rw [Result.errors_append, hf _ _ _ (by simp) ha, ih (fun k y r hy => hf k y r (by simp [hy])) hb]; rfl

/-- The errors of a node without keywords but anyOf, oneOf and contains. -/
theorem bare_errors {env : Env} {σ : Sched} {h : Heap} {n : Nat} {p : Path} {i : Id} {s : Sub} {v : Json} {c : Ctx}
    {r : Result} {a o k} (hs : h[i]? = some s) (hb : Bare s a o k)
    (hr : validateRecursive env σ h (n + 1) p i v c = .ok r) :
    ∃ r1 r2 r3, checkAnyOf (validateRecursive env σ h n) p s v c = .ok r1 ∧
      checkOneOf (validateRecursive env σ h n) p s v c = .ok r2 ∧
      (∀ xs, v = .arr xs → checkContains (validateRecursive env σ h n) p s xs c = .ok r3) ∧
      ((∀ xs, v ≠ .arr xs) → r3 = {}) ∧
      r.errors = r1.errors ++ r2.errors ++ r3.errors := by
  generalize hD : s.doc = D at hb
  generalize hd : s.draft = d at hb
  unfold Bare at hb
  rw [hD, hd] at hb
  obtain ⟨x, hx, rfl⟩ := validateRecursive_node hs (by rw [hb]) (by rw [hb]) (by rw [hb]; exact .inl rfl) hr
  simp only [validateNode, Exec.bind_ok] at hx
  obtain ⟨y, hy, hx⟩ := hx
  simp only [validateSchema, Exec.bind_ok, Exec.pure_ok] at hy
  obtain ⟨r1, h1, r2, h2, a3, h3, a4, h4, a5, h5, a6, h6, rfl⟩ := hy
  have e3 : a3.errors = [] := by subst hb; simp [checkAllOf] at h3; subst h3; rfl
  have e4 : a4.errors = [] := by subst hb; simp [checkNot] at h4; subst h4; rfl
  have e6 : a6.errors = [] := by subst hb; simp [checkIf] at h6; subst h6; rfl
  have e5 : a5.errors = [] := by
    subst hb
    cases v <;> simp [checkDependencies] at h5 <;> subst h5 <;> rfl
  have com : ∀ {z}, validateCommon env s v c = .ok z → z.errors = [] := by
    intro z hz
    subst hb
    simp [validateCommon, checkConst, checkEnum, checkFormat] at hz
    subst hz; rfl
  have num : ∀ {z}, validateNumber env s v c = .ok z → z.errors = [] := by
    intro z hz
    subst hb
    cases v <;> simp [validateNumber, checkMultipleOf, boundCheck] at hz <;> subst hz <;> rfl
  have str : (validateString env s v c).errors = [] := by
    subst hb
    cases v <;> simp [validateString, sizeCheck, checkPattern] <;> rfl
  have pre : (r1 ++ r2 ++ a3 ++ a4 ++ a5 ++ a6 ++ tick).errors = r1.errors ++ r2.errors := by
    simp only [Result.errors_append, e3, e4, e5, e6, tick, List.append_nil]
  cases v with
  | null =>
    simp only [Exec.bind_ok, Exec.pure_ok] at hx
    obtain ⟨z, hz, rfl⟩ := hx
    refine ⟨r1, r2, {}, h1, h2, by simp, by simp, ?_⟩
    simp only [Result.errors_append] at pre ⊢
    rw [pre, com hz]; simp [tick]
  | obj kvs =>
    simp only [Exec.bind_ok, Exec.pure_ok] at hx
    obtain ⟨z1, hz1, z2, hz2, z3, hz3, rfl⟩ := hx
    refine ⟨r1, r2, {}, h1, h2, by simp, by simp, ?_⟩
    have f1 : z1.errors = [] := by
      simp only [validateObject, Exec.bind_ok, Exec.pure_ok] at hz1
      obtain ⟨y3, g3, y4, g4, rfl⟩ := hz1
      have : y3.errors = [] := by
        refine forEach_quiet ?_ g3
        intro k x r _ hr
        subst hb
        have e : ∀ q, σ.order q ([] : List (String × Id)) = [] := fun q => List.perm_nil.1 (σ.perm q [])
        simp [checkProperty, validatePatternProperty, e, patternLoop] at hr
        cases hr; rfl
      have h4 : y4.errors = [] := by subst hb; simp [checkPropertyNames] at g4; subst g4; rfl
      simp only [Result.errors_append, this, h4, tick]
      subst hb
      simp [checkPropCount, sizeCheck, checkRequired]
    have f3 : z3.errors = [] := by
      subst hb; simp [checkProperties, forEach] at hz3; subst hz3; rfl
    simp only [Result.errors_append] at pre ⊢
    rw [pre, com hz2, f1, f3]; simp [tick]
  | arr xs =>
    simp only [Exec.bind_ok, Exec.pure_ok, validateArray] at hx
    obtain ⟨z1, ⟨y1, g1, y3, g3, y4, g4, rfl⟩, z2, hz2, rfl⟩ := hx
    refine ⟨r1, r2, y4, h1, h2, fun _ e => by cases e; exact g4, by simp, ?_⟩
    have f1 : y1.errors = [] := by subst hb; simp [checkItems] at g1; subst g1; rfl
    have f2 : (checkItemCount s xs c).errors = [] := by subst hb; simp [checkItemCount, sizeCheck]
    have f3 : y3.errors = [] := by subst hb; simp [checkUnique] at g3; subst g3; rfl
    simp only [Result.errors_append] at pre ⊢
    rw [pre, com hz2, f1, f2, f3]; simp [tick]
  | bool _ | str _ | num _ =>
    simp only [Exec.bind_ok, Exec.pure_ok] at hx
    obtain ⟨z1, hz1, z2, hz2, rfl⟩ := hx
    refine ⟨r1, r2, {}, h1, h2, by simp, by simp, ?_⟩
    simp only [Result.errors_append] at pre ⊢
    rw [pre, com hz2, num hz1, str]; simp [tick]

/-- C14, anyOf, all of it: with no other keyword, the errors reported when all branches fail are the
anyOf error and the errors of the first branch of maximal score, and no others. -/
theorem C14_anyOf_all (env : Env) (σ : Sched) (h : Heap) (n : Nat) (p : Path) (i : Id) (s : Sub) (v : Json)
    (c : Ctx) (r : Result) (js : List Id) (rs : List Result) (hs : h[i]? = some s) (hb : Bare s js [] none)
    (hne : js ≠ []) (hlen : rs.length = js.length)
    (hrs : ∀ (k : Nat) j b, js[k]? = some j → rs[k]? = some b →
      validateRecursive env σ h n (k :: 1 :: p) j v c = .ok b ∧ b.valid = false)
    (hr : validateRecursive env σ h (n + 1) p i v c = .ok r) :
    ∃ best, FirstBest rs best ∧ r.errors = ⟨.numberAnyOf, c, v⟩ :: best.errors := by
  obtain ⟨r1, r2, r3, h1, h2, h3, h4, he⟩ := bare_errors hs hb hr
  have hrsne : rs ≠ [] := by
    intro h0; subst h0; simp at hlen; exact hne (List.length_eq_zero_iff.1 hlen.symm)
  obtain ⟨b, hb1, hb2⟩ := pick_none hrsne
  have hj : s.anyOf = js := by rw [hb]
  have ho : s.oneOf = [] := by rw [hb]
  have hc : s.contains = none := by rw [hb]
  have hloop := anyOfLoop_pick (run := fun k i => validateRecursive env σ h n (k :: 1 :: p) i v c)
    (k := 0) (best := none) hlen (fun k j b hj hb => by simpa using hrs k j b hj hb)
  have : js.length > 0 := List.length_pos_iff.2 hne
  simp only [checkAnyOf, hj, this, if_true, hloop, hb1] at h1
  simp [checkOneOf, ho] at h2
  cases h1
  subst h2
  have e3 : r3.errors = [] := by
    cases v with
    | arr xs => have := h3 xs rfl; simp [checkContains, hc] at this; subst this; rfl
    | _ => rw [h4 (by simp)]
  refine ⟨b, hb2, ?_⟩
  rw [he, e3]
  simp [addErr, Result.errors_append]

/-- C14, oneOf without match, all of it. -/
theorem C14_oneOf_none_all (env : Env) (σ : Sched) (h : Heap) (n : Nat) (p : Path) (i : Id) (s : Sub) (v : Json)
    (c : Ctx) (r : Result) (js : List Id) (rs : List Result) (hs : h[i]? = some s) (hb : Bare s [] js none)
    (hne : js ≠ []) (hlen : rs.length = js.length)
    (hrs : ∀ (k : Nat) j b, js[k]? = some j → rs[k]? = some b →
      validateRecursive env σ h n (k :: 2 :: p) j v c = .ok b ∧ b.valid = false)
    (hr : validateRecursive env σ h (n + 1) p i v c = .ok r) :
    ∃ best, FirstBest rs best ∧ r.errors = ⟨.numberOneOf, c, v⟩ :: best.errors := by
  obtain ⟨r1, r2, r3, h1, h2, h3, h4, he⟩ := bare_errors hs hb hr
  have hrsne : rs ≠ [] := by
    intro h0; subst h0; simp at hlen; exact hne (List.length_eq_zero_iff.1 hlen.symm)
  obtain ⟨b, hb1, hb2⟩ := pick_none hrsne
  have hj : s.anyOf = [] := by rw [hb]
  have ho : s.oneOf = js := by rw [hb]
  have hc : s.contains = none := by rw [hb]
  have hloop := oneOfLoop_pick (run := fun k i => validateRecursive env σ h n (k :: 2 :: p) i v c)
    (k := 0) (best := none) hlen (fun k j b hj hb => by simpa using hrs k j b hj hb)
  have : js.length > 0 := List.length_pos_iff.2 hne
  simp [checkAnyOf, hj] at h1
  simp only [checkOneOf, ho, this, if_true, hloop, hb1] at h2
  cases h2
  subst h1
  have e3 : r3.errors = [] := by
    cases v with
    | arr xs => have := h3 xs rfl; simp [checkContains, hc] at this; subst this; rfl
    | _ => rw [h4 (by simp)]
  refine ⟨b, hb2, ?_⟩
  rw [he, e3]
  simp [addErr, Result.errors_append]

/-- C14, oneOf with several matches, all of it: the only error reported is the oneOf error. -/
theorem C14_oneOf_many_all (env : Env) (σ : Sched) (h : Heap) (n : Nat) (p : Path) (i : Id) (s : Sub) (v : Json)
    (c : Ctx) (r : Result) (js : List Id) (hs : h[i]? = some s) (hb : Bare s [] js none)
    (k₁ k₂ : Nat) (i₁ i₂ : Id) (r₁ r₂ : Result) (hk : k₁ ≠ k₂) (h₁ : js[k₁]? = some i₁) (h₂ : js[k₂]? = some i₂)
    (hr₁ : validateRecursive env σ h n (k₁ :: 2 :: p) i₁ v c = .ok r₁) (hv₁ : r₁.valid = true)
    (hr₂ : validateRecursive env σ h n (k₂ :: 2 :: p) i₂ v c = .ok r₂) (hv₂ : r₂.valid = true)
    (hr : validateRecursive env σ h (n + 1) p i v c = .ok r) : r.errors = [⟨.numberOneOf, c, v⟩] := by
  obtain ⟨a1, a2, a3, e1, e2, e3, e4, he⟩ := bare_errors hs hb hr
  have hj : s.anyOf = [] := by rw [hb]
  have ho : s.oneOf = js := by rw [hb]
  have hc : s.contains = none := by rw [hb]
  have := C14_oneOf_many _ p s v c a2 k₁ k₂ i₁ i₂ r₁ r₂ hk (ho ▸ h₁) (ho ▸ h₂) hr₁ hr₂ hv₁ hv₂ e2
  subst this
  simp [checkAnyOf, hj] at e1
  subst e1
  have e3 : a3.errors = [] := by
    cases v with
    | arr xs => have := e3 xs rfl; simp [checkContains, hc] at this; subst this; rfl
    | _ => rw [e4 (by simp)]
  rw [he, e3]
  simp [addErr]

/-- C14, contains, all of it: when no element matches, the errors reported are the contains error
and, for a non-empty array, the errors of the first element of maximal score. -/
theorem C14_contains_all (env : Env) (σ : Sched) (h : Heap) (n : Nat) (p : Path) (i j : Id) (s : Sub) (xs : List Json)
    (c : Ctx) (r : Result) (rs : List Result) (hs : h[i]? = some s) (hb : Bare s [] [] (some j))
    (hlen : rs.length = xs.length)
    (hrs : ∀ (k : Nat) x b, xs[k]? = some x → rs[k]? = some b →
      validateRecursive env σ h n (k :: 12 :: p) j x (toString k :: c) = .ok b ∧ b.valid = false)
    (hr : validateRecursive env σ h (n + 1) p i (.arr xs) c = .ok r) :
    (xs = [] ∧ r.errors = [⟨.contains, c, .arr xs⟩]) ∨
    ∃ best, FirstBest rs best ∧ r.errors = ⟨.contains, c, .arr xs⟩ :: best.errors := by
  obtain ⟨a1, a2, a3, e1, e2, e3, _, he⟩ := bare_errors hs hb hr
  have hj : s.anyOf = [] := by rw [hb]
  have ho : s.oneOf = [] := by rw [hb]
  have hc : s.contains = some j := by rw [hb]
  simp [checkAnyOf, hj] at e1
  simp [checkOneOf, ho] at e2
  subst e1 e2
  have e3 := e3 xs rfl
  by_cases hx : xs = []
  · left
    subst hx
    simp [checkContains, hc, containsLoop] at e3
    cases e3
    rw [he]
    simp [addErr]
  · right
    obtain ⟨best, g1, g2⟩ := C14_contains _ p s xs c j rs hc hx hlen hrs
    rw [g2] at e3
    cases e3
    refine ⟨best, g1, ?_⟩
    rw [he]
    simp [addErr, Result.errors_append]

/-! ### Concrete cases -/

section
open Demo

-- C11: the theorems at documents of both verdicts
example : ¬ SameVal (.arr [int 1]) (.arr [int 2]) :=
  fun h => absurd ((C11_const_document (world []) (fixed Draft7) setting fmtOK [("const", .arr [int 2])]
    (wf_of _ (by decide +kernel)) (by unfold Only; decide) (by decide +kernel) _ rfl (.arr [int 1]) (wf_of _ (by decide +kernel)) false
    (gives_of (by decide +kernel))).2 h) (by decide)
example : SameVal (int 1) (.num ⟨false, 1, [0], none⟩) :=
  (C11_const_document (world []) (fixed Draft7) setting fmtOK [("const", .num ⟨false, 1, [0], none⟩), ("title", .str "one")]
    (wf_of _ (by decide +kernel)) (by unfold Only; decide) (by decide +kernel) _ rfl (int 1) (.num _) true
    (gives_of (by decide +kernel))).1 rfl
example : ∃ k ∈ [Json.null, .obj [("a", int 1)]], SameVal (.obj [("a", .num ⟨false, 10, [], some (-1)⟩)]) k :=
  (C11_enum_document (world []) (fixed Draft4) setting fmtOK [("enum", .arr [.null, .obj [("a", int 1)]])]
    (wf_of _ (by decide +kernel)) (by unfold Only; decide) _ (by simp) rfl _ (wf_of _ (by decide +kernel)) true
    (gives_of (by decide +kernel))).1 rfl
example : SameVal (.str "a") (.str "a") :=
  (C11_sound (world []) (fixed Draft7) setting fmtOK [("const", .str "a"), ("type", .str "string")]
    (wf_of _ (by decide +kernel)) (by decide) (.str "a") (.str _) (gives_of (by decide +kernel))).1 (by decide +kernel) _ rfl
-- C12
example : (8 : Int) ≠ 7 := fun h =>
  absurd ((C12_const_document (k := ⟨false, 7, [], none⟩) (world []) (fixed Draft7) setting fmtOK (by decide +kernel)
    ⟨false, 8, [], none⟩ 7 8 (by decide +kernel) (by decide +kernel) (by decide) (by decide) false
    (gives_of (by decide +kernel))).2 ⟨h, by decide⟩) (by decide)
example : Gives (world []) (fixed Draft7) (.obj [("const", int 9007199254740992)]) (int 9007199254740993) true :=
  gives_of (by decide +kernel)
-- C13
example : ∀ (i j : Nat) x y, i < j → [int 1, .str "1"][i]? = some x → [int 1, Json.str "1"][j]? = some y → ¬ SameVal x y :=
  (C13_document (world []) (fixed Draft7) setting fmtOK [("uniqueItems", .bool true)] (wf_of _ (by decide +kernel))
    (by unfold Only; decide) rfl _ (by simp; exact ⟨.num _, .str _⟩) true (gives_of (by decide +kernel))).1 rfl
example : Gives (world []) (fixed Draft7) (.obj [("uniqueItems", .bool true)]) (.arr [int 1, .num ⟨false, 10, [], some (-1)⟩]) false :=
  gives_of (by decide +kernel)
example : ¬ SameVal (int 1) (int 2) :=
  C13_document_sound (world []) (fixed Draft7) setting [("uniqueItems", .bool true), ("minItems", int 1)]
    (wf_of _ (by decide +kernel)) (by decide) rfl [int 1, int 2] (by simp; exact ⟨.num _, .num _⟩)
    (gives_of (by decide +kernel)) 0 1 _ _ (by decide) rfl rfl

-- C08: `{"required": ["a","b","c"], "minProperties": 3}` on `{"b": null}`
def reqDoc : List (String × Json) := [("required", .arr [.str "a", .str "b", .str "c"]), ("minProperties", int 3)]

example : ∃ s l', compile (world []) Sched.id ⟨20, 20⟩ [] (.direct (some (.obj reqDoc))) (fixed Draft7) = (.ok s, l') ∧
    ∃ r, validateDocument env Sched.id s.heap 20 s.root (.obj [("b", .null)]) = .ok r ∧
      r.errors.map (·.kind) = [.arrayMinProperties 3, .required "a", .required "c"] :=
  ⟨_, _, rfl, _, rfl, by decide +kernel⟩
example (s l') (hc : compile (world []) Sched.id ⟨20, 20⟩ [] (.direct (some (.obj reqDoc))) (fixed Draft7) = (.ok s, l'))
    (r) (hr : validateDocument env Sched.id s.heap 20 s.root (.obj [("b", .null)]) = .ok r) :
    r.errors.filter (fun e => match e.kind with | .required _ => decide (e.ctx = ["(root)"]) | _ => false) =
      [⟨.required "a", ["(root)"], .obj [("b", .null)]⟩, ⟨.required "c", ["(root)"], .obj [("b", .null)]⟩] :=
  C08_document (world []) (fixed Draft7) setting reqDoc (wf_of _ (by decide +kernel)) (by decide) ["a", "b", "c"] rfl
    _ _ _ s l' hc _ _ _ r hr

/-- `{"anyOf": [A, B]}`, `{"oneOf": [A, B]}`, `{"oneOf": [C, C]}` and `{"contains": A}` where `A` wants a
string, `B` an object with `a` and `b`, and `C` nothing. -/
def branches : Heap :=
  [ { doc := .null, draft := Draft7, anyOf := [4, 5] },
    { doc := .null, draft := Draft7, oneOf := [4, 5] },
    { doc := .null, draft := Draft7, oneOf := [6, 6] },
    { doc := .null, draft := Draft7, contains := some 4 },
    { doc := .null, draft := Draft7, types := ["string"] },
    { doc := .null, draft := Draft7, types := ["object"], required := ["a", "b"] },
    { doc := .null, draft := Draft7 } ]

/-- The errors of a run, for evaluation. -/
def kinds (i : Id) (v : Json) : Option (List ErrKind) :=
  match validateRecursive env Sched.id branches 5 [] i v ["x"] with
  | .ok r => some (r.errors.map (·.kind))
  | .error _ => none

example : kinds 0 (.obj [("b", .null)]) = some [.numberAnyOf, .required "a"] := by decide +kernel
example : kinds 1 (.obj [("b", .null)]) = some [.numberOneOf, .required "a"] := by decide +kernel
example : kinds 2 (.obj [("b", .null)]) = some [.numberOneOf] := by decide +kernel
example : kinds 3 (.arr []) = some [.contains] := by decide +kernel
example : kinds 3 (.arr [.null]) = some [.contains, .invalidType "string" "null"] := by decide +kernel
example (r) (hr : validateRecursive env Sched.id branches 5 [] 2 .null ["x"] = .ok r) :
    r.errors = [⟨.numberOneOf, ["x"], .null⟩] :=
  C14_oneOf_many_all env Sched.id branches 4 [] 2 _ .null ["x"] r [6, 6] rfl rfl 0 1 6 6 _ _ (by decide) rfl rfl
    rfl (by decide +kernel) rfl (by decide +kernel) hr
example (r) (hr : validateRecursive env Sched.id branches 5 [] 0 .null ["x"] = .ok r) :
    ∃ best, FirstBest [addErr (.invalidType "string" "null") ["x"] .null, addErr (.invalidType "object" "null") ["x"] .null] best ∧
      r.errors = ⟨.numberAnyOf, ["x"], .null⟩ :: best.errors :=
  C14_anyOf_all env Sched.id branches 4 [] 0 _ .null ["x"] r [4, 5]
    [addErr (.invalidType "string" "null") ["x"] .null, addErr (.invalidType "object" "null") ["x"] .null] rfl rfl (by simp) rfl
    (by
      intro k j b hj hb
      match k with
      | 0 => cases hj; cases hb; exact ⟨rfl, rfl⟩
      | 1 => cases hj; cases hb; exact ⟨rfl, rfl⟩
      | k + 2 => simp at hj) hr

end

end GJS

import Verif.SpecRawSchema
/-
Helper lemmas: compiling a map with one member of another type.
-/
namespace GJS.RawS
open GJS Spec

theorem step {x : M τ α} {f : α → M τ β} {s a t} (h : x s = (.ok a, t)) : (x >>= f) s = f a t := by
  show M.seq x f s = _
  rw [M.seq, h]

theorem stop {x : M τ α} {f : α → M τ β} {s e t} (h : x s = (.error e, t)) : (x >>= f) s = (.error e, t) := by
  show M.seq x f s = _
  rw [M.seq, h]

theorem order_one (σ : Sched) (p : Path) (x : α) : σ.order p [x] = [x] := List.perm_singleton.1 (σ.perm p [x])

theorem getKey_one {k q : String} {v : α} (h : q ≠ k) : getKey q [(k, v)] = none := by
  have : (q == k) = false := by simpa using h
  simp [getKey, List.lookup_cons, this]

theorem getKey_same {k : String} {v : α} : getKey k [(k, v)] = some v := by simp [getKey]

theorem replaceKey_one {k : String} {v : α} : replaceKey k v [(k, v)] = [(k, v)] := by simp [replaceKey]

theorem isKind_opaque {env : Env} {kd i ks} {s : τ} :
    isKind env (.opaque kd i) ks s = (.ok (ks.contains (rawKind (.opaque kd i))), s) := rfl

variable {w : Outside} {σ : Sched} {kd : GoKind} {i : Nat} {k : String}

theorem idText_one {s : τ} (h : (k = "id" ∨ k = "$id") → kd ≠ .string) : idText w [(k, .opaque kd i)] s = (.ok none, s) := by
  unfold idText
  by_cases h1 : k = "id"
  · subst h1
    have := h (.inl rfl)
    cases kd <;> first | rfl | exact absurd rfl this
  · have e : existsMapKey [(k, GoVal.opaque kd i)] "id" = false := by
      simp [existsMapKey, getKey_one (Ne.symm h1)]
    simp only [e, Bool.false_eq_true, if_false]
    by_cases h2 : k = "$id"
    · subst h2
      have := h (.inr rfl)
      cases kd <;> first | rfl | exact absurd rfl this
    · rw [getKey_one (Ne.symm h2)]; rfl

theorem rewriteRef_one {s : τ} {r} (h : k = "$ref" → kd ≠ .string) :
    rewriteRef w r [(k, .opaque kd i)] s = (.ok [(k, .opaque kd i)], s) := by
  unfold rewriteRef
  by_cases h1 : k = "$ref"
  · subst h1
    have := h rfl
    cases kd <;> first | rfl | exact absurd rfl this
  · rw [getKey_one (Ne.symm h1)]; rfl

theorem rewriteMember_one {s p r d n} :
    rewriteMember σ (fun p r v => do let x ← rewrite w σ d (n + 1) p r v; return x.1) p r k (.opaque kd i) s =
      (.ok (.opaque kd i), s) := by
  unfold rewriteMember
  split
  · rfl
  · split
    · rfl
    · rfl

theorem rewrite_one {s p r d n} (h1 : (k = "id" ∨ k = "$id" ∨ k = "$ref") → kd ≠ .string) :
    rewrite w σ d (n + 2) p r (.obj [(k, .opaque kd i)]) s = (.ok (.obj [(k, .opaque kd i)], none), s) := by
  show rewriteObj w σ (rewrite w σ d (n + 1)) p r d _ s = _
  unfold rewriteObj
  rw [step (idText_one fun h => h1 (by rcases h with h | h <;> simp [h]))]
  have e : idScope w.toWorld r none s = (.ok (r, none), s) := rfl
  rw [step e]
  have e : taken none s = (.ok false, s) := rfl
  rw [step e]
  simp only [Bool.false_eq_true, if_false]
  have e : register none ⟨.obj [(k, .opaque kd i)], d⟩ s = (.ok (), s) := rfl
  rw [step e]
  rw [step (rewriteRef_one fun h => h1 (by simp [h]))]
  rw [order_one]
  have e : rangeKV (fun j key v => rewriteMember σ (fun p r v => do let x ← rewrite w σ d (n + 1) p r v; return x.1)
    (j :: 52 :: p) r key v) 0 [(k, .opaque kd i)] [(k, .opaque kd i)] s = (.ok [(k, .opaque kd i)], s) := by
    unfold rangeKV
    rw [step rewriteMember_one, replaceKey_one]
    rfl
  rw [step e]
  rfl

theorem schemaURL_one {s : τ} (h1 : k ≠ "$schema") : parseSchemaURL w (.obj [(k, .opaque kd i)]) s = (.ok ("", none), s) := by
  have e : parseSchemaURL w (.obj [(k, .opaque kd i)]) s = (match getKey "$schema" [(k, GoVal.opaque kd i)] with
      | none => (pure ("", none) : M τ (String × Option Draft))
      | some v => do
        let b ← isKind w.env v [.string]
        if !b then M.err (.mustBeOfType "$schema" "string") else
        match v with
        | .str t =>
          match w.norm t with
          | none => M.err (.badReference t)
          | some u => return (u, getDraftVersion u)
        | _ => M.fail .panic) s := rfl
  rw [e, getKey_one (Ne.symm h1)]
  rfl

/-- The loader after the document was read. -/
def after (k : String) (kd : GoKind) (i : Nat) : State := { pool := [("", ⟨.obj [(k, .opaque kd i)], none⟩)] }

/-- `NewSchema` has `Validate` off. -/
theorem newSchema_fst {n : Fuel} {g} (hw : w.norm "#" = some "") : newSchema w σ n g =
    ((rootDocument w σ [] (.raw g) "" >>= fun doc => whenValidate (validateMetaschema w σ n [] doc) >>= fun _ =>
      rootDraft w doc >>= fun draft => runParse w σ n.parse [62] "" doc draft) {}).1 := by
  unfold newSchema compile compileG
  have h : (GoArg.raw g).ref w = some "" := hw
  rw [h]
  rfl

theorem newSchema_one {n : Fuel} (hw : w.norm "#" = some "") (h1 : (k = "id" ∨ k = "$id" ∨ k = "$ref") → kd ≠ .string)
    (h2 : k ≠ "$schema") : newSchema w σ n (.obj [(k, .opaque kd i)]) =
      (runParse w σ n.parse [62] "" (.obj [(k, .opaque kd i)]) Hybrid (after k kd i)).1 := by
  rw [newSchema_fst hw]
  have e1 : parseReferences w σ [61] (.obj [(k, .opaque kd i)]) "" true {} =
      (.ok (.obj [(k, .opaque kd i)], none), after k kd i) := by
    unfold parseReferences
    have a : inPool "" {} = (.ok false, {}) := rfl
    rw [step a]
    simp only [Bool.and_false, Bool.false_eq_true, if_false]
    have b : detectDraft w (.obj [(k, .opaque kd i)]) {} = (.ok none, {}) := by
      unfold detectDraft
      have c : (M.get : M State State) {} = (.ok {}, {}) := rfl
      rw [step c]
      simp only [if_true]
      rw [step (schemaURL_one h2)]
      rfl
    rw [step b]
    have c : size (.obj [(k, .opaque kd i)]) = 3 := rfl
    rw [c, step (rewrite_one h1)]
    rfl
  have e2 : rootDocument w σ [] (.raw (.obj [(k, .opaque kd i)])) "" {} = (.ok (.obj [(k, .opaque kd i)]), after k kd i) := step e1
  have e4 : whenValidate (validateMetaschema w σ n [] (.obj [(k, .opaque kd i)])) (after k kd i) = (.ok (), after k kd i) := rfl
  rw [step e2, step e4]
  have e3 : rootDraft w (.obj [(k, .opaque kd i)]) (after k kd i) = (.ok Hybrid, after k kd i) := by
    unfold rootDraft
    have c : (M.get : M State State) (after k kd i) = (.ok (after k kd i), after k kd i) := rfl
    rw [step c]
    have d : (after k kd i).autoDetect = true := rfl
    simp only [d, if_true]
    rw [step (schemaURL_one h2)]
    rfl
  rw [step e3]

/-- `Comes`, decided. -/
def comesB (kd : GoKind) (fine panics : List GoKind) : Except Fail α → Bool
  | .ok _ => fine.contains kd
  | .error .panic => panics.contains kd
  | .error (.err _) => !fine.contains kd && !panics.contains kd
  | .error .fuel => false

theorem comes_of {kd fine panics} {r : Except Fail α} (h : comesB kd fine panics r = true) : Comes kd fine panics r := by
  unfold comesB at h
  unfold Comes
  split at h <;> simp_all

theorem table_all {n m : Nat} (hw : w.norm "#" = some "") :
    ∀ e ∈ kindTable, Comes kd e.2.1 e.2.2 (newSchema w σ ⟨n + 1, m⟩ (.obj [(e.1, .opaque kd i)])) := by
  intro e he
  simp only [kindTable, List.mem_cons, List.not_mem_nil, or_false] at he
  apply comes_of
  rcases he with rfl | rfl | rfl | rfl | he
  · rw [newSchema_fst hw]; cases kd <;> rfl
  · cases kd <;> first | (rw [newSchema_one hw (by simp) (by simp)]; rfl) | (rw [newSchema_fst hw]; rfl)
  · cases kd <;> first | (rw [newSchema_one hw (by simp) (by simp)]; rfl) | (rw [newSchema_fst hw]; rfl)
  · cases kd <;> first | (rw [newSchema_one hw (by simp) (by simp)]; rfl) | (rw [newSchema_fst hw]; rfl)
  rcases he with rfl | rfl | rfl | rfl | rfl | rfl | rfl | rfl | rfl | rfl | rfl | rfl | rfl | rfl | rfl | rfl | rfl | rfl | rfl | rfl | rfl | rfl | rfl | rfl | rfl | rfl | rfl | rfl | rfl | rfl | rfl | rfl | rfl | rfl | rfl
  all_goals
    rw [newSchema_one hw (by simp) (by simp)]
    cases kd <;> rfl

/-- The compiled form of a schema without constraints. -/
def bare (k : String) (g : GoVal) : Schema := ⟨[{ doc := (GoVal.obj [(k, g)]).view, draft := Hybrid }], 0, []⟩

theorem type_one {n : Fuel} (hw : w.norm "#" = some "") :
    newSchema w σ n (.obj [("type", .opaque .string i)]) = .ok (bare "type" (.opaque .string i)) := by
  rw [newSchema_one hw (by simp) (by simp)]
  rfl

theorem other_one {n : Fuel} (hw : w.norm "#" = some "") (hk : ∀ e ∈ kindTable, k ≠ e.1) (hc : k ≠ "const") :
    newSchema w σ n (.obj [(k, .opaque kd i)]) = .ok (bare k (.opaque kd i)) := by
  have key : ∀ q, (q ∈ kindTable.map Prod.fst ∨ q = "const") → getKey q [(k, GoVal.opaque kd i)] = none := by
    intro q hq
    apply getKey_one
    rintro rfl
    rcases hq with hq | rfl
    · obtain ⟨e, he, h⟩ := List.mem_map.1 hq
      exact hk e he h.symm
    · exact hc rfl
  rw [newSchema_one hw (fun h => absurd h (by
      rintro (rfl | rfl | rfl)
      · exact hk ("id", [], [.string]) (by simp [kindTable]) rfl
      · exact hk ("$id", [], [.string]) (by simp [kindTable]) rfl
      · exact hk ("$ref", [], [.string]) (by simp [kindTable]) rfl))
    (by rintro rfl; exact hk ("$schema", [], [.string]) (by simp [kindTable]) rfl)]
  have hid : keyID Hybrid [(k, GoVal.opaque kd i)] = "$id" := by
    simp [keyID, existsMapKey, key "id" (by simp [kindTable]), Hybrid, Draft4]
  have hk : ∀ s, parseKeywords w σ (parseSchema w σ n.parse) [62] "" Hybrid 0 none [(k, .opaque kd i)] s =
      (.ok (), { s with heap := s.heap.set 0 { doc := (GoVal.obj [(k, .opaque kd i)]).view, draft := Hybrid } }) := by
    intro s
    unfold parseKeywords
    simp only [kwType, kwProperties, kwExtra, kwPatternProperties, kwSchema, kwDependencies, kwItems, kwMultipleOf, kwBound,
      kwExclusive, kwSize, kwPattern, kwFormat, kwRequired, kwUnique, kwContains, kwConst, kwEnum, kwSchemas]
    rw [key "type" (by simp [kindTable]), key "properties" (by simp [kindTable]), key "additionalProperties" (by simp [kindTable]),
      key "patternProperties" (by simp [kindTable]), key "propertyNames" (by simp [kindTable]), key "dependencies" (by simp [kindTable]),
      key "items" (by simp [kindTable]), key "additionalItems" (by simp [kindTable]), key "multipleOf" (by simp [kindTable]),
      key "minimum" (by simp [kindTable]), key "exclusiveMinimum" (by simp [kindTable]), key "maximum" (by simp [kindTable]),
      key "exclusiveMaximum" (by simp [kindTable]), key "minLength" (by simp [kindTable]), key "maxLength" (by simp [kindTable]),
      key "pattern" (by simp [kindTable]), key "format" (by simp [kindTable]), key "minProperties" (by simp [kindTable]),
      key "maxProperties" (by simp [kindTable]), key "required" (by simp [kindTable]), key "minItems" (by simp [kindTable]),
      key "maxItems" (by simp [kindTable]), key "uniqueItems" (by simp [kindTable]), key "contains" (by simp [kindTable]),
      key "const" (by simp), key "enum" (by simp [kindTable]), key "oneOf" (by simp [kindTable]), key "anyOf" (by simp [kindTable]),
      key "allOf" (by simp [kindTable]), key "not" (by simp [kindTable]), key "if" (by simp [kindTable]),
      key "then" (by simp [kindTable]), key "else" (by simp [kindTable])]
    rfl
  have ho : ∀ s, parseObject w σ (parseSchema w σ n.parse) true [62] "" "" [(k, .opaque kd i)] Hybrid 0 s =
      (.ok (), { s with heap := s.heap.set 0 { doc := (GoVal.obj [(k, .opaque kd i)]).view, draft := Hybrid } }) := by
    intro s
    unfold parseObject
    simp only [kwId, kwDefinitions, kwText, kwRefText, hid]
    rw [key "$id" (by simp [kindTable]), key "definitions" (by simp [kindTable]), key "title" (by simp [kindTable]),
      key "description" (by simp [kindTable]), key "$ref" (by simp [kindTable])]
    exact hk s
  have hr : parseRoot w σ n.parse [62] "" (.obj [(k, .opaque kd i)]) Hybrid { l := after k kd i } =
      (.ok 0, ⟨(bare k (.opaque kd i)).heap, [], after k kd i⟩) := by
    show ((parseObject w σ (parseSchema w σ n.parse) true [62] "" "" [(k, .opaque kd i)] Hybrid 0 >>= fun _ => pure 0)
      ⟨[{ doc := (GoVal.obj [(k, .opaque kd i)]).view, draft := Hybrid }], [], after k kd i⟩) = _
    rw [step (ho _)]
    rfl
  unfold runParse
  rw [hr]
  rfl

theorem rewrite_const {g s p r d n} :
    rewrite w σ d (n + 2) p r (.obj [("const", g)]) s = (.ok (.obj [("const", g)], none), s) := by
  show rewriteObj w σ (rewrite w σ d (n + 1)) p r d _ s = _
  unfold rewriteObj
  have e : idText w [("const", g)] s = (.ok none, s) := rfl
  rw [step e]
  have e : idScope w.toWorld r none s = (.ok (r, none), s) := rfl
  rw [step e]
  have e : taken none s = (.ok false, s) := rfl
  rw [step e]
  simp only [Bool.false_eq_true, if_false]
  have e : register none ⟨.obj [("const", g)], d⟩ s = (.ok (), s) := rfl
  rw [step e]
  have e : rewriteRef w r [("const", g)] s = (.ok [("const", g)], s) := rfl
  rw [step e, order_one]
  rfl

theorem const_one {g} {n : Fuel} (hw : w.norm "#" = some "") : newSchema w σ n (.obj [("const", g)]) =
    match w.marshal g with
    | none => .error (.err .marshal)
    | some t => .ok ⟨[{ doc := (GoVal.obj [("const", g)]).view, draft := Hybrid, const := some t }], 0, []⟩ := by
  rw [newSchema_fst hw]
  have e1 : parseReferences w σ [61] (.obj [("const", g)]) "" true {} =
      (.ok (.obj [("const", g)], none), { pool := [("", ⟨.obj [("const", g)], none⟩)] }) := by
    unfold parseReferences
    have a : inPool "" {} = (.ok false, {}) := rfl
    rw [step a]
    simp only [Bool.and_false, Bool.false_eq_true, if_false]
    have b : detectDraft w (.obj [("const", g)]) {} = (.ok none, {}) := rfl
    rw [step b]
    have c : size (.obj [("const", g)]) = (size g) + 2 := by simp [size, sizeKV]; omega
    rw [c, step rewrite_const]
    rfl
  have e2 : rootDocument w σ [] (.raw (.obj [("const", g)])) "" {} =
    (.ok (.obj [("const", g)]), { pool := [("", ⟨.obj [("const", g)], none⟩)] }) := step e1
  have e2' : whenValidate (validateMetaschema w σ n [] (.obj [("const", g)])) { pool := [("", ⟨.obj [("const", g)], none⟩)] } =
    (.ok (), { pool := [("", ⟨.obj [("const", g)], none⟩)] }) := rfl
  rw [step e2, step e2']
  have e3 : rootDraft w (.obj [("const", g)]) { pool := [("", ⟨.obj [("const", g)], none⟩)] } =
    (.ok Hybrid, { pool := [("", ⟨.obj [("const", g)], none⟩)] }) := rfl
  rw [step e3]
  cases hm : w.marshal g with
  | none =>
    have e4 : kwConst w Hybrid [("const", g)] = (M.err .marshal : M PState (Option String)) := by
      show (match w.marshal g with
        | none => (M.err .marshal : M PState (Option String))
        | some t => return some t) = _
      rw [hm]
    have e5 : ∀ s, parseKeywords w σ (parseSchema w σ n.parse) [62] "" Hybrid 0 none [("const", g)] s = (.error (.err .marshal), s) := by
      intro s
      unfold parseKeywords
      rw [e4]
      rfl
    have e6 : parseRoot w σ n.parse [62] "" (.obj [("const", g)]) Hybrid { l := { pool := [("", ⟨.obj [("const", g)], none⟩)] } } =
        (.error (.err .marshal), ⟨[{ doc := (GoVal.obj [("const", g)]).view, draft := Hybrid }], [],
          { pool := [("", ⟨.obj [("const", g)], none⟩)] }⟩) := by
      show ((parseKeywords w σ (parseSchema w σ n.parse) [62] "" Hybrid 0 none [("const", g)] >>= fun _ => pure 0)
        ⟨[{ doc := (GoVal.obj [("const", g)]).view, draft := Hybrid }], [], { pool := [("", ⟨.obj [("const", g)], none⟩)] }⟩) = _
      rw [stop (e5 _)]
    unfold runParse
    rw [e6]
  | some t =>
    have e4 : kwConst w Hybrid [("const", g)] = (pure (some t) : M PState (Option String)) := by
      show (match w.marshal g with
        | none => (M.err .marshal : M PState (Option String))
        | some t => return some t) = _
      rw [hm]
    have e5 : ∀ s, parseKeywords w σ (parseSchema w σ n.parse) [62] "" Hybrid 0 none [("const", g)] s =
        (.ok (), { s with heap := s.heap.set 0 { doc := (GoVal.obj [("const", g)]).view, draft := Hybrid, const := some t } }) := by
      intro s
      unfold parseKeywords
      rw [e4]
      rfl
    have e6 : parseRoot w σ n.parse [62] "" (.obj [("const", g)]) Hybrid { l := { pool := [("", ⟨.obj [("const", g)], none⟩)] } } =
        (.ok 0, ⟨[{ doc := (GoVal.obj [("const", g)]).view, draft := Hybrid, const := some t }], [],
          { pool := [("", ⟨.obj [("const", g)], none⟩)] }⟩) := by
      show ((parseKeywords w σ (parseSchema w σ n.parse) [62] "" Hybrid 0 none [("const", g)] >>= fun _ => pure 0)
        ⟨[{ doc := (GoVal.obj [("const", g)]).view, draft := Hybrid }], [], { pool := [("", ⟨.obj [("const", g)], none⟩)] }⟩) = _
      rw [step (e5 _)]
      rfl
    unfold runParse
    rw [e6]

end GJS.RawS

import Verif.LemRawSchema
import Verif.LemRaw
/-
Helper lemmas: `parseSchema` over decoded documents is `parseSchema` over JSON values.
-/
namespace GJS.RawS
open GJS Spec

/-- Compilations over related loaders. -/
structure DecodedP (s : GJS.PState) (t : PState) : Prop where
  heap : t.heap = s.heap
  refs : t.refs = s.refs
  l : Decoded s.l t.l

/-- The recursive calls behave alike. -/
def RecSim (rec : GJS.PRec) (rec' : PRec) : Prop :=
  ∀ p a b v d c, Sim DecodedP Eq (rec p a b v d c) (rec' p a b (ofJson v) d c)

section
variable {w : Outside} {σ : Sched} {rec : GJS.PRec} {rec' : PRec}

theorem liftL_sim {x : M LState α} {y : M State β} {V : α → β → Prop} (h : Sim Decoded V x y) :
    Sim DecodedP V (GJS.liftL x) (liftL y) := by
  refine ⟨fun s t hs => ?_⟩
  obtain ⟨h1, h2⟩ := h.run s.l t.l hs.l
  exact ⟨⟨hs.heap, hs.refs, h1⟩, h2⟩

theorem alloc_sim {v d} : Sim DecodedP Eq (GJS.alloc v d) (alloc (ofJson v) d) := by
  refine ⟨fun s t hs => ⟨⟨?_, hs.refs, hs.l⟩, .inl ⟨_, _, rfl, rfl, ?_⟩⟩⟩
  · show t.heap ++ _ = s.heap ++ _
    rw [hs.heap, view_ofJson]
  · rw [hs.heap]

theorem setNode_sim {c n} : Sim DecodedP Eq (GJS.setNode c n) (setNode c n) :=
  .modify fun s t hs => ⟨by simp only [hs.heap], hs.refs, hs.l⟩

theorem refGet_sim {r} : Sim DecodedP Eq (GJS.refGet r) (refGet r) :=
  .getBind fun s t hs => by rw [hs.refs]; exact .pureEq

theorem refAdd_sim {r c} : Sim DecodedP Eq (GJS.refAdd r c) (refAdd r c) := by
  refine .modify fun s t hs => ?_
  rw [hs.refs]
  split
  · exact hs
  · exact ⟨hs.heap, rfl, hs.l⟩

theorem child_sim (hr : RecSim rec rec') {p id d v} : Sim DecodedP Eq (GJS.child rec p id d v) (child rec' p id d (ofJson v)) :=
  .bindEq alloc_sim fun _ => .bindEq (hr _ _ _ _ _ _) fun _ => .pureEq

theorem addType_sim {ts t} : Sim DecodedP Eq (GJS.addType ts t : M GJS.PState _) (GJS.addType ts t : M PState _) := by
  unfold GJS.addType
  exact .ite (fun _ => .err) fun _ => .ite (fun _ => .err) fun _ => .pureEq

theorem keyID_E (d m) : keyID d (m.map E) = GJS.keyID d m := by
  unfold keyID GJS.keyID
  rw [exists_E]

theorem kwId_sim {b pid id0 d m} : Sim DecodedP Eq (GJS.kwId w.toWorld b pid id0 d m) (kwId w b pid id0 d (m.map E)) := by
  unfold kwId GJS.kwId
  rw [keyID_E, getKey_E]
  cases getKey (GJS.keyID d m) m with
  | none => exact .pureEq
  | some v =>
    refine .kind ?_
    cases v with
    | str k =>
      show Sim _ _ (match w.norm k with | none => _ | some r => _) (match w.norm k with | none => _ | some r => _)
      cases w.norm k with
      | none => exact .err
      | some r =>
        refine .ite (fun _ => .pureEq) fun _ => ?_
        cases w.inherits pid r with
        | none => exact .err
        | some r => exact .pureEq
    | _ => exact .err

theorem kwDefinitions_sim (hσ : σ.Natural) (hr : RecSim rec rec') {p id d m} :
    Sim DecodedP Eq (GJS.kwDefinitions w.toWorld σ rec p id d m) (kwDefinitions w σ rec' p id d (m.map E)) := by
  unfold kwDefinitions GJS.kwDefinitions
  rw [getKey_E]
  cases getKey "definitions" m with
  | none => exact .pureEq
  | some v =>
    refine .kind ?_
    cases v with
    | obj kvs =>
      refine .ite (fun _ => ?_) fun h => absurd rfl h
      simp only [ofJson_obj, order_E hσ]
      refine .bindEq (.mapL fun k kv => ?_) fun _ => .pureEq
      refine .kind ?_
      exact .ite (fun _ => .bindEq (child_sim hr) fun _ => .pureEq) fun _ => .err
    | bool b => exact .fail
    | _ => exact .err

theorem kwText_sim {k m} : Sim DecodedP Eq (GJS.kwText w.toWorld k m) (kwText w k (m.map E)) := by
  unfold kwText GJS.kwText
  rw [getKey_E]
  cases getKey k m with
  | none => exact .pureEq
  | some v =>
    refine .kind ?_
    exact .ite (fun _ => .err) fun _ => .pureEq

theorem kwRefText_sim {m} : Sim DecodedP Eq (GJS.kwRefText w.toWorld m) (kwRefText w (m.map E)) := by
  unfold kwRefText GJS.kwRefText
  rw [getKey_E]
  cases getKey "$ref" m with
  | none => exact .pureEq
  | some v =>
    refine .kind ?_
    cases v with
    | str k =>
      show Sim _ _ (match w.norm k with | none => _ | some r => _) (match w.norm k with | none => _ | some r => _)
      cases w.norm k with
      | none => exact .err
      | some r => exact .pureEq
    | _ => exact .err

theorem typeLoop_sim : ∀ {vs ts}, Sim DecodedP Eq (GJS.typeLoop ts vs) (typeLoop ts (vs.map ofJson))
  | [], _ => .pureEq
  | v :: vs, ts => by
    rw [List.map_cons]
    unfold typeLoop GJS.typeLoop
    rw [rawKind_ofJson]
    cases v with
    | str t => exact .bindEq addType_sim fun _ => typeLoop_sim
    | num n => exact .fail
    | _ => exact .err

theorem kwType_sim {m} : Sim DecodedP Eq (GJS.kwType w.toWorld m) (kwType w (m.map E)) := by
  unfold kwType GJS.kwType
  rw [getKey_E]
  cases getKey "type" m with
  | none => exact .pureEq
  | some v =>
    refine .kind ?_
    cases v with
    | str t => exact addType_sim
    | arr vs =>
      refine .kind ?_
      rw [ofJson_arr]
      exact typeLoop_sim
    | _ => exact .kind .err

theorem kwProperties_sim (hσ : σ.Natural) (hr : RecSim rec rec') {p id d m} :
    Sim DecodedP Eq (GJS.kwProperties w.toWorld σ rec p id d m) (kwProperties w σ rec' p id d (m.map E)) := by
  unfold kwProperties GJS.kwProperties
  rw [getKey_E]
  cases getKey "properties" m with
  | none => exact .pureEq
  | some v =>
    refine .kind ?_
    cases v with
    | obj kvs =>
      refine .ite (fun h => absurd (show false = true from h) Bool.false_ne_true) fun _ => ?_
      simp only [ofJson_obj, order_E hσ]
      refine .mapL fun k kv => ?_
      exact .bindEq (child_sim hr) fun _ => .pureEq
    | _ => exact .err

theorem kwExtra_sim (hr : RecSim rec rec') {p id d k m} :
    Sim DecodedP Eq (GJS.kwExtra w.toWorld rec p id d k m) (kwExtra w rec' p id d k (m.map E)) := by
  unfold kwExtra GJS.kwExtra
  rw [getKey_E]
  cases getKey k m with
  | none => exact .pureEq
  | some v =>
    refine .kind ?_
    cases v with
    | bool b => exact .pureEq
    | obj kvs => exact .kind (.bindEq (child_sim hr) fun _ => .pureEq)
    | _ => exact .kind .err

theorem kwPatternProperties_sim (hσ : σ.Natural) (hr : RecSim rec rec') {p id d m} :
    Sim DecodedP Eq (GJS.kwPatternProperties w.toWorld σ rec p id d m) (kwPatternProperties w σ rec' p id d (m.map E)) := by
  unfold kwPatternProperties GJS.kwPatternProperties
  rw [getKey_E]
  cases getKey "patternProperties" m with
  | none => exact .pureEq
  | some v =>
    refine .kind ?_
    cases v with
    | obj kvs =>
      refine .ite (fun _ => ?_) fun h => absurd rfl h
      simp only [ofJson_obj, order_E hσ]
      refine .mapL fun k kv => ?_
      exact .ite (fun _ => .err) fun _ => .bindEq (child_sim hr) fun _ => .pureEq
    | _ => exact .err

theorem kwSchema_sim (hr : RecSim rec rec') {p id d b k e m} :
    Sim DecodedP Eq (GJS.kwSchema w.toWorld rec p id d b k e m) (kwSchema w rec' p id d b k e (m.map E)) := by
  unfold kwSchema GJS.kwSchema
  rw [getKey_E]
  cases getKey k m with
  | none => exact .pureEq
  | some v =>
    refine .ite (fun _ => .kind ?_) fun _ => .pureEq
    exact .ite (fun _ => .bindEq (child_sim hr) fun _ => .pureEq) fun _ => .err

theorem depKeys_sim : ∀ {vs}, Sim DecodedP Eq (GJS.depKeys w.toWorld vs) (depKeys w (vs.map ofJson))
  | [] => .pureEq
  | v :: vs => by
    rw [List.map_cons]
    unfold depKeys GJS.depKeys
    refine .kind ?_
    cases v with
    | str t => exact .bindEq depKeys_sim fun _ => .pureEq
    | _ => exact .err

theorem kwDependency_sim (hr : RecSim rec rec') {p id d kv} :
    Sim DecodedP Eq (GJS.kwDependency w.toWorld rec p id d kv) (kwDependency w rec' p id d (E kv)) := by
  obtain ⟨k, v⟩ := kv
  unfold kwDependency GJS.kwDependency E
  cases v with
  | arr vs =>
    rw [ofJson_arr]
    exact .bindEq depKeys_sim fun _ => .pureEq
  | obj m =>
    simp only [rawKind_ofJson]
    exact .bindEq (child_sim hr) fun _ => .pureEq
  | bool b => exact .bindEq (child_sim (v := .bool b) hr) fun _ => .pureEq
  | _ => exact .err

theorem kwDependencies_sim (hσ : σ.Natural) (hr : RecSim rec rec') {p id d m} :
    Sim DecodedP Eq (GJS.kwDependencies w.toWorld σ rec p id d m) (kwDependencies w σ rec' p id d (m.map E)) := by
  unfold kwDependencies GJS.kwDependencies
  rw [getKey_E]
  cases getKey "dependencies" m with
  | none => exact .pureEq
  | some v =>
    refine .kind ?_
    cases v with
    | obj kvs =>
      refine .ite (fun h => absurd (show false = true from h) Bool.false_ne_true) fun _ => ?_
      simp only [ofJson_obj, order_E hσ]
      refine .bindEq (.mapL fun k kv => ?_) fun _ => .pureEq
      exact kwDependency_sim hr
    | _ => exact .err

theorem kwItems_sim (hr : RecSim rec rec') {p id d m} :
    Sim DecodedP Eq (GJS.kwItems w.toWorld rec p id d m) (kwItems w rec' p id d (m.map E)) := by
  unfold kwItems GJS.kwItems
  rw [getKey_E]
  cases getKey "items" m with
  | none => exact .pureEq
  | some v =>
    refine .kind ?_
    cases v with
    | arr vs =>
      rw [ofJson_arr]
      refine .bindEq (.mapL fun k x => ?_) fun _ => .pureEq
      exact .kind (.ite (fun _ => child_sim hr) fun _ => .err)
    | obj m => exact .kind (.bindEq (child_sim hr) fun _ => .pureEq)
    | bool b => exact .kind (.bindEq (child_sim hr) fun _ => .pureEq)
    | _ => exact .kind .err

theorem mustBeNumber_ofJson (env v) : mustBeNumber env (ofJson v) = GJS.mustBeNumber env v := by
  cases v <;> simp [ofJson, mustBeNumber, GJS.mustBeNumber]

theorem mustBeInteger_ofJson (env v) : mustBeInteger env (ofJson v) = GJS.mustBeInteger env v := by
  cases v <;> simp [ofJson, mustBeInteger, GJS.mustBeInteger]

theorem kwMultipleOf_sim {m} : Sim DecodedP Eq (GJS.kwMultipleOf w.toWorld m) (kwMultipleOf w (m.map E)) := by
  unfold kwMultipleOf GJS.kwMultipleOf
  rw [getKey_E]
  cases getKey "multipleOf" m with
  | none => exact .pureEq
  | some v =>
    simp only [Option.map, mustBeNumber_ofJson]
    cases GJS.mustBeNumber w.env v with
    | none => exact .err
    | some q => exact .ite (fun _ => .err) fun _ => .pureEq

theorem kwBound_sim {k m} : Sim DecodedP Eq (GJS.kwBound w.toWorld k m) (kwBound w k (m.map E)) := by
  unfold kwBound GJS.kwBound
  rw [getKey_E]
  cases getKey k m with
  | none => exact .pureEq
  | some v =>
    simp only [Option.map, mustBeNumber_ofJson]
    cases GJS.mustBeNumber w.env v with
    | none => exact .err
    | some q => exact .pureEq

theorem exclusiveBool_sim {x k b q} : Sim DecodedP Eq (GJS.exclusiveBool x k b q) (exclusiveBool x k b q) := by
  unfold exclusiveBool GJS.exclusiveBool
  cases q with
  | none => exact .err
  | some q => exact .ite (fun _ => .pureEq) fun _ => .pureEq

theorem exclusiveValue_bool {x k b q} : exclusiveValue x k (.bool b) q = exclusiveBool x k b q := by cases q <;> rfl

theorem kwExclusive_sim {d x k q m} : Sim DecodedP Eq (GJS.kwExclusive w.toWorld d x k q m) (kwExclusive w d x k q (m.map E)) := by
  unfold kwExclusive GJS.kwExclusive
  rw [getKey_E]
  cases getKey x m with
  | none => exact .pureEq
  | some v =>
    refine .ite (fun _ => .kind ?_) fun _ => .ite (fun _ => .kind ?_) fun _ => ?_
    · cases v with
      | bool b =>
        show Sim _ _ (GJS.exclusiveBool x k b q) (exclusiveValue x k (.bool b) q)
        rw [exclusiveValue_bool]
        exact exclusiveBool_sim
      | _ => exact .err
    · cases v with
      | bool b =>
        show Sim _ _ (GJS.exclusiveBool x k b q) (exclusiveValue x k (.bool b) q)
        rw [exclusiveValue_bool]
        exact exclusiveBool_sim
      | num n => exact .pureEq
      | arr xs => rw [ofJson_arr]; exact .err
      | obj xs => rw [ofJson_obj]; exact .err
      | _ => exact .err
    · cases v with
      | num n => exact .pureEq
      | arr xs => simp only [ofJson_arr]; exact .err
      | obj xs => simp only [ofJson_obj]; exact .err
      | _ => exact .err

theorem kwSize_sim {k m} : Sim DecodedP Eq (GJS.kwSize w.toWorld k m) (kwSize w k (m.map E)) := by
  unfold kwSize GJS.kwSize
  rw [getKey_E]
  cases getKey k m with
  | none => exact .pureEq
  | some v =>
    simp only [Option.map, mustBeInteger_ofJson]
    cases GJS.mustBeInteger w.env v with
    | none => exact .err
    | some q => exact .ite (fun _ => .err) fun _ => .pureEq

theorem checkOrder_sim {a b e} : Sim DecodedP Eq (GJS.checkOrder a b e) (checkOrder a b e) := by
  unfold checkOrder GJS.checkOrder
  cases a with
  | none => exact .pureEq
  | some a =>
    cases b with
    | none => exact .pureEq
    | some b => exact .ite (fun _ => .err) fun _ => .pureEq

theorem kwPattern_sim {m} : Sim DecodedP Eq (GJS.kwPattern w.toWorld m) (kwPattern w (m.map E)) := by
  unfold kwPattern GJS.kwPattern
  rw [getKey_E]
  cases getKey "pattern" m with
  | none => exact .pureEq
  | some v =>
    refine .kind ?_
    cases v with
    | str t =>
      refine .ite (fun _ => ?_) fun h => absurd rfl h
      exact .ite (fun _ => .pureEq) fun _ => .err
    | _ => exact .err

theorem kwFormat_sim {m} : Sim DecodedP Eq (GJS.kwFormat m) (kwFormat (m.map E)) := by
  unfold kwFormat GJS.kwFormat
  rw [getKey_E]
  cases getKey "format" m with
  | none => exact .pureEq
  | some v =>
    cases v with
    | str t => exact .pureEq
    | _ => exact .err

theorem requiredLoop_sim : ∀ {vs qs}, Sim DecodedP Eq (GJS.requiredLoop w.toWorld qs vs) (requiredLoop w qs (vs.map ofJson))
  | [], _ => .pureEq
  | v :: vs, qs => by
    rw [List.map_cons]
    unfold requiredLoop GJS.requiredLoop
    refine .kind ?_
    cases v with
    | str t =>
      refine .ite (fun _ => ?_) fun h => absurd rfl h
      exact .ite (fun _ => .err) fun _ => requiredLoop_sim
    | _ => exact .err

theorem kwRequired_sim {m} : Sim DecodedP Eq (GJS.kwRequired w.toWorld m) (kwRequired w (m.map E)) := by
  unfold kwRequired GJS.kwRequired
  rw [getKey_E]
  cases getKey "required" m with
  | none => exact .pureEq
  | some v =>
    refine .kind ?_
    cases v with
    | arr vs => rw [ofJson_arr]; exact requiredLoop_sim
    | _ => exact .err

theorem kwUnique_sim {m} : Sim DecodedP Eq (GJS.kwUnique w.toWorld m) (kwUnique w (m.map E)) := by
  unfold kwUnique GJS.kwUnique
  rw [getKey_E]
  cases getKey "uniqueItems" m with
  | none => exact .pureEq
  | some v =>
    refine .kind ?_
    cases v with
    | bool b => exact .pureEq
    | _ => exact .err

theorem kwContains_sim (hr : RecSim rec rec') {p id d m} :
    Sim DecodedP Eq (GJS.kwContains rec p id d m) (kwContains rec' p id d (m.map E)) := by
  unfold kwContains GJS.kwContains
  rw [getKey_E]
  cases getKey "contains" m with
  | none => exact .pureEq
  | some v => exact .ite (fun _ => .bindEq (child_sim hr) fun _ => .pureEq) fun _ => .pureEq

theorem kwConst_sim {d m} : Sim DecodedP Eq (GJS.kwConst w.toWorld d m) (kwConst w d (m.map E)) := by
  unfold kwConst GJS.kwConst
  rw [getKey_E]
  cases getKey "const" m with
  | none => exact .pureEq
  | some v =>
    refine .ite (fun _ => ?_) fun _ => .pureEq
    simp only [marshal_ofJson]
    cases w.env.marshal v with
    | none => exact .err
    | some t => exact .pureEq

theorem enumLoop_sim : ∀ {vs es}, Sim DecodedP Eq (GJS.enumLoop w.toWorld es vs) (enumLoop w es (vs.map ofJson))
  | [], _ => .pureEq
  | v :: vs, es => by
    rw [List.map_cons, enumLoop, GJS.enumLoop, marshal_ofJson]
    cases w.env.marshal v with
    | none => exact .err
    | some t => exact .ite (fun _ => .err) fun _ => enumLoop_sim

theorem kwEnum_sim {m} : Sim DecodedP Eq (GJS.kwEnum w.toWorld m) (kwEnum w (m.map E)) := by
  unfold kwEnum GJS.kwEnum
  rw [getKey_E]
  cases getKey "enum" m with
  | none => exact .pureEq
  | some v =>
    refine .kind ?_
    cases v with
    | arr vs => rw [ofJson_arr]; exact enumLoop_sim
    | _ => exact .err

theorem kwSchemas_sim (hr : RecSim rec rec') {p id d k e m} :
    Sim DecodedP Eq (GJS.kwSchemas w.toWorld rec p id d k e m) (kwSchemas w rec' p id d k e (m.map E)) := by
  unfold kwSchemas GJS.kwSchemas
  rw [getKey_E]
  cases getKey k m with
  | none => exact .pureEq
  | some v =>
    refine .kind ?_
    cases v with
    | arr vs =>
      refine .ite (fun _ => ?_) fun h => absurd rfl h
      simp only [ofJson_arr]
      refine .mapL fun k x => ?_
      exact child_sim hr
    | _ => exact .err

theorem parseReference_sim (hσ : σ.Natural) (hw : LooksAlike w) (hr : RecSim rec rec') {p id d r} :
    Sim DecodedP Eq (GJS.parseReference w.toWorld σ rec p id d r) (parseReference w σ rec' p id d r) := by
  unfold parseReference GJS.parseReference
  refine .bind (liftL_sim (getDocument_sim hσ hw)) fun x _ e => ?_
  subst e
  refine .bindEq alloc_sim fun c => .bindEq refAdd_sim fun _ => .kind ?_
  exact .ite (fun _ => .err) fun _ => .bindEq (hr _ _ _ _ _ _) fun _ => .pureEq

theorem parseKeywords_sim (hσ : σ.Natural) (hr : RecSim rec rec') {p id d c o m} :
    Sim DecodedP Eq (GJS.parseKeywords w.toWorld σ rec p id d c o m) (parseKeywords w σ rec' p id d c o (m.map E)) := by
  unfold parseKeywords GJS.parseKeywords
  rw [view_E]
  refine .bindEq kwType_sim fun _ => .bindEq (kwProperties_sim hσ hr) fun _ => .bindEq (kwExtra_sim hr) fun _ =>
    .bindEq (kwPatternProperties_sim hσ hr) fun _ => .bindEq (kwSchema_sim hr) fun _ => .bindEq (kwDependencies_sim hσ hr) fun _ =>
    .bindEq (kwItems_sim hr) fun _ => .bindEq (kwExtra_sim hr) fun _ => .bindEq kwMultipleOf_sim fun _ => .bindEq kwBound_sim fun _ =>
    .bindEq kwExclusive_sim fun _ => .bindEq kwBound_sim fun _ => .bindEq kwExclusive_sim fun _ => .bindEq kwSize_sim fun _ =>
    .bindEq kwSize_sim fun _ => .bindEq checkOrder_sim fun _ => .bindEq kwPattern_sim fun _ => .bindEq kwFormat_sim fun _ =>
    .bindEq kwSize_sim fun _ => .bindEq kwSize_sim fun _ => .bindEq checkOrder_sim fun _ => .bindEq kwRequired_sim fun _ =>
    .bindEq kwSize_sim fun _ => .bindEq kwSize_sim fun _ => .bindEq kwUnique_sim fun _ => .bindEq (kwContains_sim hr) fun _ =>
    .bindEq kwConst_sim fun _ => .bindEq kwEnum_sim fun _ => .bindEq (kwSchemas_sim hr) fun _ => .bindEq (kwSchemas_sim hr) fun _ =>
    .bindEq (kwSchemas_sim hr) fun _ => .bindEq (kwSchema_sim hr) fun _ => .bindEq (kwSchema_sim hr) fun _ =>
    .bindEq (kwSchema_sim hr) fun _ => .bindEq (kwSchema_sim hr) fun _ => setNode_sim

theorem parseStep_sim (hσ : σ.Natural) (hw : LooksAlike w) (hr : RecSim rec rec') {b p pid id0 v d c} :
    Sim DecodedP Eq (GJS.parseStep w.toWorld σ rec b p pid id0 v d c) (parseStep w σ rec' b p pid id0 (ofJson v) d c) := by
  have ho : ∀ m, Sim DecodedP Eq (GJS.parseObject w.toWorld σ rec b p pid id0 m d c) (parseObject w σ rec' b p pid id0 (m.map E) d c) := by
    intro m
    unfold parseObject GJS.parseObject
    refine .bindEq kwId_sim fun id => .bindEq (kwDefinitions_sim hσ hr) fun _ => .bindEq kwText_sim fun _ => .bindEq kwText_sim fun _ =>
      .bindEq kwRefText_sim fun ref => ?_
    unfold parseAfterRef GJS.parseAfterRef
    cases ref with
    | none => exact parseKeywords_sim hσ hr
    | some r =>
      refine .bindEq refGet_sim fun known => ?_
      cases known with
      | some j => exact parseKeywords_sim hσ hr
      | none =>
        rw [view_E]
        exact .bindEq (parseReference_sim hσ hw hr) fun j => setNode_sim
  have hk : ∀ m, Sim DecodedP Eq
      (do let b' ← GJS.isKind w.env (.obj m) [.map]
          if !b' then M.err .parseError else GJS.parseObject w.toWorld σ rec b p pid id0 m d c)
      (do let b' ← isKind w.env (ofJson (.obj m)) [.map]
          if !b' then M.err .parseError else
          match ofJson (.obj m) with
          | .obj m => parseObject w σ rec' b p pid id0 m d c
          | _ => M.fail .panic) := by
    intro m
    refine .kind ?_
    rw [ofJson_obj]
    exact ho m
  unfold parseStep GJS.parseStep
  refine .kind ?_
  rw [view_ofJson]
  cases hd : decide (d ≥ Draft6) with
  | true =>
    cases v with
    | bool x => exact setNode_sim
    | obj m => exact hk m
    | arr xs => exact .kind .err
    | _ => exact .kind .err
  | false =>
    cases v with
    | obj m => exact hk m
    | arr xs => exact .kind .err
    | _ => exact .kind .err

theorem parseSchema_sim (hσ : σ.Natural) (hw : LooksAlike w) : ∀ n, RecSim (GJS.parseSchema w.toWorld σ n) (parseSchema w σ n)
  | 0 => fun _ _ _ _ _ _ => .fail
  | n + 1 => fun _ _ _ _ _ _ => parseStep_sim hσ hw (parseSchema_sim hσ hw n)

theorem runParse_sim (hσ : σ.Natural) (hw : LooksAlike w) {fuel : Fuel} {p r v d} :
    Sim Decoded Eq (GJS.runParse w.toWorld σ fuel p r v d) (runParse w σ fuel.parse p r (ofJson v) d) := by
  have h : Sim DecodedP Eq (GJS.parseRoot w.toWorld σ fuel.parse p r v d) (parseRoot w σ fuel.parse p r (ofJson v) d) :=
    .bindEq alloc_sim fun c => .bindEq (parseStep_sim hσ hw (parseSchema_sim hσ hw _)) fun _ => .pureEq
  refine ⟨fun l s hl => ?_⟩
  obtain ⟨h1, h2⟩ := h.run { l := l } { l := s } ⟨rfl, rfl, hl⟩
  unfold runParse GJS.runParse
  rcases hx : GJS.parseRoot w.toWorld σ fuel.parse p r v d { l := l } with ⟨a, t⟩
  rcases hy : parseRoot w σ fuel.parse p r (ofJson v) d { l := s } with ⟨b, t'⟩
  rw [hx, hy] at h1 h2
  simp only at h1 h2
  rcases h2 with ⟨a, b, rfl, rfl, rfl⟩ | ⟨e, rfl, rfl⟩
  · exact ⟨h1.l, .inl ⟨_, _, rfl, rfl, by rw [h1.heap, h1.refs]⟩⟩
  · exact ⟨h1.l, .inr ⟨_, rfl, rfl⟩⟩

theorem rootDraft_sim {v} : Sim Decoded Eq (GJS.rootDraft w.toWorld v) (rootDraft w (ofJson v)) := by
  refine .getBind fun l s h => ?_
  rw [h.autoDetect, h.draft]
  exact .ite (fun _ => .bindEq parseSchemaURL_sim fun _ => .pureEq) fun _ => .pureEq

/-- The loader of a document and of what it decodes to, or one reference loader. -/
inductive ArgSim : LoaderArg → GoArg → Prop
  | raw (v) : ArgSim (.direct (some v)) (.raw (ofJson v))
  | reference (source fs) : ArgSim (.reference source fs) (.reference source fs)

theorem ArgSim.ref {a b} (h : ArgSim a b) : b.ref w = a.ref w.toWorld := by cases h <;> rfl
theorem ArgSim.factory {a b} (h : ArgSim a b) : b.factory = a.factory := by cases h <;> rfl

theorem loadJSON_sim {a b} (h : ArgSim a b) : Sim Decoded Dec (GJS.loadJSON w.toWorld a) (loadJSON w b) := by
  refine ⟨fun l s hl => ?_⟩
  cases h with
  | raw v => exact ⟨hl, .inl ⟨_, _, rfl, rfl, rfl⟩⟩
  | reference source fs =>
    unfold loadJSON GJS.loadJSON
    simp only
    have h' : Decoded { l with own := l.own ++ [(fs, source)] } { s with own := s.own ++ [(fs, source)] } :=
      ⟨hl.pool, hl.factory, hl.autoDetect, hl.draft, hl.log, by simp only [hl.own], hl.validate⟩
    rw [Decoded.clock hl]
    cases loadReference w.toWorld l.clock fs source with
    | none => exact ⟨h', .inr ⟨_, rfl, rfl⟩⟩
    | some d => exact ⟨h', .inl ⟨_, _, rfl, rfl, rfl⟩⟩

theorem failIf_sim {x} : Sim Decoded Dec (GJS.failIf x) (failIf (ofJson x.1, x.2)) := by
  obtain ⟨x, o⟩ := x
  cases o with
  | none => exact .pure rfl
  | some e => exact .err

theorem rootDocument_sim (hσ : σ.Natural) (hw : LooksAlike w) {p a b r} (h : ArgSim a b) :
    Sim Decoded Dec (GJS.rootDocument w.toWorld σ p a r) (rootDocument w σ p b r) := by
  unfold rootDocument GJS.rootDocument
  refine .ite (fun _ => .bind (getDocument_sim hσ hw) fun a b e => .pure (by rw [e]; rfl)) fun _ => ?_
  refine .bind (loadJSON_sim h) fun v _ e => ?_
  subst e
  refine .bind (parseReferences_sim hσ) fun x _ e => ?_
  subst e
  exact failIf_sim

theorem whenValidate_sim {x : M LState Unit} {y : M State Unit} (h : Sim Decoded Eq x y) :
    Sim Decoded Eq (GJS.whenValidate x) (whenValidate y) := by
  refine .getBind fun l s hl => ?_
  rw [hl.validate]
  exact .ite (fun _ => h) fun _ => .pureEq

theorem compileG_sim (hσ : σ.Natural) (hw : LooksAlike w) {fuel : Fuel} {hook hook'} {p a b} (h : ArgSim a b)
    (hh : ∀ p v, Sim Decoded Eq (hook p v) (hook' p (ofJson v))) :
    Sim Decoded Eq (GJS.compileG w.toWorld σ fuel hook p a) (compileG w σ fuel hook' p b) := by
  unfold compileG GJS.compileG
  rw [h.ref, h.factory]
  cases a.ref w.toWorld with
  | none => exact .err
  | some r =>
    refine .bindEq (.modify fun l s h => ⟨h.pool, rfl, h.autoDetect, h.draft, h.log, h.own, h.validate⟩) fun _ => ?_
    refine .bind (rootDocument_sim hσ hw h) fun d _ e => ?_
    subst e
    exact .bindEq (whenValidate_sim (hh _ _)) fun _ => .bindEq rootDraft_sim fun _ => runParse_sim hσ hw

theorem detectedURL_sim {v} : Sim Decoded Eq (GJS.detectedURL w.toWorld v) (detectedURL w (ofJson v)) := by
  refine .getBind fun l s h => ?_
  rw [h.autoDetect]
  exact .ite (fun _ => .bindEq parseSchemaURL_sim fun _ => .pureEq) fun _ => .pureEq

theorem metaSchemaURL_sim {v} : Sim Decoded Eq (GJS.metaSchemaURL w.toWorld v) (metaSchemaURL w (ofJson v)) := by
  refine .bindEq detectedURL_sim fun u => .getBind fun l s h => ?_
  rw [h.draft]
  exact .ite (fun _ => .ite (fun _ => .pureEq) fun _ => .pureEq) fun _ => .pureEq

theorem checkDocument_sim (hσ : σ.Natural) (hf : FormatsAlike w.raw) {fuel : Fuel} {S : Schema} {v} :
    Sim Decoded Eq (GJS.checkDocument w.toWorld σ fuel S v) (checkDocument w σ fuel S (ofJson v)) := by
  have e : rawDocument w.raw σ S.heap fuel.validate S.root (ofJson v) =
      validateDocument w.env σ S.heap fuel.validate S.root v := by
    obtain ⟨hj, hv⟩ := GoVal.view_of (json_ofJson v)
    rcases raw_agree (C := True) (h := S.heap) hσ hf fuel.validate [] S.root (ofJson v) rootCtx hj
      (fun _ => .inr (.plain _ (plain_ofJson v))) with h | h
    · rw [hv] at h; exact h
    · exact absurd trivial h.2
  unfold checkDocument GJS.checkDocument
  rw [e]
  cases validateDocument w.env σ S.heap fuel.validate S.root v with
  | ok r => exact .ite (fun _ => .pureEq) fun _ => .err
  | error f => cases f <;> exact .fail

theorem validateMetaschema_sim (hσ : σ.Natural) (hw : LooksAlike w) (hf : FormatsAlike w.raw) {fuel : Fuel} {p v} :
    Sim Decoded Eq (GJS.validateMetaschema w.toWorld σ fuel p v) (validateMetaschema w σ fuel p (ofJson v)) := by
  unfold validateMetaschema GJS.validateMetaschema
  refine .bindEq metaSchemaURL_sim fun u => ?_
  cases u with
  | none => exact .pureEq
  | some u =>
    refine .bindEq (.modify fun l s h => ⟨h.pool, h.factory, h.autoDetect, h.draft, h.log, h.own, rfl⟩) fun _ => ?_
    refine .bindEq (compileG_sim hσ hw (.reference u 0) fun _ _ => .pureEq) fun S => ?_
    refine .bindEq (.modify fun l s h => ⟨h.pool, h.factory, h.autoDetect, h.draft, h.log, h.own, rfl⟩) fun _ => ?_
    exact checkDocument_sim hσ hf

/-- `Compile` over the JSON value and over what it decodes to. -/
theorem compile_sim (hσ : σ.Natural) (hw : LooksAlike w) (hf : FormatsAlike w.raw) {fuel : Fuel} {p a b} (h : ArgSim a b) :
    Sim Decoded Eq (GJS.compile w.toWorld σ fuel p a) (compile w σ fuel p b) :=
  compileG_sim hσ hw h fun _ _ => validateMetaschema_sim hσ hw hf

end

end GJS.RawS

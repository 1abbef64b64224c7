import Verif.SpecRawSchema
import Verif.LemRaw
/-
Helper lemmas: the compiler over decoded documents is the compiler over JSON values.
-/
namespace GJS.RawS
open GJS Spec

/-! ### Decoded documents -/

/-- Members of an object, decoded. -/
def E (kv : String × Json) : String × GoVal := (kv.1, ofJson kv.2)

theorem ofJsonL_map : ∀ xs, ofJsonL xs = xs.map ofJson
  | [] => rfl
  | x :: xs => by rw [ofJsonL, ofJsonL_map xs]; rfl

theorem ofJsonKV_map : ∀ xs, ofJsonKV xs = xs.map E
  | [] => rfl
  | (k, x) :: xs => by rw [ofJsonKV, ofJsonKV_map xs]; rfl

theorem ofJson_arr (xs) : ofJson (.arr xs) = .arr (xs.map ofJson) := by rw [ofJson, ofJsonL_map]
theorem ofJson_obj (xs) : ofJson (.obj xs) = .obj (xs.map E) := by rw [ofJson, ofJsonKV_map]

theorem getKey_E (k : String) (m : List (String × Json)) : getKey k (m.map E) = (getKey k m).map ofJson := getKey_map k m
theorem exists_E (k : String) (m : List (String × Json)) : existsMapKey (m.map E) k = existsMapKey m k := exists_map m k

theorem replaceKey_E (k : String) (v) (m : List (String × Json)) :
    replaceKey k (ofJson v) (m.map E) = (replaceKey k v m).map E := by
  unfold replaceKey
  rw [List.map_map, List.map_map]
  apply List.map_congr_left
  intro e _
  simp only [Function.comp, E]
  by_cases h : (e.1 == k) = true <;> simp [h]

mutual
theorem json_ofJson : ∀ v : Json, (ofJson v).json = some v
  | .null | .bool _ | .num _ | .str _ => rfl
  | .arr xs => by rw [ofJson, GoVal.json, jsonL_ofJson xs]; rfl
  | .obj xs => by rw [ofJson, GoVal.json, jsonKV_ofJson xs]; rfl
theorem jsonL_ofJson : ∀ v, GoVal.jsonL (ofJsonL v) = some v
  | [] => rfl
  | x :: xs => by rw [ofJsonL, GoVal.jsonL, json_ofJson x, jsonL_ofJson xs]; rfl
theorem jsonKV_ofJson : ∀ v, GoVal.jsonKV (ofJsonKV v) = some v
  | [] => rfl
  | (k, x) :: xs => by rw [ofJsonKV, GoVal.jsonKV, json_ofJson x, jsonKV_ofJson xs]; rfl
end

mutual
theorem plain_ofJson : ∀ v : Json, PlainGo (ofJson v)
  | .null => .nil
  | .bool b => .bool b
  | .num b => .num b
  | .str b => .str b
  | .arr xs => .arr _ (plainL_ofJson xs)
  | .obj xs => .obj _ (plainKV_ofJson xs)
theorem plainL_ofJson : ∀ v, ∀ x ∈ ofJsonL v, PlainGo x
  | [], _, h => by simp [ofJsonL] at h
  | x :: xs, y, h => by
    rw [ofJsonL] at h
    rcases List.mem_cons.1 h with rfl | h
    · exact plain_ofJson x
    · exact plainL_ofJson xs y h
theorem plainKV_ofJson : ∀ v, ∀ x ∈ ofJsonKV v, PlainGo x.2
  | [], _, h => by simp [ofJsonKV] at h
  | (k, x) :: xs, y, h => by
    rw [ofJsonKV] at h
    rcases List.mem_cons.1 h with rfl | h
    · exact plain_ofJson x
    · exact plainKV_ofJson xs y h
end

theorem plain_eq {g : GoVal} (hg : PlainGo g) : ∀ v, g.json = some v → g = ofJson v := by
  induction hg with
  | arr xs _ ih =>
    intro v h
    rw [GoVal.json] at h
    cases hx : GoVal.jsonL xs with
    | none => rw [hx] at h; cases h
    | some vs =>
      rw [hx] at h
      cases h
      rw [ofJson]
      congr 1
      induction xs generalizing vs with
      | nil => cases hx; rfl
      | cons x xs ih' =>
        rw [GoVal.jsonL] at hx
        cases h1 : x.json with
        | none => rw [h1] at hx; cases hx
        | some c =>
          cases h2 : GoVal.jsonL xs with
          | none => rw [h1, h2] at hx; cases hx
          | some cs =>
            rw [h1, h2] at hx
            cases hx
            rw [ofJsonL, ← ih x (by simp) c h1, ← ih' (fun y hy => by (rename_i h0; exact h0 y (List.mem_cons_of_mem _ hy)))
              (fun y hy => ih y (List.mem_cons_of_mem _ hy)) cs h2]
  | obj kvs _ ih =>
    intro v h
    rw [GoVal.json] at h
    cases hx : GoVal.jsonKV kvs with
    | none => rw [hx] at h; cases h
    | some vs =>
      rw [hx] at h
      cases h
      rw [ofJson]
      congr 1
      induction kvs generalizing vs with
      | nil => cases hx; rfl
      | cons x xs ih' =>
        obtain ⟨k, x⟩ := x
        rw [GoVal.jsonKV] at hx
        cases h1 : x.json with
        | none => rw [h1] at hx; cases hx
        | some c =>
          cases h2 : GoVal.jsonKV xs with
          | none => rw [h1, h2] at hx; cases hx
          | some cs =>
            rw [h1, h2] at hx
            cases hx
            rw [ofJsonKV, ← ih (k, x) (by simp) c h1, ← ih' (fun y hy => by (rename_i h0; exact h0 y (List.mem_cons_of_mem _ hy)))
              (fun y hy => ih y (List.mem_cons_of_mem _ hy)) cs h2]
  | _ => intro v h; cases h; rfl

mutual
theorem size_ofJson : ∀ v : Json, size (ofJson v) = v.size
  | .null | .bool _ | .num _ | .str _ => rfl
  | .arr xs => by rw [ofJson, size, Json.size, sizeL_ofJson xs]
  | .obj xs => by rw [ofJson, size, Json.size, sizeKV_ofJson xs]
theorem sizeL_ofJson : ∀ v, sizeL (ofJsonL v) = Json.sizeL v
  | [] => rfl
  | x :: xs => by rw [ofJsonL, sizeL, Json.sizeL, size_ofJson x, sizeL_ofJson xs]
theorem sizeKV_ofJson : ∀ v, sizeKV (ofJsonKV v) = Json.sizeKV v
  | [] => rfl
  | (k, x) :: xs => by rw [ofJsonKV, sizeKV, Json.sizeKV, size_ofJson x, sizeKV_ofJson xs]
end

theorem view_ofJson (v : Json) : (ofJson v).view = v := by rw [GoVal.view, json_ofJson]; rfl

theorem view_E (m : List (String × Json)) : (GoVal.obj (m.map E)).view = .obj m := by rw [← ofJson_obj, view_ofJson]

theorem rawKind_ofJson (v : Json) : rawKind (ofJson v) = GJS.rawKind v := by cases v <;> simp [ofJson, rawKind, GJS.rawKind]

theorem marshal_ofJson (w : Outside) (v : Json) : w.marshal (ofJson v) = w.env.marshal v := by
  unfold Outside.marshal RawEnv.rawMarshal Env.marshal
  rw [(rawCanon_spec _ _ _ (json_ofJson v)).2 (plain_ofJson v)]
  rfl

/-! ### Runs side by side -/

/-- From related states: results related, or the same failure; and related states. -/
structure Sim (R : τ → τ' → Prop) (V : α → β → Prop) (x : M τ α) (y : M τ' β) : Prop where
  run : ∀ s s', R s s' → R (x s).2 (y s').2 ∧
    ((∃ a b, (x s).1 = .ok a ∧ (y s').1 = .ok b ∧ V a b) ∨ ∃ e, (x s).1 = .error e ∧ (y s').1 = .error e)

namespace Sim
variable {R : τ → τ' → Prop} {V : α → β → Prop} {W : γ → δ → Prop}

theorem pure {a b} (h : V a b) : Sim R V (pure a) (pure b) := ⟨fun _ _ hs => ⟨hs, .inl ⟨a, b, rfl, rfl, h⟩⟩⟩
theorem pureEq {a : α} : Sim R Eq (Pure.pure a : M τ α) (Pure.pure a) := .pure rfl
theorem fail {e : Fail} : Sim R V (M.fail e) (M.fail e) := ⟨fun _ _ hs => ⟨hs, .inr ⟨e, rfl, rfl⟩⟩⟩
theorem err {e : CErr} : Sim R V (M.err e) (M.err e) := ⟨fun _ _ hs => ⟨hs, .inr ⟨.err e, rfl, rfl⟩⟩⟩

theorem bind {x : M τ α} {y : M τ' β} {f : α → M τ γ} {g : β → M τ' δ} (h : Sim R V x y)
    (h' : ∀ a b, V a b → Sim R W (f a) (g b)) : Sim R W (x >>= f) (y >>= g) := by
  refine ⟨fun s s' hs => ?_⟩
  obtain ⟨h1, h2⟩ := h.run s s' hs
  show R (M.seq x f s).2 (M.seq y g s').2 ∧ _
  change _ ∧ ((∃ a b, (M.seq x f s).1 = .ok a ∧ (M.seq y g s').1 = .ok b ∧ W a b) ∨
    ∃ e, (M.seq x f s).1 = .error e ∧ (M.seq y g s').1 = .error e)
  unfold M.seq
  rcases hx : x s with ⟨r, t⟩
  rcases hy : y s' with ⟨r', t'⟩
  rw [hx, hy] at h1 h2
  simp only at h1 h2
  rcases h2 with ⟨a, b, rfl, rfl, hv⟩ | ⟨e, rfl, rfl⟩
  · exact (h' a b hv).run _ _ h1
  · exact ⟨h1, .inr ⟨e, rfl, rfl⟩⟩

theorem bindEq {x : M τ α} {y : M τ' α} {f : α → M τ γ} {g : α → M τ' δ} (h : Sim R Eq x y)
    (h' : ∀ a, Sim R W (f a) (g a)) : Sim R W (x >>= f) (y >>= g) := h.bind fun a _ e => e ▸ h' a

theorem getBind {f : τ → M τ γ} {g : τ' → M τ' δ} (h : ∀ s s', R s s' → Sim R W (f s) (g s')) :
    Sim R W (M.get >>= f) (M.get >>= g) := ⟨fun s s' hs => (h s s' hs).run s s' hs⟩

theorem modify {f : τ → τ} {g : τ' → τ'} (h : ∀ s s', R s s' → R (f s) (g s')) : Sim R Eq (M.modify f) (M.modify g) :=
  ⟨fun s s' hs => ⟨h s s' hs, .inl ⟨(), (), rfl, rfl, rfl⟩⟩⟩

/-- Lists of related results. -/
theorem mapLV {f : Nat → α → M τ γ} {g : Nat → β → M τ' δ} {φ : α → β} {ψ : γ → δ}
    (h : ∀ k x, Sim R (fun a b => b = ψ a) (f k x) (g k (φ x))) :
    ∀ {xs k}, Sim R (fun a b => b = a.map ψ) (GJS.mapL f k xs) (GJS.mapL g k (xs.map φ)) := by
  intro xs
  induction xs with
  | nil => intro k; exact .pure rfl
  | cons x xs ih =>
    intro k
    refine .bind (h k x) fun a b e => .bind ih fun as bs es => .pure ?_
    rw [e, es]; rfl

theorem mapL {f : Nat → α → M τ γ} {g : Nat → β → M τ' γ} {φ : α → β} (h : ∀ k x, Sim R Eq (f k x) (g k (φ x))) :
    ∀ {xs k}, Sim R Eq (GJS.mapL f k xs) (GJS.mapL g k (xs.map φ)) := by
  intro xs
  induction xs with
  | nil => intro k; exact .pure rfl
  | cons x xs ih => intro k; exact .bindEq (h k x) fun a => .bindEq ih fun as => .pureEq

theorem ite {c : Prop} [Decidable c] {x x' : M τ α} {y y' : M τ' β} (h : c → Sim R V x y) (h' : ¬ c → Sim R V x' y') :
    Sim R V (if c then x else x') (if c then y else y') := by
  split
  · exact h ‹_›
  · exact h' ‹_›

end Sim

/-- What `isKind` says of a value if it says something. -/
def kindB (v : Json) (ks : List Kind) : Bool :=
  match v with
  | .num _ => ks.contains .struct
  | v => ks.contains (GJS.rawKind v)

theorem Sim.kind {R : τ → τ' → Prop} {V : α → β → Prop} {env : Env} {v : Json} {ks} {f : Bool → M τ α} {g : Bool → M τ' β}
    (h : Sim R V (f (kindB v ks)) (g (kindB v ks))) :
    Sim R V (GJS.isKind env v ks >>= f) (isKind env (ofJson v) ks >>= g) := by
  cases v with
  | num n =>
    by_cases hn : env.ratOk n = true
    · rw [show (GJS.isKind env (.num n) ks : M τ Bool) = Pure.pure (ks.contains .struct) by simp [GJS.isKind, hn],
        show (isKind env (ofJson (.num n)) ks : M τ' Bool) = Pure.pure (ks.contains .struct) by simp [isKind, ofJson, hn]]
      exact h
    · rw [show (GJS.isKind env (.num n) ks : M τ Bool) = M.fail .panic by simp [GJS.isKind, hn],
        show (isKind env (ofJson (.num n)) ks : M τ' Bool) = M.fail .panic by simp [isKind, ofJson, hn]]
      exact ⟨fun _ _ hs => ⟨hs, .inr ⟨_, rfl, rfl⟩⟩⟩
  | arr xs => rw [ofJson]; exact h
  | obj xs => rw [ofJson]; exact h
  | _ => exact h

/-! ### The pool -/

section
variable {w : Outside} {σ : Sched} {R : τ → τ' → Prop}

theorem parseSchemaURL_sim {doc} : Sim R Eq (GJS.parseSchemaURL w.toWorld doc) (parseSchemaURL w (ofJson doc)) := by
  unfold parseSchemaURL GJS.parseSchemaURL
  refine .kind ?_
  cases doc with
  | bool b => exact .pureEq
  | obj m =>
    refine .kind ?_
    rw [ofJson_obj]
    show Sim R Eq (match getKey "$schema" m with | none => _ | some v => _) (match getKey "$schema" (m.map E) with | none => _ | some v => _)
    rw [getKey_E]
    cases getKey "$schema" m with
    | none => exact .pureEq
    | some v =>
      refine .kind ?_
      cases v with
      | str t =>
        show Sim R Eq (match w.norm t with | none => _ | some u => _) (match w.norm t with | none => _ | some u => _)
        cases w.norm t with
        | none => exact .err
        | some u => exact .pureEq
      | _ => exact .err
  | _ => exact .kind .err

theorem idText_sim {m} : Sim R Eq (GJS.idText w.toWorld m) (idText w (m.map E)) := by
  unfold idText GJS.idText
  rw [exists_E]
  simp only [getKey_E]
  cases getKey (if existsMapKey m "id" = true then "id" else "$id") m with
  | none => exact .pureEq
  | some v =>
    refine .kind ?_
    cases v <;> exact .pureEq

theorem idScope_sim {r id} : Sim R Eq (idScope w.toWorld r id : M τ _) (idScope w.toWorld r id : M τ' _) := by
  unfold idScope
  split
  · exact .pureEq
  · split
    · exact .pureEq
    · split
      · exact .fail
      · exact .pureEq

theorem rewriteRef_sim {r m} : Sim R (fun a b => b = a.map E) (GJS.rewriteRef w.toWorld r m) (rewriteRef w r (m.map E)) := by
  unfold rewriteRef GJS.rewriteRef
  rw [getKey_E]
  cases getKey "$ref" m with
  | none => exact .pure rfl
  | some v =>
    refine .kind ?_
    cases v with
    | str t =>
      show Sim R _ (match (w.norm t).bind (w.inherits r) with | some a => _ | none => _)
        (match (w.norm t).bind (w.inherits r) with | some a => _ | none => _)
      cases (w.norm t).bind (w.inherits r) with
      | none => exact .pure rfl
      | some a => exact .pure (replaceKey_E _ (.str a) m)
    | _ => exact .pure rfl

/-- Values related as decoded. -/
abbrev Dec : Json → GoVal → Prop := fun a b => b = ofJson a

theorem rangeKV_sim {f : Nat → String → Json → M τ Json} {g : Nat → String → GoVal → M τ' GoVal}
    (h : ∀ i k v, Sim R Dec (f i k v) (g i k (ofJson v))) :
    ∀ {l i m}, Sim R (fun a b => b = a.map E) (GJS.rangeKV f i l m) (rangeKV g i (l.map E) (m.map E)) := by
  intro l
  induction l with
  | nil => intro i m; exact .pure rfl
  | cons kv l ih =>
    obtain ⟨k, v⟩ := kv
    intro i m
    refine .bind (h _ _ _) fun a b e => ?_
    rw [e]
    show Sim R _ (GJS.rangeKV f (i + 1) l (replaceKey k a m)) (rangeKV g (i + 1) (l.map E) (replaceKey k (ofJson a) (m.map E)))
    rw [replaceKey_E]
    exact ih

end

/-! ### The pool: the loader -/

section
variable {w : Outside} {σ : Sched}

/-- Entries of the pool, decoded. -/
def EP (d : GJS.PoolDoc) : PoolDoc := ⟨ofJson d.doc, d.draft⟩

theorem Decoded.getKey {l s} (h : Decoded l s) (k : String) : getKey k s.pool = (getKey k l.pool).map EP := by
  rw [h.pool]; exact getKey_map (f := EP) k l.pool

theorem Decoded.clock {l s} (h : Decoded l s) : s.clock = l.clock := by
  unfold State.clock LState.clock; rw [h.log, h.own]

theorem inPool_sim {k} : Sim Decoded Eq (GJS.inPool k) (inPool k) := by
  refine .getBind fun l s h => ?_
  unfold existsMapKey
  rw [Decoded.getKey h]
  cases GJS.getKey k l.pool <;> exact .pureEq

theorem putPool_sim {k d} : Sim Decoded Eq (GJS.putPool k d) (putPool k (EP d)) := by
  refine .modify fun l s h => ⟨?_, h.factory, h.autoDetect, h.draft, h.log, h.own, h.validate⟩
  unfold putKey
  simp only [h.pool, List.map_cons, List.filter_map]
  rfl

theorem register_sim {o d} : Sim Decoded Eq (GJS.register o d) (register o (EP d)) := by
  cases o with
  | none => exact .pureEq
  | some k => exact putPool_sim

theorem taken_sim {o} : Sim Decoded Eq (GJS.taken o) (taken o) := by
  cases o with
  | none => exact .pureEq
  | some k => exact inPool_sim

theorem order_E (hσ : σ.Natural) (p : Path) (m : List (String × Json)) : σ.order p (m.map E) = (σ.order p m).map E := hσ p E m

/-- Rewritten documents and errors related. -/
abbrev DecErr : Json × Option CErr → GoVal × Option CErr → Prop := fun a b => b = (ofJson a.1, a.2)

theorem rewriteMember_sim (hσ : σ.Natural) {rec : Path → String → Json → M LState Json} {rec' : Path → String → GoVal → M State GoVal}
    (h : ∀ p r v, Sim Decoded Dec (rec p r v) (rec' p r (ofJson v))) {p r k v} :
    Sim Decoded Dec (GJS.rewriteMember σ rec p r k v) (rewriteMember σ rec' p r k (ofJson v)) := by
  unfold rewriteMember GJS.rewriteMember
  refine .ite (fun _ => .pure rfl) fun _ => .ite (fun _ => ?_) fun _ => h _ _ _
  cases v with
  | obj child =>
    rw [ofJson_obj]
    simp only
    rw [order_E hσ]
    refine .bind (V := fun a b => b = a.map E) (by apply rangeKV_sim; intro i k v; exact h _ _ _) fun a b e => .pure ?_
    rw [e]; exact (ofJson_obj a).symm
  | arr xs => rw [ofJson_arr]; exact .pure (ofJson_arr xs).symm
  | _ => exact .pure rfl

theorem rewriteObj_sim (hσ : σ.Natural) {rec : Path → String → Json → M LState (Json × Option CErr)}
    {rec' : Path → String → GoVal → M State (GoVal × Option CErr)}
    (h : ∀ p r v, Sim Decoded DecErr (rec p r v) (rec' p r (ofJson v))) {p r d m} :
    Sim Decoded DecErr (GJS.rewriteObj w.toWorld σ rec p r d m) (rewriteObj w σ rec' p r d (m.map E)) := by
  unfold rewriteObj GJS.rewriteObj
  refine .bindEq idText_sim fun id => .bindEq idScope_sim fun sc => .bindEq taken_sim fun t => ?_
  refine .ite (fun _ => .pure (by rw [← ofJson_obj])) fun _ => ?_
  refine .bindEq (by rw [← ofJson_obj]; exact register_sim (d := ⟨.obj m, d⟩)) fun _ => ?_
  refine .bind rewriteRef_sim fun m1 _ e1 => ?_
  subst e1
  rw [order_E hσ]
  refine .bind (V := fun a b => b = a.map E) (by
    apply rangeKV_sim
    intro i k v
    exact rewriteMember_sim hσ fun _ _ _ => .bind (h _ _ _) fun a b e => .pure (by rw [e])) fun m2 _ e2 => ?_
  subst e2
  refine .bindEq (by rw [← ofJson_obj]; exact register_sim (d := ⟨.obj m2, d⟩)) fun _ => ?_
  exact .pure (by rw [← ofJson_obj])

theorem rewrite_sim (hσ : σ.Natural) {d} : ∀ n p r v, Sim Decoded DecErr (GJS.rewrite w.toWorld σ d n p r v) (rewrite w σ d n p r (ofJson v))
  | 0, _, _, _ => .fail
  | n + 1, p, r, v => by
    cases v with
    | obj m =>
      rw [ofJson_obj]
      exact rewriteObj_sim hσ (rewrite_sim hσ n)
    | arr xs =>
      rw [ofJson_arr]
      refine .bind (.mapLV (φ := ofJson) (ψ := ofJson) fun k x => .bind (rewrite_sim hσ n _ _ _) fun a b e => .pure (by rw [e])) fun a b e => ?_
      rw [e]
      exact .pure (by rw [← ofJson_arr])
    | _ => exact .pure rfl

theorem detectDraft_sim {doc} : Sim Decoded Eq (GJS.detectDraft w.toWorld doc) (detectDraft w (ofJson doc)) := by
  refine .getBind fun l s h => ?_
  rw [h.autoDetect]
  exact .ite (fun _ => .bindEq parseSchemaURL_sim fun _ => .pureEq) fun _ => .pureEq

theorem putIf_sim {b k d} : Sim Decoded Eq (GJS.putIf b k d) (putIf b k (EP d)) := by
  unfold putIf GJS.putIf
  exact .ite (fun _ => putPool_sim) fun _ => .pureEq

theorem parseReferences_sim (hσ : σ.Natural) {p doc r b} :
    Sim Decoded DecErr (GJS.parseReferences w.toWorld σ p doc r b) (parseReferences w σ p (ofJson doc) r b) := by
  unfold parseReferences GJS.parseReferences
  refine .bindEq inPool_sim fun t => .ite (fun _ => .pure rfl) fun _ => .bindEq detectDraft_sim fun d => ?_
  rw [size_ofJson]
  refine .bind (rewrite_sim hσ _ _ _ _) fun x y e => ?_
  subst e
  exact .bindEq (putIf_sim (d := ⟨x.1, d⟩)) fun _ => .pure rfl

theorem fetch_sim {r} : Sim Decoded Dec (GJS.fetch w.toWorld r) (fetch w r) := by
  refine ⟨fun l s h => ?_⟩
  unfold fetch GJS.fetch
  simp only
  have h' : Decoded { l with log := l.log ++ [(l.factory, r)] } { s with log := s.log ++ [(s.factory, r)] } :=
    ⟨h.pool, h.factory, h.autoDetect, h.draft, by simp only [h.log, h.factory], h.own, h.validate⟩
  rw [Decoded.clock h, h.factory] at *
  cases loadReference w.toWorld l.clock l.factory r with
  | none => exact ⟨h', .inr ⟨_, rfl, rfl⟩⟩
  | some d => exact ⟨h', .inl ⟨_, _, rfl, rfl, rfl⟩⟩

theorem parseReferencesIgnore_sim (hσ : σ.Natural) {p doc r} :
    Sim Decoded Dec (GJS.parseReferencesIgnore w.toWorld σ p doc r) (parseReferencesIgnore w σ p (ofJson doc) r) := by
  refine ⟨fun l s h => ?_⟩
  obtain ⟨h1, h2⟩ := (parseReferences_sim (w := w) hσ (p := p) (doc := doc) (r := r) (b := true)).run l s h
  unfold parseReferencesIgnore GJS.parseReferencesIgnore
  rcases hx : GJS.parseReferences w.toWorld σ p doc r true l with ⟨a, t⟩
  rcases hy : parseReferences w σ p (ofJson doc) r true s with ⟨b, t'⟩
  rw [hx, hy] at h1 h2
  simp only at h1 h2
  rcases h2 with ⟨a, b, rfl, rfl, rfl⟩ | ⟨e, rfl, rfl⟩
  · exact ⟨h1, .inl ⟨_, _, rfl, rfl, rfl⟩⟩
  · cases e with
    | err e => exact ⟨h1, .inl ⟨_, _, rfl, rfl, rfl⟩⟩
    | panic => exact ⟨h1, .inr ⟨_, rfl, rfl⟩⟩
    | fuel => exact ⟨h1, .inr ⟨_, rfl, rfl⟩⟩

theorem schemaDraftIgnore_sim {doc} :
    Sim Decoded Eq (GJS.schemaDraftIgnore w.toWorld doc) (schemaDraftIgnore w (ofJson doc)) := by
  refine ⟨fun l s h => ?_⟩
  obtain ⟨h1, h2⟩ := (parseSchemaURL_sim (w := w) (doc := doc) (R := Decoded)).run l s h
  unfold schemaDraftIgnore GJS.schemaDraftIgnore
  rcases hx : GJS.parseSchemaURL w.toWorld doc l with ⟨a, t⟩
  rcases hy : parseSchemaURL w (ofJson doc) s with ⟨b, t'⟩
  rw [hx, hy] at h1 h2
  simp only at h1 h2
  rcases h2 with ⟨a, b, rfl, rfl, rfl⟩ | ⟨e, rfl, rfl⟩
  · exact ⟨h1, .inl ⟨_, _, rfl, rfl, rfl⟩⟩
  · cases e with
    | err e => exact ⟨h1, .inl ⟨_, _, rfl, rfl, rfl⟩⟩
    | panic => exact ⟨h1, .inr ⟨_, rfl, rfl⟩⟩
    | fuel => exact ⟨h1, .inr ⟨_, rfl, rfl⟩⟩

theorem pointerGet_sim (hw : LooksAlike w) {r doc} :
    Sim Decoded Dec (GJS.pointerGet w.toWorld r doc) (pointerGet w r (ofJson doc)) := by
  unfold pointerGet GJS.pointerGet
  rw [hw]
  cases w.pointer r doc with
  | none => exact .err
  | some d => exact .pure rfl

/-- Entries related as decoded. -/
abbrev DecP : GJS.PoolDoc → PoolDoc → Prop := fun a b => b = EP a

theorem getDocument_sim (hσ : σ.Natural) (hw : LooksAlike w) {p r} :
    Sim Decoded DecP (GJS.getDocument w.toWorld σ p r) (getDocument w σ p r) := by
  have hg : ∀ k, Sim Decoded (fun a b => b = a.map EP) (GJS.poolGet k) (poolGet k) := fun k =>
    .getBind fun l s h => by rw [Decoded.getKey h]; exact .pure rfl
  unfold getDocument GJS.getDocument
  refine .bind (hg _) fun e1 _ e => ?_
  subst e
  cases e1 with
  | some d => exact .pure rfl
  | none =>
    refine .bind (hg _) fun e2 _ e => ?_
    subst e
    cases e2 with
    | some d =>
      refine .bind (pointerGet_sim hw) fun x _ e => ?_
      subst e
      exact .bindEq (putPool_sim (d := ⟨x, d.draft⟩)) fun _ => .pure rfl
    | none =>
      show Sim _ _ (GJS.getRemote w.toWorld σ p r) (getRemote w σ p r)
      unfold getRemote GJS.getRemote
      refine .ite (fun _ => .err) fun _ => .bind fetch_sim fun d _ e => ?_
      subst e
      refine .bind (parseReferencesIgnore_sim hσ) fun d _ e => ?_
      subst e
      refine .bindEq schemaDraftIgnore_sim fun dr => .bind (pointerGet_sim hw) fun x _ e => ?_
      subst e
      exact .pure rfl

end

end GJS.RawS

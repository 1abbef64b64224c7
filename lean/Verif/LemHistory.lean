import Verif.LemCompile
/-
Helper lemmas: single operations on a loader, what they change and how they fail.
-/
namespace GJS
open Spec

/-! ### Errors of the rewriting -/

/-- The rewriting of a document reports an error only if the identifier of the document itself is
taken, and then nothing has changed. -/
theorem rewrite_err {w : World} {σ : Sched} {draft n p ref doc l x l' e}
    (h : rewrite w σ draft n p ref doc l = (.ok x, l')) (hx : x.2 = some e) : x.1 = doc ∧ l' = l := by
  cases n with
  | zero => simp [rewrite] at h
  | succ n =>
    cases doc with
    | obj m =>
      simp only [rewrite, rewriteObj] at h
      obtain ⟨id, l1, h1, h'⟩ := M.bind_ok.1 h
      clear h
      obtain ⟨sc, l2, h2, h⟩ := M.bind_ok.1 h'
      clear h'
      obtain ⟨t, l3, h3, h'⟩ := M.bind_ok.1 h
      clear h
      rename' h' => h
      have e1 := idText_still.ok h1
      have e2 := idScope_still.ok h2
      have e3 := taken_still.ok h3
      subst e1 e2 e3
      split at h
      · rw [M.pure_ok] at h
        exact ⟨by rw [← h.1], h.2.symm⟩
      · obtain ⟨_, l4, _, h⟩ := M.bind_ok.1 h
        obtain ⟨_, l5, _, h⟩ := M.bind_ok.1 h
        obtain ⟨_, l6, _, h⟩ := M.bind_ok.1 h
        obtain ⟨_, l7, _, h⟩ := M.bind_ok.1 h
        rw [M.pure_ok] at h
        rw [← h.1] at hx
        simp at hx
    | arr xs =>
      simp only [rewrite] at h
      obtain ⟨ys, l1, _, h⟩ := M.bind_ok.1 h
      rw [M.pure_ok] at h
      rw [← h.1] at hx
      simp at hx
    | _ =>
      simp only [rewrite, M.pure_ok] at h
      rw [← h.1] at hx
      simp at hx

theorem parseReferences_err {w : World} {σ : Sched} {p doc ref l x l' e}
    (h : parseReferences w σ p doc ref true l = (.ok x, l')) (hx : x.2 = some e) :
    l' = l ∨ ∃ draft, getKey ref l.pool = none ∧ l' = { l with pool := putKey ref ⟨doc, draft⟩ l.pool } := by
  unfold parseReferences at h
  obtain ⟨b, l1, h1, h'⟩ := M.bind_ok.1 h
  clear h
  rename' h' => h
  obtain ⟨rfl, rfl⟩ := inPool_ok.1 h1
  cases hk : existsMapKey l.pool ref with
  | true =>
    rw [hk] at h
    simp only [Bool.and_true, if_true, M.pure_ok] at h
    exact .inl h.2.symm
  | false =>
    rw [hk] at h
    simp only [Bool.and_false, Bool.false_eq_true, if_false] at h
    obtain ⟨d, l2, h2, h'⟩ := M.bind_ok.1 h
    clear h
    rename' h' => h
    have e2 := detectDraft_still.ok h2
    subst e2
    obtain ⟨y, l3, h3, h⟩ := M.bind_ok.1 h
    obtain ⟨_, l4, h4, h⟩ := M.bind_ok.1 h
    simp only [putIf, if_true, putPool, M.modify_ok] at h4
    rw [M.pure_ok] at h
    obtain ⟨rfl, rfl⟩ := h
    obtain ⟨g1, rfl⟩ := rewrite_err h3 hx
    exact .inr ⟨d, existsMapKey_false.1 hk, by rw [← h4, g1]⟩

/-! ### The `Validate` switch -/

/-- Compiling some meta-schema fails with `e`. -/
def MetaFails (w : World) (σ : Sched) (fuel : Fuel) (e : Fail) : Prop :=
  ∃ p u l, (compileInner w σ fuel p (.reference u 0) l).1 = .error e

/-- The switch is kept, or the computation fails because a meta-schema does not compile. -/
def VSafe (w : World) (σ : Sched) (fuel : Fuel) (x : M LState α) : Prop :=
  ∀ l, (x l).2.validate = l.validate ∨
    (l.validate = true ∧ (x l).2.validate = false ∧ ∃ e, (x l).1 = .error e ∧ MetaFails w σ fuel e)

section
variable {w : World} {σ : Sched} {fuel : Fuel} {p : Path}

theorem VSafe.of_keep {x : M LState α} (h : ∀ l, (x l).2.validate = l.validate) : VSafe w σ fuel x := fun l => .inl (h l)

theorem VSafe.bind {x : M LState α} {f : α → M LState β} (hx : VSafe w σ fuel x) (hf : ∀ a, VSafe w σ fuel (f a)) :
    VSafe w σ fuel (x >>= f) := by
  intro l
  rw [M.bind_def]
  cases h : x l with
  | mk r l1 =>
    have := hx l
    rw [h] at this
    cases r with
    | ok a =>
      simp only at this ⊢
      rcases this with h1 | ⟨_, _, e, he, _⟩
      · rw [← h1]; exact hf a l1
      · cases he
    | error e =>
      simp only at this ⊢
      rcases this with h1 | ⟨h1, h2, e', he, h3⟩
      · exact .inl h1
      · cases he; exact .inr ⟨h1, h2, e, rfl, h3⟩

theorem keep_of_tri {x : M LState α} {Q} (h : ∀ b, Tri (fun l => l.validate = b) x Q) (l) : (x l).2.validate = l.validate :=
  (h l.validate l rfl).1

theorem keep_bind {x : M LState α} {f : α → M LState β} (hx : ∀ l, (x l).2.validate = l.validate)
    (hf : ∀ a l, (f a l).2.validate = l.validate) (l) : ((x >>= f) l).2.validate = l.validate := by
  rw [M.bind_def]
  cases h : x l with
  | mk r l1 =>
    have := hx l
    rw [h] at this
    cases r with
    | ok a => exact (hf a l1).trans this
    | error e => exact this

theorem keep_still {x : M LState α} (h : Still x) (l) : (x l).2.validate = l.validate := by rw [h l]

theorem getDocument_keep {ref} (l) : (getDocument w σ p ref l).2.validate = l.validate :=
  (getDocument_inv (W := False) (w := w) (σ := σ) (p := p) (ref := ref) (l := l) False.elim False.elim).1.cfg.2.2.1

theorem parseReferences_keep {doc ref pooled} (l) : (parseReferences w σ p doc ref pooled l).2.validate = l.validate :=
  (parseReferences_tri (W := False) (w := w) (σ := σ) (p := p) (doc := doc) (ref := ref) (pooled := pooled) (l0 := l)
    False.elim False.elim).1.cfg.2.2.1

theorem loadJSON_keep {a} (l) : (loadJSON w a l).2.validate = l.validate := by
  unfold loadJSON
  split
  · rfl
  · rfl
  · simp only; split <;> rfl

theorem failIf_still {x} : Still (failIf x) := by unfold failIf; split; exact .err; exact .pure

theorem rootDraft_still {doc} : Still (rootDraft w doc) := by
  unfold rootDraft
  refine .bind .get fun l => ?_
  split
  · exact .bind parseSchemaURL_still fun _ => .pure
  · exact .pure

theorem rootDocument_keep {a ref} (l) : (rootDocument w σ p a ref l).2.validate = l.validate := by
  unfold rootDocument
  split
  · exact keep_bind getDocument_keep (fun _ _ => rfl) l
  · exact keep_bind loadJSON_keep (fun _ => keep_bind parseReferences_keep fun _ => keep_still failIf_still) l

theorem runParse_keep {ref doc d} (l) : (runParse w σ fuel p ref doc d l).2.validate = l.validate := by
  have := (parseRoot_tri (P := fun l' => l'.validate = l.validate) (w := w) (σ := σ) (n := fuel.parse) (p := p)
    (docRef := ref) (doc := doc) (d := d) (fun p ref l' h => ⟨(getDocument_keep l').trans h, fun _ _ _ => trivial⟩)
    { l := l } rfl).1
  unfold runParse
  cases hx : parseRoot w σ fuel.parse p ref doc d { l := l } with
  | mk r s =>
    rw [hx] at this
    cases r <;> exact this

theorem compileInner_keep {a} (l) : (compileInner w σ fuel p a l).2.validate = l.validate := by
  unfold compileInner compileG
  cases a.ref w with
  | none => rfl
  | some ref =>
    refine keep_bind (fun _ => rfl) (fun _ => keep_bind rootDocument_keep fun doc => keep_bind ?_ fun _ =>
      keep_bind (keep_still rootDraft_still) fun _ => runParse_keep) l
    intro l
    unfold whenValidate
    refine keep_bind (fun _ => rfl) (fun l1 l => ?_) l
    split <;> rfl

theorem detectedURL_still {doc} : Still (detectedURL w doc) := by
  unfold detectedURL
  refine .bind .get fun l => ?_
  split
  · exact .bind parseSchemaURL_still fun _ => .pure
  · exact .pure

theorem metaSchemaURL_still {doc} : Still (metaSchemaURL w doc) := by
  unfold metaSchemaURL
  refine .bind detectedURL_still fun _ => .bind .get fun l => ?_
  split
  · split <;> exact .pure
  · exact .pure

theorem checkDocument_still {s doc} : Still (checkDocument w σ fuel s doc) := by
  unfold checkDocument
  split
  · split; exact .pure; exact .err
  · exact .fail
  · exact .fail

/-- What `validateMetaschema` does to the switch when it is on. -/
theorem validateMetaschema_v {doc} (l) (hv : l.validate = true) :
    (validateMetaschema w σ fuel p doc l).2.validate = true ∨
      ((validateMetaschema w σ fuel p doc l).2.validate = false ∧
        ∃ e, (validateMetaschema w σ fuel p doc l).1 = .error e ∧ MetaFails w σ fuel e) := by
  unfold validateMetaschema
  rw [M.bind_def]
  have hs := metaSchemaURL_still (w := w) (doc := doc) l
  cases hu : metaSchemaURL w doc l with
  | mk r l1 =>
    rw [hu] at hs
    simp only at hs
    subst hs
    cases r with
    | error e => exact .inl hv
    | ok o =>
      cases o with
      | none => exact .inl hv
      | some u =>
        simp only
        rw [M.bind_def]
        simp only [M.modify]
        rw [M.bind_def]
        cases hc : compileInner w σ fuel (63 :: p) (.reference u 0) { l1 with validate := false } with
        | mk rc l2 =>
          have hk := compileInner_keep (w := w) (σ := σ) (fuel := fuel) (p := 63 :: p) (a := .reference u 0)
            { l1 with validate := false }
          rw [hc] at hk
          cases rc with
          | error e => exact .inr ⟨hk, e, rfl, _, _, _, by rw [hc]⟩
          | ok s =>
            left
            simp only
            rw [M.bind_def]
            simp only [M.modify]
            rw [keep_still checkDocument_still]

theorem whenMeta_v {doc} : VSafe w σ fuel (whenValidate (validateMetaschema w σ fuel p doc)) := by
  intro l
  unfold whenValidate
  rw [M.bind_def]
  simp only [M.get]
  cases hv : l.validate with
  | false => exact .inl hv
  | true =>
    simp only [if_true]
    rcases validateMetaschema_v (w := w) (σ := σ) (fuel := fuel) (p := p) (doc := doc) l hv with h | h
    · exact .inl h
    · exact .inr ⟨trivial, h⟩

theorem compile_v {a} : VSafe w σ fuel (compile w σ fuel p a) := by
  unfold compile compileG
  split
  · exact .of_keep fun _ => rfl
  · exact .bind (.of_keep fun _ => rfl) fun _ => .bind (.of_keep rootDocument_keep) fun _ => .bind whenMeta_v fun _ =>
      .bind (.of_keep (keep_still rootDraft_still)) fun _ => .of_keep runParse_keep

theorem addSchema_v {url a} : VSafe w σ fuel (addSchema w σ fuel p url a) := by
  unfold addSchema
  split
  · exact .of_keep fun _ => rfl
  · exact .bind (.of_keep loadJSON_keep) fun _ => .bind whenMeta_v fun _ => .bind (.of_keep parseReferences_keep) fun _ =>
      .bind (.of_keep (keep_still failIf_still)) fun _ => .of_keep fun _ => rfl

theorem addSchemaById_v {a} : VSafe w σ fuel (addSchemaById w σ fuel p a) := by
  unfold addSchemaById
  exact .bind (.of_keep loadJSON_keep) fun _ => .bind whenMeta_v fun _ => .bind (.of_keep parseReferences_keep) fun _ =>
      .bind (.of_keep (keep_still failIf_still)) fun _ => .of_keep fun _ => rfl

theorem mapL_v {f : Nat → α → M LState β} (hf : ∀ k a, VSafe w σ fuel (f k a)) :
    ∀ {xs k}, VSafe w σ fuel (mapL f k xs) := by
  intro xs
  induction xs with
  | nil => intro k; exact .of_keep fun _ => rfl
  | cons x xs ih => intro k; exact .bind (hf k x) fun _ => .bind ih fun _ => .of_keep fun _ => rfl

theorem addSchemas_v {as} : VSafe w σ fuel (addSchemas w σ fuel p as) :=
  .bind (mapL_v fun _ _ => addSchemaById_v) fun _ => .of_keep fun _ => rfl

/-! ### The factory in force -/

/-- Since `l0` the factory has been `f` for all fetches. -/
structure FacInv (f : Factory) (l0 l : LState) : Prop where
  factory : l.factory = f
  log : ∃ new, l.log = l0.log ++ new ∧ ∀ e ∈ new, e.1 = f

theorem getDocument_fac {f l0 ref} : Tri (FacInv f l0) (getDocument w σ p ref) (fun _ => True) := by
  intro l hl
  obtain ⟨h1, h2, _⟩ := getDocument_inv (W := False) (w := w) (σ := σ) (p := p) (ref := ref) (l := l) False.elim False.elim
  refine ⟨⟨h1.cfg.1.trans hl.factory, ?_⟩, fun _ _ _ => trivial⟩
  obtain ⟨new, e1, e2⟩ := hl.log
  rcases h2 with h2 | ⟨h2, _⟩
  · exact ⟨new, by rw [h2, e1], e2⟩
  · refine ⟨new ++ [(l.factory, ref)], by rw [h2, e1]; simp, ?_⟩
    intro e he
    rcases List.mem_append.1 he with he | he
    · exact e2 e he
    · simp only [List.mem_singleton] at he
      subst he
      exact hl.factory

theorem parseReferences_fac {f l0 doc ref pooled} : Tri (FacInv f l0) (parseReferences w σ p doc ref pooled) (fun _ => True) := by
  intro l hl
  obtain ⟨h1, _⟩ := parseReferences_tri (W := False) (w := w) (σ := σ) (p := p) (doc := doc) (ref := ref)
    (pooled := pooled) (l0 := l) False.elim False.elim
  exact ⟨⟨h1.cfg.1.trans hl.factory, by rw [h1.log.1]; exact hl.log⟩, fun _ _ _ => trivial⟩

theorem loadJSON_fac {f l0 a} : Tri (FacInv f l0) (loadJSON w a) (fun _ => True) := by
  intro l hl
  refine ⟨?_, fun _ _ _ => trivial⟩
  unfold loadJSON
  split
  · exact hl
  · exact hl
  · simp only; split <;> exact ⟨hl.factory, hl.log⟩

theorem rootDocument_fac {f l0 a ref} : Tri (FacInv f l0) (rootDocument w σ p a ref) (fun _ => True) := by
  unfold rootDocument
  split
  · exact .bind getDocument_fac fun _ _ => .pure trivial
  · exact .bind loadJSON_fac fun _ _ => .bind parseReferences_fac fun _ _ => failIf_still.tri

theorem runParse_fac {f l0 ref doc d} : Tri (FacInv f l0) (runParse w σ fuel p ref doc d) (fun _ => True) := by
  intro l hl
  have := (parseRoot_tri (P := FacInv f l0) (w := w) (σ := σ) (n := fuel.parse) (p := p)
    (docRef := ref) (doc := doc) (d := d) (fun p ref => getDocument_fac) { l := l } hl).1
  refine ⟨?_, fun _ _ _ => trivial⟩
  unfold runParse
  cases hx : parseRoot w σ fuel.parse p ref doc d { l := l } with
  | mk r s =>
    rw [hx] at this
    cases r <;> exact this

end

/-! ### `$schema` under rewriting -/

theorem rw_schema {w : World} {base m m' t} (h : Rw w base (.obj m) (.obj m')) (hk : getKey "$schema" m = some (.str t)) :
    getKey "$schema" m' = some (.str t) := by
  cases h with
  | scalar _ _ _ h => exact absurd rfl (h m)
  | taken => exact hk
  | obj _ _ _ hkeys hmem =>
    have key : ∀ (n : Nat) (m m' : List (String × Json)), m.map Prod.fst = m'.map Prod.fst → (∀ (i : Nat) k v v', m[i]? = some (k, v) → m'[i]? = some (k, v') →
        k = "$schema" → ∀ t, v = .str t → v' = .str t) → getKey "$schema" m = some (.str t) →
        getKey "$schema" m' = some (.str t) := by
      intro n m
      induction m with
      | nil => intro m' _ _ h; simp [getKey] at h
      | cons kv m ih =>
        intro m' h1 h2 h3
        cases m' with
        | nil => simp at h1
        | cons kv' m' =>
          simp only [List.map_cons, List.cons.injEq] at h1
          unfold getKey at h3 ⊢
          simp only [List.lookup] at h3 ⊢
          rw [← h1.1]
          cases hb : ("$schema" == kv.1) with
          | true =>
            rw [hb] at h3
            simp only at h3 ⊢
            have e : kv.1 = "$schema" := (by simpa using hb : "$schema" = kv.1).symm
            rw [h2 0 kv.1 kv.2 kv'.2 rfl (by rw [h1.1]; rfl) e t (by simpa using h3)]
          | false =>
            rw [hb] at h3
            simp only at h3 ⊢
            exact ih m' h1.2 (fun i => h2 (i + 1)) h3
    refine key 0 m m' hkeys ?_ hk
    intro i k v v' h1 h2 h3 t h4
    subst h4
    cases hmem i _ _ _ h1 h2 with
    | literal => rfl
    | ref => simp at h3
    | badRef => rfl
    | noMap => rfl
    | sub _ _ _ _ _ _ _ hr =>
      cases hr with
      | scalar => rfl

theorem rw_isObj {w : World} {base m D} (h : Rw w base (.obj m) D) : ∃ m', D = .obj m' := by
  cases h with
  | scalar _ _ _ h => exact absurd rfl (h m)
  | taken => exact ⟨m, rfl⟩
  | obj _ _ m' => exact ⟨m', rfl⟩

theorem rw_none {w : World} {base m m'} (h : Rw w base (.obj m) (.obj m')) (hk : getKey "$schema" m = none) :
    getKey "$schema" m' = none := by
  cases h with
  | scalar _ _ _ h => exact absurd rfl (h m)
  | taken => exact hk
  | obj _ _ _ hkeys hmem =>
    have key : ∀ (m m' : List (String × Json)), m.map Prod.fst = m'.map Prod.fst → getKey "$schema" m = none →
        getKey "$schema" m' = none := by
      intro m
      induction m with
      | nil => intro m' h _; cases m' with | nil => rfl | cons => simp at h
      | cons kv m ih =>
        intro m' h1 h3
        cases m' with
        | nil => simp at h1
        | cons kv' m' =>
          simp only [List.map_cons, List.cons.injEq] at h1
          unfold getKey at h3 ⊢
          simp only [List.lookup] at h3 ⊢
          rw [← h1.1]
          cases hb : ("$schema" == kv.1) with
          | true => rw [hb] at h3; cases h3
          | false => rw [hb] at h3; exact ih m' h1.2 h3
    exact key m m' hkeys hk

theorem isKind_indep (env : Env) (v : Json) (ks) (s s' : σ) :
    ((isKind env v ks : M σ Bool) s).1 = ((isKind env v ks : M σ Bool) s').1 := by
  unfold isKind
  split
  · split <;> rfl
  · rfl

/-- The result of reading `$schema` does not depend on the state. -/
theorem parseSchemaURL_indep (w : World) (D : Json) (s s' : σ) :
    ((parseSchemaURL w D : M σ _) s).1 = ((parseSchemaURL w D : M σ _) s').1 := by
  have bind : ∀ {α β : Type} {x : M σ α} {f : α → M σ β}, Still x → (x s).1 = (x s').1 → (∀ a, (f a s).1 = (f a s').1) →
      ((x >>= f) s).1 = ((x >>= f) s').1 := by
    intro α β x f hx h1 h2
    rw [M.bind_def, M.bind_def]
    have e1 := hx s
    have e2 := hx s'
    cases h3 : x s with
    | mk r1 s1 =>
      cases h4 : x s' with
      | mk r2 s2 =>
        rw [h3, h4] at h1
        rw [h3] at e1
        rw [h4] at e2
        simp only at h1 e1 e2
        subst h1 e1 e2
        cases r1 with
        | ok a => exact h2 a
        | error e => rfl
  unfold parseSchemaURL
  refine bind isKind_still (isKind_indep _ _ _ _ _) fun b => ?_
  split
  · rfl
  refine bind isKind_still (isKind_indep _ _ _ _ _) fun b => ?_
  split
  · rfl
  cases D with
  | obj m =>
    simp only
    cases getKey "$schema" m with
    | none => rfl
    | some v =>
      refine bind isKind_still (isKind_indep _ _ _ _ _) fun b => ?_
      split
      · rfl
      · cases v with
        | str t => simp only; cases w.norm t <;> rfl
        | _ => rfl
  | _ => rfl

/-- If the `$schema` of a document can be read, it can be read in the rewritten document, with the
same draft. -/
theorem parseSchemaURL_rw {w : World} {base D D'} (hr : Rw w base D D') {l : LState} {x l1}
    (h : parseSchemaURL w D l = (.ok x, l1)) : ∃ y, parseSchemaURL w D' l = (.ok y, l) ∧ y.2 = x.2 := by
  cases D with
  | bool b =>
    cases hr with
    | scalar => 
      have e := parseSchemaURL_still.ok h
      subst e
      exact ⟨x, h, rfl⟩
  | obj m =>
    obtain ⟨m', rfl⟩ := rw_isObj hr
    have ex := parseSchemaURL_ok h
    rw [ex]
    unfold declaredDraft
    have run : ∀ m : List (String × Json), parseSchemaURL w (.obj m) l =
        (match getKey "$schema" m with
          | none => return ("", none)
          | some v => do
            let b ← isKind w.env v [.string]
            if !b then M.err (.mustBeOfType "$schema" "string") else
            match v with
            | .str t =>
              match w.norm t with
              | none => M.err (.badReference t)
              | some u => return (u, getDraftVersion u)
            | _ => M.fail .panic : M LState (String × Option Draft)) l := fun m => rfl
    rw [run m] at h
    rw [run m']
    cases hk : getKey "$schema" m with
    | none => rw [rw_none hr hk]; exact ⟨_, rfl, by simp [hk]⟩
    | some v =>
      rw [hk] at h
      cases v with
      | str t =>
        rw [rw_schema hr hk]
        have run2 : ∀ l : LState, (do
            let b ← isKind w.env (.str t) [.string]
            if !b then M.err (.mustBeOfType "$schema" "string") else
            match w.norm t with
              | none => M.err (.badReference t)
              | some u => return (u, getDraftVersion u) : M LState (String × Option Draft)) l =
            (match w.norm t with
              | none => M.err (.badReference t)
              | some u => return (u, getDraftVersion u) : M LState (String × Option Draft)) l := fun l => rfl
        simp only at h ⊢
        rw [run2] at h ⊢
        cases hn : w.norm t with
        | none => rw [hn] at h; simp at h
        | some u => simp only [M.pure_def]; exact ⟨_, rfl, by simp [hk, hn]⟩
      | num n =>
        obtain ⟨b, l2, h2, h⟩ := M.bind_ok.1 h
        have := isKind_ok h2
        simp [this, kindIn, rawKind] at h
      | _ =>
        obtain ⟨b, l2, h2, h⟩ := M.bind_ok.1 h
        have := isKind_ok h2
        simp [this, kindIn, rawKind] at h
  | _ =>
    exfalso
    unfold parseSchemaURL at h
    obtain ⟨b, l2, h2, h⟩ := M.bind_ok.1 h
    have := isKind_ok h2
    subst this
    first
    | (obtain ⟨b, l3, h3, h⟩ := M.bind_ok.1 h
       have := isKind_ok h3
       subst this
       simp [kindIn, rawKind] at h)
    | (rename_i n
       cases hn : w.env.ratOk n <;> simp [isKind, hn] at h2 h)

/-- A freshly loaded document is registered under its base URL with the draft that is returned,
when drafts are detected and its `$schema` can be read. -/
theorem getRemote_entry {w : World} {σ : Sched} {p r l e l'} (hw : Lawful w) (ha : l.autoDetect = true)
    (h2 : getKey (w.base r) l.pool = none) (hg : ∀ n f doc, loadReference w n f r = some doc → ¬ SchemaBad w doc)
    (h : getRemote w σ p r l = (.ok e, l')) :
    ∃ D, getKey (w.base r) l'.pool = some ⟨D, e.draft⟩ ∧ w.pointer r D = some e.doc := by
  unfold getRemote at h
  split at h
  · simp at h
  · obtain ⟨doc, l1, h3, h4⟩ := M.bind_ok.1 h
    clear h
    unfold fetch at h3
    simp only at h3
    cases hl : loadReference w l.clock l.factory r with
    | none => rw [hl] at h3; simp at h3
    | some d0 =>
      rw [hl] at h3
      simp only [Prod.mk.injEq, Except.ok.injEq] at h3
      obtain ⟨rfl, rfl⟩ := h3
      obtain ⟨D, l2, h5, h6⟩ := M.bind_ok.1 h4
      clear h4
      unfold parseReferencesIgnore at h5
      cases hx : parseReferences w σ p d0 (w.base r) true { l with log := l.log ++ [(l.factory, r)] } with
      | mk rx l3 =>
        rw [hx] at h5
        cases rx with
        | error f =>
          cases f with
          | err ce => exact absurd ((parseReferences_pooled (l0 := { l with log := l.log ++ [(l.factory, r)] }) h2).2 _ _ hx).2 (hg _ _ _ hl)
          | panic => simp at h5
          | fuel => simp at h5
        | ok x =>
          simp only [Prod.mk.injEq, Except.ok.injEq] at h5
          obtain ⟨rfl, rfl⟩ := h5
          obtain ⟨dr, hdr, hk⟩ := (parseReferences_pooled (l0 := { l with log := l.log ++ [(l.factory, r)] }) h2).1 _ _ hx
          obtain ⟨dr2, l4, h7, h8⟩ := M.bind_ok.1 h6
          clear h6
          obtain ⟨d, l5, h9, h10⟩ := M.bind_ok.1 h8
          clear h8
          rw [M.pure_ok] at h10
          obtain ⟨rfl, rfl⟩ := h10
          have hw0 := loadReference_wf hw hl
          have hrw : Rw w (w.base r) d0 x.1 ∨ x.1 = d0 := by
            rcases parseReferences_rw hw0 hx with ⟨h, _⟩ | h
            · exact .inr h
            · exact .inl h
          -- the draft detected before rewriting
          unfold detectDraft at hdr
          obtain ⟨lg, l6, g1, g2⟩ := M.bind_ok.1 hdr
          rw [M.get_ok] at g1
          obtain ⟨rfl, rfl⟩ := g1
          simp only [ha, if_true] at g2
          obtain ⟨y, l7, g3, g4⟩ := M.bind_ok.1 g2
          rw [M.pure_ok] at g4
          obtain ⟨rfl, _⟩ := g4
          -- and after
          have hD : ∀ s : LState, ∃ z, parseSchemaURL w x.1 s = (.ok z, s) ∧ z.2 = y.2 := by
            intro s
            have g5 : parseSchemaURL w d0 s = (.ok y, s) := by
              have this := (parseSchemaURL_indep w d0 s _).trans (congrArg Prod.fst g3)
              have st := parseSchemaURL_still (w := w) (doc := d0) s
              exact Prod.ext this st
            rcases hrw with hr | hr
            · exact parseSchemaURL_rw hr g5
            · rw [hr]; exact ⟨y, g5, rfl⟩
          obtain ⟨z, hz, hzy⟩ := hD l3
          simp only [schemaDraftIgnore, hz, Prod.mk.injEq, Except.ok.injEq] at h7
          obtain ⟨rfl, rfl⟩ := h7
          obtain ⟨rfl, hp⟩ := pointerGet_ok.1 h9
          exact ⟨x.1, by rw [hk, hzy], hp⟩

end GJS

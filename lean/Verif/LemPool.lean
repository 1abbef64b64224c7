import Verif.LemMon
import Verif.SpecPool
/-
Helper lemmas about the schema pool: entries are kept, documents stay well-formed, settings are
not touched.
-/
namespace GJS
open Spec

/-! ### Association lists -/

theorem getKey_putKey_self {k : String} {v : α} {l : List (String × α)} : getKey k (putKey k v l) = some v := by
  simp [getKey, putKey]

theorem lookup_filter_ne {k k' : String} {l : List (String × α)} (h : k ≠ k') :
    List.lookup k (l.filter (fun e => e.1 != k')) = List.lookup k l := by
  induction l with
  | nil => rfl
  | cons y ys ih =>
    obtain ⟨yk, yv⟩ := y
    by_cases hy : yk = k'
    · subst hy
      have : (k == yk) = false := by simpa using h
      simp [List.lookup_cons, this, ih]
    · have hb : (yk != k') = true := by simpa using hy
      rw [List.filter_cons]
      simp only [hb, if_true, List.lookup_cons, ih]

theorem getKey_putKey_ne {k k' : String} {v : α} {l : List (String × α)} (h : k ≠ k') :
    getKey k (putKey k' v l) = getKey k l := by
  have : (k == k') = false := by simpa using h
  simp only [getKey, putKey, List.lookup_cons, this]
  exact lookup_filter_ne h

theorem keys_replaceKey {k : String} {v : α} {l : List (String × α)} :
    (replaceKey k v l).map Prod.fst = l.map Prod.fst := by
  simp only [replaceKey, List.map_map]
  apply List.map_congr_left
  intro a _
  simp only [Function.comp]
  split <;> rfl

theorem mem_replaceKey {k : String} {v : α} {l : List (String × α)} {e : String × α}
    (h : e ∈ replaceKey k v l) : e ∈ l ∨ e = (k, v) := by
  simp only [replaceKey, List.mem_map] at h
  obtain ⟨a, ha, rfl⟩ := h
  by_cases hk : a.1 == k
  · simp only [hk, if_true]; right; simp at hk; rw [hk]
  · simp only [hk]; left; exact ha

theorem wf_replaceKey {k : String} {v : Json} {m : List (String × Json)} (hm : (Json.obj m).WF) (hv : v.WF) :
    (Json.obj (replaceKey k v m)).WF := by
  cases hm with
  | obj _ h1 h2 =>
    refine .obj _ (by rw [keys_replaceKey]; exact h1) ?_
    intro kv hkv
    rcases mem_replaceKey hkv with h | h
    · exact h2 kv h
    · rw [h]; exact hv

/-! ### Computations that do not touch the state -/

/-- What `isKind` answers, when it does not panic. -/
def kindIn (v : Json) (ks : List Kind) : Bool :=
  match v with
  | .num _ => ks.contains .struct
  | v => ks.contains (rawKind v)

theorem isKind_ok {env v ks} {s s' : σ} {b} (h : (isKind env v ks : M σ Bool) s = (.ok b, s')) :
    b = kindIn v ks := by
  unfold isKind at h
  split at h
  · split at h
    · rw [M.pure_ok] at h; rw [← h.1]; rfl
    · simp at h
  · rename_i hv
    rw [M.pure_ok] at h
    rw [← h.1]
    unfold kindIn
    split
    · rename_i n; exact absurd rfl (hv n)
    · rfl

theorem isKind_still {env v ks} : Still (isKind env v ks : M σ Bool) := by
  unfold isKind
  split
  · split
    · exact .pure
    · exact .fail
  · exact .pure

theorem parseSchemaURL_still {w : World} {doc} : Still (parseSchemaURL w doc : M σ _) := by
  unfold parseSchemaURL
  refine .bind isKind_still fun b => ?_
  split
  · exact .pure
  · refine .bind isKind_still fun b => ?_
    split
    · exact .err
    · split
      · split
        · exact .pure
        · refine .bind isKind_still fun b => ?_
          split
          · exact .err
          · split
            · split
              · exact .err
              · exact .pure
            · exact .fail
      · exact .fail

theorem idText_still {w : World} {m} : Still (idText w m : M σ _) := by
  unfold idText
  simp only
  split
  · exact .pure
  · refine .bind isKind_still fun b => ?_
    split <;> exact .pure

theorem idScope_still {w : World} {r i} : Still (idScope w r i : M σ _) := by
  unfold idScope
  split
  · exact .pure
  · split
    · exact .pure
    · split
      · exact .fail
      · exact .pure

theorem rewriteRef_still {w : World} {r m} : Still (rewriteRef w r m : M σ _) := by
  unfold rewriteRef
  split
  · exact .pure
  · refine .bind isKind_still fun b => ?_
    split
    · split <;> exact .pure
    · exact .pure

theorem detectDraft_still {w : World} {doc} : Still (detectDraft w doc) := by
  unfold detectDraft
  refine .bind .get fun l => ?_
  split
  · exact .bind parseSchemaURL_still fun _ => .pure
  · exact .pure

theorem inPool_still {k} : Still (inPool k) := .bind .get fun _ => .pure
theorem poolGet_still {k} : Still (poolGet k) := .bind .get fun _ => .pure

theorem taken_still {o} : Still (taken o) := by
  unfold taken; split
  · exact inPool_still
  · exact .pure

/-! ### The rewriting of references -/

/-- The settings of a loader, which the pool never changes, and its logs. -/
def SameCfg (l l' : LState) : Prop :=
  l'.factory = l.factory ∧ l'.autoDetect = l.autoDetect ∧ l'.validate = l.validate ∧ l'.draft = l.draft

theorem SameCfg.refl (l) : SameCfg l l := ⟨rfl, rfl, rfl, rfl⟩
theorem SameCfg.trans {a b c} (h1 : SameCfg a b) (h2 : SameCfg b c) : SameCfg a c :=
  ⟨h2.1.trans h1.1, h2.2.1.trans h1.2.1, h2.2.2.1.trans h1.2.2.1, h2.2.2.2.trans h1.2.2.2⟩

theorem Spec.Keeps.refl (l) : Keeps l l := fun _ _ h => h
theorem Spec.Keeps.trans {a b c} (h1 : Keeps a b) (h2 : Keeps b c) : Keeps a c := fun k e h => h2 k e (h1 k e h)

/-- The invariant of the rewriting, relative to the state `l0` it started from; `W` says whether
the documents involved are well-formed. -/
structure RwInv (W : Prop) (l0 l : LState) : Prop where
  keeps : Keeps l0 l
  cfg : SameCfg l0 l
  log : l.log = l0.log ∧ l.own = l0.own
  wf : W → PoolWF l

theorem RwInv.put {W l0 l k e} (h : RwInv W l0 l) (hk : getKey k l0.pool = none) (he : W → e.doc.WF) :
    RwInv W l0 { l with pool := putKey k e l.pool } where
  keeps := by
    intro k' e' h'
    have : k' ≠ k := by rintro rfl; rw [hk] at h'; cases h'
    rw [getKey_putKey_ne this]
    exact h.keeps k' e' h'
  cfg := h.cfg
  log := h.log
  wf := by
    intro hW k' e' h'
    by_cases hkk : k' = k
    · subst hkk; rw [getKey_putKey_self] at h'; cases h'; exact he hW
    · rw [getKey_putKey_ne hkk] at h'; exact h.wf hW k' e' h'

theorem register_tri {W : Prop} {l0 : LState} {o e} (hk : ∀ k, o = some k → getKey k l0.pool = none) (he : W → e.doc.WF) :
    Tri (RwInv W l0) (register o e) (fun _ => True) := by
  unfold register
  cases o with
  | none => exact .pure trivial
  | some k => exact .modify fun l hl => hl.put (hk k rfl) he

/-- A relation between a map and its updated version that the loop maintains. -/
theorem rangeKV_tri {P : σ → Prop} {f : Nat → String → Json → M σ Json} {Q : List (String × Json) → Prop} :
    ∀ {rest : List (String × Json)} {i m}, Q m →
    (∀ i k v, (k, v) ∈ rest → Tri P (f i k v) (fun v' => ∀ m, Q m → Q (replaceKey k v' m))) →
    Tri P (rangeKV f i rest m) Q := by
  intro rest
  induction rest with
  | nil => intro i m hm _; exact .pure hm
  | cons kv rest ih =>
    intro i m hm hf
    obtain ⟨k, v⟩ := kv
    refine .bind (hf i k v (by simp)) fun v' hv' => ?_
    exact ih (hv' m hm) fun i k v h => hf i k v (by simp [h])

theorem rewriteMember_tri {P : LState → Prop} {W : Prop} {σ : Sched} {rec p r k v} (hv : W → v.WF)
    (hrec : ∀ p r x, (W → x.WF) → Tri P (rec p r x) (fun y => W → y.WF)) :
    Tri P (rewriteMember σ rec p r k v) (fun y => W → y.WF) := by
  unfold rewriteMember
  split
  · exact .pure hv
  · split
    · split
      · rename_i child
        refine .bind (rangeKV_tri (Q := fun c => W → (Json.obj c).WF) hv ?_) fun c hc => .pure hc
        intro i k x hx
        have hx := (σ.perm _ _).mem_iff.1 hx
        refine (hrec _ _ x fun hW => ?_).mono fun y hy m hm hW => wf_replaceKey (hm hW) (hy hW)
        cases hv hW with
        | obj _ _ h2 => exact h2 _ hx
      · exact .pure hv
    · exact hrec _ _ _ hv

theorem rewriteRef_wf {W : Prop} {w : World} {P : σ → Prop} {r m} (hm : W → (Json.obj m).WF) :
    Tri P (rewriteRef w r m) (fun m' => W → (Json.obj m').WF) := by
  unfold rewriteRef
  split
  · exact .pure hm
  · refine .bind isKind_still.tri fun b _ => ?_
    split
    · split
      · exact .pure fun hW => wf_replaceKey (hm hW) (.str _)
      · exact .pure hm
    · exact .pure hm

theorem taken_ok {o l b l'} (h : taken o l = (.ok b, l')) :
    l' = l ∧ ∀ k, o = some k → b = existsMapKey l.pool k := by
  refine ⟨taken_still.ok h, ?_⟩
  rintro k rfl
  simp only [taken, inPool, M.bind_ok, M.get_ok, M.pure_ok] at h
  obtain ⟨_, _, ⟨rfl, rfl⟩, h, _⟩ := h
  exact h.symm

theorem rewriteObj_tri {W : Prop} {w : World} {σ : Sched} {rec p r draft m} {l0 : LState}
    (hm : W → (Json.obj m).WF)
    (hrec : ∀ p r x, (W → x.WF) → Tri (RwInv W l0) (rec p r x) (fun y => W → y.1.WF)) :
    Tri (RwInv W l0) (rewriteObj w σ rec p r draft m) (fun y => W → y.1.WF) := by
  unfold rewriteObj
  refine .bind idText_still.tri fun id _ => .bind idScope_still.tri fun sc _ => ?_
  intro l hl
  rw [M.bind_def]
  have hst := taken_still (o := sc.2) l
  cases ht : taken sc.2 l with
  | mk b l1 =>
    rw [ht] at hst
    simp only at hst
    subst hst
    cases b with
    | error e => exact ⟨hl, by intro a l' h; simp at h⟩
    | ok b =>
      simp only
      have hk := (taken_ok ht).2
      cases b with
      | true => exact Tri.pure hm _ hl
      | false =>
        have hfree : ∀ k, sc.2 = some k → getKey k l0.pool = none := by
          intro k hk'
          have := hk k hk'
          cases h0 : getKey k l0.pool with
          | none => rfl
          | some e =>
            have h1 := hl.keeps k e h0
            simp [existsMapKey, h1] at this
        refine (Tri.bind (register_tri hfree hm) fun _ _ => .bind (rewriteRef_wf hm) fun m1 hm1 =>
          .bind (rangeKV_tri (Q := fun m => W → (Json.obj m).WF) hm1 ?_) fun m2 hm2 =>
          .bind (register_tri hfree hm2) fun _ _ => .pure hm2) _ hl
        intro i k v hv
        have hv := (σ.perm _ _).mem_iff.1 hv
        refine (rewriteMember_tri (W := W) (fun hW => ?_) ?_).mono fun y hy m hm hW => wf_replaceKey (hm hW) (hy hW)
        · cases hm1 hW with
          | obj _ _ h2 => exact h2 _ hv
        · intro p r x hx
          exact .bind (hrec p r x hx) fun y hy => .pure hy

theorem rewrite_tri {W : Prop} {w : World} {σ : Sched} {draft} {l0 : LState} : ∀ n p r doc, (W → doc.WF) →
    Tri (RwInv W l0) (rewrite w σ draft n p r doc) (fun y => W → y.1.WF) := by
  intro n
  induction n with
  | zero => intro p r doc _; exact .fail
  | succ n ih =>
    intro p r doc hd
    unfold rewrite
    split
    · rename_i xs
      have hx : ∀ x ∈ xs, W → x.WF := by
        intro x hx hW
        cases hd hW with
        | arr _ h => exact h x hx
      refine .bind (Tri.mapL (Q := fun _ y => W → y.WF) fun k x hxs =>
        .bind (ih _ _ x (hx x hxs)) fun y hy => .pure hy) fun ys hys => .pure fun hW => .arr _ ?_
      intro y hy
      obtain ⟨i, hi⟩ := List.getElem?_of_mem hy
      have hlt := (List.getElem?_eq_some_iff.1 hi).1
      have : i < xs.length := by omega
      exact hys.2 i xs[i] y (by simp [this]) hi hW
    · exact rewriteObj_tri hd ih
    · exact .pure hd

/-! ### Documents of a pool -/

theorem putPool_run {k d l} : putPool k d l = (.ok (), { l with pool := putKey k d l.pool }) := rfl

theorem inPool_ok {k l b l'} : inPool k l = (.ok b, l') ↔ l = l' ∧ b = existsMapKey l.pool k := by
  simp only [inPool, M.bind_ok, M.get_ok, M.pure_ok]
  constructor
  · rintro ⟨_, _, ⟨rfl, rfl⟩, rfl, rfl⟩; exact ⟨rfl, rfl⟩
  · rintro ⟨rfl, rfl⟩; exact ⟨_, _, ⟨rfl, rfl⟩, rfl, rfl⟩

theorem existsMapKey_false {k : String} {l : List (String × α)} : existsMapKey l k = false ↔ getKey k l = none := by
  simp [existsMapKey]

/-- `parseReferences`: everything is kept and the root document stays well-formed. -/
theorem parseReferences_tri {W : Prop} {w : World} {σ : Sched} {p doc ref pooled} {l0 : LState}
    (hd : W → doc.WF) (hW : W → PoolWF l0) :
    RwInv W l0 (parseReferences w σ p doc ref pooled l0).2 ∧
    ∀ y l', parseReferences w σ p doc ref pooled l0 = (.ok y, l') → W → y.1.WF := by
  have hl : RwInv W l0 l0 := ⟨.refl _, .refl _, ⟨rfl, rfl⟩, hW⟩
  unfold parseReferences
  rw [M.bind_def]
  have hin : inPool ref l0 = (.ok (existsMapKey l0.pool ref), l0) := inPool_ok.2 ⟨rfl, rfl⟩
  rw [hin]
  simp only
  split
  · exact Tri.pure (Q := fun y : Json × Option CErr => W → y.1.WF) hd l0 hl
  · rename_i hpool
    refine (Tri.bind detectDraft_still.tri fun dr _ => .bind (rewrite_tri _ _ _ _ hd) fun x hx =>
      Tri.bind (Q := fun _ => True) ?_ fun _ _ => .pure hx) l0 hl
    unfold putIf
    split
    · rename_i hp
      refine .modify fun l hl => hl.put ?_ hx
      have : existsMapKey l0.pool ref = false := by simpa [hp] using hpool
      exact existsMapKey_false.1 this
    · exact .pure trivial

theorem parseReferencesIgnore_tri {W : Prop} {w : World} {σ : Sched} {p doc ref} {l0 : LState}
    (hd : W → doc.WF) (hW : W → PoolWF l0) :
    RwInv W l0 (parseReferencesIgnore w σ p doc ref l0).2 ∧
    ∀ y l', parseReferencesIgnore w σ p doc ref l0 = (.ok y, l') → W → y.WF := by
  obtain ⟨h1, h2⟩ := parseReferences_tri (w := w) (σ := σ) (p := p) (ref := ref) (pooled := true) hd hW
  unfold parseReferencesIgnore
  cases hx : parseReferences w σ p doc ref true l0 with
  | mk r l1 =>
    rw [hx] at h1
    cases r with
    | ok x =>
      simp only
      refine ⟨h1, ?_⟩
      rintro y l' h
      simp only [Prod.mk.injEq, Except.ok.injEq] at h
      rw [← h.1]
      exact h2 x l1 hx
    | error e =>
      cases e with
      | err e =>
        simp only
        refine ⟨h1, ?_⟩
        rintro y l' h
        simp only [Prod.mk.injEq, Except.ok.injEq] at h
        rw [← h.1]; exact hd
      | panic => exact ⟨h1, by rintro y l' h; simp at h⟩
      | fuel => exact ⟨h1, by rintro y l' h; simp at h⟩

theorem schemaDraftIgnore_still {w : World} {doc} : Still (schemaDraftIgnore w doc) := by
  intro l
  unfold schemaDraftIgnore
  have := parseSchemaURL_still (w := w) (doc := doc) l
  cases hx : parseSchemaURL w doc l with
  | mk r l1 =>
    rw [hx] at this
    cases r with
    | ok x => exact this
    | error e => cases e <;> exact this

theorem pointerGet_still {w : World} {r d} : Still (pointerGet w r d) := by
  unfold pointerGet; split
  · exact .pure
  · exact .err

/-- What the pool guarantees between two states. -/
structure Later (W : Prop) (l0 l : LState) : Prop where
  keeps : Keeps l0 l
  cfg : SameCfg l0 l
  log : l0.log <+: l.log
  own : l0.own = l.own
  wf : W → PoolWF l

theorem RwInv.later {W l0 l} (h : RwInv W l0 l) : Later W l0 l :=
  ⟨h.keeps, h.cfg, by rw [h.log.1]; exact List.prefix_rfl, h.log.2.symm, h.wf⟩

theorem Later.refl {W : Prop} {l} (h : W → PoolWF l) : Later W l l := ⟨.refl _, .refl _, List.prefix_rfl, rfl, h⟩
theorem Later.trans {W a b c} (h1 : Later W a b) (h2 : Later W b c) : Later W a c :=
  ⟨h1.keeps.trans h2.keeps, h1.cfg.trans h2.cfg, h1.log.trans h2.log, h1.own.trans h2.own, h2.wf⟩

/-! ### No errors from the rewriting itself -/

/-- An error, as opposed to a panic or lack of fuel. -/
def IsErr (e : Fail) : Prop := ∃ c, e = .err c

theorem not_isErr_panic : ¬ IsErr .panic := by rintro ⟨c, h⟩; cases h
theorem not_isErr_fuel : ¬ IsErr .fuel := by rintro ⟨c, h⟩; cases h

theorem isKind_noErr {env v ks} : Avoid IsErr (isKind env v ks : M σ Bool) := by
  unfold isKind
  split
  · split
    · exact .pure
    · exact .fail not_isErr_panic
  · exact .pure

theorem rangeKV_avoid {B : Fail → Prop} {f : Nat → String → Json → M σ Json} :
    ∀ {rest : List (String × Json)} {i m}, (∀ i k v, (k, v) ∈ rest → Avoid B (f i k v)) →
    Avoid B (rangeKV f i rest m) := by
  intro rest
  induction rest with
  | nil => intro i m _; exact .pure
  | cons kv rest ih =>
    intro i m hf
    obtain ⟨k, v⟩ := kv
    exact .bind (hf i k v (by simp)) fun v' => ih fun i k v h => hf i k v (by simp [h])

theorem register_avoid {B o e} : Avoid B (register o e) := by
  unfold register; split
  · exact .modify
  · exact .pure

theorem taken_avoid {B o} : Avoid B (taken o) := by
  unfold taken; split
  · exact .bind .get fun _ => .pure
  · exact .pure

theorem idText_noErr {w : World} {m} : Avoid IsErr (idText w m : M σ _) := by
  unfold idText
  simp only
  split
  · exact .pure
  · refine .bind isKind_noErr fun b => ?_
    split <;> exact .pure

theorem idScope_noErr {w : World} {r i} : Avoid IsErr (idScope w r i : M σ _) := by
  unfold idScope
  split
  · exact .pure
  · split
    · exact .pure
    · split
      · exact .fail not_isErr_panic
      · exact .pure

theorem rewriteRef_noErr {w : World} {r m} : Avoid IsErr (rewriteRef w r m : M σ _) := by
  unfold rewriteRef
  split
  · exact .pure
  · refine .bind isKind_noErr fun b => ?_
    split
    · split <;> exact .pure
    · exact .pure

theorem rewriteMember_avoid {B : Fail → Prop} {σ : Sched} {rec p r k v}
    (hrec : ∀ p r x, Avoid B (rec p r x)) : Avoid B (rewriteMember σ rec p r k v) := by
  unfold rewriteMember
  split
  · exact .pure
  · split
    · split
      · exact .bind (rangeKV_avoid fun _ _ x _ => hrec _ _ x) fun c => .pure
      · exact .pure
    · exact hrec _ _ _

theorem rewrite_noErr {w : World} {σ : Sched} {draft} : ∀ n p r doc,
    Avoid IsErr (rewrite w σ draft n p r doc) := by
  intro n
  induction n with
  | zero => intro p r doc; exact .fail not_isErr_fuel
  | succ n ih =>
    intro p r doc
    unfold rewrite
    split
    · exact .bind (.mapL fun k x _ => .bind (ih _ _ x) fun y => .pure) fun _ => .pure
    · unfold rewriteObj
      refine .bind idText_noErr fun id => .bind idScope_noErr fun sc => .bind taken_avoid fun t => ?_
      split
      · exact .pure
      · exact .bind register_avoid fun _ => .bind rewriteRef_noErr fun m1 =>
          .bind (rangeKV_avoid fun i k v _ => rewriteMember_avoid fun p r x => .bind (ih p r x) fun _ => .pure)
          fun m2 => .bind register_avoid fun _ => .pure
    · exact .pure

/-- The independent description says when `parseSchemaURL` refuses a document. -/
theorem schemaBad_iff {w : World} {doc : Json} {s : σ} :
    SchemaBad w doc ↔ ∃ e s', (parseSchemaURL w doc : M σ _) s = (.error (.err e), s') := by
  constructor
  · rintro (⟨_, hb, hm, hr⟩ | ⟨m, v, hk, hv, hr⟩ | ⟨m, t, hk, hn⟩)
    · cases doc with
      | bool b => exact absurd rfl (hb b)
      | obj m => exact absurd rfl (hm m)
      | num n => simp [parseSchemaURL, isKind, hr n rfl, M.pure_def, M.bind_def, M.err, M.fail]
      | _ => simp [parseSchemaURL, isKind, rawKind, M.pure_def, M.bind_def, M.err, M.fail]
    · cases v with
      | str t => exact absurd rfl (hv t)
      | num n => simp [parseSchemaURL, isKind, rawKind, hk, hr n rfl, M.pure_def, M.bind_def, M.err, M.fail]
      | _ => simp [parseSchemaURL, isKind, rawKind, hk, M.pure_def, M.bind_def, M.err, M.fail]
    · simp [parseSchemaURL, isKind, rawKind, hk, hn, M.pure_def, M.bind_def, M.err, M.fail]
  · rintro ⟨e, s', h⟩
    cases doc with
    | bool b => simp [parseSchemaURL, isKind, rawKind, M.pure_def, M.bind_def] at h
    | num n =>
      refine .kind _ (by simp) (by simp) ?_
      rintro k ⟨⟩
      cases hn : w.env.ratOk n with
      | true => rfl
      | false => simp [parseSchemaURL, isKind, hn, M.bind_def, M.fail] at h
    | obj m =>
      cases hk : getKey "$schema" m with
      | none => simp [parseSchemaURL, isKind, rawKind, hk, M.pure_def, M.bind_def] at h
      | some v =>
        cases v with
        | str t =>
          cases hn : w.norm t with
          | none => exact .reference m t hk hn
          | some u => simp [parseSchemaURL, isKind, rawKind, hk, hn, M.pure_def, M.bind_def] at h
        | num n =>
          refine .type m _ hk (by simp) ?_
          rintro k ⟨⟩
          cases hn : w.env.ratOk n with
          | true => rfl
          | false => simp [parseSchemaURL, isKind, rawKind, hk, hn, M.pure_def, M.bind_def, M.fail] at h
        | _ => exact .type m _ hk (by simp) (by simp)
    | _ => exact .kind _ (by simp) (by simp) (by simp)

/-- `parseReferences` into a free key either stores the document it returns or fails because of
the `$schema` of the document, having changed nothing. -/
theorem parseReferences_pooled {w : World} {σ : Sched} {p doc ref l0} (hfree : getKey ref l0.pool = none) :
    (∀ x l', parseReferences w σ p doc ref true l0 = (.ok x, l') →
      ∃ draft, detectDraft w doc l0 = (.ok draft, l0) ∧ getKey ref l'.pool = some ⟨x.1, draft⟩) ∧
    (∀ e l', parseReferences w σ p doc ref true l0 = (.error (.err e), l') → l' = l0 ∧ SchemaBad w doc) := by
  have hin : inPool ref l0 = (.ok (existsMapKey l0.pool ref), l0) := inPool_ok.2 ⟨rfl, rfl⟩
  have hf : existsMapKey l0.pool ref = false := existsMapKey_false.2 hfree
  constructor
  · intro x l' h
    simp only [parseReferences, M.bind_ok, hin, hf] at h
    obtain ⟨b, l1, h1, h⟩ := h
    simp only [Prod.mk.injEq, Except.ok.injEq] at h1
    obtain ⟨rfl, rfl⟩ := h1
    simp only [Bool.and_false, Bool.false_eq_true, if_false, M.bind_ok, putIf, if_true, putPool_run, M.pure_ok] at h
    obtain ⟨dr, l1, hd, y, l2, hy, _, l3, h3, rfl, rfl⟩ := h
    have := detectDraft_still.ok hd
    subst this
    refine ⟨dr, hd, ?_⟩
    simp only [Prod.mk.injEq] at h3
    rw [← h3.2]
    exact getKey_putKey_self
  · intro e l' h
    simp only [parseReferences, M.bind_error, hin, hf] at h
    rcases h with h | ⟨b, l1, h1, h⟩
    · simp at h
    · simp only [Prod.mk.injEq, Except.ok.injEq] at h1
      obtain ⟨rfl, rfl⟩ := h1
      simp only [Bool.and_false, Bool.false_eq_true, if_false, M.bind_error, putIf, if_true, putPool_run] at h
      rcases h with h | ⟨dr, l1, hd, h | ⟨y, l2, hy, h | ⟨_, l3, h3, h⟩⟩⟩
      · have hs := detectDraft_still (w := w) (doc := doc) l0
        rw [h] at hs
        refine ⟨hs, ?_⟩
        simp only [detectDraft, M.bind_error] at h
        rcases h with h | ⟨a, l1, ha, h⟩
        · simp [M.get] at h
        · split at h
          · rcases M.bind_error.1 h with h | ⟨y, l2, _, h⟩
            · exact schemaBad_iff.2 ⟨_, _, h⟩
            · simp [M.pure_def] at h
          · simp [M.pure_def] at h
      · exact absurd ⟨e, rfl⟩ (rewrite_noErr _ _ _ _ _ _ _ h)
      · simp at h
      · simp [M.pure_def] at h

/-! ### `GetDocument` -/

theorem parseSchemaURL_ok {w : World} {doc} {s s' : σ} {x} (h : (parseSchemaURL w doc : M σ _) s = (.ok x, s')) :
    x.2 = declaredDraft w doc := by
  unfold parseSchemaURL at h
  obtain ⟨b, s1, h1, h⟩ := M.bind_ok.1 h
  have := isKind_ok h1
  subst this
  cases doc with
  | bool b =>
    have hc : kindIn (.bool b) [.bool] = true := rfl
    rw [hc] at h
    simp only [if_true, M.pure_ok] at h
    rw [← h.1]; rfl
  | obj m =>
    have hc : kindIn (.obj m) [.bool] = false := rfl
    rw [hc] at h
    simp only [Bool.false_eq_true, if_false] at h
    obtain ⟨b, s2, h2, h⟩ := M.bind_ok.1 h
    have := isKind_ok h2
    subst this
    have hc : kindIn (.obj m) [.map] = true := rfl
    rw [hc] at h
    simp only [Bool.not_true, Bool.false_eq_true, if_false] at h
    unfold declaredDraft
    cases hk : getKey "$schema" m with
    | none => rw [hk] at h; simp only [M.pure_ok] at h; rw [← h.1]; simp only [hk]
    | some v =>
      rw [hk] at h
      simp only at h
      obtain ⟨b, s3, h3, h⟩ := M.bind_ok.1 h
      have := isKind_ok h3
      subst this
      cases v with
      | str t =>
        have hc : kindIn (.str t) [.string] = true := rfl
        rw [hc] at h
        simp only [Bool.not_true, Bool.false_eq_true, if_false] at h
        cases hn : w.norm t with
        | none => rw [hn] at h; simp at h
        | some u => rw [hn] at h; simp only [M.pure_ok] at h; rw [← h.1]; simp [hk, hn]
      | _ => simp [kindIn, rawKind] at h
  | _ =>
    simp only [kindIn, rawKind] at h
    simp at h

theorem parseSchemaURL_error {w : World} {doc} {s s' : σ} {e} (h : (parseSchemaURL w doc : M σ _) s = (.error e, s')) :
    declaredDraft w doc = none := by
  unfold parseSchemaURL at h
  cases doc with
  | obj m =>
    unfold declaredDraft
    simp only
    cases hk : getKey "$schema" m with
    | none => rfl
    | some v =>
      cases v with
      | str t =>
        cases hn : w.norm t with
        | none => simp [hn]
        | some u => simp [isKind, rawKind, hk, hn, M.pure_def, M.bind_def] at h
      | _ => rfl
  | _ => rfl

theorem schemaDraftIgnore_ok {w : World} {doc l o l'} (h : schemaDraftIgnore w doc l = (.ok o, l')) :
    o = declaredDraft w doc := by
  unfold schemaDraftIgnore at h
  split at h
  · rename_i x l1 hx
    simp only [Prod.mk.injEq, Except.ok.injEq] at h
    rw [← h.1]; exact parseSchemaURL_ok hx
  · rename_i e l1 hx
    simp only [Prod.mk.injEq, Except.ok.injEq] at h
    rw [← h.1, parseSchemaURL_error hx]
  · simp at h

theorem Spec.SchemaBad.draft {w : World} {doc} (h : SchemaBad w doc) : declaredDraft w doc = none := by
  obtain ⟨e, s', h⟩ := (schemaBad_iff (s := ())).1 h
  exact parseSchemaURL_error h

theorem Spec.ResolvedAs.mono {w : World} {l l' r o D} (h : ResolvedAs w l r o D) (hk : Keeps l l') (hl : l.log <+: l'.log) :
    ResolvedAs w l' r o D := by
  cases h with
  | entry e he => exact .entry e (hk _ _ he)
  | inside e D he hp => exact .inside e D (hk _ _ he) hp
  | fetched n f doc e D h1 h2 h3 h4 => exact .fetched n f doc e D h1 (hl.subset h2) (hk _ _ h3) h4
  | loaded n f doc D h1 h2 h3 h4 => exact .loaded n f doc D h1 (hl.subset h2) h3 h4

theorem Spec.ResolvedAs.resolved {w : World} {l r o D} (h : ResolvedAs w l r o D) : Resolved w l r D := by
  cases h with
  | entry e he => exact .entry e he
  | inside e D he hp => exact .inside e D he hp
  | fetched n f doc e D h1 h2 h3 h4 => exact .inside e D h3 h4
  | loaded n f doc D h1 h2 h3 h4 => exact .loaded n f doc D h1 h2 h3 h4

theorem Spec.Resolved.mono {w : World} {l l' r D} (h : Resolved w l r D) (hk : Keeps l l') (hl : l.log <+: l'.log) :
    Resolved w l' r D := by
  cases h with
  | entry e he => exact .entry e (hk _ _ he)
  | inside e D he hp => exact .inside e D (hk _ _ he) hp
  | loaded n f doc D h1 h2 h3 h4 => exact .loaded n f doc D h1 (hl.subset h2) h3 h4

theorem loadReference_wf {w : World} (hw : Lawful w) {n f r d} (h : loadReference w n f r = some d) : d.WF := by
  simp only [loadReference] at h
  split at h
  · cases h
  · split at h
    · obtain ⟨a, _, ha⟩ := Option.bind_eq_some_iff.1 h
      exact hw.readFile _ _ _ _ ha
    · unfold loadFromHTTP at h
      split at h
      · exact hw.decode _ _ h
      · exact hw.http _ _ _ h

theorem pointerGet_ok {w : World} {r D l d l'} : pointerGet w r D l = (.ok d, l') ↔ l = l' ∧ w.pointer r D = some d := by
  unfold pointerGet
  cases w.pointer r D with
  | none => simp
  | some d => simp [and_comm]

theorem poolGet_ok {k l o l'} : poolGet k l = (.ok o, l') ↔ l = l' ∧ o = getKey k l.pool := by
  simp only [poolGet, M.bind_ok, M.get_ok, M.pure_ok]
  constructor
  · rintro ⟨_, _, ⟨rfl, rfl⟩, rfl, rfl⟩; exact ⟨rfl, rfl⟩
  · rintro ⟨rfl, rfl⟩; exact ⟨_, _, ⟨rfl, rfl⟩, rfl, rfl⟩

/-- How the log of downloads may grow in `GetDocument`. -/
def LogStep (w : World) (ref : String) (l l' : LState) : Prop :=
  l'.log = l.log ∨
  (l'.log = l.log ++ [(l.factory, ref)] ∧ getKey ref l.pool = none ∧ getKey (w.base ref) l.pool = none)

theorem getRemote_inv {W : Prop} {w : World} {σ : Sched} {p ref l} (hw : W → Lawful w) (hl : W → PoolWF l)
    (h1 : getKey ref l.pool = none) (h2 : getKey (w.base ref) l.pool = none) :
    Later W l (getRemote w σ p ref l).2 ∧ LogStep w ref l (getRemote w σ p ref l).2 ∧
    ∀ d l', getRemote w σ p ref l = (.ok d, l') → (W → d.doc.WF) ∧ ResolvedAs w l' ref d.draft d.doc := by
  unfold getRemote
  split
  · exact ⟨.refl hl, .inl rfl, by intro d l' h; simp at h⟩
  rw [M.bind_def]
  let l1 : LState := { l with log := l.log ++ [(l.factory, ref)] }
  have e01 : Later W l l1 := ⟨.refl _, .refl _, List.prefix_append _ _, rfl, hl⟩
  have elog : LogStep w ref l l1 := .inr ⟨rfl, h1, h2⟩
  cases hload : loadReference w l.clock l.factory ref with
  | none =>
    have hf : fetch w ref l = (.error (.err (.load ref)), l1) := by unfold fetch; rw [hload]
    rw [hf]
    exact ⟨e01, elog, by intro d l' h; simp at h⟩
  | some doc =>
    have hf : fetch w ref l = (.ok doc, l1) := by unfold fetch; rw [hload]
    rw [hf]
    simp only
    have hdoc : W → doc.WF := fun hW => loadReference_wf (hw hW) hload
    obtain ⟨k1, k2⟩ := parseReferencesIgnore_tri (w := w) (σ := σ) (p := p) (ref := w.base ref) (l0 := l1) hdoc hl
    obtain ⟨pr1, pr2⟩ := parseReferences_pooled (w := w) (σ := σ) (p := p) (doc := doc) (ref := w.base ref) (l0 := l1) h2
    rw [M.bind_def]
    cases hx : parseReferencesIgnore w σ p doc (w.base ref) l1 with
    | mk r l2 =>
      rw [hx] at k1
      have e02 := e01.trans k1.later
      have elog2 : LogStep w ref l l2 := .inr ⟨by rw [k1.log.1], h1, h2⟩
      cases r with
      | error e => exact ⟨e02, elog2, by intro d l' h; simp at h⟩
      | ok doc2 =>
        simp only
        have hs : Still (schemaDraftIgnore w doc2 >>= fun draft => pointerGet w ref doc2 >>= fun d =>
            (pure ⟨d, draft⟩ : M LState PoolDoc)) :=
          .bind schemaDraftIgnore_still fun _ => .bind pointerGet_still fun _ => .pure
        have hs2 := hs l2
        rw [hs2]
        refine ⟨e02, elog2, ?_⟩
        intro d l' h
        have := hs.ok h
        subst this
        simp only [M.bind_ok, pointerGet_ok, M.pure_ok] at h
        obtain ⟨dr, l3, hdr, d0, l4, ⟨rfl, hp⟩, rfl, _⟩ := h
        have hdr := schemaDraftIgnore_ok hdr
        subst hdr
        refine ⟨fun hW => (hw hW).pointer _ _ _ hp (k2 _ _ hx hW), ?_⟩
        cases hpr : parseReferences w σ p doc (w.base ref) true l1 with
        | mk r l5 =>
          simp only [parseReferencesIgnore, hpr] at hx
          cases r with
          | ok x =>
            simp only [Prod.mk.injEq, Except.ok.injEq] at hx
            obtain ⟨rfl, rfl⟩ := hx
            obtain ⟨draft, _, hk⟩ := pr1 _ _ hpr
            have hlog : (l.factory, ref) ∈ l5.log := by
              have := (k1.later.log : l1.log <+: l5.log)
              exact this.subset (by simp [l1])
            exact .fetched _ _ _ _ _ hload hlog hk hp
          | error e =>
            cases e with
            | err e =>
              simp only [Prod.mk.injEq, Except.ok.injEq] at hx
              obtain ⟨rfl, rfl⟩ := hx
              obtain ⟨rfl, hb⟩ := pr2 _ _ hpr
              simp only
              rw [hb.draft]
              exact .loaded _ _ _ _ hload (by simp [l1]) hb hp
            | panic => simp at hx
            | fuel => simp at hx

theorem getDocument_inv {W : Prop} {w : World} {σ : Sched} {p ref l} (hw : W → Lawful w) (hl : W → PoolWF l) :
    Later W l (getDocument w σ p ref l).2 ∧ LogStep w ref l (getDocument w σ p ref l).2 ∧
    ∀ d l', getDocument w σ p ref l = (.ok d, l') → (W → d.doc.WF) ∧ ResolvedAs w l' ref d.draft d.doc := by
  unfold getDocument
  rw [M.bind_def, poolGet_ok.2 ⟨rfl, rfl⟩]
  simp only
  cases h1 : getKey ref l.pool with
  | some e =>
    refine ⟨.refl hl, .inl rfl, ?_⟩
    intro d l' h
    simp only [M.pure_ok] at h
    obtain ⟨rfl, rfl⟩ := h
    exact ⟨fun hW => hl hW _ _ h1, .entry _ h1⟩
  | none =>
    simp only
    rw [M.bind_def, poolGet_ok.2 ⟨rfl, rfl⟩]
    simp only
    cases h2 : getKey (w.base ref) l.pool with
    | none => exact getRemote_inv hw hl h1 h2
    | some e =>
      simp only [getCached, M.bind_def]
      cases hp : w.pointer ref e.doc with
      | none =>
        have : pointerGet w ref e.doc l = (.error (.err (.pointer ref)), l) := by unfold pointerGet; rw [hp]; rfl
        rw [this]
        exact ⟨.refl hl, .inl rfl, by intro d l' h; simp at h⟩
      | some d0 =>
        have : pointerGet w ref e.doc l = (.ok d0, l) := pointerGet_ok.2 ⟨rfl, hp⟩
        rw [this]
        simp only [putPool_run]
        have hd : W → d0.WF := fun hW => (hw hW).pointer _ _ _ hp (hl hW _ _ h2)
        have hk : RwInv W l { l with pool := putKey ref ⟨d0, e.draft⟩ l.pool } :=
          RwInv.put (l := l) ⟨.refl _, .refl _, ⟨rfl, rfl⟩, hl⟩ h1 hd
        refine ⟨hk.later, .inl rfl, ?_⟩
        intro d l' h
        simp only [M.pure_ok] at h
        obtain ⟨rfl, rfl⟩ := h
        exact ⟨hd, .entry (l := { l with pool := putKey ref ⟨d0, e.draft⟩ l.pool }) ⟨d0, e.draft⟩ getKey_putKey_self⟩

end GJS

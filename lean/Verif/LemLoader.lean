import Verif.LemParseSafe
import Verif.Loader
/-
Helper lemmas: invariants of operations on a loader.
-/
namespace GJS
open Spec

/-- What an argument brings in satisfies `N`. -/
def ArgOK (w : World) (N : Json → Prop) : LoaderArg → Prop
  | .direct o => ∀ d, o = some d → N d
  | .reference s f => ∀ n d, loadReference w n f s = some d → N d

/-- An invariant `P` of the loader that its parts respect.  Documents satisfy `N`, those handed to the
loader `N0`, and references under which they are added `G`. -/
structure LoaderInv (w : World) (σ : Sched) (P : LState → Prop) (B : Fail → Prop) (N : Json → Prop)
    (N0 : Json → Prop := N) (G : String → Prop := fun _ => True) : Prop where
  get : ∀ p ref, Safe P B (getDocument w σ p ref) (fun e => N e.doc)
  refs : ∀ p doc ref pooled, G ref → N0 doc → Safe P B (parseReferences w σ p doc ref pooled) (fun x => N x.1)
  raw : ∀ d, N0 d → N d := by exact fun _ h => h
  own : ∀ l x, P l → P { l with own := l.own ++ [x] }
  factory : ∀ l f, P l → P { l with factory := f }
  validate : ∀ l b, P l → P { l with validate := b }
  err : ErrAll B
  fuel : ¬ B .fuel
  docs : DocsFine B w N

section
variable {w : World} {σ : Sched} {P : LState → Prop} {B : Fail → Prop} {N N0 : Json → Prop} {G : String → Prop} {fuel : Fuel} {p : Path}

theorem loadJSON_safe (h : LoaderInv w σ P B N N0 G) {a} (ha : ArgOK w N0 a) : Safe P B (loadJSON w a) N0 := by
  intro l hl
  unfold loadJSON
  split
  · rename_i d
    refine ⟨hl, ?_, by intro e l' h; simp at h⟩
    intro x l' h
    simp only [Prod.mk.injEq, Except.ok.injEq] at h
    rw [← h.1]; exact ha d rfl
  · refine ⟨hl, by intro x l' h; simp at h, ?_⟩
    intro e l' he
    simp only [Prod.mk.injEq, Except.error.injEq] at he
    rw [← he.1]; exact h.err _
  · rename_i s f
    simp only
    split
    · rename_i d hd
      refine ⟨h.own _ _ hl, ?_, by intro e l' h; simp at h⟩
      intro x l' h
      simp only [Prod.mk.injEq, Except.ok.injEq] at h
      rw [← h.1]; exact ha _ _ hd
    · refine ⟨h.own _ _ hl, by intro x l' h; simp at h, ?_⟩
      intro e l' he
      simp only [Prod.mk.injEq, Except.error.injEq] at he
      rw [← he.1]; exact h.err _

theorem failIf_safe (hB : ErrAll B) {x} (hx : N x.1) : Safe P B (failIf x) N := by
  unfold failIf
  split
  · exact .err (hB _)
  · exact .pure hx

theorem parseSchemaURL_safe (hB : ErrAll B) (hN : DocsFine B w N) {doc} (hd : N doc) :
    Safe P B (parseSchemaURL w doc) (fun _ => True) := by
  unfold parseSchemaURL
  refine .bind (isKind_safe (hN.self _ hd)) fun b _ => ?_
  split
  · exact .pure trivial
  · refine .bind (isKind_safe (hN.self _ hd)) fun b hb => ?_
    subst hb
    split
    · exact .err (hB _)
    · rename_i hk
      simp only [Bool.not_eq_true', Bool.not_eq_false] at hk
      obtain ⟨m, rfl⟩ := kind_map hk
      simp only
      split
      · exact .pure trivial
      · rename_i v hv
        refine .bind (isKind_safe ((hN.top _ hd).num _ _ hv)) fun b hb => ?_
        subst hb
        split
        · exact .err (hB _)
        · rename_i hk
          simp only [Bool.not_eq_true', Bool.not_eq_false] at hk
          obtain ⟨t, rfl⟩ := kind_string hk
          simp only
          split
          · exact .err (hB _)
          · exact .pure trivial

theorem rootDocument_safe (h : LoaderInv w σ P B N N0 G) {a ref} (ha : ref = "" → ArgOK w N0 a) (hG : G "" := by trivial) :
    Safe P B (rootDocument w σ p a ref) N := by
  unfold rootDocument
  split
  · exact .bind (h.get _ _) fun e he => .pure he
  · rename_i hr
    have hr : ref = "" := by simpa using hr
    subst hr
    exact .bind (loadJSON_safe h (ha rfl)) fun doc hd => .bind (h.refs _ _ _ _ hG hd) fun x hx => failIf_safe h.err hx

theorem rootDraft_safe (h : LoaderInv w σ P B N N0 G) {doc} (hd : N doc) : Safe P B (rootDraft w doc) (fun _ => True) := by
  unfold rootDraft
  refine .bind (.get fun _ _ => trivial) fun l _ => ?_
  split
  · exact .bind (parseSchemaURL_safe h.err h.docs hd) fun _ _ => .pure trivial
  · exact .pure trivial

theorem runParse_safe (h : LoaderInv w σ P B N N0 G) {ref doc draft} (hd : N doc) :
    Safe P B (runParse w σ fuel p ref doc draft) (fun _ => True) := by
  intro l hl
  obtain ⟨h1, _, h3⟩ := parseRoot_safe (σ := σ) (p := p) (d := draft) (n := fuel.parse) (docRef := ref)
    h.err.fine h.fuel h.docs hd h.get { l := l } hl
  unfold runParse
  cases hx : parseRoot w σ fuel.parse p ref doc draft { l := l } with
  | mk r s =>
    rw [hx] at h1
    cases r with
    | ok c => exact ⟨h1, fun _ _ _ => trivial, by intro e l' h; simp at h⟩
    | error e =>
      refine ⟨h1, fun _ _ _ => trivial, ?_⟩
      intro e' l' h
      simp only [Prod.mk.injEq, Except.error.injEq] at h
      rw [← h.1]; exact h3 _ _ hx

theorem whenValidate_safe {hook} (hh : Safe P B hook (fun _ => True)) : Safe P B (whenValidate hook) (fun _ => True) := by
  unfold whenValidate
  refine .bind (.get fun _ _ => trivial) fun l _ => ?_
  split
  · exact hh
  · exact .pure trivial

theorem compileG_safe (h : LoaderInv w σ P B N N0 G) {hook a} (ha : a.ref w = some "" → ArgOK w N0 a)
    (hh : ∀ p doc, N doc → Safe P B (hook p doc) (fun _ => True)) (hG : G "" := by trivial) :
    Safe P B (compileG w σ fuel hook p a) (fun _ => True) := by
  unfold compileG
  split
  · exact .err (h.err _)
  · rename_i ref hr
    exact .bind (.modify fun l hl => h.factory _ _ hl) fun _ _ => .bind (rootDocument_safe h (fun e => ha (e ▸ hr)) hG) fun doc hd =>
      .bind (whenValidate_safe (hh _ _ hd)) fun _ _ => .bind (rootDraft_safe h hd) fun _ _ => runParse_safe h hd

theorem compileInner_safe (h : LoaderInv w σ P B N N0 G) {a} (ha : a.ref w = some "" → ArgOK w N0 a) (hG : G "" := by trivial) :
    Safe P B (compileInner w σ fuel p a) (fun _ => True) :=
  compileG_safe h ha (fun _ _ _ => .pure trivial) hG

theorem metaSchemaURL_safe (h : LoaderInv w σ P B N N0 G) {doc} (hd : N doc) :
    Safe P B (metaSchemaURL w doc) (fun _ => True) := by
  unfold metaSchemaURL
  refine .bind (Q := fun _ => True) ?_ fun s _ => .bind (.get fun _ _ => trivial) fun l _ => ?_
  · unfold detectedURL
    refine .bind (.get fun _ _ => trivial) fun l _ => ?_
    split
    · exact .bind (parseSchemaURL_safe h.err h.docs hd) fun _ _ => .pure trivial
    · exact .pure trivial
  · split
    · split <;> exact .pure trivial
    · exact .pure trivial

/-- Documents loaded by an empty reference are fine. -/
def RefsOK (w : World) (N : Json → Prop) : Prop := ∀ n f s d, w.norm s = some "" → loadReference w n f s = some d → N d

theorem checkDocument_safe (hB : ErrAll B) (hp : ¬ B .panic) (hF : ¬ B .fuel) {s doc} :
    Safe P B (checkDocument w σ fuel s doc) (fun _ => True) := by
  unfold checkDocument
  split
  · split
    · exact .pure trivial
    · exact .err (hB _)
  · exact .fail hp
  · exact .fail hF

theorem validateMetaschema_safe (h : LoaderInv w σ P B N N0 G) (hp : ¬ B .panic) (hr : RefsOK w N0) {doc} (hd : N doc)
    (hG : G "" := by trivial) : Safe P B (validateMetaschema w σ fuel p doc) (fun _ => True) := by
  unfold validateMetaschema
  refine .bind (metaSchemaURL_safe h hd) fun u _ => ?_
  split
  · exact .pure trivial
  · exact .bind (.modify fun l hl => h.validate _ _ hl) fun _ _ =>
      .bind (compileInner_safe h (fun e n d hld => hr _ _ _ _ e hld) hG) fun _ _ =>
      .bind (.modify fun l hl => h.validate _ _ hl) fun _ _ => checkDocument_safe h.err hp h.fuel

theorem compile_safe (h : LoaderInv w σ P B N N0 G) (hp : ¬ B .panic) (hr : RefsOK w N0) {a}
    (ha : a.ref w = some "" → ArgOK w N0 a) (hG : G "" := by trivial) : Safe P B (compile w σ fuel p a) (fun _ => True) :=
  compileG_safe h ha (fun _ _ hd => validateMetaschema_safe h hp hr hd hG) hG

theorem addSchema_safe (h : LoaderInv w σ P B N N0 G) (hp : ¬ B .panic) (hr : RefsOK w N0) {url a} (ha : ArgOK w N0 a)
    (hG : G "" := by trivial) (hu : ∀ ref, w.norm url = some ref → G ref := by intros; trivial) :
    Safe P B (addSchema w σ fuel p url a) (fun _ => True) := by
  unfold addSchema
  split
  · exact .err (h.err _)
  · rename_i ref hn
    exact .bind (loadJSON_safe h ha) fun doc hd =>
      .bind (whenValidate_safe (validateMetaschema_safe h hp hr (h.raw _ hd) hG)) fun _ _ =>
      .bind (h.refs _ _ _ _ (hu _ hn) hd) fun x hx => .bind (failIf_safe h.err hx) fun _ _ => .pure trivial

theorem addSchemaById_safe (h : LoaderInv w σ P B N N0 G) (hp : ¬ B .panic) (hr : RefsOK w N0) {a} (ha : ArgOK w N0 a)
    (hG : G "" := by trivial) : Safe P B (addSchemaById w σ fuel p a) (fun _ => True) :=
  .bind (loadJSON_safe h ha) fun _ hd =>
    .bind (whenValidate_safe (validateMetaschema_safe h hp hr (h.raw _ hd) hG)) fun _ _ =>
    .bind (h.refs _ _ _ _ hG hd) fun _ hx => .bind (failIf_safe h.err hx) fun _ _ => .pure trivial

theorem addSchemas_safe (h : LoaderInv w σ P B N N0 G) (hp : ¬ B .panic) (hr : RefsOK w N0) {as} (ha : ∀ a ∈ as, ArgOK w N0 a)
    (hG : G "" := by trivial) : Safe P B (addSchemas w σ fuel p as) (fun _ => True) :=
  .bind (.mapL' fun _ a hx => addSchemaById_safe h hp hr (ha a hx) hG) fun _ _ => .pure trivial

/-- All arguments of an operation are fine. -/
def OpOK (w : World) (N : Json → Prop) : Op → Prop
  | .addSchema _ a => ArgOK w N a
  | .addSchemas as => ∀ a ∈ as, ArgOK w N a
  | .compile a => a.ref w = some "" → ArgOK w N a
  | _ => True

/-- The references an operation adds documents under satisfy `G`. -/
def OpRef (w : World) (G : String → Prop) (o : Op) : Prop :=
  ∀ url a ref, o = .addSchema url a → w.norm url = some ref → G ref

theorem op_safe (h : LoaderInv w σ P B N N0 G) (hp : ¬ B .panic) (hr : RefsOK w N0)
    (hset : ∀ l a d, P l → P { l with autoDetect := a, draft := d }) {o} (ho : OpOK w N0 o)
    (hG : G "" := by trivial) (hg : OpRef w G o := by intro _ _ _ _ _; trivial) :
    Safe P B (o.run w σ fuel p) (fun _ => True) := by
  cases o with
  | addSchema url a => exact .bind (addSchema_safe h hp hr ho hG fun _ hn => hg _ _ _ rfl hn) fun _ _ => .pure trivial
  | addSchemas as => exact .bind (addSchemas_safe h hp hr ho hG) fun _ _ => .pure trivial
  | compile a => exact .bind (compile_safe h hp hr ho hG) fun _ _ => .pure trivial
  | setAutoDetect b => exact .bind (.modify fun l hl => hset l b l.draft hl) fun _ _ => .pure trivial
  | setValidate b => exact .bind (.modify fun l hl => h.validate _ _ hl) fun _ _ => .pure trivial
  | setDraft d => exact .bind (.modify fun l hl => hset l l.autoDetect d hl) fun _ _ => .pure trivial

/-- An invariant of the loader holds after every history. -/
theorem runOps_inv (h : LoaderInv w σ P B N N0 G) (hp : ¬ B .panic) (hr : RefsOK w N0)
    (hset : ∀ l a d, P l → P { l with autoDetect := a, draft := d })
    (hG : G "" := by trivial) : ∀ {os k l}, (∀ o ∈ os, OpOK w N0 o) → P l →
      (hg : ∀ o ∈ os, OpRef w G o := by intro _ _ _ _ _ _ _; trivial) → P (runOps w σ fuel k os l).2 := by
  intro os
  induction os with
  | nil => intro k l _ hl _; exact hl
  | cons o os ih =>
    intro k l ho hl hg
    simp only [runOps]
    exact ih (fun o h => ho o (by simp [h])) ((op_safe h hp hr hset (ho o (by simp)) hG (hg o (by simp))) l hl).1
      fun o h => hg o (by simp [h])

end

/-! ### Instances -/

/-- Well-formed documents. -/
def IsWF (d : Json) : Prop := d.WF

theorem docsFine_of {w : World} {N : Json → Prop} (h1 : ∀ m k v, N (.obj m) → getKey k m = some v → N v)
    (h2 : ∀ m kv, N (.obj m) → kv ∈ m → N kv.2) (h3 : ∀ xs x, N (.arr xs) → x ∈ xs → N x) :
    DocsFine (fun _ => False) w N where
  top := fun _ _ => ⟨fun _ _ _ _ _ => .inr id, fun _ _ h => h, fun _ _ _ _ h => h, fun _ _ _ _ _ _ _ => .inr id,
    fun _ _ _ _ _ _ _ => .inr id, fun _ _ _ _ _ _ _ _ _ => .inr id⟩
  self := fun _ _ _ _ => .inr id
  member := h1
  entry := h2
  elem := h3

theorem getDocument_tri {W : Prop} {w : World} {σ : Sched} {p ref} (hw : W → Lawful w) :
    Tri (fun l => W → PoolWF l) (getDocument w σ p ref) (fun e => W → e.doc.WF) := by
  intro l hl
  obtain ⟨h1, _, h3⟩ := getDocument_inv (σ := σ) (p := p) (ref := ref) hw hl
  exact ⟨h1.wf, fun a l' ha => (h3 a l' ha).1⟩

/-- The pool stays well-formed. -/
theorem poolWF_inv {w : World} (hw : Lawful w) (σ : Sched) : LoaderInv w σ PoolWF (fun _ => False) IsWF where
  get := by
    intro p ref
    refine .of_tri ?_
    intro l hl
    have := getDocument_tri (W := True) (w := w) (σ := σ) (p := p) (ref := ref) (fun _ => hw) l fun _ => hl
    exact ⟨this.1 trivial, fun a l' ha => this.2 a l' ha trivial⟩
  refs := by
    intro p doc ref pooled _ hd
    refine .of_tri ?_
    intro l hl
    obtain ⟨h1, h2⟩ := parseReferences_tri (W := True) (w := w) (σ := σ) (p := p) (ref := ref) (pooled := pooled)
      (fun _ => hd) fun _ => hl
    exact ⟨h1.wf trivial, fun a l' ha => h2 a l' ha trivial⟩
  own := fun _ _ h => h
  factory := fun _ _ h => h
  validate := fun _ _ h => h
  err := fun _ h => h
  fuel := id
  docs := docsFine_of (fun _ _ _ h hk => wf_get h hk) (fun _ _ h hk => wf_obj h _ hk) fun _ _ h hk => wf_arr h _ hk

/-- Since `l0`, entries were kept and nothing was fetched that was there. -/
structure Since (w : World) (l0 l : LState) : Prop where
  keeps : Keeps l0 l
  log : ∃ new, l.log = l0.log ++ new ∧
    ∀ e ∈ new, getKey e.2 l0.pool = none ∧ getKey (w.base e.2) l0.pool = none

theorem since_inv (w : World) (l0 : LState) (σ : Sched) : LoaderInv w σ (Since w l0) (fun _ => False) (fun _ => True) where
  get := by
    intro p ref
    refine .of_tri ?_
    intro l hl
    obtain ⟨h1, h2, _⟩ := getDocument_inv (W := False) (w := w) (σ := σ) (p := p) (ref := ref) (l := l) False.elim False.elim
    refine ⟨⟨hl.keeps.trans h1.keeps, ?_⟩, fun _ _ _ => trivial⟩
    obtain ⟨new, e1, e2⟩ := hl.log
    rcases h2 with h2 | ⟨h2, h3, h4⟩
    · exact ⟨new, by rw [h2, e1], e2⟩
    · refine ⟨new ++ [(l.factory, ref)], by rw [h2, e1]; simp, ?_⟩
      intro e he
      rcases List.mem_append.1 he with he | he
      · exact e2 e he
      · simp only [List.mem_singleton] at he
        subst he
        constructor
        · cases hk : getKey ref l0.pool with
          | none => rfl
          | some x => rw [hl.keeps _ _ hk] at h3; cases h3
        · cases hk : getKey (w.base ref) l0.pool with
          | none => rfl
          | some x => rw [hl.keeps _ _ hk] at h4; cases h4
  refs := by
    intro p doc ref pooled _ _
    refine .of_tri ?_
    intro l hl
    obtain ⟨h1, _⟩ := parseReferences_tri (W := False) (w := w) (σ := σ) (p := p) (doc := doc) (ref := ref)
      (pooled := pooled) (l0 := l) False.elim False.elim
    refine ⟨⟨hl.keeps.trans h1.keeps, ?_⟩, fun _ _ _ => trivial⟩
    obtain ⟨new, e1, e2⟩ := hl.log
    exact ⟨new, by rw [h1.log.1, e1], e2⟩
  own := fun _ _ h => ⟨h.keeps, h.log⟩
  factory := fun _ _ h => ⟨h.keeps, h.log⟩
  validate := fun _ _ h => ⟨h.keeps, h.log⟩
  err := fun _ h => h
  fuel := id
  docs := docsFine_trivial

end GJS

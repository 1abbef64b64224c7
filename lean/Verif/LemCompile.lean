import Verif.LemLoader
import Verif.LemRewrite
import Verif.SpecCompile
import Verif.SpecGraph
/-
Helper lemmas: what a successful `Compile` returns.
-/
namespace GJS
open Spec

/-- Properties of a compiled schema, relative to the loader it was compiled in. -/
structure Good (w : World) (l : LState) (s : Schema) (d : Draft) (D : Json) : Prop where
  root : Stat s.heap d D s.root
  nodes : ∀ (i : Nat) (n : Sub), s.heap[i]? = some n → NodeOK w s.heap s.refs n
  docs : ∀ (i : Nat) (n : Sub), s.heap[i]? = some n → n.doc.WF
  refs : ∀ r j, getKey r s.refs = some j → ∃ d D, Stat s.heap d D j ∧ RefAs w s.heap l r d D
  made : ∀ (i : Nat) (n : Sub), s.heap[i]? = some n → Compiled w l d D n.draft n.doc
  ran : ∀ (i : Nat) (n : Sub), s.heap[i]? = some n → Ran w n.draft n.doc ∧ DefsIn s.heap n.draft n.doc

theorem runParse_good {w : World} {σ : Sched} {fuel p ref doc draft l s l'} (hw : Lawful w) (hl : PoolWF l)
    (hd : doc.WF) (h : runParse w σ fuel p ref doc draft l = (.ok s, l')) : Good w l' s draft doc := by
  unfold runParse at h
  have inv : PInv w { l := l } := ⟨hl, by intro i s h; simp at h, by intro r j h; simp [getKey] at h,
    by intro i s h; simp at h⟩
  cases hx : parseRoot w σ fuel.parse p ref doc draft { l := l } with
  | mk r st =>
    rw [hx] at h
    cases r with
    | error e => simp at h
    | ok c =>
      simp only [Prod.mk.injEq, Except.ok.injEq] at h
      obtain ⟨rfl, rfl⟩ := h
      obtain ⟨⟨S, hs⟩, rfl⟩ := parseRoot_ok hw inv hd rfl hx
      refine ⟨hs, fun i n hn => S.done i n hn (.inr (by simp)), S.inv.docs, S.inv.refs, ?_, fun i n hn => S.ran i n hn (by simp)⟩
      intro i
      induction i using Nat.strongRecOn with
      | ind i ih =>
        intro n hn
        rcases S.inv.orig i n hn with rfl | ⟨i', d', m, h1, ⟨n', h2, h3, h4⟩, h5⟩
        · obtain ⟨n', h1, h2, h3⟩ := hs
          rw [hn] at h1
          cases h1
          rw [h2, h3]; exact .root
        · have := ih i' h1 n' h2
          rw [h3, h4] at this
          generalize n.draft = d1 at h5
          generalize n.doc = D1 at h5
          cases h5 with
          | sub D h => exact .sub _ m _ this h
          | definition ps k D h h' => exact .definition _ m ps k _ this h h'
          | ref t u o D h h' h'' => exact .ref _ m t u o _ this h h' h''

/-- Settings of the loader survive. -/
def SameSettings (l0 l : LState) : Prop := l.autoDetect = l0.autoDetect ∧ l.draft = l0.draft

theorem settings_inv (w : World) (σ : Sched) (l0 : LState) :
    LoaderInv w σ (SameSettings l0) (fun _ => False) (fun _ => True) where
  get := by
    intro p ref
    refine .of_tri fun l hl => ⟨?_, fun _ _ _ => trivial⟩
    obtain ⟨h1, _, _⟩ := getDocument_inv (W := False) (w := w) (σ := σ) (p := p) (ref := ref) (l := l) False.elim False.elim
    exact ⟨h1.cfg.2.1.trans hl.1, h1.cfg.2.2.2.trans hl.2⟩
  refs := by
    intro p doc ref pooled _ _
    refine .of_tri fun l hl => ⟨?_, fun _ _ _ => trivial⟩
    obtain ⟨h1, _⟩ := parseReferences_tri (W := False) (w := w) (σ := σ) (p := p) (doc := doc) (ref := ref)
      (pooled := pooled) (l0 := l) False.elim False.elim
    exact ⟨h1.cfg.2.1.trans hl.1, h1.cfg.2.2.2.trans hl.2⟩
  own := fun _ _ h => h
  factory := fun _ _ h => h
  validate := fun _ _ h => h
  err := fun _ h => h
  fuel := id
  docs := docsFine_trivial

theorem argOK_wf {w : World} (hw : Lawful w) {a : LoaderArg} (ha : ∀ D, a = .direct (some D) → D.WF) : ArgOK w IsWF a := by
  cases a with
  | direct o => intro d hd; exact ha d (by rw [hd])
  | reference s f => intro n d h; exact loadReference_wf hw h

theorem refsOK_wf {w : World} (hw : Lawful w) : RefsOK w IsWF := fun _ _ _ _ _ h => loadReference_wf hw h

theorem argOK_true {w : World} {a : LoaderArg} : ArgOK w (fun _ => True) a := by
  cases a with
  | direct o => intro _ _; trivial
  | reference s f => intro _ _ _; trivial

theorem rootDraft_ok {w : World} {doc l d l'} (h : rootDraft w doc l = (.ok d, l')) : l' = l ∧ d = draftFor w l doc := by
  unfold rootDraft at h
  obtain ⟨x, s1, h1, h⟩ := M.bind_ok.1 h
  rw [M.get_ok] at h1
  obtain ⟨rfl, rfl⟩ := h1
  unfold draftFor
  cases ha : l.autoDetect with
  | true =>
    rw [ha] at h
    simp only [if_true] at h ⊢
    obtain ⟨y, s2, h2, h⟩ := M.bind_ok.1 h
    have e1 := parseSchemaURL_still.ok h2
    subst e1
    have e2 := parseSchemaURL_ok h2
    rw [M.pure_ok] at h
    rw [← e2]
    exact ⟨h.2.symm, h.1.symm⟩
  | false =>
    rw [ha] at h
    simp only [Bool.false_eq_true, if_false, M.pure_ok] at h ⊢
    exact ⟨h.2.symm, h.1.symm⟩

theorem failIf_ok {x l D l'} (h : failIf x l = (.ok D, l')) : l' = l ∧ D = x.1 ∧ x.2 = none := by
  unfold failIf at h
  cases hx : x.2 with
  | some e => rw [hx] at h; simp at h
  | none => rw [hx] at h; simp only [M.pure_ok] at h; exact ⟨h.2.symm, h.1.symm, rfl⟩

theorem loadJSON_ok {w : World} {a l D l'} (h : loadJSON w a l = (.ok D, l')) : Loads w a D ∧ l'.pool = l.pool := by
  unfold loadJSON at h
  split at h
  · simp only [Prod.mk.injEq, Except.ok.injEq] at h
    obtain ⟨rfl, rfl⟩ := h
    exact ⟨rfl, rfl⟩
  · simp at h
  · simp only at h
    split at h
    · rename_i d hd
      simp only [Prod.mk.injEq, Except.ok.injEq] at h
      obtain ⟨rfl, rfl⟩ := h
      exact ⟨⟨_, hd⟩, rfl⟩
    · simp at h

theorem loads_wf {w : World} {a D} (h : ArgOK w IsWF a) (hl : Loads w a D) : D.WF := by
  cases a with
  | direct o => exact h D hl
  | reference s f => obtain ⟨n, hn⟩ := hl; exact h n D hn

/-- What `rootDocument` returns. -/
theorem rootDocument_ok {w : World} {σ : Sched} {p a ref l D l'} (hw : Lawful w) (hl : PoolWF l) (ha : ArgOK w IsWF a)
    (h : rootDocument w σ p a ref l = (.ok D, l')) :
    (ref ≠ "" ∧ Resolved w l' ref D) ∨ (ref = "" ∧ ∃ D0, Loads w a D0 ∧ Rw w "" D0 D) := by
  unfold rootDocument at h
  by_cases hr : ref = ""
  · subst hr
    simp only [bne_self_eq_false, Bool.false_eq_true, if_false, M.bind_ok] at h
    obtain ⟨D0, s1, h1, x, s2, h2, h3⟩ := h
    obtain ⟨h4, _⟩ := loadJSON_ok h1
    obtain ⟨_, rfl, h6⟩ := failIf_ok h3
    refine .inr ⟨rfl, D0, h4, ?_⟩
    rcases parseReferences_rw (loads_wf ha h4) h2 with ⟨_, h⟩ | h
    · rw [h6] at h; cases h
    · exact h
  · have hb : (ref != "") = true := by simpa using hr
    simp only [hb, if_true, M.bind_ok, M.pure_ok] at h
    obtain ⟨e, s1, h1, rfl, rfl⟩ := h
    obtain ⟨_, _, h3⟩ := getDocument_inv (W := True) (σ := σ) (p := 60 :: p) (ref := ref) (fun _ => hw) (fun _ => hl)
    exact .inl ⟨hr, (h3 _ _ h1).2.resolved⟩

/-- The loader after `Compile`: entries kept. -/
theorem runParse_keeps {w : World} {σ : Sched} {fuel p ref doc draft} (l0 : LState) :
    Tri (Since w l0) (runParse w σ fuel p ref doc draft) (fun _ => True) :=
  (runParse_safe (since_inv w l0 σ) trivial).tri

theorem since_refl (w : World) (l) : Since w l l := ⟨.refl _, [], by simp, by simp⟩

/-- What is needed of the function that validates against the meta-schema. -/
def HookOK (w : World) (σ : Sched) (hook : Path → Json → M LState Unit) : Prop :=
  ∀ (P : LState → Prop) (N : Json → Prop), LoaderInv w σ P (fun _ => False) N → RefsOK w N →
    ∀ p doc, N doc → Safe P (fun _ => False) (hook p doc) (fun _ => True)

/-- A successful `Compile`, whatever validates against the meta-schema. -/
theorem compileG_good {w : World} {σ : Sched} {fuel hook p a l s l'} (hw : Lawful w) (hk : HookOK w σ hook) (hl : PoolWF l)
    (ha : ∀ D, a = .direct (some D) → D.WF) (h : compileG w σ fuel hook p a l = (.ok s, l')) :
    ∃ D, RootDoc w l' a D ∧ D.WF ∧ Good w l' s (draftFor w l D) D := by
  have ha := argOK_wf hw ha
  unfold compileG at h
  cases hr : a.ref w with
  | none => rw [hr] at h; simp at h
  | some ref =>
    rw [hr] at h
    simp only at h
    obtain ⟨_, l1, h1, h⟩ := M.bind_ok.1 h
    obtain ⟨D, l2, h2, h⟩ := M.bind_ok.1 h
    obtain ⟨_, l3, h3, h⟩ := M.bind_ok.1 h
    obtain ⟨d, l4, h4, h5⟩ := M.bind_ok.1 h
    rw [M.modify_ok] at h1
    have wf1 : PoolWF l1 := by rw [← h1]; exact hl
    have set1 : SameSettings l l1 := by rw [← h1]; exact ⟨rfl, rfl⟩
    have R2 := rootDocument_safe (p := p) (ref := ref) (poolWF_inv hw σ) (fun _ => ha) trivial l1 wf1
    rw [h2] at R2
    have hD := R2.2.1 _ _ rfl
    have set2 := (rootDocument_safe (p := p) (ref := ref) (a := a) (settings_inv w σ l) (fun _ => argOK_true) trivial l1 set1).1
    rw [h2] at set2
    have R3 := whenValidate_safe (hk _ _ (poolWF_inv hw σ) (refsOK_wf hw) p D hD) l2 R2.1
    rw [h3] at R3
    have set3 := (whenValidate_safe (hk _ _ (settings_inv w σ l) (fun _ _ _ _ _ _ => trivial) p D trivial) l2 set2).1
    rw [h3] at set3
    obtain ⟨rfl, rfl⟩ := rootDraft_ok h4
    have k3 := (whenValidate_safe (hk _ _ (since_inv w l2 σ) (fun _ _ _ _ _ _ => trivial) p D trivial) l2 (since_refl w l2)).1
    rw [h3] at k3
    have k5 := (runParse_keeps (w := w) (σ := σ) (fuel := fuel) (p := 62 :: p) (ref := ref) (doc := D)
      (draft := draftFor w l4 D) l2 l4 k3).1
    rw [h5] at k5
    refine ⟨D, ⟨ref, hr, ?_⟩, hD, ?_⟩
    · rcases rootDocument_ok hw wf1 ha h2 with ⟨g1, g2⟩ | g
      · obtain ⟨new, e, _⟩ := k5.log
        exact .inl ⟨g1, g2.mono k5.keeps (by rw [e]; exact List.prefix_append _ _)⟩
      · exact .inr g
    · have hd : draftFor w l D = draftFor w l4 D := by
        unfold draftFor; rw [set3.1, set3.2]
      rw [hd]
      exact runParse_good hw R3.1 hD h5

/-- A successful `Compile`. -/
theorem compile_good {w : World} {σ : Sched} {fuel p a l s l'} (hw : Lawful w) (hl : PoolWF l)
    (ha : ∀ D, a = .direct (some D) → D.WF) (h : compile w σ fuel p a l = (.ok s, l')) :
    ∃ D, RootDoc w l' a D ∧ D.WF ∧ Good w l' s (draftFor w l D) D :=
  compileG_good hw (fun _ _ hi hr _ _ hd => validateMetaschema_safe hi id hr hd) hl ha h

/-- The meta-schema compiles to a good schema, too. -/
theorem compileInner_good {w : World} {σ : Sched} {fuel p a l s l'} (hw : Lawful w) (hl : PoolWF l)
    (ha : ∀ D, a = .direct (some D) → D.WF) (h : compileInner w σ fuel p a l = (.ok s, l')) :
    ∃ D, RootDoc w l' a D ∧ D.WF ∧ Good w l' s (draftFor w l D) D :=
  compileG_good hw (fun _ _ _ _ _ _ _ => .pure trivial) hl ha h

/-! ### Meaning -/

theorem Stat.of {h : Heap} {i : Nat} {s : Sub} (hi : h[i]? = some s) : Stat h s.draft s.doc i := ⟨s, hi, rfl, rfl⟩

theorem Good.read {w : World} {l s d D} (g : Good w l s d D) {u d' D'} (h : RefAs w s.heap l u d' D') :
    ReadAs w l d D u d' D' := by
  obtain ⟨o, h1, h2, h3⟩ := h
  refine ⟨o, h1, h2, fun ho => ?_⟩
  obtain ⟨i, m, t, ⟨n, h4, h5, h6⟩, h7⟩ := h3 ho
  have := g.made i n h4
  rw [h5, h6] at this
  exact ⟨m, t, this, h7⟩

theorem Spec.ReadAs.resolved {w : World} {l d D u d' D'} (h : ReadAs w l d D u d' D') : Resolved w l u D' := by
  obtain ⟨o, h1, _⟩ := h
  exact h1.resolved

/-- The references of a compiled schema stand for documents of the loader. -/
theorem Good.resolve {w : World} {l s d D} (g : Good w l s d D) {t d' D'}
    (h : resolveIn w s.heap s.refs t = some (d', D')) : ∃ u, w.norm t = some u ∧ ReadAs w l d D u d' D' := by
  unfold resolveIn at h
  cases hn : w.norm t with
  | none => rw [hn] at h; cases h
  | some u =>
    rw [hn] at h
    simp only at h
    cases hk : getKey u s.refs with
    | none => rw [hk] at h; cases h
    | some j =>
      rw [hk] at h
      simp only at h
      obtain ⟨d1, D1, h1, h2⟩ := g.refs u j hk
      obtain ⟨n, hn, h3, h4⟩ := h1
      rw [hn] at h
      simp only [Option.map_some, Option.some.injEq, Prod.mk.injEq] at h
      refine ⟨u, rfl, ?_⟩
      rw [← h.1, ← h.2, h3, h4]
      exact g.read h2

theorem Good.refs_lt {w : World} {l s d D} (g : Good w l s d D) {r j} (h : getKey r s.refs = some j) :
    j < s.heap.length := by
  obtain ⟨_, _, h1, _⟩ := g.refs r j h
  exact h1.lt

theorem Good.unfold {w : World} {l s d D} (g : Good w l s d D) (P : Draft → Json → Json → Prop) (n : Nat) :
    unfold w.env s.heap (satNode s.heap P) n =
      satNode s.heap (docUnfold w.env (resolveIn w s.heap s.refs) P n) := by
  induction n with
  | zero => rfl
  | succ n ih =>
    funext i v
    apply propext
    show NodeRules w.env s.heap (Spec.unfold w.env s.heap (satNode s.heap P) n) i v ↔ _
    rw [ih]
    constructor
    · intro hnr
      have hnr' := hnr
      obtain ⟨nd, hi, _⟩ := hnr'
      exact ⟨nd, hi, (corr_node hi (g.docs i nd hi) (g.nodes i nd hi) fun r j hj => g.refs_lt hj).1 hnr⟩
    · rintro ⟨nd, hi, hs⟩
      exact (corr_node hi (g.docs i nd hi) (g.nodes i nd hi) fun r j hj => g.refs_lt hj).2 hs

theorem Good.meaning {w : World} {l s d D} (g : Good w l s d D) {Sat}
    (hm : IsDocMeaning w.env (resolveIn w s.heap s.refs) Sat) : IsMeaning w.env s.heap (satNode s.heap Sat) := by
  intro i v
  constructor
  · rintro ⟨nd, hi, hs⟩
    exact (corr_node hi (g.docs i nd hi) (g.nodes i nd hi) fun r j hj => g.refs_lt hj).2 ((hm _ _ _).1 hs)
  · intro hnr
    have hnr' := hnr
    obtain ⟨nd, hi, _⟩ := hnr'
    exact ⟨nd, hi, (hm _ _ _).2 ((corr_node hi (g.docs i nd hi) (g.nodes i nd hi) fun r j hj => g.refs_lt hj).1 hnr)⟩

theorem Stat.satNode {h : Heap} {d D i Sat v} (hs : Stat h d D i) : satNode h Sat i v ↔ Sat d D v := by
  obtain ⟨s, h1, rfl, rfl⟩ := hs
  constructor
  · rintro ⟨s', h2, h3⟩; rw [h1] at h2; cases h2; exact h3
  · intro h3; exact ⟨s, h1, h3⟩

theorem forall2_mem {R : α → β → Prop} {xs : List α} {ys : List β} (h : List.Forall₂ R xs ys) {x} (hx : x ∈ xs) :
    ∃ y ∈ ys, R x y := by
  induction h with
  | nil => cases hx
  | cons hr _ ih =>
    rcases List.mem_cons.1 hx with rfl | hx
    · exact ⟨_, by simp, hr⟩
    · obtain ⟨y, hy, h⟩ := ih hx
      exact ⟨y, by simp [hy], h⟩

theorem forall2_mem' {R : α → β → Prop} {xs : List α} {ys : List β} (h : List.Forall₂ R xs ys) {y} (hy : y ∈ ys) :
    ∃ x ∈ xs, R x y := by
  induction h with
  | nil => cases hy
  | cons hr _ ih =>
    rcases List.mem_cons.1 hy with rfl | hy
    · exact ⟨_, by simp, hr⟩
    · obtain ⟨x, hx, h⟩ := ih hy
      exact ⟨x, by simp [hx], h⟩

theorem OptOK.sub {h : Heap} {d act m key o D} (x : OptOK h d act m key o) (ha : act) (hk : Kw m key D) :
    ∃ c, Stat h d D c := by
  rcases x with ⟨_, x⟩ | ⟨_, D', c, h1, _, h3⟩
  · rw [Kw, x ha] at hk; cases hk
  · rw [Kw, h1] at hk; cases hk; exact ⟨c, h3⟩

theorem ListOK.sub {h : Heap} {d m key ids Ds D} (x : ListOK h d m key ids) (hk : Kw m key (.arr Ds)) (hD : D ∈ Ds) :
    ∃ c, Stat h d D c := by
  rcases x with ⟨x, _⟩ | ⟨Ds', h1, h2⟩
  · rw [Kw, x] at hk; cases hk
  · rw [Kw, h1] at hk; cases hk
    obtain ⟨c, _, hc⟩ := forall2_mem h2 hD
    exact ⟨c, hc⟩

theorem MapOK.sub {h : Heap} {d m key ps Ds k D} (x : MapOK h d m key ps) (hk : Kw m key (.obj Ds)) (hD : (k, D) ∈ Ds) :
    ∃ c, Stat h d D c := by
  rcases x with ⟨x, _⟩ | ⟨Ds', l, h1, h2, h3⟩
  · rw [Kw, x] at hk; cases hk
  · rw [Kw, h1] at hk; cases hk
    obtain ⟨c, _, hc⟩ := forall2_mem h3 (h2.mem_iff.2 hD)
    exact ⟨c.2, hc.2⟩

theorem ExtraOK.sub {h : Heap} {d m key e A} (x : ExtraOK h d m key e) (hk : Kw m key (.obj A)) :
    ∃ c, Stat h d (.obj A) c := by
  rcases x with ⟨x, _⟩ | ⟨b, x, _⟩ | ⟨A', c, h1, _, h3⟩
  · rw [Kw, x] at hk; cases hk
  · rw [Kw, x] at hk; cases hk
  · rw [Kw, h1] at hk; cases hk; exact ⟨c, h3⟩

/-- A node has a node for each sub-schema. -/
theorem FieldsOK.sub {w : World} {h : Heap} {d m s D} (F : FieldsOK w h d m s) (x : SubSchema d m D) :
    ∃ c, Stat h d D c := by
  cases x with
  | property ps k D h1 h2 => exact F.props.sub h1 h2
  | pattern ps k D h1 h2 => exact F.patProps.sub h1 h2
  | additional A h1 => exact F.addProps.sub h1
  | name D h1 h2 => exact F.propNames.sub h1 h2
  | dependency ps k D h1 h2 h3 =>
    rcases F.deps with ⟨x, _⟩ | ⟨Ds, l, es, g1, g2, g3, _⟩
    · rw [Kw, x] at h1; cases h1
    · rw [Kw, g1] at h1; cases h1
      obtain ⟨e, _, he⟩ := forall2_mem g3 (g2.mem_iff.2 h2)
      rcases he with ⟨ks, hk, _⟩ | ⟨_, c, _, hc⟩
      · exact absurd hk (h3 _)
      · exact ⟨c, hc⟩
  | items D h1 h2 =>
    rcases F.items with ⟨x, _⟩ | ⟨Ds, x, _⟩ | ⟨D', c, x, _, _, hc, _⟩
    · rw [Kw, x] at h1; cases h1
    · rw [Kw, x] at h1; cases h1; exact absurd rfl (h2 _)
    · rw [Kw, x] at h1; cases h1; exact ⟨c, hc⟩
  | item Ds D h1 h2 =>
    rcases F.items with ⟨x, _⟩ | ⟨Ds', x, x2, _⟩ | ⟨D', c, x, x2, _, hc, _⟩
    · rw [Kw, x] at h1; cases h1
    · rw [Kw, x] at h1; cases h1
      obtain ⟨c, _, hc⟩ := forall2_mem x2 h2
      exact ⟨c, hc⟩
    · rw [Kw, x] at h1; cases h1; exact absurd rfl (x2 _)
  | additionalItems A h1 => exact F.addItems.sub h1
  | contains D h1 h2 => exact F.contains.sub h1 h2
  | oneOf Ds D h1 h2 => exact F.oneOf.sub h1 h2
  | anyOf Ds D h1 h2 => exact F.anyOf.sub h1 h2
  | allOf Ds D h1 h2 => exact F.allOf.sub h1 h2
  | not D h1 => exact F.not.sub trivial h1
  | if_ D h1 h2 => exact F.if_.sub h1 h2
  | then_ D h1 h2 => exact F.then_.sub h1 h2
  | else_ D h1 h2 => exact F.else_.sub h1 h2

theorem Good.ref {w : World} {l s d D} (g : Good w l s d D) {d' m i t} (hs : Stat s.heap d' (.obj m) i)
    (hk : Kw m "$ref" (.str t)) : ∃ d'' D'' j, resolveIn w s.heap s.refs t = some (d'', D'') ∧ Stat s.heap d'' D'' j := by
  obtain ⟨n, h1, h2, h3⟩ := hs
  have hn := g.nodes i n h1
  cases hn with
  | bool b hb => rw [hb] at h3; simp at h3
  | plain m' g1 g2 _ _ _ => rw [g1] at h3; cases h3; rw [Kw, g2] at hk; cases hk
  | ref m' r u j g1 g2 g3 g4 _ _ _ =>
    rw [g1] at h3; cases h3; rw [Kw, g2] at hk; cases hk
    have hlt := g.refs_lt g4
    refine ⟨_, _, j, ?_, Stat.of (by simp [hlt] : s.heap[j]? = some s.heap[j])⟩
    unfold resolveIn
    rw [g3]
    simp only [g4]
    simp [hlt]

/-- Every document that plays a role has a node. -/
theorem Good.used {w : World} {l s d D} (g : Good w l s d D) {d' D'}
    (h : Used (resolveIn w s.heap s.refs) d D d' D') : ∃ i, Stat s.heap d' D' i := by
  induction h with
  | root => exact ⟨_, g.root⟩
  | ref d' m t d'' D'' _ hk hr ih =>
    obtain ⟨i, hi⟩ := ih
    obtain ⟨d1, D1, j, h1, h2⟩ := g.ref hi hk
    rw [hr] at h1
    cases h1
    exact ⟨j, h2⟩
  | sub d' m D' _ hk hsub ih =>
    obtain ⟨i, n, h1, h2, h3⟩ := ih
    have hn := g.nodes i n h1
    cases hn with
    | bool b hb => rw [hb] at h3; simp at h3
    | plain m' g1 g2 _ _ F =>
      rw [g1] at h3; cases h3
      rw [h2] at F
      exact F.sub hsub
    | ref m' r u j g1 g2 _ _ _ _ _ =>
      rw [g1] at h3; cases h3
      rw [hk] at g2; cases g2

/-! ### Pointers -/

theorem OptOK.lt {h : Heap} {d act m key o} (x : OptOK h d act m key o) : ∀ i ∈ o.toList, i < h.length := by
  rcases x with ⟨rfl, _⟩ | ⟨_, D, c, _, rfl, h3⟩
  · simp
  · intro i hi; simp at hi; subst hi; exact h3.lt

theorem ListOK.lt {h : Heap} {d m key ids} (x : ListOK h d m key ids) : ∀ i ∈ ids, i < h.length := by
  rcases x with ⟨_, rfl⟩ | ⟨Ds, _, h2⟩
  · simp
  · intro i hi
    obtain ⟨D, _, hD⟩ := forall2_mem' h2 hi
    exact hD.lt

theorem MapOK.lt {h : Heap} {d m key ps} (x : MapOK h d m key ps) : ∀ i ∈ ps.map Prod.snd, i < h.length := by
  rcases x with ⟨_, rfl⟩ | ⟨Ds, l, _, _, h3⟩
  · simp
  · intro i hi
    obtain ⟨kc, hkc, rfl⟩ := List.mem_map.1 hi
    obtain ⟨D, _, hD⟩ := forall2_mem' h3 hkc
    exact hD.2.lt

theorem ExtraOK.lt {h : Heap} {d m key e} (x : ExtraOK h d m key e) : ∀ i ∈ extraId e, i < h.length := by
  rcases x with ⟨_, rfl⟩ | ⟨b, _, rfl⟩ | ⟨A, c, _, rfl, h3⟩
  · simp [extraId]
  · simp [extraId]
  · intro i hi; simp [extraId] at hi; subst hi; exact h3.lt

theorem DepsOK.lt {h : Heap} {d m ds} (x : DepsOK h d m ds) :
    ∀ i ∈ ds.filterMap (fun d => match d.2 with | .schema i => some i | .keys _ => none), i < h.length := by
  rcases x with ⟨_, rfl⟩ | ⟨Ds, l, es, _, _, h3, rfl⟩
  · simp
  · intro i hi
    simp only [List.filterMap_filterMap, List.mem_filterMap] at hi
    obtain ⟨e, he, hi⟩ := hi
    obtain ⟨kv, _, hD⟩ := forall2_mem' h3 he
    rcases hD with ⟨ks, _, rfl⟩ | ⟨_, c, rfl, hc⟩
    · cases ks <;> simp [depEntry] at hi
    · simp at hi; subst hi; exact hc.lt

theorem ItemsOK.lt {h : Heap} {d m is b} (x : ItemsOK h d m is b) : (∀ i ∈ is, i < h.length) ∧ (b = true → is ≠ []) := by
  rcases x with ⟨_, rfl, rfl⟩ | ⟨Ds, _, h2, rfl⟩ | ⟨D, c, _, _, rfl, h3, rfl⟩
  · simp
  · refine ⟨?_, by simp⟩
    intro i hi
    obtain ⟨D, _, hD⟩ := forall2_mem' h2 hi
    exact hD.lt
  · refine ⟨?_, by simp⟩
    intro i hi; simp at hi; subst hi; exact h3.lt

theorem fields_heapOK {w : World} {h : Heap} {d m s} (F : FieldsOK w h d m s) (hr : ∀ i ∈ s.refSchema.toList, i < h.length) :
    (∀ j ∈ inPlace s ++ nested s, j < h.length) ∧
    (s.itemsChildrenIsSingleSchema = true → s.itemsChildren ≠ []) ∧ s.multipleOf ≠ some 0 := by
  refine ⟨?_, F.items.lt.2, ?_⟩
  · intro j hj
    simp only [inPlace, nested, List.mem_append, or_assoc] at hj
    rcases hj with hj | hj | hj | hj | hj | hj | hj | hj | hj | hj | hj | hj | hj | hj | hj | hj
    · exact hr j hj
    · exact F.anyOf.lt j hj
    · exact F.oneOf.lt j hj
    · exact F.allOf.lt j hj
    · exact F.not.lt j hj
    · exact F.if_.lt j hj
    · exact F.then_.lt j hj
    · exact F.else_.lt j hj
    · exact F.deps.lt j hj
    · exact F.items.lt.1 j hj
    · exact F.props.lt j hj
    · exact F.patProps.lt j hj
    · exact F.addProps.lt j hj
    · exact F.addItems.lt j hj
    · exact F.propNames.lt j hj
    · exact F.contains.lt j hj
  · intro h0
    exact Rat.lt_irrefl (F.multipleOf_pos 0 h0)

/-- A compiled schema is closed. -/
theorem Good.heapOK {w : World} {l s d D} (g : Good w l s d D) : HeapOK s.heap := by
  intro n hn
  obtain ⟨i, hi⟩ := List.getElem?_of_mem hn
  have hok := g.nodes i n hi
  cases hok with
  | bool b hb _ => rw [hb]; simp [inPlace, nested, extraId]
  | plain m g1 _ g3 _ F => exact fields_heapOK F (by rw [g3]; simp)
  | ref m r u j g1 _ _ g4 g5 _ F =>
    have hj : ∀ i ∈ n.refSchema.toList, i < s.heap.length := by
      rw [g5]; intro i hi; simp at hi; subst hi; exact g.refs_lt g4
    rcases F with F | F
    · exact fields_heapOK F hj
    · refine ⟨?_, by rw [F]; simp, by rw [F]; simp⟩
      intro k hk
      have : k ∈ n.refSchema.toList := by
        rw [F] at hk ⊢
        simpa [inPlace, nested, extraId] using hk
      exact hj k this

end GJS

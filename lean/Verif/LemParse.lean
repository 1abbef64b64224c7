import Verif.LemCorr
import Verif.LemPool
import Verif.SpecCompile
/-
Helper lemmas: a compilation that succeeds leaves nodes that correspond to the documents they
were parsed from.
-/
namespace GJS
open Spec

/-! ### Invariants -/

/-- Nodes keep document and draft. -/
def HExt (h h' : Heap) : Prop := ∀ d D c, Stat h d D c → Stat h' d D c

theorem HExt.refl (h) : HExt h h := fun _ _ _ x => x
theorem HExt.trans {a b c} (h1 : HExt a b) (h2 : HExt b c) : HExt a c := fun _ _ _ x => h2 _ _ _ (h1 _ _ _ x)

/-- What a reference stands for, with its draft: the one its document is known to have, or else
the one of a sub-schema that refers to it. -/
def RefAs (w : World) (h : Heap) (l : LState) (r : String) (d : Draft) (D : Json) : Prop :=
  ∃ o, ResolvedAs w l r o D ∧ (∀ x, o = some x → d = x) ∧
    (o = none → ∃ i m t, Stat h d (.obj m) i ∧ Kw m "$ref" (.str t) ∧ w.norm t = some r)

theorem RefAs.mono {w : World} {h h' l l' r d D} (x : RefAs w h l r d D) (e : HExt h h') (hk : Keeps l l')
    (hl : l.log <+: l'.log) : RefAs w h' l' r d D := by
  obtain ⟨o, h1, h2, h3⟩ := x
  refine ⟨o, h1.mono hk hl, h2, fun ho => ?_⟩
  obtain ⟨i, m, t, h4, h5⟩ := h3 ho
  exact ⟨i, m, t, e _ _ _ h4, h5⟩

theorem RefAs.resolved {w : World} {h l r d D} (x : RefAs w h l r d D) : Resolved w l r D := by
  obtain ⟨o, h1, _⟩ := x
  exact h1.resolved

/-- A schema object read under draft `d` leads to `D`, read under `d'`. -/
inductive Gives1 (w : World) (l : LState) (d : Draft) (m : List (String × Json)) : Draft → Json → Prop
  | sub (D) : SubSchema d m D → Gives1 w l d m d D
  | definition (ps k D) : Kw m "definitions" (.obj ps) → (k, D) ∈ ps → Gives1 w l d m d D
  | ref (t u o D) : Kw m "$ref" (.str t) → w.norm t = some u → ResolvedAs w l u o D → Gives1 w l d m (o.getD d) D

theorem Gives1.mono {w : World} {l l' d m d' D} (x : Gives1 w l d m d' D) (hk : Keeps l l') (hl : l.log <+: l'.log) :
    Gives1 w l' d m d' D := by
  cases x with
  | sub D h => exact .sub D h
  | definition ps k D h1 h2 => exact .definition ps k D h1 h2
  | ref t u o D h1 h2 h3 => exact .ref t u o D h1 h2 (h3.mono hk hl)

/-- Where a node comes from: it is the first, or an earlier one leads to it. -/
def Origin (w : World) (h : Heap) (l : LState) (i : Nat) (d : Draft) (D : Json) : Prop :=
  i = 0 ∨ ∃ i' d' m, i' < i ∧ Stat h d' (.obj m) i' ∧ Gives1 w l d' m d D

theorem Origin.mono {w : World} {h h' l l' i d D} (x : Origin w h l i d D) (e : HExt h h') (hk : Keeps l l')
    (hl : l.log <+: l'.log) : Origin w h' l' i d D := by
  rcases x with x | ⟨i', d', m, h1, h2, h3⟩
  · exact .inl x
  · exact .inr ⟨i', d', m, h1, e _ _ _ h2, h3.mono hk hl⟩

/-- What holds of the state throughout a compilation. -/
structure PInv (w : World) (st : PState) : Prop where
  pool : PoolWF st.l
  docs : ∀ (i : Nat) (s : Sub), st.heap[i]? = some s → s.doc.WF
  refs : ∀ r j, getKey r st.refs = some j → ∃ d D, Stat st.heap d D j ∧ RefAs w st.heap st.l r d D
  orig : ∀ (i : Nat) (s : Sub), st.heap[i]? = some s → Origin w st.heap st.l i s.draft s.doc

/-- Documents of the kinds schemas have. -/
def SchemaKind (D : Json) : Prop := (∃ b, D = .bool b) ∨ ∃ m, D = .obj m

/-- `rec` accepts nothing but booleans and objects. -/
def Kinded (rec : PRec) : Prop :=
  ∀ p pid id0 doc d c st st', rec p pid id0 doc d c st = (.ok (), st') → SchemaKind doc

/-- A document was read under draft `d`, with success. -/
def Ran (w : World) (d : Draft) (D : Json) : Prop :=
  ∃ σ rec isRoot p pid id0 c st st', Kinded rec ∧ parseStep w σ rec isRoot p pid id0 D d c st = (.ok (), st')

/-- There are nodes for the definitions of a schema object. -/
def DefsIn (h : Heap) (d : Draft) (D : Json) : Prop :=
  ∀ m ps k D', D = .obj m → Kw m "definitions" (.obj ps) → (k, D') ∈ ps → ∃ c, Stat h d D' c

theorem DefsIn.mono {h h' d D} (x : DefsIn h d D) (e : HExt h h') : DefsIn h' d D := by
  intro m ps k D' h1 h2 h3
  obtain ⟨c, hc⟩ := x m ps k D' h1 h2 h3
  exact ⟨c, e _ _ _ hc⟩

theorem HExt.same {h h' : Heap} (e : HExt h h') {i : Nat} {s s' : Sub} (hs : h[i]? = some s) (hs' : h'[i]? = some s') :
    s'.draft = s.draft ∧ s'.doc = s.doc := by
  obtain ⟨s2, h1, h2, h3⟩ := e _ _ i ⟨s, hs, rfl, rfl⟩
  rw [hs'] at h1
  cases h1
  exact ⟨h2, h3⟩

/-- A stretch of a compilation which may write the nodes in `X`: these and the new ones are
finished at the end. -/
structure Step (w : World) (X : Id → Prop) (st st' : PState) : Prop where
  inv : PInv w st'
  later : Later True st.l st'.l
  len : st.heap.length ≤ st'.heap.length
  heap : HExt st.heap st'.heap
  refs : ∀ r j, getKey r st.refs = some j → getKey r st'.refs = some j
  same : ∀ (i : Nat) (s : Sub), st.heap[i]? = some s → ¬ X i → st'.heap[i]? = some s
  done : ∀ (i : Nat) (s : Sub), st'.heap[i]? = some s → X i ∨ st.heap.length ≤ i → NodeOK w st'.heap st'.refs s
  ran : ∀ (i : Nat) (s : Sub), st'.heap[i]? = some s → st.heap.length ≤ i →
    Ran w s.draft s.doc ∧ DefsIn st'.heap s.draft s.doc

/-- Nothing is written. -/
def Nil : Id → Prop := fun _ => False

theorem Stat.mono {h h' : Heap} {d D c} (x : Stat h d D c) (e : HExt h h') : Stat h' d D c := e _ _ _ x

theorem OptOK.mono {h h' d act m key o} (x : OptOK h d act m key o) (e : HExt h h') : OptOK h' d act m key o := by
  rcases x with x | ⟨a, D, c, h1, h2, h3⟩
  · exact .inl x
  · exact .inr ⟨a, D, c, h1, h2, h3.mono e⟩

theorem ListOK.mono {h h' d m key ids} (x : ListOK h d m key ids) (e : HExt h h') : ListOK h' d m key ids := by
  rcases x with x | ⟨Ds, h1, h2⟩
  · exact .inl x
  · exact .inr ⟨Ds, h1, h2.imp fun _ _ h => h.mono e⟩

theorem MapOK.mono {h h' d m key ps} (x : MapOK h d m key ps) (e : HExt h h') : MapOK h' d m key ps := by
  rcases x with x | ⟨Ds, l, h1, h2, h3⟩
  · exact .inl x
  · exact .inr ⟨Ds, l, h1, h2, h3.imp fun _ _ h => ⟨h.1, h.2.mono e⟩⟩

theorem DepOK.mono {h h' d kv o} (x : DepOK h d kv o) (e : HExt h h') : DepOK h' d kv o := by
  rcases x with x | ⟨h1, c, h2, h3⟩
  · exact .inl x
  · exact .inr ⟨h1, c, h2, h3.mono e⟩

theorem DepsOK.mono {h h' d m ds} (x : DepsOK h d m ds) (e : HExt h h') : DepsOK h' d m ds := by
  rcases x with x | ⟨Ds, l, es, h1, h2, h3, h4⟩
  · exact .inl x
  · exact .inr ⟨Ds, l, es, h1, h2, h3.imp fun _ _ h => h.mono e, h4⟩

theorem ExtraOK.mono {h h' d m key o} (x : ExtraOK h d m key o) (e : HExt h h') : ExtraOK h' d m key o := by
  rcases x with x | x | ⟨A, c, h1, h2, h3⟩
  · exact .inl x
  · exact .inr (.inl x)
  · exact .inr (.inr ⟨A, c, h1, h2, h3.mono e⟩)

theorem ItemsOK.mono {h h' d m is b} (x : ItemsOK h d m is b) (e : HExt h h') : ItemsOK h' d m is b := by
  rcases x with x | ⟨Ds, h1, h2, h3⟩ | ⟨D, c, h1, h2, h3, h4, h5⟩
  · exact .inl x
  · exact .inr (.inl ⟨Ds, h1, h2.imp fun _ _ h => h.mono e, h3⟩)
  · exact .inr (.inr ⟨D, c, h1, h2, h3, h4.mono e, h5⟩)

theorem FieldsOK.mono {w : World} {h h' d m s} (x : FieldsOK w h d m s) (e : HExt h h') : FieldsOK w h' d m s :=
  { x with
    props := x.props.mono e, addProps := x.addProps.mono e, patProps := x.patProps.mono e
    propNames := x.propNames.mono e, deps := x.deps.mono e, items := x.items.mono e
    addItems := x.addItems.mono e, contains := x.contains.mono e, oneOf := x.oneOf.mono e
    anyOf := x.anyOf.mono e, allOf := x.allOf.mono e, not := x.not.mono e, if_ := x.if_.mono e
    then_ := x.then_.mono e, else_ := x.else_.mono e }

theorem NodeOK.mono {w : World} {h h' refs refs' s} (x : NodeOK w h refs s) (e : HExt h h')
    (r : ∀ r j, getKey r refs = some j → getKey r refs' = some j) : NodeOK w h' refs' s := by
  cases x with
  | bool b h1 h2 => exact .bool b h1 h2
  | ref m k u j h1 h2 h3 h4 h5 h6 h7 =>
    exact .ref m k u j h1 h2 h3 (r _ _ h4) h5 h6 (h7.imp (fun x => x.mono e) id)
  | plain m h1 h2 h3 h4 h5 => exact .plain m h1 h2 h3 h4 (h5.mono e)

theorem Step.refl {w : World} {st} (h : PInv w st) : Step w Nil st st where
  inv := h
  later := .refl fun _ => h.pool
  len := Nat.le_refl _
  heap := .refl _
  refs := fun _ _ x => x
  same := fun _ _ x _ => x
  done := by
    rintro i s hi (hx | hx)
    · exact hx.elim
    · have := (List.getElem?_eq_some_iff.1 hi).1; omega
  ran := by
    intro i s hi hx
    have := (List.getElem?_eq_some_iff.1 hi).1; omega

theorem Step.trans {w : World} {X a b c} (h1 : Step w Nil a b) (h2 : Step w X b c) : Step w X a c where
  inv := h2.inv
  later := h1.later.trans h2.later
  len := Nat.le_trans h1.len h2.len
  heap := h1.heap.trans h2.heap
  refs := fun _ _ x => h2.refs _ _ (h1.refs _ _ x)
  same := fun i s hi hX => h2.same i s (h1.same i s hi id) hX
  done := by
    rintro i s hi hor
    by_cases hX : X i
    · exact h2.done i s hi (.inl hX)
    · by_cases hb : b.heap.length ≤ i
      · exact h2.done i s hi (.inr hb)
      · have hlt : i < b.heap.length := by omega
        have e1 : b.heap[i]? = some b.heap[i] := by simp [hlt]
        have e2 := h2.same i _ e1 hX
        rw [hi] at e2
        have e3 : s = b.heap[i] := by simpa using e2
        have := h1.done i _ e1 (.inr (hor.resolve_left hX))
        rw [e3]
        exact this.mono h2.heap h2.refs
  ran := by
    intro i s hi hx
    by_cases hb : b.heap.length ≤ i
    · exact h2.ran i s hi hb
    · have hlt : i < b.heap.length := by omega
      have e1 : b.heap[i]? = some b.heap[i] := by simp [hlt]
      obtain ⟨e2, e3⟩ := h2.heap.same e1 hi
      obtain ⟨r1, r2⟩ := h1.ran i _ e1 hx
      rw [e2, e3]
      exact ⟨r1, r2.mono h2.heap⟩

/-- The invariant, and the schema object `m` is being read under draft `d`. -/
structure At (w : World) (d : Draft) (m : List (String × Json)) (st : PState) : Prop where
  inv : PInv w st
  here : ∃ c, Stat st.heap d (.obj m) c

theorem At.step {w : World} {d m X st st'} (h : At w d m st) (t : Step w X st st') : At w d m st' := by
  obtain ⟨c, hc⟩ := h.here
  exact ⟨t.inv, c, hc.mono t.heap⟩

/-- `x` respects the invariant and its results satisfy `Q`. -/
def PTr (w : World) (d : Draft) (m : List (String × Json)) (x : M PState α) (Q : Heap → α → Prop) : Prop :=
  ∀ st a st', At w d m st → x st = (.ok a, st') → Step w Nil st st' ∧ Q st'.heap a

namespace PTr
variable {w : World} {d : Draft} {m : List (String × Json)}

theorem pure {a : α} {Q : Heap → α → Prop} (h : ∀ h, Q h a) : PTr w d m (Pure.pure a : M PState α) Q := by
  intro st b st' hi hx
  rw [M.pure_ok] at hx
  obtain ⟨rfl, rfl⟩ := hx
  exact ⟨.refl hi.inv, h _⟩

theorem fail {e} {Q : Heap → α → Prop} : PTr w d m (M.fail e : M PState α) Q := by
  intro st b st' hi hx; simp at hx
theorem err {e} {Q : Heap → α → Prop} : PTr w d m (M.err e : M PState α) Q := by
  intro st b st' hi hx; simp at hx

theorem map {x : M PState α} {g : α → β} {Q : Heap → α → Prop} {R : Heap → β → Prop} (hx : PTr w d m x Q)
    (h : ∀ h a, Q h a → R h (g a)) : PTr w d m (x >>= fun a => Pure.pure (g a)) R := by
  intro st b st' hi hb
  simp only [M.bind_ok, M.pure_ok] at hb
  obtain ⟨a, s1, h1, rfl, rfl⟩ := hb
  obtain ⟨t, q⟩ := hx st a s1 hi h1
  exact ⟨t, h _ _ q⟩

/-- After a computation that leaves the state alone. -/
theorem still {x : M PState α} {f : α → M PState β} {Q : α → Prop} {R : Heap → β → Prop} (hs : Still x)
    (hq : ∀ st a st', x st = (.ok a, st') → Q a) (hf : ∀ a, Q a → PTr w d m (f a) R) : PTr w d m (x >>= f) R := by
  intro st b st' hi hb
  simp only [M.bind_ok] at hb
  obtain ⟨a, s1, h1, h2⟩ := hb
  have e := hs.ok h1
  subst e
  exact hf a (hq _ _ _ h1) _ _ _ hi h2

theorem mapL {f : Nat → α → M PState β} {Q : Heap → α → β → Prop}
    (hQ : ∀ h h' x y, Q h x y → HExt h h' → Q h' x y) : ∀ {xs : List α} {k : Nat},
    (∀ k x, x ∈ xs → PTr w d m (f k x) (fun h y => Q h x y)) →
    PTr w d m (GJS.mapL f k xs) (fun h ys => List.Forall₂ (Q h) xs ys) := by
  intro xs
  induction xs with
  | nil => intro k _; exact pure fun _ => .nil
  | cons x xs ih =>
    intro k hf st b st' hi hb
    simp only [GJS.mapL, M.bind_ok, M.pure_ok] at hb
    obtain ⟨y, s1, h1, ys, s2, h2, rfl, rfl⟩ := hb
    obtain ⟨t1, q1⟩ := hf k x (by simp) st y s1 hi h1
    obtain ⟨t2, q2⟩ := ih (fun k x hx => hf k x (by simp [hx])) s1 ys s2 (hi.step t1) h2
    exact ⟨t1.trans t2, .cons (hQ _ _ _ _ q1 t2.heap) q2⟩

theorem mono {x : M PState α} {Q R : Heap → α → Prop} (h : PTr w d m x Q) (hr : ∀ h a, Q h a → R h a) : PTr w d m x R :=
  fun st a st' hi hx => ⟨(h st a st' hi hx).1, hr _ _ (h st a st' hi hx).2⟩

end PTr

/-! ### Leaves -/

theorem PTr.isKind {w : World} {d : Draft} {m : List (String × Json)} {env v ks} {f : Bool → M PState β} {R : Heap → β → Prop}
    (hf : PTr w d m (f (kindIn v ks)) R) : PTr w d m (GJS.isKind env v ks >>= f) R :=
  .still (Q := fun b => b = kindIn v ks) isKind_still (fun _ _ _ h => isKind_ok h) fun b hb => by rw [hb]; exact hf

/-- What is assumed of the recursive call. -/
def RecOK (w : World) (rec : PRec) : Prop :=
  ∀ p pid id0 doc d c st st', PInv w st → Stat st.heap d doc c →
    rec p pid id0 doc d c st = (.ok (), st') → Step w (· = c) st st' ∧ Ran w d doc ∧ DefsIn st'.heap d doc

theorem stat_append {h : Heap} {x : Sub} {d D c} (s : Stat h d D c) : Stat (h ++ [x]) d D c := by
  obtain ⟨s, h1, h2, h3⟩ := s
  exact ⟨s, by rw [List.getElem?_append_left (List.getElem?_eq_some_iff.1 h1).1]; exact h1, h2, h3⟩

theorem stat_new {h : Heap} {d D} : Stat (h ++ [{ doc := D, draft := d }]) d D h.length :=
  ⟨{ doc := D, draft := d }, by simp, rfl, rfl⟩

theorem alloc_inv {w : World} {st : PState} {D d} (hi : PInv w st) (hD : D.WF)
    (ho : st.heap = [] ∨ ∃ c d' m, Stat st.heap d' (.obj m) c ∧ Gives1 w st.l d' m d D) :
    PInv w { st with heap := st.heap ++ [{ doc := D, draft := d }] } where
  pool := hi.pool
  docs := by
    intro i s hs
    by_cases h : i < st.heap.length
    · simp only [List.getElem?_append_left h] at hs
      exact hi.docs i s hs
    · simp only [List.getElem?_append_right (by omega : st.heap.length ≤ i)] at hs
      have := List.mem_of_getElem? hs
      simp at this
      rw [this]
      exact hD
  refs := by
    intro r j hr
    obtain ⟨d', D', h1, h2⟩ := hi.refs r j hr
    exact ⟨d', D', stat_append h1, h2.mono (fun _ _ _ x => stat_append x) (.refl _) (List.prefix_refl _)⟩
  orig := by
    intro i s hs
    have e : HExt st.heap (st.heap ++ [{ doc := D, draft := d }]) := fun _ _ _ x => stat_append x
    by_cases h : i < st.heap.length
    · simp only [List.getElem?_append_left h] at hs
      exact (hi.orig i s hs).mono e (.refl _) (List.prefix_refl _)
    · have hlt := (List.getElem?_eq_some_iff.1 hs).1
      simp only [List.getElem?_append_right (by omega : st.heap.length ≤ i)] at hs
      have := List.mem_of_getElem? hs
      simp only [List.mem_singleton] at this
      subst this
      simp only [List.length_append, List.length_singleton] at hlt
      rcases ho with ho | ⟨c, d', m, h1, h2⟩
      · left; rw [ho] at hlt; simp at hlt; exact hlt
      · exact .inr ⟨c, d', m, Nat.lt_of_lt_of_le h1.lt (Nat.le_of_not_lt h), e _ _ _ h1, h2⟩

/-- A node is allocated and then finished. -/
theorem Step.alloc {w : World} {st st2 : PState} {D d refs' l'}
    (hr : ∀ r j, getKey r st.refs = some j → getKey r refs' = some j) (hl : Later True st.l l')
    (h : Step w (· = st.heap.length) ⟨st.heap ++ [{ doc := D, draft := d }], refs', l'⟩ st2 ∧ Ran w d D ∧
      DefsIn st2.heap d D) :
    Step w Nil st st2 ∧ Stat st2.heap d D st.heap.length := by
  obtain ⟨h, hran⟩ := h
  have e1 : HExt st.heap (st.heap ++ [{ doc := D, draft := d }]) := fun _ _ _ x => stat_append x
  refine ⟨⟨h.inv, hl.trans h.later, ?_, e1.trans h.heap, fun r j x => h.refs r j (hr r j x), ?_, ?_, ?_⟩, h.heap _ _ _ stat_new⟩
  · have := h.len; simp at this; omega
  · intro i s hs _
    have hlt := (List.getElem?_eq_some_iff.1 hs).1
    refine h.same i s ?_ (Nat.ne_of_lt hlt)
    rw [← hs]; exact List.getElem?_append_left hlt
  · rintro i s hs (hx | hx)
    · exact hx.elim
    · refine h.done i s hs ?_
      by_cases hh : i = st.heap.length
      · exact .inl hh
      · right; simp; omega
  · intro i s hs hx
    by_cases hh : i = st.heap.length
    · subst hh
      obtain ⟨e2, e3⟩ := h.heap.same (i := st.heap.length) (s := { doc := D, draft := d }) (by simp) hs
      rw [e2, e3]; exact hran
    · exact h.ran i s hs (by simp; omega)

theorem child_ok {w : World} {rec p id d m D} (hrec : RecOK w rec) (hD : D.WF)
    (hs : SubSchema d m D ∨ ∃ ps k, Kw m "definitions" (.obj ps) ∧ (k, D) ∈ ps) :
    PTr w d m (child rec p id d D) (fun h c => Stat h d D c) := by
  intro st c st' hi h
  simp only [child, M.bind_ok, M.pure_ok] at h
  obtain ⟨c0, s1, h1, _, s2, h2, rfl, rfl⟩ := h
  simp only [alloc, Prod.mk.injEq, Except.ok.injEq] at h1
  obtain ⟨rfl, rfl⟩ := h1
  obtain ⟨c, hc⟩ := hi.here
  refine Step.alloc (fun _ _ x => x) (.refl fun _ => hi.inv.pool)
    (hrec _ _ _ _ _ _ _ _ (alloc_inv hi.inv hD (.inr ⟨c, d, m, hc, ?_⟩)) stat_new h2)
  rcases hs with h | ⟨ps, k, h, h'⟩
  · exact .sub _ h
  · exact .definition ps k _ h h'

/-! ### Keywords -/

section
variable {w : World} {σ : Sched} {rec : PRec} {p : Path} {id : String} {d : Draft} {m : List (String × Json)}

theorem kind_bool {v : Json} (h : kindIn v [.bool] = true) : ∃ b, v = .bool b := by
  cases v <;> first | exact ⟨_, rfl⟩ | (revert h; simp [kindIn, rawKind])
theorem kind_string {v : Json} (h : kindIn v [.string] = true) : ∃ b, v = .str b := by
  cases v <;> first | exact ⟨_, rfl⟩ | (revert h; simp [kindIn, rawKind])
theorem kind_slice {v : Json} (h : kindIn v [.slice] = true) : ∃ b, v = .arr b := by
  cases v <;> first | exact ⟨_, rfl⟩ | (revert h; simp [kindIn, rawKind])
theorem kind_not_slice {v : Json} (h : ¬ kindIn v [.slice] = true) : ∀ xs, v ≠ .arr xs := by
  rintro xs rfl; exact h (by simp [kindIn, rawKind])
theorem kind_map {v : Json} (h : kindIn v [.map] = true) : ∃ b, v = .obj b := by
  cases v <;> first | exact ⟨_, rfl⟩ | (revert h; simp [kindIn, rawKind])

theorem wf_get (hm : (Json.obj m).WF) {k v} (h : getKey k m = some v) : v.WF := by
  cases hm with
  | obj _ _ h2 => exact h2 (k, v) (lookup_some_mem h)

theorem wf_arr {xs : List Json} (h : (Json.arr xs).WF) : ∀ x ∈ xs, x.WF := by
  cases h with
  | arr _ h => exact h

theorem wf_obj {xs : List (String × Json)} (h : (Json.obj xs).WF) : ∀ kv ∈ xs, kv.2.WF := by
  cases h with
  | obj _ _ h => exact h

theorem kwId_ok {r pid id0} : PTr w d m (kwId w r pid id0 d m) (fun _ _ => True) := by
  unfold kwId
  split
  · exact .pure fun _ => trivial
  · refine .isKind ?_
    split
    · exact .err
    · split
      · split
        · exact .err
        · split
          · exact .pure fun _ => trivial
          · split
            · exact .err
            · exact .pure fun _ => trivial
      · exact .pure fun _ => trivial

theorem kwDefinitions_ok (hrec : RecOK w rec) (hm : (Json.obj m).WF) :
    PTr w d m (kwDefinitions w σ rec p id d m) (fun h _ => DefsIn h d (.obj m)) := by
  unfold kwDefinitions
  split
  · rename_i hv
    refine .pure fun _ => ?_
    intro m' ps k D' he hk
    cases he
    simp [Kw, hv] at hk
  · rename_i v hv
    refine .isKind ?_
    split
    · split
      · rename_i kvs
        refine (PTr.mapL (Q := fun h (kv : String × Json) _ => ∃ c, Stat h d kv.2 c)
          (fun _ _ _ _ ⟨c, q⟩ e => ⟨c, q.mono e⟩) fun k x hx => ?_).map fun h ys hf => ?_
        on_goal 2 =>
          intro m' ps k D' he hk hps
          cases he
          have hk' : getKey "definitions" m = some (.obj ps) := hk
          rw [hv] at hk'
          cases hk'
          obtain ⟨y, _, hy⟩ := forall₂_mem_left hf ((σ.perm _ _).mem_iff.2 hps)
          exact hy
        unfold kwDefinition
        refine .isKind ?_
        split
        · exact (child_ok hrec (wf_obj (wf_get hm hv) _ ((σ.perm _ _).mem_iff.1 hx)) (.inr ⟨_, x.1, hv, ((σ.perm _ _).mem_iff.1 hx)⟩)).map fun _ c hc => ⟨c, hc⟩
        · exact .err
      · exact .fail
    · exact .err

theorem kwText_ok {k} : PTr w d m (kwText w k m) (fun _ _ => True) := by
  unfold kwText
  split
  · exact .pure fun _ => trivial
  · refine .isKind ?_
    split
    · exact .err
    · exact .pure fun _ => trivial

theorem kwRefText_ok : PTr w d m (kwRefText w m) (fun _ o =>
    match o with
    | none => getKey "$ref" m = none
    | some u => ∃ r, getKey "$ref" m = some (.str r) ∧ w.norm r = some u) := by
  unfold kwRefText
  split
  · rename_i h; exact .pure fun _ => h
  · rename_i v hv
    refine .isKind ?_
    split
    · exact .err
    · rename_i hk
      simp only [Bool.not_eq_true', Bool.not_eq_false] at hk
      obtain ⟨t, rfl⟩ := kind_string hk
      simp only
      split
      · exact .err
      · rename_i r hr; exact .pure fun _ => ⟨t, hv, hr⟩

theorem addType_set {ts t} {s : σ'} {ts' s'} (h : (addType ts t : M σ' _) s = (.ok ts', s')) :
    ts' = ts ++ [t] ∧ (TypeSet ts → TypeSet ts') := by
  simp only [addType] at h
  split at h
  · simp at h
  · split at h
    · simp at h
    · rename_i h1 h2
      rw [M.pure_ok] at h
      obtain ⟨rfl, -⟩ := h
      refine ⟨rfl, fun hs => ⟨?_, ?_⟩⟩
      · rw [List.nodup_append]
        refine ⟨hs.1, by simp, ?_⟩
        simp only [List.mem_singleton]
        rintro a ha b rfl rfl
        exact h2 (by simpa using ha)
      · intro a ha
        rcases List.mem_append.1 ha with ha | ha
        · exact hs.2 a ha
        · rw [List.mem_singleton.1 ha]; simpa using h1

theorem addType_ok {ts t} : PTr w d m (addType ts t) (fun _ ts' => ts' = ts ++ [t] ∧ (TypeSet ts → TypeSet ts')) := by
  unfold addType
  split
  · exact .err
  · split
    · exact .err
    · rename_i h1 h2
      refine .pure fun _ => addType_set (s := ()) (s' := ()) ?_
      rw [addType, if_neg h1, if_neg h2]
      rfl

theorem addType_still {ts t} : Still (addType ts t : M σ' _) := by
  unfold addType
  split
  · exact .err
  · split
    · exact .err
    · exact .pure

theorem typeLoop_ok : ∀ {vs ts}, PTr w d m (typeLoop ts vs) (fun _ ts' => (∃ us, ts' = ts ++ us ∧ vs = us.map .str) ∧
    (TypeSet ts → TypeSet ts')) := by
  intro vs
  induction vs with
  | nil => intro ts; exact .pure fun _ => ⟨⟨[], by simp⟩, id⟩
  | cons v vs ih =>
    intro ts
    unfold typeLoop
    split
    · exact .err
    · split
      · rename_i t _
        refine .still (Q := fun ts' => ts' = ts ++ [t] ∧ (TypeSet ts → TypeSet ts')) addType_still ?_ fun ts' h => ?_
        · intro st a st' h
          exact addType_set h
        · obtain ⟨rfl, h2⟩ := h
          refine ih.mono ?_
          rintro _ ts' ⟨⟨us, rfl, rfl⟩, h3⟩
          exact ⟨⟨t :: us, by simp, by simp⟩, fun h => h3 (h2 h)⟩
      · exact .fail

theorem typeSet_nil : TypeSet [] := ⟨List.nodup_nil, fun _ h => absurd h List.not_mem_nil⟩

theorem kwType_ok : PTr w d m (kwType w m) (fun _ ts => TypesOK m ts ∧ TypeSet ts) := by
  unfold kwType
  split
  · rename_i h; exact .pure fun _ => ⟨.inl ⟨h, rfl⟩, typeSet_nil⟩
  · rename_i v hv
    refine .isKind ?_
    split
    · rename_i hk
      obtain ⟨t, rfl⟩ := kind_string hk
      exact addType_ok.mono fun _ ts h => ⟨.inr (.inl ⟨t, hv, by simpa using h.1⟩), h.2 typeSet_nil⟩
    · refine .isKind ?_
      split
      · rename_i hk
        obtain ⟨t, rfl⟩ := kind_slice hk
        refine typeLoop_ok.mono ?_
        rintro _ ts ⟨⟨us, h, rfl⟩, h2⟩
        simp at h
        subst h
        exact ⟨.inr (.inr hv), h2 typeSet_nil⟩
      · exact .err

theorem kwProperties_ok (hrec : RecOK w rec) (hm : (Json.obj m).WF) :
    PTr w d m (kwProperties w σ rec p id d m) (fun h ps => MapOK h d m "properties" ps) := by
  unfold kwProperties
  split
  · rename_i h; exact .pure fun _ => .inl ⟨h, rfl⟩
  · rename_i v hv
    refine .isKind ?_
    split
    · exact .err
    · split
      · rename_i kvs _
        refine PTr.mono (PTr.mapL (Q := fun h (kv : String × Json) (kc : String × Id) => kc.1 = kv.1 ∧ Stat h d kv.2 kc.2)
          (fun _ _ _ _ q e => ⟨q.1, q.2.mono e⟩) fun k x hx => ?_) fun h ps q => .inr ⟨kvs, _, hv, σ.perm _ _, q⟩
        exact (child_ok hrec (wf_obj (wf_get hm hv) _ ((σ.perm _ _).mem_iff.1 hx)) (.inl (.property _ x.1 _ hv ((σ.perm _ _).mem_iff.1 hx)))).map fun h c q => ⟨rfl, q⟩
      · exact .fail

theorem kwExtra_ok {key} (hrec : RecOK w rec) (hm : (Json.obj m).WF)
    (hsub : ∀ A, Kw m key (.obj A) → SubSchema d m (.obj A)) :
    PTr w d m (kwExtra w rec p id d key m) (fun h e => ExtraOK h d m key e) := by
  unfold kwExtra
  split
  · rename_i h; exact .pure fun _ => .inl ⟨h, rfl⟩
  · rename_i v hv
    refine .isKind ?_
    split
    · split
      · exact .pure fun _ => .inr (.inl ⟨_, hv, rfl⟩)
      · exact .fail
    · refine .isKind ?_
      split
      · rename_i hk
        obtain ⟨A, rfl⟩ := kind_map hk
        exact (child_ok hrec (wf_get hm hv) (.inl (hsub A hv))).map fun h c q => .inr (.inr ⟨A, c, hv, rfl, q⟩)
      · exact .err

theorem kwPatternProperties_ok (hrec : RecOK w rec) (hm : (Json.obj m).WF) :
    PTr w d m (kwPatternProperties w σ rec p id d m) (fun h ps => MapOK h d m "patternProperties" ps) := by
  unfold kwPatternProperties
  split
  · rename_i h; exact .pure fun _ => .inl ⟨h, rfl⟩
  · rename_i v hv
    refine .isKind ?_
    split
    · split
      · rename_i kvs _
        refine PTr.mono (PTr.mapL (Q := fun h (kv : String × Json) (kc : String × Id) => kc.1 = kv.1 ∧ Stat h d kv.2 kc.2)
          (fun _ _ _ _ q e => ⟨q.1, q.2.mono e⟩) fun k x hx => ?_) fun h ps q => .inr ⟨kvs, _, hv, σ.perm _ _, q⟩
        unfold kwPattern1
        split
        · exact .err
        · exact (child_ok hrec (wf_obj (wf_get hm hv) _ ((σ.perm _ _).mem_iff.1 hx)) (.inl (.pattern _ x.1 _ hv ((σ.perm _ _).mem_iff.1 hx)))).map fun h c q => ⟨rfl, q⟩
      · exact .fail
    · exact .err

theorem kwSchema_ok {act : Bool} {A : Prop} {key e} (hA : act = true ↔ A) (hrec : RecOK w rec) (hm : (Json.obj m).WF)
    (hsub : ∀ v, A → Kw m key v → SubSchema d m v) :
    PTr w d m (kwSchema w rec p id d act key e m) (fun h o => OptOK h d A m key o) := by
  unfold kwSchema
  split
  · rename_i h; exact .pure fun _ => .inl ⟨rfl, fun _ => h⟩
  · rename_i v hv
    split
    · rename_i ha
      refine .isKind ?_
      split
      · exact (child_ok hrec (wf_get hm hv) (.inl (hsub v (hA.1 ha) hv))).map fun h c q => .inr ⟨hA.1 ha, v, c, hv, rfl, q⟩
      · exact .err
    · rename_i ha; exact .pure fun _ => .inl ⟨rfl, fun h => absurd (hA.2 h) ha⟩

theorem depKeys_ok : ∀ {vs}, PTr w d m (depKeys w vs) (fun _ ks => vs = ks.map .str) := by
  intro vs
  induction vs with
  | nil => exact .pure fun _ => rfl
  | cons v vs ih =>
    unfold depKeys
    refine .isKind ?_
    split
    · exact .err
    · split
      · exact ih.map fun _ ks h => by rw [h]; rfl
      · exact .fail

theorem kwDependency_ok {kv} (hrec : RecOK w rec) (hD : kv.2.WF)
    (hsub : (∀ qs, kv.2 ≠ .arr qs) → SubSchema d m kv.2) :
    PTr w d m (kwDependency w rec p id d kv) (fun h e => DepOK h d kv e) := by
  unfold kwDependency
  obtain ⟨k, D⟩ := kv
  simp only
  split
  · exact depKeys_ok.map fun _ ks h => .inl ⟨ks, by simp [h], rfl⟩
  · exact .err
  · exact .err
  · exact .err
  · rename_i hx _ _ _
    exact (child_ok hrec hD (.inl (hsub fun xs e => hx xs e))).map fun h c q => .inr ⟨fun xs e => hx xs e, c, rfl, q⟩

theorem kwDependencies_ok (hrec : RecOK w rec) (hm : (Json.obj m).WF) :
    PTr w d m (kwDependencies w σ rec p id d m) (fun h ds => DepsOK h d m ds) := by
  unfold kwDependencies
  split
  · rename_i h; exact .pure fun _ => .inl ⟨h, rfl⟩
  · rename_i v hv
    refine .isKind ?_
    split
    · exact .err
    · split
      · rename_i kvs _
        refine (PTr.mapL (Q := fun h kv e => DepOK h d kv e) (fun _ _ _ _ q e => q.mono e) fun k x hx => ?_).map
          fun h es q => .inr ⟨kvs, _, es, hv, σ.perm _ _, q, rfl⟩
        exact kwDependency_ok hrec (wf_obj (wf_get hm hv) _ ((σ.perm _ _).mem_iff.1 hx))
          fun hq => .dependency _ x.1 _ hv ((σ.perm _ _).mem_iff.1 hx) hq
      · exact .fail

theorem kwItems_ok (hrec : RecOK w rec) (hm : (Json.obj m).WF) :
    PTr w d m (kwItems w rec p id d m) (fun h x => ItemsOK h d m x.1 x.2) := by
  unfold kwItems
  split
  · rename_i h; exact .pure fun _ => .inl ⟨h, rfl, rfl⟩
  · rename_i v hv
    refine .isKind ?_
    split
    · split
      · rename_i vs _
        refine (PTr.mapL (Q := fun h D c => Stat h d D c) (fun _ _ _ _ q e => q.mono e) fun k x hx => ?_).map
          fun h cs q => .inr (.inl ⟨vs, hv, q, rfl⟩)
        unfold kwItem
        refine .isKind ?_
        split
        · exact child_ok hrec (wf_arr (wf_get hm hv) _ hx) (.inl (.item _ _ hv hx))
        · exact .err
      · exact .fail
    · rename_i hns
      refine .isKind ?_
      split
      · exact (child_ok hrec (wf_get hm hv) (.inl (.items _ hv (kind_not_slice hns)))).map
          fun h c q => .inr (.inr ⟨v, c, hv, kind_not_slice hns, rfl, q, rfl⟩)
      · exact .err

theorem mustBeNumber_some {v : Json} {q} (h : mustBeNumber w.env v = some q) :
    ∃ n, v = .num n ∧ q = n.val ∧ w.env.ratOk n = true := by
  unfold mustBeNumber at h
  split at h
  · rename_i n
    unfold Env.rat at h
    split at h
    · rename_i hr; exact ⟨n, rfl, by simpa using h.symm, hr⟩
    · cases h
  · cases h

theorem kwMultipleOf_ok : PTr w d m (kwMultipleOf w m) (fun _ o =>
    NumOK w m "multipleOf" o ∧ ∀ q, o = some q → 0 < q) := by
  unfold kwMultipleOf
  split
  · rename_i h; exact .pure fun _ => ⟨.inl ⟨h, rfl⟩, by simp⟩
  · rename_i v hv
    split
    · exact .err
    · rename_i q hq
      split
      · exact .err
      · rename_i hpos
        obtain ⟨n, rfl, rfl, hr⟩ := mustBeNumber_some hq
        refine .pure fun _ => ⟨.inr ⟨n, hv, rfl, hr⟩, ?_⟩
        rintro q h
        cases h
        exact Rat.not_le.1 hpos

theorem kwBound_ok {key} : PTr w d m (kwBound w key m) (fun _ o => NumOK w m key o) := by
  unfold kwBound
  split
  · rename_i h; exact .pure fun _ => .inl ⟨h, rfl⟩
  · rename_i v hv
    split
    · exact .err
    · rename_i q hq
      obtain ⟨n, rfl, rfl, hr⟩ := mustBeNumber_some hq
      exact .pure fun _ => .inr ⟨n, hv, rfl, hr⟩

theorem exclusiveBool_ok {xkey key x b} (hb : NumOK w m key b) (hx : getKey xkey m = some (.bool x)) :
    PTr w d m (exclusiveBool xkey key x b) (fun _ y => BoundsOK w m xkey key y.1 y.2) := by
  unfold exclusiveBool
  split
  · exact .err
  · split
    · rename_i q h; exact .pure fun _ => ⟨_, hb, .inr (.inl ⟨q, rfl, by rw [hx, h], rfl, rfl⟩)⟩
    · rename_i q h
      exact .pure fun _ => ⟨_, hb, .inr (.inr (.inl ⟨q, rfl, by rw [hx]; simpa using h, rfl, rfl⟩))⟩

theorem kwExclusive_ok {xkey key b} (hb : NumOK w m key b) :
    PTr w d m (kwExclusive w d xkey key b m) (fun _ y => BoundsOK w m xkey key y.1 y.2) := by
  unfold kwExclusive
  split
  · rename_i h; exact .pure fun _ => ⟨b, hb, .inl ⟨h, rfl, rfl⟩⟩
  · rename_i v hv
    split
    · refine .isKind ?_
      split
      · exact .err
      · split
        · exact exclusiveBool_ok hb hv
        · exact .fail
    · split
      · refine .isKind ?_
        split
        · exact exclusiveBool_ok hb hv
        · exact .pure fun _ => ⟨b, hb, .inr (.inr (.inr ⟨_, hv, rfl, rfl⟩))⟩
        · exact .err
      · split
        · exact .pure fun _ => ⟨b, hb, .inr (.inr (.inr ⟨_, hv, rfl, rfl⟩))⟩
        · exact .err

theorem kwSize_ok {key} : PTr w d m (kwSize w key m) (fun _ o => SizeOK m key o) := by
  unfold kwSize
  split
  · rename_i h; exact .pure fun _ => .inl ⟨h, rfl⟩
  · rename_i v hv
    split
    · exact .err
    · rename_i z hz
      split
      · exact .err
      · unfold mustBeInteger at hz
        split at hz
        · rename_i n
          split at hz
          · exact .pure fun _ => .inr ⟨n, z, hv, rfl, hz⟩
          · cases hz
        · cases hz

theorem checkOrder_ok {a b e} : PTr w d m (checkOrder a b e) (fun _ _ => True) := by
  unfold checkOrder
  split
  · split
    · exact .err
    · exact .pure fun _ => trivial
  · exact .pure fun _ => trivial

theorem kwPattern_ok : PTr w d m (kwPattern w m) (fun _ o => (getKey "pattern" m = none ∧ o = none) ∨
    ∃ t, getKey "pattern" m = some (.str t) ∧ o = some t) := by
  unfold kwPattern
  split
  · rename_i h; exact .pure fun _ => .inl ⟨h, rfl⟩
  · rename_i v hv
    refine .isKind ?_
    split
    · split
      · split
        · exact .pure fun _ => .inr ⟨_, hv, rfl⟩
        · exact .err
      · exact .fail
    · exact .err

theorem kwFormat_ok : PTr w d m (kwFormat m) (fun _ t => (getKey "format" m = none ∧ t = "") ∨
    getKey "format" m = some (.str t)) := by
  unfold kwFormat
  split
  · rename_i h; exact .pure fun _ => .inl ⟨h, rfl⟩
  · rename_i v hv
    split
    · exact .pure fun _ => .inr hv
    · exact .err

theorem requiredLoop_ok : ∀ {vs qs}, PTr w d m (requiredLoop w qs vs) (fun _ qs' => ∃ us, qs' = qs ++ us ∧ vs = us.map .str) := by
  intro vs
  induction vs with
  | nil => intro qs; exact .pure fun _ => ⟨[], by simp⟩
  | cons v vs ih =>
    intro qs
    unfold requiredLoop
    refine .isKind ?_
    split
    · split
      · rename_i t _
        split
        · exact .err
        · refine ih.mono ?_
          rintro _ ts' ⟨us, rfl, rfl⟩
          exact ⟨t :: us, by simp, by simp⟩
      · exact .fail
    · exact .err

theorem kwRequired_ok : PTr w d m (kwRequired w m) (fun _ qs => StrsOK m "required" qs) := by
  unfold kwRequired
  split
  · rename_i h; exact .pure fun _ => .inl ⟨h, rfl⟩
  · rename_i v hv
    refine .isKind ?_
    split
    · split
      · refine requiredLoop_ok.mono ?_
        rintro _ ts ⟨us, h, rfl⟩
        simp at h
        subst h
        exact .inr hv
      · exact .fail
    · exact .err

theorem kwUnique_ok : PTr w d m (kwUnique w m) (fun _ b => (getKey "uniqueItems" m = none ∧ b = false) ∨
    getKey "uniqueItems" m = some (.bool b)) := by
  unfold kwUnique
  split
  · rename_i h; exact .pure fun _ => .inl ⟨h, rfl⟩
  · rename_i v hv
    refine .isKind ?_
    split
    · split
      · exact .pure fun _ => .inr hv
      · exact .fail
    · exact .err

theorem kwContains_ok (hrec : RecOK w rec) (hm : (Json.obj m).WF) :
    PTr w d m (kwContains rec p id d m) (fun h o => OptOK h d (Draft6 ≤ d) m "contains" o) := by
  unfold kwContains
  split
  · rename_i h; exact .pure fun _ => .inl ⟨rfl, fun _ => h⟩
  · rename_i v hv
    split
    · rename_i ha
      exact (child_ok hrec (wf_get hm hv) (.inl (.contains _ ha hv))).map fun h c q => .inr ⟨ha, v, c, hv, rfl, q⟩
    · rename_i ha; exact .pure fun _ => .inl ⟨rfl, fun h => absurd h ha⟩

theorem kwConst_ok : PTr w d m (kwConst w d m) (fun _ o => (o = none ∧ (Draft6 ≤ d → getKey "const" m = none)) ∨
    (Draft6 ≤ d ∧ ∃ c t, getKey "const" m = some c ∧ w.env.marshal c = some t ∧ o = some t)) := by
  unfold kwConst
  split
  · rename_i h; exact .pure fun _ => .inl ⟨rfl, fun _ => h⟩
  · rename_i v hv
    split
    · rename_i ha
      split
      · exact .err
      · rename_i t ht; exact .pure fun _ => .inr ⟨ha, v, t, hv, ht, rfl⟩
    · rename_i ha; exact .pure fun _ => .inl ⟨rfl, fun h => absurd h ha⟩

theorem enumLoop_ok : ∀ {vs es}, PTr w d m (enumLoop w es vs) (fun _ es' => ∃ us, es' = es ++ us ∧
    List.Forall₂ (fun c t => w.env.marshal c = some t) vs us) := by
  intro vs
  induction vs with
  | nil => intro qs; exact .pure fun _ => ⟨[], by simp⟩
  | cons v vs ih =>
    intro es
    unfold enumLoop
    split
    · exact .err
    · rename_i t ht
      split
      · exact .err
      · refine ih.mono ?_
        rintro _ es' ⟨us, rfl, h⟩
        exact ⟨t :: us, by simp, .cons ht h⟩

theorem kwEnum_ok : PTr w d m (kwEnum w m) (fun _ es => (getKey "enum" m = none ∧ es = []) ∨
    ∃ cs, getKey "enum" m = some (.arr cs) ∧ List.Forall₂ (fun c t => w.env.marshal c = some t) cs es) := by
  unfold kwEnum
  split
  · rename_i h; exact .pure fun _ => .inl ⟨h, rfl⟩
  · rename_i v hv
    refine .isKind ?_
    split
    · split
      · refine enumLoop_ok.mono ?_
        rintro _ es ⟨us, h1, h2⟩
        simp at h1
        subst h1
        exact .inr ⟨_, hv, h2⟩
      · exact .fail
    · exact .err

theorem kwSchemas_ok {key e} (hrec : RecOK w rec) (hm : (Json.obj m).WF)
    (hsub : ∀ vs v, Kw m key (.arr vs) → v ∈ vs → SubSchema d m v) :
    PTr w d m (kwSchemas w rec p id d key e m) (fun h ids => ListOK h d m key ids) := by
  unfold kwSchemas
  split
  · rename_i h; exact .pure fun _ => .inl ⟨h, rfl⟩
  · rename_i v hv
    refine .isKind ?_
    split
    · split
      · rename_i vs _
        refine PTr.mono (PTr.mapL (Q := fun h D c => Stat h d D c) (fun _ _ _ _ q e => q.mono e) fun k x hx => ?_)
          fun h ids q => .inr ⟨vs, hv, q⟩
        exact child_ok hrec (wf_arr (wf_get hm hv) _ hx) (.inl (hsub _ _ hv hx))
      · exact .fail
    · exact .err

theorem stat_set {h : Heap} {c : Id} {n : Sub} (hc : Stat h n.draft n.doc c) : HExt h (h.set c n) := by
  rintro d D i ⟨s, h1, h2, h3⟩
  by_cases hi : i = c
  · subst hi
    obtain ⟨s', g1, g2, g3⟩ := hc
    rw [h1] at g1
    cases g1
    have := (List.getElem?_eq_some_iff.1 h1).1
    exact ⟨n, by rw [List.getElem?_set_self this], by rw [← g2, h2], by rw [← g3, h3]⟩
  · exact ⟨s, by rw [List.getElem?_set_ne (fun e => hi e.symm)]; exact h1, h2, h3⟩

/-- Writing the node at the end. -/
theorem finish {D c n} {st s1 st' : PState} (T : Step w Nil st s1) (hc : Stat st.heap d D c)
    (h : setNode c n s1 = (.ok (), st')) (hd : n.draft = d) (hD : n.doc = D) (hn : NodeOK w s1.heap s1.refs n) :
    Step w (· = c) st st' := by
  simp only [setNode, M.modify_ok] at h
  subst h
  have hc1 : Stat s1.heap n.draft n.doc c := by rw [hd, hD]; exact hc.mono T.heap
  have e := stat_set hc1
  refine ⟨⟨T.inv.pool, ?_, ?_, ?_⟩, T.later, ?_, T.heap.trans e, T.refs, ?_, ?_, ?_⟩
  · intro i s hs
    simp only [List.getElem?_set] at hs
    split at hs
    · split at hs
      · cases hs
        obtain ⟨s0, g1, _, g3⟩ := hc1
        have := T.inv.docs c s0 g1
        rw [g3] at this; exact this
      · cases hs
    · exact T.inv.docs i s hs
  · intro r j hr
    obtain ⟨d', D', g1, g2⟩ := T.inv.refs r j hr
    exact ⟨d', D', e _ _ _ g1, g2.mono e (.refl _) (List.prefix_refl _)⟩
  · intro i s hs
    simp only [List.getElem?_set] at hs
    split at hs
    · split at hs
      · cases hs
        obtain ⟨s0, g1, g2, g3⟩ := hc1
        rename_i hic _
        subst hic
        have := T.inv.orig _ s0 g1
        rw [g2, g3] at this
        exact this.mono e (.refl _) (List.prefix_refl _)
      · cases hs
    · exact (T.inv.orig i s hs).mono e (.refl _) (List.prefix_refl _)
  · simpa using T.len
  · intro i s hs hne
    have := T.same i s hs id
    simp only
    rw [List.getElem?_set_ne (fun e => hne e.symm)]
    exact this
  · intro i s hs hor
    simp only at hs
    by_cases hic : i = c
    · subst hic
      have hlt : i < s1.heap.length := by
        obtain ⟨s0, g1, _, _⟩ := hc1
        exact (List.getElem?_eq_some_iff.1 g1).1
      rw [List.getElem?_set_self hlt] at hs
      cases hs
      exact hn.mono e fun _ _ x => x
    · rw [List.getElem?_set_ne (fun e => hic e.symm)] at hs
      exact (T.done i s hs (.inr (hor.resolve_left hic))).mono e fun _ _ x => x
  · intro i s hs hx
    simp only at hs
    have hlt : i < s1.heap.length := by
      have := (List.getElem?_eq_some_iff.1 hs).1
      simpa using this
    have e1 : s1.heap[i]? = some s1.heap[i] := by simp [hlt]
    obtain ⟨e2, e3⟩ := e.same e1 hs
    obtain ⟨r1, r2⟩ := T.ran i _ e1 hx
    rw [e2, e3]
    exact ⟨r1, r2.mono e⟩

/-- The keywords: the node written satisfies `FieldsOK`. -/
theorem parseKeywords_ok {refSchema c} (hrec : RecOK w rec) (hm : (Json.obj m).WF) {st st'} (hi : PInv w st)
    (hc : Stat st.heap d (.obj m) c)
    (hs : (getKey "$ref" m = none ∧ refSchema = none) ∨ ∃ r u j, getKey "$ref" m = some (.str r) ∧ w.norm r = some u ∧
      getKey u st.refs = some j ∧ refSchema = some j)
    (h : parseKeywords w σ rec p id d c refSchema m st = (.ok (), st')) : Step w (· = c) st st' := by
  unfold parseKeywords at h
  obtain ⟨a_types, s_types, h_types, h⟩ := M.bind_ok.1 h
  have c_0 : At w d m st := ⟨hi, c, hc⟩
  obtain ⟨t_types, q_types, q_set⟩ := kwType_ok _ _ _ c_0 h_types
  have c_types := c_0.step t_types
  obtain ⟨a_props, s_props, h_props, h⟩ := M.bind_ok.1 h
  obtain ⟨t_props, q_props⟩ := (kwProperties_ok hrec hm) _ _ _ c_types h_props
  have c_props := c_types.step t_props
  obtain ⟨a_addProps, s_addProps, h_addProps, h⟩ := M.bind_ok.1 h
  obtain ⟨t_addProps, q_addProps⟩ := (kwExtra_ok hrec hm fun A h => .additional A h) _ _ _ c_props h_addProps
  have c_addProps := c_props.step t_addProps
  obtain ⟨a_patProps, s_patProps, h_patProps, h⟩ := M.bind_ok.1 h
  obtain ⟨t_patProps, q_patProps⟩ := (kwPatternProperties_ok hrec hm) _ _ _ c_addProps h_patProps
  have c_patProps := c_addProps.step t_patProps
  obtain ⟨a_propNames, s_propNames, h_propNames, h⟩ := M.bind_ok.1 h
  obtain ⟨t_propNames, q_propNames⟩ := (kwSchema_ok (A := Draft6 ≤ d) (by simp) hrec hm fun v a h => .name v a h) _ _ _ c_patProps h_propNames
  have c_propNames := c_patProps.step t_propNames
  obtain ⟨a_deps, s_deps, h_deps, h⟩ := M.bind_ok.1 h
  obtain ⟨t_deps, q_deps⟩ := (kwDependencies_ok hrec hm) _ _ _ c_propNames h_deps
  have c_deps := c_propNames.step t_deps
  obtain ⟨a_items, s_items, h_items, h⟩ := M.bind_ok.1 h
  obtain ⟨t_items, q_items⟩ := (kwItems_ok hrec hm) _ _ _ c_deps h_items
  have c_items := c_deps.step t_items
  obtain ⟨a_addItems, s_addItems, h_addItems, h⟩ := M.bind_ok.1 h
  obtain ⟨t_addItems, q_addItems⟩ := (kwExtra_ok hrec hm fun A h => .additionalItems A h) _ _ _ c_items h_addItems
  have c_addItems := c_items.step t_addItems
  obtain ⟨a_multipleOf, s_multipleOf, h_multipleOf, h⟩ := M.bind_ok.1 h
  obtain ⟨t_multipleOf, q_multipleOf⟩ := kwMultipleOf_ok _ _ _ c_addItems h_multipleOf
  have c_multipleOf := c_addItems.step t_multipleOf
  obtain ⟨a_minimum, s_minimum, h_minimum, h⟩ := M.bind_ok.1 h
  obtain ⟨t_minimum, q_minimum⟩ := kwBound_ok _ _ _ c_multipleOf h_minimum
  have c_minimum := c_multipleOf.step t_minimum
  obtain ⟨a_mins, s_mins, h_mins, h⟩ := M.bind_ok.1 h
  obtain ⟨t_mins, q_mins⟩ := (kwExclusive_ok q_minimum) _ _ _ c_minimum h_mins
  have c_mins := c_minimum.step t_mins
  obtain ⟨a_maximum, s_maximum, h_maximum, h⟩ := M.bind_ok.1 h
  obtain ⟨t_maximum, q_maximum⟩ := kwBound_ok _ _ _ c_mins h_maximum
  have c_maximum := c_mins.step t_maximum
  obtain ⟨a_maxs, s_maxs, h_maxs, h⟩ := M.bind_ok.1 h
  obtain ⟨t_maxs, q_maxs⟩ := (kwExclusive_ok q_maximum) _ _ _ c_maximum h_maxs
  have c_maxs := c_maximum.step t_maxs
  obtain ⟨a_minLength, s_minLength, h_minLength, h⟩ := M.bind_ok.1 h
  obtain ⟨t_minLength, q_minLength⟩ := kwSize_ok _ _ _ c_maxs h_minLength
  have c_minLength := c_maxs.step t_minLength
  obtain ⟨a_maxLength, s_maxLength, h_maxLength, h⟩ := M.bind_ok.1 h
  obtain ⟨t_maxLength, q_maxLength⟩ := kwSize_ok _ _ _ c_minLength h_maxLength
  have c_maxLength := c_minLength.step t_maxLength
  obtain ⟨a_o1, s_o1, h_o1, h⟩ := M.bind_ok.1 h
  obtain ⟨t_o1, q_o1⟩ := checkOrder_ok _ _ _ c_maxLength h_o1
  have c_o1 := c_maxLength.step t_o1
  obtain ⟨a_pattern, s_pattern, h_pattern, h⟩ := M.bind_ok.1 h
  obtain ⟨t_pattern, q_pattern⟩ := kwPattern_ok _ _ _ c_o1 h_pattern
  have c_pattern := c_o1.step t_pattern
  obtain ⟨a_format, s_format, h_format, h⟩ := M.bind_ok.1 h
  obtain ⟨t_format, q_format⟩ := kwFormat_ok _ _ _ c_pattern h_format
  have c_format := c_pattern.step t_format
  obtain ⟨a_minProperties, s_minProperties, h_minProperties, h⟩ := M.bind_ok.1 h
  obtain ⟨t_minProperties, q_minProperties⟩ := kwSize_ok _ _ _ c_format h_minProperties
  have c_minProperties := c_format.step t_minProperties
  obtain ⟨a_maxProperties, s_maxProperties, h_maxProperties, h⟩ := M.bind_ok.1 h
  obtain ⟨t_maxProperties, q_maxProperties⟩ := kwSize_ok _ _ _ c_minProperties h_maxProperties
  have c_maxProperties := c_minProperties.step t_maxProperties
  obtain ⟨a_o2, s_o2, h_o2, h⟩ := M.bind_ok.1 h
  obtain ⟨t_o2, q_o2⟩ := checkOrder_ok _ _ _ c_maxProperties h_o2
  have c_o2 := c_maxProperties.step t_o2
  obtain ⟨a_required, s_required, h_required, h⟩ := M.bind_ok.1 h
  obtain ⟨t_required, q_required⟩ := kwRequired_ok _ _ _ c_o2 h_required
  have c_required := c_o2.step t_required
  obtain ⟨a_minItems, s_minItems, h_minItems, h⟩ := M.bind_ok.1 h
  obtain ⟨t_minItems, q_minItems⟩ := kwSize_ok _ _ _ c_required h_minItems
  have c_minItems := c_required.step t_minItems
  obtain ⟨a_maxItems, s_maxItems, h_maxItems, h⟩ := M.bind_ok.1 h
  obtain ⟨t_maxItems, q_maxItems⟩ := kwSize_ok _ _ _ c_minItems h_maxItems
  have c_maxItems := c_minItems.step t_maxItems
  obtain ⟨a_uniqueItems, s_uniqueItems, h_uniqueItems, h⟩ := M.bind_ok.1 h
  obtain ⟨t_uniqueItems, q_uniqueItems⟩ := kwUnique_ok _ _ _ c_maxItems h_uniqueItems
  have c_uniqueItems := c_maxItems.step t_uniqueItems
  obtain ⟨a_contains, s_contains, h_contains, h⟩ := M.bind_ok.1 h
  obtain ⟨t_contains, q_contains⟩ := (kwContains_ok hrec hm) _ _ _ c_uniqueItems h_contains
  have c_contains := c_uniqueItems.step t_contains
  obtain ⟨a_const, s_const, h_const, h⟩ := M.bind_ok.1 h
  obtain ⟨t_const, q_const⟩ := kwConst_ok _ _ _ c_contains h_const
  have c_const := c_contains.step t_const
  obtain ⟨a_enum, s_enum, h_enum, h⟩ := M.bind_ok.1 h
  obtain ⟨t_enum, q_enum⟩ := kwEnum_ok _ _ _ c_const h_enum
  have c_enum := c_const.step t_enum
  obtain ⟨a_oneOf, s_oneOf, h_oneOf, h⟩ := M.bind_ok.1 h
  obtain ⟨t_oneOf, q_oneOf⟩ := (kwSchemas_ok hrec hm fun vs v h h' => .oneOf vs v h h') _ _ _ c_enum h_oneOf
  have c_oneOf := c_enum.step t_oneOf
  obtain ⟨a_anyOf, s_anyOf, h_anyOf, h⟩ := M.bind_ok.1 h
  obtain ⟨t_anyOf, q_anyOf⟩ := (kwSchemas_ok hrec hm fun vs v h h' => .anyOf vs v h h') _ _ _ c_oneOf h_anyOf
  have c_anyOf := c_oneOf.step t_anyOf
  obtain ⟨a_allOf, s_allOf, h_allOf, h⟩ := M.bind_ok.1 h
  obtain ⟨t_allOf, q_allOf⟩ := (kwSchemas_ok hrec hm fun vs v h h' => .allOf vs v h h') _ _ _ c_anyOf h_allOf
  have c_allOf := c_anyOf.step t_allOf
  obtain ⟨a_not, s_not, h_not, h⟩ := M.bind_ok.1 h
  obtain ⟨t_not, q_not⟩ := (kwSchema_ok (A := True) (by simp) hrec hm fun v _ h => .not v h) _ _ _ c_allOf h_not
  have c_not := c_allOf.step t_not
  obtain ⟨a_if_, s_if_, h_if_, h⟩ := M.bind_ok.1 h
  obtain ⟨t_if_, q_if_⟩ := (kwSchema_ok (A := Draft7 ≤ d) (by simp) hrec hm fun v a h => .if_ v a h) _ _ _ c_not h_if_
  have c_if_ := c_not.step t_if_
  obtain ⟨a_then_, s_then_, h_then_, h⟩ := M.bind_ok.1 h
  obtain ⟨t_then_, q_then_⟩ := (kwSchema_ok (A := Draft7 ≤ d) (by simp) hrec hm fun v a h => .then_ v a h) _ _ _ c_if_ h_then_
  have c_then_ := c_if_.step t_then_
  obtain ⟨a_else_, s_else_, h_else_, h⟩ := M.bind_ok.1 h
  obtain ⟨t_else_, q_else_⟩ := (kwSchema_ok (A := Draft7 ≤ d) (by simp) hrec hm fun v a h => .else_ v a h) _ _ _ c_then_ h_else_
  have c_else_ := c_then_.step t_else_
  have e_else_ := HExt.refl s_else_.heap
  have e_then_ := t_else_.heap.trans e_else_
  have e_if_ := t_then_.heap.trans e_then_
  have e_not := t_if_.heap.trans e_if_
  have e_allOf := t_not.heap.trans e_not
  have e_anyOf := t_allOf.heap.trans e_allOf
  have e_oneOf := t_anyOf.heap.trans e_anyOf
  have e_enum := t_oneOf.heap.trans e_oneOf
  have e_const := t_enum.heap.trans e_enum
  have e_contains := t_const.heap.trans e_const
  have e_uniqueItems := t_contains.heap.trans e_contains
  have e_maxItems := t_uniqueItems.heap.trans e_uniqueItems
  have e_minItems := t_maxItems.heap.trans e_maxItems
  have e_required := t_minItems.heap.trans e_minItems
  have e_o2 := t_required.heap.trans e_required
  have e_maxProperties := t_o2.heap.trans e_o2
  have e_minProperties := t_maxProperties.heap.trans e_maxProperties
  have e_format := t_minProperties.heap.trans e_minProperties
  have e_pattern := t_format.heap.trans e_format
  have e_o1 := t_pattern.heap.trans e_pattern
  have e_maxLength := t_o1.heap.trans e_o1
  have e_minLength := t_maxLength.heap.trans e_maxLength
  have e_maxs := t_minLength.heap.trans e_minLength
  have e_maximum := t_maxs.heap.trans e_maxs
  have e_mins := t_maximum.heap.trans e_maximum
  have e_minimum := t_mins.heap.trans e_mins
  have e_multipleOf := t_minimum.heap.trans e_minimum
  have e_addItems := t_multipleOf.heap.trans e_multipleOf
  have e_items := t_addItems.heap.trans e_addItems
  have e_deps := t_items.heap.trans e_items
  have e_propNames := t_deps.heap.trans e_deps
  have e_patProps := t_propNames.heap.trans e_propNames
  have e_addProps := t_patProps.heap.trans e_patProps
  have e_props := t_addProps.heap.trans e_addProps
  have e_types := t_props.heap.trans e_props
  have T := t_types
  have T := T.trans t_props
  have T := T.trans t_addProps
  have T := T.trans t_patProps
  have T := T.trans t_propNames
  have T := T.trans t_deps
  have T := T.trans t_items
  have T := T.trans t_addItems
  have T := T.trans t_multipleOf
  have T := T.trans t_minimum
  have T := T.trans t_mins
  have T := T.trans t_maximum
  have T := T.trans t_maxs
  have T := T.trans t_minLength
  have T := T.trans t_maxLength
  have T := T.trans t_o1
  have T := T.trans t_pattern
  have T := T.trans t_format
  have T := T.trans t_minProperties
  have T := T.trans t_maxProperties
  have T := T.trans t_o2
  have T := T.trans t_required
  have T := T.trans t_minItems
  have T := T.trans t_maxItems
  have T := T.trans t_uniqueItems
  have T := T.trans t_contains
  have T := T.trans t_const
  have T := T.trans t_enum
  have T := T.trans t_oneOf
  have T := T.trans t_anyOf
  have T := T.trans t_allOf
  have T := T.trans t_not
  have T := T.trans t_if_
  have T := T.trans t_then_
  have T := T.trans t_else_
  have F : FieldsOK w s_else_.heap d m
      { doc := .obj m, draft := d, types := a_types, refSchema := refSchema,
        itemsChildren := a_items.1, itemsChildrenIsSingleSchema := a_items.2,
        propertiesChildren := a_props,
        multipleOf := a_multipleOf, maximum := a_maxs.1, exclusiveMaximum := a_maxs.2,
        minimum := a_mins.1, exclusiveMinimum := a_mins.2,
        minLength := a_minLength, maxLength := a_maxLength, pattern := a_pattern, format := a_format,
        minProperties := a_minProperties, maxProperties := a_maxProperties, required := a_required,
        dependencies := a_deps, additionalProperties := a_addProps, patternProperties := a_patProps,
        propertyNames := a_propNames, minItems := a_minItems, maxItems := a_maxItems,
        uniqueItems := a_uniqueItems, contains := a_contains, additionalItems := a_addItems,
        const := a_const, enum := a_enum, oneOf := a_oneOf, anyOf := a_anyOf, allOf := a_allOf,
        not := a_not, if_ := a_if_, then_ := a_then_, else_ := a_else_ } :=
    { multipleOf := q_multipleOf.1, multipleOf_pos := q_multipleOf.2,
      types := q_types, typeSet := q_set,
      props := q_props.mono e_props,
      addProps := q_addProps.mono e_addProps,
      patProps := q_patProps.mono e_patProps,
      propNames := q_propNames.mono e_propNames,
      deps := q_deps.mono e_deps,
      items := q_items.mono e_items,
      addItems := q_addItems.mono e_addItems,
      mins := q_mins,
      maxs := q_maxs,
      minLength := q_minLength,
      maxLength := q_maxLength,
      pattern := q_pattern,
      format := q_format,
      minProperties := q_minProperties,
      maxProperties := q_maxProperties,
      required := q_required,
      minItems := q_minItems,
      maxItems := q_maxItems,
      uniqueItems := q_uniqueItems,
      contains := q_contains.mono e_contains,
      const := q_const,
      enum := q_enum,
      oneOf := q_oneOf.mono e_oneOf,
      anyOf := q_anyOf.mono e_anyOf,
      allOf := q_allOf.mono e_allOf,
      not := q_not.mono e_not,
      if_ := q_if_.mono e_if_,
      then_ := q_then_.mono e_then_,
      else_ := q_else_.mono e_else_ }
  refine finish T hc h rfl rfl ?_
  rcases hs with ⟨h1, h2⟩ | ⟨r, u, j, h1, h2, h3, h4⟩
  · exact .plain m rfl h1 h2 rfl F
  · exact .ref m r u j rfl h1 h2 (T.refs _ _ h3) h4 rfl (.inl F)

theorem refGet_ok {r st o st'} : refGet r st = (.ok o, st') ↔ st = st' ∧ o = getKey r st.refs := by
  simp only [refGet, M.bind_ok, M.get_ok, M.pure_ok]
  constructor
  · rintro ⟨_, _, ⟨rfl, rfl⟩, rfl, rfl⟩; exact ⟨rfl, rfl⟩
  · rintro ⟨rfl, rfl⟩; exact ⟨_, _, ⟨rfl, rfl⟩, rfl, rfl⟩

theorem liftL_ok {x : M LState α} {st : PState} {a st'} :
    liftL x st = (.ok a, st') ↔ ∃ l', x st.l = (.ok a, l') ∧ st' = { st with l := l' } := by
  unfold liftL
  cases hx : x st.l with
  | mk r l' =>
    simp only [Prod.mk.injEq]
    constructor
    · rintro ⟨rfl, rfl⟩; exact ⟨l', ⟨rfl, rfl⟩, rfl⟩
    · rintro ⟨l'', ⟨rfl, rfl⟩, rfl⟩; exact ⟨rfl, rfl⟩

theorem getKey_append_self {k : String} {v : α} {l : List (String × α)} (h : getKey k l = none) :
    getKey k (l ++ [(k, v)]) = some v := by
  simp only [getKey] at *
  rw [List.lookup_append, h]
  simp

theorem getKey_append_some {k : String} {v : α} {l l' : List (String × α)} (h : getKey k l = some v) :
    getKey k (l ++ l') = some v := by
  simp only [getKey] at *
  rw [List.lookup_append, h]
  rfl

theorem getKey_append_inv {k k' : String} {v a : α} {l : List (String × α)} (h : getKey k (l ++ [(k', v)]) = some a) :
    getKey k l = some a ∨ (k = k' ∧ a = v) := by
  simp only [getKey] at *
  rw [List.lookup_append] at h
  cases hl : List.lookup k l with
  | some b => rw [hl] at h; simp at h; left; rw [h]
  | none =>
    rw [hl] at h
    simp only [Option.none_or, List.lookup_cons, List.lookup_nil] at h
    split at h
    · rename_i hk
      exact .inr ⟨by simpa using hk, by cases h; rfl⟩
    · cases h

/-- The state in which a referenced document is read. -/
theorem refNode_inv {ref st l1} {dsp : PoolDoc} (hi : PInv w st) (k1 : Later True st.l l1) (k2 : dsp.doc.WF)
    (k3 : ResolvedAs w l1 ref dsp.draft dsp.doc)
    (hc : ∃ i m t, Stat st.heap d (.obj m) i ∧ Kw m "$ref" (.str t) ∧ w.norm t = some ref) :
    PInv w ⟨st.heap ++ [{ doc := dsp.doc, draft := dsp.draft.getD d }], st.refs ++ [(ref, st.heap.length)], l1⟩ := by
  have inv0 : PInv w ⟨st.heap, st.refs, l1⟩ := by
    refine ⟨k1.wf trivial, hi.docs, ?_, fun i s hs => (hi.orig i s hs).mono (.refl _) k1.keeps k1.log⟩
    intro r j hr
    obtain ⟨d', D', h1, h2⟩ := hi.refs r j hr
    exact ⟨d', D', h1, h2.mono (.refl _) k1.keeps k1.log⟩
  have inv1 := alloc_inv (d := dsp.draft.getD d) inv0 k2 (.inr (by
    obtain ⟨i, m, t, h1, h2, h3⟩ := hc
    exact ⟨i, d, m, h1, .ref t ref dsp.draft dsp.doc h2 h3 k3⟩))
  · refine ⟨inv1.pool, inv1.docs, ?_, inv1.orig⟩
    intro r j hr
    rcases getKey_append_inv hr with hr | ⟨rfl, rfl⟩
    · exact inv1.refs r j hr
    · refine ⟨_, _, stat_new, dsp.draft, k3, fun x hx => by rw [hx]; rfl, fun hx => ?_⟩
      obtain ⟨i, m, t, h1, h2⟩ := hc
      rw [hx]
      exact ⟨i, m, t, stat_append h1, h2⟩

theorem parseReference_ok {ref st j st'} (hw : Lawful w) (hrec : RecOK w rec) (hi : PInv w st)
    (hc : ∃ i m t, Stat st.heap d (.obj m) i ∧ Kw m "$ref" (.str t) ∧ w.norm t = some ref)
    (hn : getKey ref st.refs = none) (h : parseReference w σ rec p id d ref st = (.ok j, st')) :
    Step w Nil st st' ∧ getKey ref st'.refs = some j := by
  simp only [parseReference, M.bind_ok, liftL_ok] at h
  obtain ⟨dsp, s1, ⟨l1, hg, rfl⟩, c, s2, ha, _, s3, hr, b, s4, hk, h⟩ := h
  simp only [alloc, Prod.mk.injEq, Except.ok.injEq] at ha
  obtain ⟨rfl, rfl⟩ := ha
  simp only [refAdd, M.modify_ok, existsMapKey_false.2 hn] at hr
  have := isKind_still.ok hk
  subst this
  split at h
  · simp at h
  simp only [M.bind_ok, M.pure_ok] at h
  obtain ⟨_, s5, h, rfl, rfl⟩ := h
  obtain ⟨k1, _, k2⟩ := getDocument_inv (W := True) (w := w) (σ := σ) (p := 42 :: p) (ref := ref) (l := st.l)
    (fun _ => hw) (fun _ => hi.pool)
  rw [hg] at k1
  obtain ⟨k2, k3⟩ := k2 _ _ hg
  simp only [Bool.false_eq_true, if_false] at hr
  subst hr
  have inv2 := refNode_inv hi k1 (k2 trivial) k3 hc
  have S := hrec _ _ _ _ _ _ _ _ inv2 stat_new h
  refine ⟨(Step.alloc (fun r j hr => getKey_append_some hr) k1 S).1, S.1.refs _ _ ?_⟩
  exact getKey_append_self hn

theorem parseAfterRef_ok {ref c st st'} (hw : Lawful w) (hrec : RecOK w rec) (hm : (Json.obj m).WF) (hi : PInv w st)
    (hc : Stat st.heap d (.obj m) c)
    (hr : match ref with
      | none => getKey "$ref" m = none
      | some u => ∃ r, getKey "$ref" m = some (.str r) ∧ w.norm r = some u)
    (h : parseAfterRef w σ rec p id d c ref m st = (.ok (), st')) : Step w (· = c) st st' := by
  unfold parseAfterRef at h
  split at h
  · exact parseKeywords_ok hrec hm hi hc (.inl ⟨hr, rfl⟩) h
  · rename_i u
    obtain ⟨r, hr1, hr2⟩ := hr
    simp only [M.bind_ok, refGet_ok] at h
    obtain ⟨o, s1, ⟨rfl, ho⟩, h⟩ := h
    split at h
    · rename_i j
      exact parseKeywords_ok hrec hm hi hc (.inr ⟨r, u, j, hr1, hr2, ho.symm, rfl⟩) h
    · simp only [M.bind_ok] at h
      obtain ⟨j, s2, h1, h2⟩ := h
      obtain ⟨S, hj⟩ := parseReference_ok hw hrec hi ⟨c, m, r, hc, hr1, hr2⟩ ho.symm h1
      exact finish S hc h2 rfl rfl (.ref m r u j rfl hr1 hr2 hj rfl rfl (.inr rfl))

theorem parseObject_ok {isRoot pid id0 c st st'} (hw : Lawful w) (hrec : RecOK w rec) (hi : PInv w st)
    (hc : Stat st.heap d (.obj m) c)
    (h : parseObject w σ rec isRoot p pid id0 m d c st = (.ok (), st')) : Step w (· = c) st st' ∧ DefsIn st'.heap d (.obj m) := by
  have hm : (Json.obj m).WF := by
    obtain ⟨s, h1, _, h3⟩ := hc
    have := hi.docs _ s h1
    rw [h3] at this; exact this
  simp only [parseObject, M.bind_ok] at h
  obtain ⟨i, s1, h1, _, s2, h2, _, s3, h3, _, s4, h4, ref, s5, h5, h⟩ := h
  have c0 : At w d m st := ⟨hi, c, hc⟩
  have t1 := (kwId_ok _ _ _ c0 h1).1
  have c1 := c0.step t1
  obtain ⟨t2, q2⟩ := kwDefinitions_ok hrec hm _ _ _ c1 h2
  have c2 := c1.step t2
  have t3 := (kwText_ok _ _ _ c2 h3).1
  have c3 := c2.step t3
  have t4 := (kwText_ok _ _ _ c3 h4).1
  obtain ⟨t5, q5⟩ := kwRefText_ok _ _ _ (c3.step t4) h5
  have T := ((((t1.trans t2).trans t3).trans t4).trans t5)
  have A := parseAfterRef_ok hw hrec hm t5.inv (hc.mono T.heap) q5 h
  exact ⟨T.trans A, q2.mono (((t3.trans t4).trans t5).trans A).heap⟩

theorem parseStep_kind {isRoot pid id0 doc c st st'}
    (h : parseStep w σ rec isRoot p pid id0 doc d c st = (.ok (), st')) : SchemaKind doc := by
  unfold parseStep at h
  obtain ⟨b, s1, h1, h'⟩ := M.bind_ok.1 h
  have bad : ∀ {doc : Json} {x : M PState Unit}, kindIn doc [.map] = false →
      (isKind w.env doc [.map] >>= fun b2 => if !b2 then M.err .parseError else x : M PState Unit) s1 = (.ok (), st') →
      False := by
    intro doc x hk h
    obtain ⟨b2, s2, h2, h3⟩ := M.bind_ok.1 h
    have := isKind_ok h2
    rw [hk] at this
    subst this
    simp at h3
  cases doc with
  | obj m => exact .inr ⟨m, rfl⟩
  | bool x => exact .inl ⟨x, rfl⟩
  | null => cases hb : (decide (d ≥ Draft6) && b) <;> (rw [hb] at h'; exact (bad rfl h').elim)
  | num n => cases hb : (decide (d ≥ Draft6) && b) <;> (rw [hb] at h'; exact (bad rfl h').elim)
  | str n => cases hb : (decide (d ≥ Draft6) && b) <;> (rw [hb] at h'; exact (bad rfl h').elim)
  | arr n => cases hb : (decide (d ≥ Draft6) && b) <;> (rw [hb] at h'; exact (bad rfl h').elim)

theorem parseSchema_kinded : ∀ n, Kinded (parseSchema w σ n)
  | 0 => fun _ _ _ _ _ _ _ _ h => by simp [parseSchema] at h
  | _ + 1 => fun _ _ _ _ _ _ _ _ h => parseStep_kind h

theorem parseStep_ok {isRoot pid id0 doc c st st'} (hw : Lawful w) (hk : Kinded rec) (hrec : RecOK w rec) (hi : PInv w st)
    (hc : Stat st.heap d doc c)
    (h : parseStep w σ rec isRoot p pid id0 doc d c st = (.ok (), st')) :
    Step w (· = c) st st' ∧ Ran w d doc ∧ DefsIn st'.heap d doc := by
  have hran : Ran w d doc := ⟨_, _, _, _, _, _, _, _, _, hk, h⟩
  suffices Step w (· = c) st st' ∧ DefsIn st'.heap d doc from ⟨this.1, hran, this.2⟩
  clear hran
  unfold parseStep at h
  obtain ⟨b, s1, h1, h'⟩ := M.bind_ok.1 h
  clear h
  have := isKind_still.ok h1
  subst this
  have bad : ∀ {doc : Json} {x : M PState Unit}, kindIn doc [.map] = false →
      (isKind w.env doc [.map] >>= fun b2 => if !b2 then M.err .parseError else x : M PState Unit) s1 = (.ok (), st') →
      False := by
    intro doc x hk h
    obtain ⟨b2, s2, h2, h3⟩ := M.bind_ok.1 h
    have := isKind_ok h2
    rw [hk] at this
    subst this
    simp at h3
  cases doc with
  | obj m =>
    have good : (isKind w.env (.obj m) [.map] >>= fun b2 =>
        if !b2 then M.err .parseError else parseObject w σ rec isRoot p pid id0 m d c : M PState Unit) s1 = (.ok (), st') →
        Step w (· = c) s1 st' ∧ DefsIn st'.heap d (.obj m) := by
      intro h
      obtain ⟨b2, s2, h2, h3⟩ := M.bind_ok.1 h
      have := isKind_still.ok h2
      subst this
      split at h3
      · simp at h3
      · exact parseObject_ok hw hrec hi hc h3
    cases hb : (decide (d ≥ Draft6) && b) <;> (rw [hb] at h'; exact good h')
  | bool x =>
    cases hb : (decide (d ≥ Draft6) && b) with
    | true =>
      rw [hb] at h'
      have hd : Draft6 ≤ d := by
        simp only [Bool.and_eq_true, decide_eq_true_eq] at hb; exact hb.1
      exact ⟨finish (.refl hi) hc h' rfl rfl (.bool x rfl hd), fun m _ _ _ he => by cases he⟩
    | false =>
      rw [hb] at h'
      exact (bad rfl h').elim
  | null => cases hb : (decide (d ≥ Draft6) && b) <;> (rw [hb] at h'; exact (bad rfl h').elim)
  | num n => cases hb : (decide (d ≥ Draft6) && b) <;> (rw [hb] at h'; exact (bad rfl h').elim)
  | str n => cases hb : (decide (d ≥ Draft6) && b) <;> (rw [hb] at h'; exact (bad rfl h').elim)
  | arr n => cases hb : (decide (d ≥ Draft6) && b) <;> (rw [hb] at h'; exact (bad rfl h').elim)

theorem parseSchema_ok (hw : Lawful w) : ∀ n, RecOK w (parseSchema w σ n) := by
  intro n
  induction n with
  | zero => intro p pid id0 doc d c st st' _ _ h; simp [parseSchema] at h
  | succ n ih => intro p pid id0 doc d c st st' hi hc h; exact parseStep_ok hw (parseSchema_kinded n) ih hi hc h

/-- A successful compilation of a document: the heap, all of whose nodes are finished. -/
theorem parseRoot_ok {n docRef doc st root st'} (hw : Lawful w) (hi : PInv w st) (hD : doc.WF) (he : st.heap = [])
    (h : parseRoot w σ n p docRef doc d st = (.ok root, st')) :
    (Step w Nil st st' ∧ Stat st'.heap d doc root) ∧ root = 0 := by
  simp only [parseRoot, M.bind_ok, M.pure_ok] at h
  obtain ⟨c, s1, h1, _, s2, h2, rfl, rfl⟩ := h
  simp only [alloc, Prod.mk.injEq, Except.ok.injEq] at h1
  obtain ⟨rfl, rfl⟩ := h1
  exact ⟨Step.alloc (fun _ _ x => x) (.refl fun _ => hi.pool)
    (parseStep_ok hw (parseSchema_kinded n) (parseSchema_ok hw n) (alloc_inv hi hD (.inl he)) stat_new h2), by rw [he]; rfl⟩

end
end GJS

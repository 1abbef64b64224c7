import Verif.SpecReturnDoc
import Verif.LemReturn
import Verif.LemCompile
/-
Helper lemmas for C74: the questions of a compiled node are those of its document.
-/
namespace GJS
open Spec

variable {w : World} {h : Heap} {d : Draft} {m : List (String × Json)} {Sat : Draft → Json → Json → Prop}

theorem OptOK.toDoc {act key o i} (x : OptOK h d act m key o) (ho : o = some i) : act ∧ ∃ D, Kw m key D ∧ Stat h d D i := by
  rcases x with ⟨x, _⟩ | ⟨ha, D, c, h1, h2, h3⟩
  · rw [x] at ho; cases ho
  · rw [h2] at ho; cases ho; exact ⟨ha, D, h1, h3⟩

theorem OptOK.toNode {act key o D} (x : OptOK h d act m key o) (ha : act) (hk : Kw m key D) : ∃ i, o = some i ∧ Stat h d D i := by
  rcases x with ⟨_, x⟩ | ⟨_, D', c, h1, h2, h3⟩
  · rw [Kw, x ha] at hk; cases hk
  · rw [Kw, h1] at hk; cases hk; exact ⟨c, h2, h3⟩

theorem ListOK.toDoc {key ids} {k : Nat} {i} (x : ListOK h d m key ids) (hi : ids[k]? = some i) :
    ∃ Ds D, Kw m key (.arr Ds) ∧ List.Forall₂ (Stat h d) Ds ids ∧ Ds[k]? = some D ∧ Stat h d D i := by
  rcases x with ⟨_, rfl⟩ | ⟨Ds, h1, h2⟩
  · simp at hi
  · obtain ⟨D, h3, h4⟩ := forall₂_right h2 hi
    exact ⟨Ds, D, h1, h2, h3, h4⟩

theorem ListOK.toNode {key ids Ds} (x : ListOK h d m key ids) (hk : Kw m key (.arr Ds)) : List.Forall₂ (Stat h d) Ds ids := by
  rcases x with ⟨x, _⟩ | ⟨Ds', h1, h2⟩
  · rw [Kw, x] at hk; cases hk
  · rw [Kw, h1] at hk; cases hk; exact h2

theorem ExtraOK.toDoc {key e i} (x : ExtraOK h d m key e) (he : e = .schema i) : ∃ A, Kw m key (.obj A) ∧ Stat h d (.obj A) i := by
  rcases x with ⟨_, rfl⟩ | ⟨b, _, rfl⟩ | ⟨A, c, h1, rfl, h2⟩
  · cases he
  · cases he
  · cases he; exact ⟨A, h1, h2⟩

theorem ExtraOK.toNode {key e A} (x : ExtraOK h d m key e) (hk : Kw m key (.obj A)) : ∃ i, e = .schema i ∧ Stat h d (.obj A) i := by
  rcases x with ⟨h1, _⟩ | ⟨b, h1, _⟩ | ⟨A', c, h1, rfl, h2⟩
  · rw [Kw, h1] at hk; cases hk
  · rw [Kw, h1] at hk; cases hk
  · rw [Kw, h1] at hk; cases hk; exact ⟨c, rfl, h2⟩

theorem DepsOK.toDoc {ds k i} (hwf : (Json.obj m).WF) (x : DepsOK h d m ds) (hk : getKey k ds = some (.schema i)) :
    ∃ Ds D, Kw m "dependencies" (.obj Ds) ∧ (k, D) ∈ Ds ∧ (∀ xs, D ≠ .arr xs) ∧ Stat h d D i := by
  rcases x with ⟨_, rfl⟩ | ⟨Ds, l, es, h1, hp, hf, rfl⟩
  · simp [getKey] at hk
  · have hnd : (l.map Prod.fst).Nodup := (hp.map _).nodup_iff.2 (wf_nodup (wf_member hwf h1))
    by_cases hm : k ∈ l.map Prod.fst
    · obtain ⟨⟨k', D⟩, hD, rfl⟩ := List.mem_map.1 hm
      obtain ⟨e, he, hl⟩ := deps_lookup hf hnd hD
      have hk' : List.lookup k' (es.filterMap fun e => e) = some (.schema i) := hk
      rw [hl] at hk'
      refine ⟨Ds, D, h1, hp.mem_iff.1 hD, ?_⟩
      rcases he with ⟨ks, _, rfl⟩ | ⟨hna, c, rfl, hs⟩
      · cases ks <;> simp [depEntry] at hk'
      · simp at hk'; subst hk'; exact ⟨hna, hs⟩
    · have hk' : List.lookup k (es.filterMap fun e => e) = some (.schema i) := hk
      rw [deps_lookup_none hf hm] at hk'
      cases hk'

theorem DepsOK.toNode {ds k Ds D} (hwf : (Json.obj m).WF) (x : DepsOK h d m ds) (h1 : Kw m "dependencies" (.obj Ds)) (hD : (k, D) ∈ Ds)
    (hna : ∀ xs, D ≠ .arr xs) : ∃ i, getKey k ds = some (.schema i) ∧ Stat h d D i := by
  rcases x with ⟨x, _⟩ | ⟨Ds', l, es, h2, hp, hf, rfl⟩
  · rw [Kw, x] at h1; cases h1
  · rw [Kw, h2] at h1; cases h1
    have hnd : (l.map Prod.fst).Nodup := (hp.map _).nodup_iff.2 (wf_nodup (wf_member hwf h2))
    obtain ⟨e, he, hl⟩ := deps_lookup hf hnd (hp.mem_iff.2 hD)
    rcases he with ⟨ks, h3, _⟩ | ⟨_, c, rfl, hs⟩
    · exact absurd h3 (hna _)
    · exact ⟨c, hl, hs⟩

theorem not_sat {D c} (hs : Stat h d D c) {v} : ¬ satNode h Sat c v ↔ ¬ Sat d D v := by rw [hs.sat v]

/-- Whom the compiled node asks, the schema object asks. -/
theorem needs_doc {s : Sub} {v j x} (hwf : (Json.obj m).WF) (f : FieldsOK w h d m s) (hn : Needs w.env (satNode h Sat) s v j x) :
    ∃ D, Stat h d D j ∧ DNeeds w.env (Sat d) d m v D x := by
  cases hn with
  | anyOf k i v a b =>
    obtain ⟨Ds, D, h1, h2, h3, h4⟩ := f.anyOf.toDoc a
    refine ⟨D, h4, .anyOf k Ds D _ h1 h3 fun k' D' hk' hD' => ?_⟩
    obtain ⟨i', h5, h6⟩ := forall₂_left h2 hD'
    exact (not_sat h6).1 (b k' i' hk' h5)
  | oneOf i v a =>
    obtain ⟨k, hk⟩ := List.getElem?_of_mem a
    obtain ⟨Ds, D, h1, h2, h3, h4⟩ := f.oneOf.toDoc hk
    exact ⟨D, h4, .oneOf Ds D _ h1 (List.mem_of_getElem? h3)⟩
  | allOf i v a =>
    obtain ⟨k, hk⟩ := List.getElem?_of_mem a
    obtain ⟨Ds, D, h1, h2, h3, h4⟩ := f.allOf.toDoc hk
    exact ⟨D, h4, .allOf Ds D _ h1 (List.mem_of_getElem? h3)⟩
  | not i v a =>
    obtain ⟨_, D, h1, h2⟩ := f.not.toDoc a
    exact ⟨D, h2, .not D _ h1⟩
  | dependency kvs k i a b =>
    obtain ⟨Ds, D, h1, h2, h3, h4⟩ := f.deps.toDoc hwf b
    exact ⟨D, h4, .dependency Ds kvs k D h1 h2 h3 a⟩
  | if_ i v a =>
    obtain ⟨hd, D, h1, h2⟩ := f.if_.toDoc a
    exact ⟨D, h2, .if_ D _ hd h1⟩
  | then_ i t v a b c =>
    obtain ⟨hd, I, h1, h2⟩ := f.if_.toDoc a
    obtain ⟨_, T, h3, h4⟩ := f.then_.toDoc b
    exact ⟨T, h4, .then_ I T _ hd h1 h3 ((h2.sat _).1 c)⟩
  | else_ i t v a b c =>
    obtain ⟨hd, I, h1, h2⟩ := f.if_.toDoc a
    obtain ⟨_, T, h3, h4⟩ := f.else_.toDoc b
    exact ⟨T, h4, .else_ I T _ hd h1 h3 ((not_sat h2).1 c)⟩
  | items xs i x a b c =>
    rcases f.items with ⟨_, _, h3⟩ | ⟨Ds, _, _, h3⟩ | ⟨D, i', h1, h2, h3, h4, _⟩
    · rw [h3] at a; cases a
    · rw [h3] at a; cases a
    · rw [h3] at b; cases b
      exact ⟨D, h4, .items D xs _ h1 h2 c⟩
  | itemAt k xs i x a b c =>
    rcases f.items with ⟨_, h3, _⟩ | ⟨Ds, h1, h2, h3⟩ | ⟨D, i', h1, h2, h3, h4, h5⟩
    · rw [h3] at b; simp at b
    · obtain ⟨D, h4, h5⟩ := forall₂_right h2 b
      exact ⟨D, h5, .itemAt k Ds D xs _ h1 h4 c⟩
    · rw [h5] at a; cases a
  | additionalItem k xs i x a hne b c e =>
    rcases f.items with ⟨_, h3, _⟩ | ⟨Ds, h1, h2, h3⟩ | ⟨D, i', h1, h2, h3, h4, h5⟩
    · exact absurd h3 hne
    · obtain ⟨A, h4, h5⟩ := f.addItems.toDoc b
      have hl := (forall₂_get h2).1
      refine ⟨_, h5, .additionalItem k Ds A xs _ h1 ?_ h4 (by omega) e⟩
      rintro rfl
      exact hne (List.length_eq_zero_iff.1 hl.symm)
    · rw [h5] at a; cases a
  | contains k xs i x a b c =>
    obtain ⟨hd, D, h1, h2⟩ := f.contains.toDoc a
    exact ⟨D, h2, .contains k D xs _ hd h1 b fun k' y hk' hy => (not_sat h2).1 (c k' y hk' hy)⟩
  | property kvs name i x a b =>
    obtain ⟨Ds, D, h1, h2, h3⟩ := f.props.mem_iff.1 _ _ a
    exact ⟨D, h3, .property Ds kvs name D _ h1 h2 b⟩
  | patternProperty kvs pat i k x a b c =>
    obtain ⟨Ds, D, h1, h2, h3⟩ := f.patProps.mem_iff.1 _ _ a
    exact ⟨D, h3, .patternProperty Ds kvs pat D k _ h1 h2 b c⟩
  | additionalProperty kvs i k x a b c e =>
    obtain ⟨A, h1, h2⟩ := f.addProps.toDoc a
    exact ⟨_, h2, .additionalProperty A kvs k _ h1 b ((corr_additional f.props f.patProps k).1 ⟨c, e⟩)⟩
  | propertyName kvs i k a b =>
    obtain ⟨hd, D, h1, h2⟩ := f.propNames.toDoc a
    exact ⟨D, h2, .propertyName D kvs k hd h1 b⟩

/-- Whom a node asks was made from a document under the same draft. -/
theorem needs_stat {s : Sub} {S : Id → Json → Prop} {v j x} (hwf : (Json.obj m).WF) (f : FieldsOK w h d m s)
    (hn : Needs w.env S s v j x) : ∃ D, Stat h d D j := by
  have list : ∀ {key ids i}, ListOK h d m key ids → i ∈ ids → ∃ D, Stat h d D i := by
    intro key ids i x hi
    obtain ⟨k, hk⟩ := List.getElem?_of_mem hi
    obtain ⟨_, D, _, _, _, h4⟩ := x.toDoc hk
    exact ⟨D, h4⟩
  have opt : ∀ {act key o i}, OptOK h d act m key o → o = some i → ∃ D, Stat h d D i := by
    intro act key o i x hi
    obtain ⟨_, D, _, h4⟩ := x.toDoc hi
    exact ⟨D, h4⟩
  have extra : ∀ {key e i}, ExtraOK h d m key e → e = .schema i → ∃ D, Stat h d D i := by
    intro key e i x hi
    obtain ⟨A, _, h4⟩ := x.toDoc hi
    exact ⟨_, h4⟩
  have item : ∀ {i}, i ∈ s.itemsChildren → ∃ D, Stat h d D i := by
    intro i hi
    rcases f.items with ⟨_, h3, _⟩ | ⟨Ds, _, h2, _⟩ | ⟨D, c, _, _, h3, h4, _⟩
    · rw [h3] at hi; cases hi
    · obtain ⟨D, _, hD⟩ := forall₂_mem_right h2 hi
      exact ⟨D, hD⟩
    · rw [h3] at hi; simp at hi; subst hi; exact ⟨D, h4⟩
  cases hn with
  | anyOf k i v a b => exact list f.anyOf (List.mem_of_getElem? a)
  | oneOf i v a => exact list f.oneOf a
  | allOf i v a => exact list f.allOf a
  | not i v a => exact opt f.not a
  | dependency kvs k i a b =>
    obtain ⟨_, D, _, _, _, h4⟩ := f.deps.toDoc hwf b
    exact ⟨D, h4⟩
  | if_ i v a => exact opt f.if_ a
  | then_ i t v a b c => exact opt f.then_ b
  | else_ i t v a b c => exact opt f.else_ b
  | items xs i x a b c => exact item (List.mem_of_mem_head? (by rw [b]; rfl))
  | itemAt k xs i x a b c => exact item (List.mem_of_getElem? b)
  | additionalItem k xs i x a hne b c e => exact extra f.addItems b
  | contains k xs i x a b c => exact opt f.contains a
  | property kvs name i x a b =>
    obtain ⟨_, D, _, _, h3⟩ := f.props.mem_iff.1 _ _ a
    exact ⟨D, h3⟩
  | patternProperty kvs pat i k x a b c =>
    obtain ⟨_, D, _, _, h3⟩ := f.patProps.mem_iff.1 _ _ a
    exact ⟨D, h3⟩
  | additionalProperty kvs i k x a b c e => exact extra f.addProps a
  | propertyName kvs i k a b => exact opt f.propNames a

/-- Whom the schema object asks, the compiled node asks. -/
theorem doc_needs {s : Sub} {v D x} (hwf : (Json.obj m).WF) (f : FieldsOK w h d m s) (hn : DNeeds w.env (Sat d) d m v D x) :
    ∃ j, Stat h d D j ∧ Needs w.env (satNode h Sat) s v j x := by
  cases hn with
  | anyOf k Ds D v a b c =>
    obtain ⟨j, h1, h2⟩ := forall₂_left (f.anyOf.toNode a) b
    refine ⟨j, h2, .anyOf k j _ h1 fun k' i' hk' hi' => ?_⟩
    obtain ⟨D', h3, h4⟩ := forall₂_right (f.anyOf.toNode a) hi'
    exact (not_sat h4).2 (c k' D' hk' h3)
  | oneOf Ds D v a b =>
    obtain ⟨j, h1, h2⟩ := forall₂_mem_left (f.oneOf.toNode a) b
    exact ⟨j, h2, .oneOf j _ h1⟩
  | allOf Ds D v a b =>
    obtain ⟨j, h1, h2⟩ := forall₂_mem_left (f.allOf.toNode a) b
    exact ⟨j, h2, .allOf j _ h1⟩
  | not D v a =>
    obtain ⟨j, h1, h2⟩ := f.not.toNode trivial a
    exact ⟨j, h2, .not j _ h1⟩
  | dependency ds kvs k D a b c e =>
    obtain ⟨j, h1, h2⟩ := f.deps.toNode hwf a b c
    exact ⟨j, h2, .dependency kvs k j e h1⟩
  | if_ I v hd a =>
    obtain ⟨j, h1, h2⟩ := f.if_.toNode hd a
    exact ⟨j, h2, .if_ j _ h1⟩
  | then_ I T v hd a b c =>
    obtain ⟨i, h1, h2⟩ := f.if_.toNode hd a
    obtain ⟨j, h3, h4⟩ := f.then_.toNode hd b
    exact ⟨j, h4, .then_ i j _ h1 h3 ((h2.sat _).2 c)⟩
  | else_ I E v hd a b c =>
    obtain ⟨i, h1, h2⟩ := f.if_.toNode hd a
    obtain ⟨j, h3, h4⟩ := f.else_.toNode hd b
    exact ⟨j, h4, .else_ i j _ h1 h3 ((not_sat h2).2 c)⟩
  | items D xs x a b c =>
    rcases f.items with ⟨h1, _, _⟩ | ⟨Ds, h1, _, _⟩ | ⟨D', j, h1, h2, h3, h4, h5⟩
    · rw [Kw, h1] at a; cases a
    · rw [Kw, h1] at a; cases a; exact absurd rfl (b Ds)
    · rw [Kw, h1] at a; cases a
      exact ⟨j, h4, .items xs j _ h5 (by rw [h3]; rfl) c⟩
  | itemAt k Ds D xs x a b c =>
    rcases f.items with ⟨h1, _, _⟩ | ⟨Ds', h1, h2, h3⟩ | ⟨D', j, h1, h2, h3, h4, h5⟩
    · rw [Kw, h1] at a; cases a
    · rw [Kw, h1] at a; cases a
      obtain ⟨j, h4, h5⟩ := forall₂_left h2 b
      exact ⟨j, h5, .itemAt k xs j _ h3 h4 c⟩
    · rw [Kw, h1] at a; cases a; exact absurd rfl (h2 Ds)
  | additionalItem k Ds A xs x a hne b c e =>
    rcases f.items with ⟨h1, _, _⟩ | ⟨Ds', h1, h2, h3⟩ | ⟨D', j, h1, h2, h3, h4, h5⟩
    · rw [Kw, h1] at a; cases a
    · rw [Kw, h1] at a; cases a
      obtain ⟨j, h4, h5⟩ := f.addItems.toNode b
      have hl := (forall₂_get h2).1
      refine ⟨j, h5, .additionalItem k xs j _ h3 ?_ h4 (by omega) e⟩
      intro h0
      rw [h0] at hl
      exact hne (List.length_eq_zero_iff.1 hl)
    · rw [Kw, h1] at a; cases a; exact absurd rfl (h2 Ds)
  | contains k D xs x hd a b c =>
    obtain ⟨j, h1, h2⟩ := f.contains.toNode hd a
    exact ⟨j, h2, .contains k xs j _ h1 b fun k' y hk' hy => (not_sat h2).2 (c k' y hk' hy)⟩
  | property ps kvs k D x a b c =>
    obtain ⟨j, h1, h2⟩ := f.props.mem_iff.2 _ _ _ a b
    exact ⟨j, h2, .property kvs k j _ h1 c⟩
  | patternProperty ps kvs q D k x a b c e =>
    obtain ⟨j, h1, h2⟩ := f.patProps.mem_iff.2 _ _ _ a b
    exact ⟨j, h2, .patternProperty kvs q j k _ h1 c e⟩
  | additionalProperty A kvs k x a b c =>
    obtain ⟨j, h1, h2⟩ := f.addProps.toNode a
    obtain ⟨h3, h4⟩ := (corr_additional f.props f.patProps k).2 c
    exact ⟨j, h2, .additionalProperty kvs j k _ h1 b h3 h4⟩
  | propertyName D kvs k hd a b =>
    obtain ⟨j, h1, h2⟩ := f.propNames.toNode hd a
    exact ⟨j, h2, .propertyName kvs j k h1 b⟩

/-- An answer of the document is an answer of every node made from it. -/
theorem Good.answers_of_doc {l s d0 D0} (g : Good w l s d0 D0) {d D v b}
    (ha : DocAnswers w.env (resolveIn w s.heap s.refs) d D v b) : ∀ {i}, Stat s.heap d D i → Answers w.env s.heap i v b := by
  induction ha with
  | bool d b v =>
    intro i hs
    obtain ⟨n, h1, rfl, h3⟩ := hs
    cases g.nodes i n h1 with
    | bool b' e _ =>
      rw [e] at h3
      cases h3
      exact .pass i v n _ h1 (by rw [e])
    | ref m r u j e => rw [h3] at e; cases e
    | plain m e => rw [h3] at e; cases e
  | ref d m r d' D' v b hk hr _ ih =>
    intro i hs
    obtain ⟨n, h1, rfl, h3⟩ := hs
    cases g.nodes i n h1 with
    | bool b' e _ => rw [e] at h3; cases h3
    | plain m' e e2 => rw [h3] at e; cases e; rw [Kw, e2] at hk; cases hk
    | ref m' r' u j e e2 e3 e4 e5 e6 =>
      rw [h3] at e; cases e; rw [Kw, e2] at hk; cases hk
      refine .ref i v n j b h1 e6 e5 (ih ?_)
      simp only [resolveIn, e3, e4, Option.map_eq_some_iff, Prod.mk.injEq] at hr
      obtain ⟨n', a1, a2, a3⟩ := hr
      exact ⟨n', a1, a2, a3⟩
  | type d m v hk ht =>
    intro i hs
    obtain ⟨n, h1, rfl, h3⟩ := hs
    cases g.nodes i n h1 with
    | bool b' e _ => rw [e] at h3; cases h3
    | ref m' r' u j e e2 => rw [h3] at e; cases e; exact absurd e2 (hk _)
    | plain m' e e2 e3 e4 e5 =>
      rw [h3] at e; cases e
      exact .type i v n h1 e4 e3 (by rw [corr_type e5.types]; exact ht)
  | object d m v b a hk ht _ hb ih =>
    intro i hs
    obtain ⟨n, h1, rfl, h3⟩ := hs
    cases g.nodes i n h1 with
    | bool b' e _ => rw [e] at h3; cases h3
    | ref m' r' u j e e2 => rw [h3] at e; cases e; exact absurd e2 (hk _)
    | plain m' e e2 e3 e4 e5 =>
      rw [h3] at e; cases e
      have hwf := g.docs i n h1
      rw [h3] at hwf
      classical
      let Sat : Draft → Json → Json → Prop := fun _ D x => a D x = true
      let dd : Id → Json → Bool := fun j x => decide (satNode s.heap Sat j x)
      have ed : (fun j x => dd j x = true) = satNode s.heap Sat := by funext j x; simp [dd]
      refine .node i v n b dd h1 e4 e3 (by rw [corr_type e5.types]; exact ht) ?_ ?_
      · intro j x hn
        rw [ed] at hn
        obtain ⟨D, hD, hdn⟩ := needs_doc hwf e5 hn
        have := ih D x hdn hD
        rwa [show dd j x = a D x by rw [Bool.eq_iff_iff]; simp only [dd, decide_eq_true_eq]; exact hD.sat x]
      · rw [ed, corr_keywords hwf e5]
        exact hb

/-- An answer of a node is an answer of its document. -/
theorem Good.doc_of_answers {l s d0 D0} (g : Good w l s d0 D0) {i v b} (ha : Answers w.env s.heap i v b) :
    ∀ {d D}, Stat s.heap d D i → DocAnswers w.env (resolveIn w s.heap s.refs) d D v b := by
  induction ha with
  | pass i v n b h1 h2 =>
    rintro d D ⟨n', h1', rfl, rfl⟩
    rw [h1] at h1'; cases h1'
    cases g.nodes i n h1 with
    | bool b' e _ =>
      rw [e] at h2 ⊢
      cases h2
      exact .bool _ _ _
    | ref m r u j _ _ _ _ _ e6 => rw [e6] at h2; cases h2
    | plain m _ _ _ e4 => rw [e4] at h2; cases h2
  | ref i v n j b h1 h2 h3 _ ih =>
    rintro d D ⟨n', h1', rfl, rfl⟩
    rw [h1] at h1'; cases h1'
    cases g.nodes i n h1 with
    | bool b' e _ => rw [e] at h2; cases h2
    | plain m _ _ e3 => rw [e3] at h3; cases h3
    | ref m r u j' e e2 e3 e4 e5 e6 =>
      rw [h3] at e5; cases e5
      obtain ⟨d', D', hj, _⟩ := g.refs u j e4
      rw [e]
      refine .ref _ m r d' D' v b e2 ?_ (ih hj)
      obtain ⟨n', a1, a2, a3⟩ := hj
      simp [resolveIn, e3, e4, a1, a2, a3]
  | type i v n h1 h2 h3 h4 =>
    rintro d D ⟨n', h1', rfl, rfl⟩
    rw [h1] at h1'; cases h1'
    cases g.nodes i n h1 with
    | bool b' e _ => rw [e] at h2; cases h2
    | ref m r u j' e e2 e3 e4 e5 e6 => rw [h3] at e5; cases e5
    | plain m e e2 e3 e4 e5 =>
      rw [e]
      exact .type _ m v (fun r hr => by rw [Kw, e2] at hr; cases hr) (by rw [← corr_type e5.types]; exact h4)
  | node i v n b a h1 h2 h3 h4 _ h5 ih =>
    rintro d D ⟨n', h1', rfl, rfl⟩
    rw [h1] at h1'; cases h1'
    cases g.nodes i n h1 with
    | bool b' e _ => rw [e] at h2; cases h2
    | ref m r u j' e e2 e3 e4 e5 e6 => rw [h3] at e5; cases e5
    | plain m e e2 e3 e4 e5 =>
      have hwf := g.docs i n h1
      rw [e] at hwf
      classical
      let R := resolveIn w s.heap s.refs
      let a' : Json → Json → Bool := fun D x => decide (DocAnswers w.env R n.draft D x true)
      let Sat : Draft → Json → Json → Prop := fun d D x => a' D x = true
      have pin : ∀ j x D, Needs w.env (fun j w => a j w = true) n v j x → Stat s.heap n.draft D j → a' D x = a j x := by
        intro j x D hn hD
        have h6 := ih j x hn hD
        cases ha : a j x with
        | true => rw [ha] at h6; simp only [a', decide_eq_true_eq]; exact h6
        | false =>
          rw [ha] at h6
          simp only [a', decide_eq_false_iff_not]
          intro h7
          obtain ⟨N, hN⟩ := unfold_of_answers (fun _ _ => True) (g.answers_of_doc h6 hD)
          obtain ⟨M, hM⟩ := unfold_of_answers (fun _ _ => True) (g.answers_of_doc h7 hD)
          have h8 := (hN (max N M) (by omega)).symm.trans (hM (max N M) (by omega))
          simp at h8
      have H : ∀ j x, Needs w.env (fun j w => a j w = true) n v j x → (a j x = true ↔ satNode s.heap Sat j x) := by
        intro j x hn
        obtain ⟨D, hD⟩ := needs_stat hwf e5 hn
        rw [hD.sat x, ← pin j x D hn hD]
      rw [e]
      refine .object _ m v b a' (fun r hr => by rw [Kw, e2] at hr; cases hr) (by rw [← corr_type e5.types]; exact h4) ?_ ?_
      · intro D x hdn
        obtain ⟨j, hj, hn⟩ := doc_needs (Sat := Sat) hwf e5 hdn
        have hn' := needs_back H hn
        rw [pin j x D hn' hj]
        exact ih j x hn' hj
      · rw [h5, keywords_needs H, corr_keywords hwf e5]

end GJS

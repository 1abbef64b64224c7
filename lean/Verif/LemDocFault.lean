import Verif.LemCompile
import Verif.LemFault
import Verif.SpecDocFault
/-
Helper lemmas: a finished node has the faults of its document, and applies the nodes of the
sub-schemas its document applies.
-/
namespace GJS
open Spec

variable {w : World} {h : Heap} {refs : List (String × Id)} {SH SF : Draft → Json → Json → Prop}
  {d : Draft} {m : List (String × Json)} {s : Sub} {v : Json}

theorem listOK_of {key ids} (hk : ListOK h d m key ids) {Ds} (hD : Kw m key (.arr Ds)) : List.Forall₂ (Stat h d) Ds ids := by
  unfold Kw at hD
  rcases hk with ⟨h1, _⟩ | ⟨Ds', h1, hf⟩
  · rw [h1] at hD; cases hD
  · rw [h1] at hD; cases hD; exact hf

theorem listOK_to {key ids} (hk : ListOK h d m key ids) {i : Id} (hi : i ∈ ids) :
    ∃ Ds, Kw m key (.arr Ds) ∧ List.Forall₂ (Stat h d) Ds ids := by
  rcases hk with ⟨_, rfl⟩ | ⟨Ds, h1, hf⟩
  · cases hi
  · exact ⟨Ds, h1, hf⟩

theorem listOK_ne {key ids} (hk : ListOK h d m key ids) (hne : ids ≠ []) :
    ∃ Ds, Kw m key (.arr Ds) ∧ Ds ≠ [] ∧ List.Forall₂ (Stat h d) Ds ids := by
  rcases hk with ⟨_, rfl⟩ | ⟨Ds, h1, hf⟩
  · exact absurd rfl hne
  · exact ⟨Ds, h1, by rintro rfl; cases hf; exact hne rfl, hf⟩

theorem forall₂_ne {R : α → β → Prop} {l₁ l₂} (hf : List.Forall₂ R l₁ l₂) (hne : l₁ ≠ []) : l₂ ≠ [] := by
  rintro rfl; cases hf; exact hne rfl

theorem forall₂_ne' {R : α → β → Prop} {l₁ l₂} (hf : List.Forall₂ R l₁ l₂) (hne : l₂ ≠ []) : l₁ ≠ [] := by
  rintro rfl; cases hf; exact hne rfl

theorem all_to {Ds ids} (hf : List.Forall₂ (Stat h d) Ds ids) : (∀ i ∈ ids, satNode h SF i v) ↔ ∀ D ∈ Ds, SF d D v := by
  constructor
  · intro ha D hD
    obtain ⟨i, hi, hs⟩ := forall₂_mem_left hf hD
    exact (hs.sat v).1 (ha i hi)
  · intro ha i hi
    obtain ⟨D, hD, hs⟩ := forall₂_mem_right hf hi
    exact (hs.sat v).2 (ha D hD)

theorem optOK_to {act : Prop} {key o} (hk : OptOK h d act m key o) {c} (hc : o = some c) :
    act ∧ ∃ D, Kw m key D ∧ Stat h d D c := by
  rcases hk with ⟨h1, _⟩ | ⟨ha, D, c', h1, h2, hs⟩
  · rw [h1] at hc; cases hc
  · rw [h2] at hc; cases hc; exact ⟨ha, D, h1, hs⟩

theorem optOK_of {act : Prop} {key o} (hk : OptOK h d act m key o) (ha : act) {D} (hD : Kw m key D) :
    ∃ c, o = some c ∧ Stat h d D c := by
  unfold Kw at hD
  rcases hk with ⟨_, h1⟩ | ⟨_, D', c', h1, h2, hs⟩
  · rw [h1 ha] at hD; cases hD
  · rw [h1] at hD; cases hD; exact ⟨c', h2, hs⟩

theorem sizeOK_iff {key o} (hk : SizeOK m key o) {z : Int} : o = some z ↔ Size m key z := by
  unfold Size Kw
  rcases hk with ⟨h1, rfl⟩ | ⟨n, z', h1, rfl, h2⟩
  · simp [h1]
  · have := int64_val h2
    simp only [h1, Option.some.injEq, Json.num.injEq]
    constructor
    · rintro rfl; exact ⟨n, rfl, this⟩
    · rintro ⟨_, rfl, e⟩
      rw [this] at e
      exact_mod_cast e

theorem numOK_iff {key o} (hk : NumOK w m key o) {b : Rat} : o = some b ↔ ∃ q, Kw m key (.num q) ∧ b = q.val := by
  unfold Kw
  rcases hk with ⟨h1, rfl⟩ | ⟨n, h1, rfl, h2⟩
  · simp [h1]
  · simp [h1, eq_comm]

theorem boundsOK_iff {xkey key o x} (hk : BoundsOK w m xkey key o x) {b : Rat} :
    (o = some b ↔ ∃ q, Kw m key (.num q) ∧ ¬ Kw m xkey (.bool true) ∧ b = q.val) ∧
    (x = some b ↔ (∃ q, Kw m key (.num q) ∧ Kw m xkey (.bool true) ∧ b = q.val) ∨
      ∃ q, Kw m xkey (.num q) ∧ w.env.ratOk q = true ∧ b = q.val) := by
  obtain ⟨b0, hb, hk⟩ := hk
  have hb' := numOK_iff hb (b := b)
  unfold Kw at *
  rcases hk with ⟨h1, rfl, rfl⟩ | ⟨q, hq, h1, rfl, rfl⟩ | ⟨q, hq, h1, rfl, rfl⟩ | ⟨n, h1, rfl, rfl⟩
  · simp [h1, hb']
  · rw [hq] at hb'; simp [h1, hb']
  · rw [hq] at hb'; simp [h1, hb']
  · refine ⟨by simp [h1, hb'], ?_⟩
    simp only [h1, Option.some.injEq, reduceCtorEq, false_and, and_false, exists_false, false_or, Json.num.injEq]
    unfold Env.rat
    constructor
    · intro e
      split at e
      · rename_i ho; simp at e; exact ⟨n, rfl, ho, e.symm⟩
      · cases e
    · rintro ⟨_, rfl, ho, rfl⟩
      simp [ho]

theorem extraOK_bool {key e} (hk : ExtraOK h d m key e) {b : Bool} : e = .bool b ↔ Kw m key (.bool b) := by
  unfold Kw
  rcases hk with ⟨h1, rfl⟩ | ⟨b', h1, rfl⟩ | ⟨A, c, h1, rfl, hs⟩ <;> simp [h1]

theorem extraOK_to {key e} (hk : ExtraOK h d m key e) {c} (hc : e = .schema c) : ∃ A, Kw m key (.obj A) ∧ Stat h d (.obj A) c := by
  rcases hk with ⟨_, rfl⟩ | ⟨b', _, rfl⟩ | ⟨A, c', h1, rfl, hs⟩
  · cases hc
  · cases hc
  · cases hc; exact ⟨A, h1, hs⟩

theorem extraOK_of {key e} (hk : ExtraOK h d m key e) {A} (hA : Kw m key (.obj A)) : ∃ c, e = .schema c ∧ Stat h d (.obj A) c := by
  unfold Kw at hA
  rcases hk with ⟨h1, _⟩ | ⟨b', h1, _⟩ | ⟨A', c', h1, rfl, hs⟩
  · rw [h1] at hA; cases hA
  · rw [h1] at hA; cases hA
  · rw [h1] at hA; cases hA; exact ⟨c', rfl, hs⟩

theorem itemsOK_arr {is single} (hk : ItemsOK h d m is single) {Ds} (hD : Kw m "items" (.arr Ds)) :
    List.Forall₂ (Stat h d) Ds is ∧ single = false := by
  unfold Kw at hD
  rcases hk with ⟨h1, _⟩ | ⟨Ds', h1, hf, hs⟩ | ⟨D, c, h1, hn, _⟩
  · rw [h1] at hD; cases hD
  · rw [h1] at hD; cases hD; exact ⟨hf, hs⟩
  · rw [h1] at hD; cases hD; exact absurd rfl (hn _)

theorem itemsOK_one {is single} (hk : ItemsOK h d m is single) {D} (hD : Kw m "items" D) (hn : ∀ Ds, D ≠ .arr Ds) :
    ∃ c, is = [c] ∧ Stat h d D c ∧ single = true := by
  unfold Kw at hD
  rcases hk with ⟨h1, _⟩ | ⟨Ds', h1, hf, hs⟩ | ⟨D, c, h1, _, h2, h3, h4⟩
  · rw [h1] at hD; cases hD
  · rw [h1] at hD; cases hD; exact absurd rfl (hn _)
  · rw [h1] at hD; cases hD; exact ⟨c, h2, h3, h4⟩

theorem itemsOK_false {is single} (hk : ItemsOK h d m is single) (hne : is ≠ []) (hs : single = false) :
    ∃ Ds, Kw m "items" (.arr Ds) ∧ List.Forall₂ (Stat h d) Ds is := by
  rcases hk with ⟨_, h1, _⟩ | ⟨Ds', h1, hf, _⟩ | ⟨D, c, h1, _, h2, h3, h4⟩
  · exact absurd h1 hne
  · exact ⟨_, h1, hf⟩
  · rw [h4] at hs; cases hs

theorem itemsOK_true {is single c} (hk : ItemsOK h d m is single) (hs : single = true) (hc : is.head? = some c) :
    ∃ D, Kw m "items" D ∧ (∀ Ds, D ≠ .arr Ds) ∧ Stat h d D c := by
  rcases hk with ⟨_, _, h1⟩ | ⟨Ds', _, _, h1⟩ | ⟨D, c', h1, h2, rfl, h3, _⟩
  · rw [h1] at hs; cases hs
  · rw [h1] at hs; cases hs
  · cases hc; exact ⟨D, h1, h2, h3⟩

theorem depsOK_to {ds} (hwf : (Json.obj m).WF) (hk : DepsOK h d m ds) {k dep} (hd : getKey k ds = some dep) :
    ∃ Ds D, Kw m "dependencies" (.obj Ds) ∧ (k, D) ∈ Ds ∧
      ((∃ ks : List String, D = .arr (ks.map .str) ∧ dep = .keys ks) ∨ ((∀ xs, D ≠ .arr xs) ∧ ∃ c, dep = .schema c ∧ Stat h d D c)) := by
  rcases hk with ⟨h1, rfl⟩ | ⟨Ds, l, es, h1, hp, hf, rfl⟩
  · simp [getKey] at hd
  · have hn : (l.map Prod.fst).Nodup := by
      have := wf_nodup (wf_member hwf h1)
      exact (hp.map Prod.fst).nodup_iff.2 this
    by_cases hkl : k ∈ l.map Prod.fst
    · obtain ⟨⟨k', D⟩, hD, rfl⟩ := List.mem_map.1 hkl
      obtain ⟨e, hR, hl⟩ := deps_lookup hf hn hD
      rw [getKey, hl] at hd
      refine ⟨Ds, D, h1, hp.mem_iff.1 hD, ?_⟩
      rcases hR with ⟨ks, h3, rfl⟩ | ⟨h3, c, rfl, hs⟩
      · left
        refine ⟨ks, h3, ?_⟩
        cases ks <;> simp [depEntry] at hd
        exact hd.symm
      · right
        simp at hd
        exact ⟨h3, c, hd.symm, hs⟩
    · rw [getKey, deps_lookup_none hf hkl] at hd; cases hd

theorem depsOK_of {ds} (hwf : (Json.obj m).WF) (hk : DepsOK h d m ds) {Ds k D} (hD : Kw m "dependencies" (.obj Ds)) (hm : (k, D) ∈ Ds) :
    (∃ ks : List String, D = .arr (ks.map .str) ∧ (ks ≠ [] → getKey k ds = some (.keys ks))) ∨
    ((∀ xs, D ≠ .arr xs) ∧ ∃ c, getKey k ds = some (.schema c) ∧ Stat h d D c) := by
  unfold Kw at hD
  rcases hk with ⟨h1, _⟩ | ⟨Ds', l, es, h1, hp, hf, rfl⟩
  · rw [h1] at hD; cases hD
  · rw [h1] at hD; cases hD
    have hn : (l.map Prod.fst).Nodup := by
      have := wf_nodup (wf_member hwf h1)
      exact (hp.map Prod.fst).nodup_iff.2 this
    obtain ⟨e, hR, hl⟩ := deps_lookup hf hn (hp.mem_iff.2 hm)
    rw [getKey, hl]
    rcases hR with ⟨ks, h3, rfl⟩ | ⟨h3, c, rfl, hs⟩
    · left
      refine ⟨ks, h3, fun hne => ?_⟩
      cases ks with
      | nil => exact absurd rfl hne
      | cons a ks => simp [depEntry]
    · exact .inr ⟨h3, c, rfl, hs⟩

theorem strsOK_iff {key qs} (hk : StrsOK m key qs) {q} : q ∈ qs ↔ ∃ qs', Kw m key (.arr qs') ∧ Json.str q ∈ qs' := by
  unfold Kw
  rcases hk with ⟨h1, rfl⟩ | h1
  · simp [h1]
  · simp [h1]

theorem typesOK_iff {ts} (hk : TypesOK m ts) (hne : ts ≠ []) {ts'} : Types m ts' ↔ ts' = ts := by
  unfold Types Kw
  rcases hk with ⟨_, h1⟩ | ⟨t, h1, rfl⟩ | h1
  · exact absurd h1 hne
  · simp [h1]
  · rw [h1]
    simp only [Option.some.injEq, reduceCtorEq, false_and, exists_false, false_or, Json.arr.injEq]
    constructor
    · intro e
      exact (List.map_injective_iff.2 (fun a b e => by cases e; rfl) e).symm
    · rintro rfl; rfl

/-- A finished node has the faults of its document. -/
theorem corr_kwFault (hwf : (Json.obj m).WF) (hf : FieldsOK w h d m s) {k x} :
    KwFault w.env (satNode h SH) (satNode h SF) s v k x ↔ DKwFault w.env (SH d) (SF d) d m v k x := by
  constructor
  · intro hk
    cases hk with
    | anyOf hne ha =>
      obtain ⟨Ds, h1, h2, h3⟩ := listOK_ne hf.anyOf hne
      exact .anyOf Ds h1 h2 ((all_to h3).1 ha)
    | oneOf_none hne ha =>
      obtain ⟨Ds, h1, h2, h3⟩ := listOK_ne hf.oneOf hne
      exact .oneOf_none Ds h1 h2 ((all_to h3).1 ha)
    | oneOf_many k k' i i' h1 h2 h3 h4 h5 =>
      obtain ⟨Ds, e1, e2⟩ := listOK_to hf.oneOf (List.mem_of_getElem? h2)
      obtain ⟨D, f1, f2⟩ := forall₂_right e2 h2
      obtain ⟨D', f3, f4⟩ := forall₂_right e2 h3
      exact .oneOf_many Ds k k' D D' e1 h1 f1 f3 ((f2.sat v).1 h4) ((f4.sat v).1 h5)
    | allOf i hi hF =>
      obtain ⟨Ds, e1, e2⟩ := listOK_to hf.allOf hi
      obtain ⟨D, f1, f2⟩ := forall₂_mem_right e2 hi
      exact .allOf Ds D e1 f1 ((f2.sat v).1 hF)
    | not i hi hH =>
      obtain ⟨_, D, e1, e2⟩ := optOK_to hf.not hi
      exact .not D e1 ((e2.sat v).1 hH)
    | dependency kvs k ks q hv hk hks hq hn =>
      obtain ⟨Ds, D, e1, e2, ⟨ks', rfl, e3⟩ | ⟨_, c, e3, _⟩⟩ := depsOK_to hwf hf.deps hks
      · cases e3
        exact .dependency kvs Ds k _ q hv e1 e2 hk (List.mem_map.2 ⟨q, hq, rfl⟩) hn
      · cases e3
    | then_ i t hi ht hH hF =>
      obtain ⟨ha, I, e1, e2⟩ := optOK_to hf.if_ hi
      obtain ⟨_, T, e3, e4⟩ := optOK_to hf.then_ ht
      exact .then_ I T ha e1 e3 ((e2.sat v).1 hH) ((e4.sat v).1 hF)
    | else_ i t hi ht hH hF =>
      obtain ⟨ha, I, e1, e2⟩ := optOK_to hf.if_ hi
      obtain ⟨_, T, e3, e4⟩ := optOK_to hf.else_ ht
      exact .else_ I T ha e1 e3 ((e2.sat v).1 hH) ((e4.sat v).1 hF)
    | const k hk hn =>
      rcases hf.const with ⟨e1, _⟩ | ⟨ha, c, t, e1, e2, e3⟩
      · rw [e1] at hk; cases hk
      · rw [e3] at hk; cases hk
        exact .const c _ ha e1 e2 hn
    | enum hne hn =>
      rcases hf.enum with ⟨_, e1⟩ | ⟨cs, e1, e2⟩
      · exact absurd e1 hne
      · refine .enum cs s.enum e1 (forall₂_ne' e2 hne) ?_ ?_
        · clear hne hn e1
          generalize s.enum = ts at e2
          induction e2 with
          | nil => rfl
          | cons a _ ih => simp [a, ih]
        · intro c hc
          obtain ⟨t, ht, e⟩ := forall₂_mem_left e2 hc
          rw [e]; exact hn t ht
    | format hne hn =>
      rcases hf.format with ⟨_, e1⟩ | e1
      · exact absurd e1 hne
      · exact .format s.format e1 hne hn
    | additionalItems xs hv hs hne ha hlt =>
      obtain ⟨Ds, e1, e2⟩ := itemsOK_false hf.items hne hs
      have := (forall₂_get e2).1
      exact .additionalItems xs Ds hv e1 (forall₂_ne' e2 hne) ((extraOK_bool hf.addItems).1 ha) (by omega)
    | minItems xs z hv hz hlt => exact .minItems xs z hv ((sizeOK_iff hf.minItems).1 hz) hlt
    | maxItems xs z hv hz hlt => exact .maxItems xs z hv ((sizeOK_iff hf.maxItems).1 hz) hlt
    | unique xs a b x y hv hu h1 h2 h3 h4 h5 =>
      refine .unique xs a b x y hv ?_ h1 h2 h3 h4 h5
      rcases hf.uniqueItems with ⟨_, e⟩ | e
      · rw [e] at hu; cases hu
      · rw [hu] at e; exact e
    | contains xs i hv hi hF =>
      obtain ⟨ha, D, e1, e2⟩ := optOK_to hf.contains hi
      exact .contains xs D hv ha e1 fun x hx => (e2.sat x).1 (hF x hx)
    | minProperties kvs z hv hz hlt => exact .minProperties kvs z hv ((sizeOK_iff hf.minProperties).1 hz) hlt
    | maxProperties kvs z hv hz hlt => exact .maxProperties kvs z hv ((sizeOK_iff hf.maxProperties).1 hz) hlt
    | required kvs q hv hq hn =>
      obtain ⟨qs, e1, e2⟩ := (strsOK_iff hf.required).1 hq
      exact .required kvs qs q hv e1 e2 hn
    | additionalProperty kvs k x hv hm hx ha =>
      exact .additionalProperty kvs k x hv hm ((corr_additional hf.props hf.patProps k).1 hx) ((extraOK_bool hf.addProps).1 ha)
    | propertyName kvs k i hv hk hi hF =>
      obtain ⟨ha, D, e1, e2⟩ := optOK_to hf.propNames hi
      exact .propertyName kvs k D hv hk ha e1 ((e2.sat _).1 hF)
    | minLength t z hv hz hlt => exact .minLength t z hv ((sizeOK_iff hf.minLength).1 hz) hlt
    | maxLength t z hv hz hlt => exact .maxLength t z hv ((sizeOK_iff hf.maxLength).1 hz) hlt
    | pattern t q hv hq hn =>
      rcases hf.pattern with ⟨_, e⟩ | ⟨t', e1, e2⟩
      · rw [e] at hq; cases hq
      · rw [e2] at hq; cases hq
        exact .pattern t q hv e1 hn
    | multipleOf n b hv hb hn =>
      obtain ⟨q, e1, rfl⟩ := (numOK_iff hf.multipleOf).1 hb
      exact .multipleOf n q hv e1 hn
    | maximum n b hv hb hn =>
      obtain ⟨q, e1, e2, rfl⟩ := (boundsOK_iff hf.maxs).1.1 hb
      exact .maximum n q hv e1 e2 hn
    | exclusiveMaximum n b hv hb hn =>
      rcases (boundsOK_iff hf.maxs).2.1 hb with ⟨q, e1, e2, rfl⟩ | ⟨q, e1, e2, rfl⟩
      · exact .exclusiveMaximum n q hv e1 e2 hn
      · exact .exclusiveMaximum' n q hv e1 e2 hn
    | minimum n b hv hb hn =>
      obtain ⟨q, e1, e2, rfl⟩ := (boundsOK_iff hf.mins).1.1 hb
      exact .minimum n q hv e1 e2 hn
    | exclusiveMinimum n b hv hb hn =>
      rcases (boundsOK_iff hf.mins).2.1 hb with ⟨q, e1, e2, rfl⟩ | ⟨q, e1, e2, rfl⟩
      · exact .exclusiveMinimum n q hv e1 e2 hn
      · exact .exclusiveMinimum' n q hv e1 e2 hn
  · intro hk
    cases hk with
    | anyOf Ds h1 hne ha =>
      have e := listOK_of hf.anyOf h1
      exact .anyOf (forall₂_ne e hne) ((all_to e).2 ha)
    | oneOf_none Ds h1 hne ha =>
      have e := listOK_of hf.oneOf h1
      exact .oneOf_none (forall₂_ne e hne) ((all_to e).2 ha)
    | oneOf_many Ds k k' D D' h1 h2 h3 h4 h5 h6 =>
      have e := listOK_of hf.oneOf h1
      obtain ⟨i, f1, f2⟩ := forall₂_left e h3
      obtain ⟨i', f3, f4⟩ := forall₂_left e h4
      exact .oneOf_many k k' i i' h2 f1 f3 ((f2.sat v).2 h5) ((f4.sat v).2 h6)
    | allOf Ds D h1 hD hF =>
      obtain ⟨i, f1, f2⟩ := forall₂_mem_left (listOK_of hf.allOf h1) hD
      exact .allOf i f1 ((f2.sat v).2 hF)
    | not D hD hH =>
      obtain ⟨i, e1, e2⟩ := optOK_of hf.not trivial hD
      exact .not i e1 ((e2.sat v).2 hH)
    | dependency kvs ds k qs q hv hds hm hk hq hn =>
      rcases depsOK_of hwf hf.deps hds hm with ⟨ks, e1, e2⟩ | ⟨e1, _⟩
      · cases e1
        obtain ⟨q', hq', e⟩ := List.mem_map.1 hq
        cases e
        exact .dependency kvs k ks q hv hk (e2 (by rintro rfl; cases hq')) hq' hn
      · exact absurd rfl (e1 _)
    | then_ I T ha hI hT hH hF =>
      obtain ⟨i, e1, e2⟩ := optOK_of hf.if_ ha hI
      obtain ⟨t, e3, e4⟩ := optOK_of hf.then_ ha hT
      exact .then_ i t e1 e3 ((e2.sat v).2 hH) ((e4.sat v).2 hF)
    | else_ I T ha hI hT hH hF =>
      obtain ⟨i, e1, e2⟩ := optOK_of hf.if_ ha hI
      obtain ⟨t, e3, e4⟩ := optOK_of hf.else_ ha hT
      exact .else_ i t e1 e3 ((e2.sat v).2 hH) ((e4.sat v).2 hF)
    | const c t ha hc ht hn =>
      unfold Kw at hc
      rcases hf.const with ⟨_, e1⟩ | ⟨_, c', t', e1, e2, e3⟩
      · rw [e1 ha] at hc; cases hc
      · rw [e1] at hc; cases hc
        rw [e2] at ht; cases ht
        exact .const t e3 hn
    | enum cs ts hcs hne hts hn =>
      unfold Kw at hcs
      rcases hf.enum with ⟨e1, _⟩ | ⟨cs', e1, e2⟩
      · rw [e1] at hcs; cases hcs
      · rw [e1] at hcs; cases hcs
        have e : ts = s.enum := by
          clear hne hn e1
          generalize s.enum = us at e2
          induction e2 generalizing ts with
          | nil => simpa using hts.symm
          | cons a _ ih =>
            cases ts with
            | nil => simp at hts
            | cons t ts =>
              simp only [List.map_cons, List.cons.injEq, a, Option.some.injEq] at hts
              rw [hts.1, ih _ hts.2]
        subst e
        refine .enum (forall₂_ne e2 hne) ?_
        intro t ht
        obtain ⟨c, hc, e⟩ := forall₂_mem_right e2 ht
        rw [← e]; exact hn c hc
    | format f hk hne hn =>
      unfold Kw at hk
      rcases hf.format with ⟨e1, _⟩ | e1
      · rw [e1] at hk; cases hk
      · rw [e1] at hk; cases hk
        exact .format hne hn
    | additionalItems xs Ds hv hD hne ha hlt =>
      obtain ⟨e1, e2⟩ := itemsOK_arr hf.items hD
      have := (forall₂_get e1).1
      exact .additionalItems xs hv e2 (forall₂_ne e1 hne) ((extraOK_bool hf.addItems).2 ha) (by omega)
    | minItems xs z hv hz hlt => exact .minItems xs z hv ((sizeOK_iff hf.minItems).2 hz) hlt
    | maxItems xs z hv hz hlt => exact .maxItems xs z hv ((sizeOK_iff hf.maxItems).2 hz) hlt
    | unique xs a b x y hv hu h1 h2 h3 h4 h5 =>
      refine .unique xs a b x y hv ?_ h1 h2 h3 h4 h5
      unfold Kw at hu
      rcases hf.uniqueItems with ⟨e, _⟩ | e
      · rw [e] at hu; cases hu
      · rw [e] at hu; simpa using hu
    | contains xs D hv ha hD hF =>
      obtain ⟨i, e1, e2⟩ := optOK_of hf.contains ha hD
      exact .contains xs i hv e1 fun x hx => (e2.sat x).2 (hF x hx)
    | minProperties kvs z hv hz hlt => exact .minProperties kvs z hv ((sizeOK_iff hf.minProperties).2 hz) hlt
    | maxProperties kvs z hv hz hlt => exact .maxProperties kvs z hv ((sizeOK_iff hf.maxProperties).2 hz) hlt
    | required kvs qs q hv hqs hq hn =>
      exact .required kvs q hv ((strsOK_iff hf.required).2 ⟨qs, hqs, hq⟩) hn
    | additionalProperty kvs k x hv hm hx ha =>
      exact .additionalProperty kvs k x hv hm ((corr_additional hf.props hf.patProps k).2 hx) ((extraOK_bool hf.addProps).2 ha)
    | propertyName kvs k D hv hk ha hD hF =>
      obtain ⟨i, e1, e2⟩ := optOK_of hf.propNames ha hD
      exact .propertyName kvs k i hv hk e1 ((e2.sat _).2 hF)
    | minLength t z hv hz hlt => exact .minLength t z hv ((sizeOK_iff hf.minLength).2 hz) hlt
    | maxLength t z hv hz hlt => exact .maxLength t z hv ((sizeOK_iff hf.maxLength).2 hz) hlt
    | pattern t q hv hq hn =>
      unfold Kw at hq
      rcases hf.pattern with ⟨e, _⟩ | ⟨t', e1, e2⟩
      · rw [e] at hq; cases hq
      · rw [e1] at hq; cases hq
        exact .pattern t q hv e2 hn
    | multipleOf n q hv hq hn => exact .multipleOf n _ hv ((numOK_iff hf.multipleOf).2 ⟨q, hq, rfl⟩) hn
    | maximum n q hv h1 h2 hn => exact .maximum n _ hv ((boundsOK_iff hf.maxs).1.2 ⟨q, h1, h2, rfl⟩) hn
    | exclusiveMaximum n q hv h1 h2 hn => exact .exclusiveMaximum n _ hv ((boundsOK_iff hf.maxs).2.2 (.inl ⟨q, h1, h2, rfl⟩)) hn
    | exclusiveMaximum' n q hv h1 h2 hn => exact .exclusiveMaximum n _ hv ((boundsOK_iff hf.maxs).2.2 (.inr ⟨q, h1, h2, rfl⟩)) hn
    | minimum n q hv h1 h2 hn => exact .minimum n _ hv ((boundsOK_iff hf.mins).1.2 ⟨q, h1, h2, rfl⟩) hn
    | exclusiveMinimum n q hv h1 h2 hn => exact .exclusiveMinimum n _ hv ((boundsOK_iff hf.mins).2.2 (.inl ⟨q, h1, h2, rfl⟩)) hn
    | exclusiveMinimum' n q hv h1 h2 hn => exact .exclusiveMinimum n _ hv ((boundsOK_iff hf.mins).2.2 (.inr ⟨q, h1, h2, rfl⟩)) hn

/-- A node without `$ref` is plain for `v` if its document applies to `v`. -/
theorem plain_iff (hr : getKey "$ref" m = none) (h1 : s.refSchema = none) (h2 : s.pass = none) (hf : FieldsOK w h d m s) :
    Plain w.env s v ↔ Applies w.env m v := by
  constructor
  · intro hp
    exact ⟨fun t ht => (by rw [Kw, hr] at ht; cases ht), (corr_type hf.types).1 hp.type⟩
  · intro ha
    exact ⟨h2, h1, (corr_type hf.types).2 ha.2⟩

/-- What the node of a document applies, the document applies. -/
theorem must_to (hwf : s.doc.WF) (hn : NodeOK w h refs s) (hlt : ∀ r j, getKey r refs = some j → j < h.length) {o j x}
    (hm : Must w.env (satNode h SH) (satNode h SF) s v o j x) :
    ∃ m d' D', s.doc = .obj m ∧ DMust w.env (resolveIn w h refs) (SH s.draft) (SF s.draft) s.draft m v o d' D' x ∧ Stat h d' D' j := by
  cases hn with
  | bool b hb =>
    have := must_pass hm
    rw [hb] at this; cases this
  | ref m r u j' h1 h2 h3 h4 h5 h6 _ =>
    refine ⟨m, ?_⟩
    rcases must_plain hm with ⟨e1, rfl, rfl⟩ | hp
    · rw [h5] at e1; cases e1
      have := hlt _ _ h4
      refine ⟨_, _, h1, .ref r _ _ h2 ?_, Stat.of (by simp [this] : h[j]? = some h[j])⟩
      unfold resolveIn
      rw [h3]; simp only [h4]; simp [this]
    · rw [hp.ref] at h5; cases h5
  | plain m h1 h2 h3 h4 hf =>
    rw [h1] at hwf
    refine ⟨m, s.draft, ?_⟩
    have ap : Plain w.env s v → Applies w.env m v := (plain_iff h2 h3 h4 hf).1
    cases hm with
    | ref _ hp hr => rw [h3] at hr; cases hr
    | allOf _ hp hi =>
      obtain ⟨Ds, e1, e2⟩ := listOK_to hf.allOf hi
      obtain ⟨D, f1, f2⟩ := forall₂_mem_right e2 hi
      exact ⟨D, h1, .allOf Ds D (ap hp) e1 f1, f2⟩
    | dependency kvs k _ hp hv hk hd =>
      obtain ⟨Ds, D, e1, e2, ⟨ks', _, e3⟩ | ⟨e4, c, e3, e5⟩⟩ := depsOK_to hwf hf.deps hd
      · cases e3
      · cases e3
        exact ⟨D, h1, .dependency kvs Ds k D (ap hp) hv e1 e2 e4 hk, e5⟩
    | then_ i _ hp hi ht hH =>
      obtain ⟨ha, I, e1, e2⟩ := optOK_to hf.if_ hi
      obtain ⟨_, T, e3, e4⟩ := optOK_to hf.then_ ht
      exact ⟨T, h1, .then_ I T (ap hp) ha e1 e3 ((e2.sat v).1 hH), e4⟩
    | else_ i _ hp hi ht hH =>
      obtain ⟨ha, I, e1, e2⟩ := optOK_to hf.if_ hi
      obtain ⟨_, T, e3, e4⟩ := optOK_to hf.else_ ht
      exact ⟨T, h1, .else_ I T (ap hp) ha e1 e3 ((e2.sat v).1 hH), e4⟩
    | items xs _ k x hp hv hs hj hx =>
      obtain ⟨I, e1, e2, e3⟩ := itemsOK_true hf.items hs hj
      exact ⟨I, h1, .items xs I k _ (ap hp) hv e1 e2 hx, e3⟩
    | item xs _ k x hp hv hs hj hx =>
      obtain ⟨Ds, e1, e2⟩ := itemsOK_false hf.items (List.ne_nil_of_mem (List.mem_of_getElem? hj)) hs
      obtain ⟨D, f1, f2⟩ := forall₂_right e2 hj
      exact ⟨D, h1, .item xs Ds D k _ (ap hp) hv e1 f1 hx, f2⟩
    | additionalItems xs _ k x hp hv hs hne hk hj hx =>
      obtain ⟨Ds, e1, e2⟩ := itemsOK_false hf.items hne hs
      obtain ⟨A, f1, f2⟩ := extraOK_to hf.addItems hj
      have := (forall₂_get e2).1
      exact ⟨.obj A, h1, .additionalItems xs Ds A k _ (ap hp) hv e1 (forall₂_ne' e2 hne) (by omega) f1 hx, f2⟩
    | property kvs _ k x hp hv hm hx =>
      obtain ⟨Ds, D, e1, e2, e3⟩ := hf.props.mem_iff.1 _ _ hm
      exact ⟨D, h1, .property kvs Ds k D _ (ap hp) hv e1 e2 hx, e3⟩
    | patternProperty kvs _ q k x hp hv hm hx hq =>
      obtain ⟨Ds, D, e1, e2, e3⟩ := hf.patProps.mem_iff.1 _ _ hm
      exact ⟨D, h1, .patternProperty kvs Ds q D k _ (ap hp) hv e1 e2 hx hq, e3⟩
    | additionalProperty kvs _ k x hp hv hm hx ha =>
      obtain ⟨A, e1, e2⟩ := extraOK_to hf.addProps ha
      exact ⟨.obj A, h1, .additionalProperty kvs A k _ (ap hp) hv hm ((corr_additional hf.props hf.patProps k).1 hx) e1, e2⟩
    | propertyName kvs _ k hp hv hk hi =>
      obtain ⟨ha, D, e1, e2⟩ := optOK_to hf.propNames hi
      exact ⟨D, h1, .propertyName kvs D k (ap hp) hv hk ha e1, e2⟩

theorem may_to (hwf : s.doc.WF) (hn : NodeOK w h refs s) (hlt : ∀ r j, getKey r refs = some j → j < h.length) {o j x}
    (hm : May w.env (satNode h SH) (satNode h SF) s v o j x) :
    ∃ m d' D', s.doc = .obj m ∧ DMay w.env (resolveIn w h refs) (SH s.draft) (SF s.draft) s.draft m v o d' D' x ∧ Stat h d' D' j := by
  have plain : Plain w.env s v → ∃ m, s.doc = .obj m ∧ Applies w.env m v ∧ FieldsOK w h s.draft m s := by
    intro hp
    cases hn with
    | bool b hb =>
      have := hp.pass
      rw [hb] at this; cases this
    | ref m r u j' _ _ _ _ h5 _ _ => rw [hp.ref] at h5; cases h5
    | plain m h1 h2 h3 h4 hf => exact ⟨m, h1, (plain_iff h2 h3 h4 hf).1 hp, hf⟩
  cases hm with
  | must _ _ _ hm =>
    obtain ⟨m, d', D', e1, e2, e3⟩ := must_to hwf hn hlt hm
    exact ⟨m, d', D', e1, .must _ _ _ _ e2, e3⟩
  | anyOf _ hp hj ha =>
    obtain ⟨m, h1, h2, hf⟩ := plain hp
    obtain ⟨Ds, e1, e2⟩ := listOK_to hf.anyOf hj
    obtain ⟨D, f1, f2⟩ := forall₂_mem_right e2 hj
    exact ⟨m, s.draft, D, h1, .anyOf Ds D h2 e1 f1 ((all_to e2).1 ha), f2⟩
  | oneOf _ hp hj ha =>
    obtain ⟨m, h1, h2, hf⟩ := plain hp
    obtain ⟨Ds, e1, e2⟩ := listOK_to hf.oneOf hj
    obtain ⟨D, f1, f2⟩ := forall₂_mem_right e2 hj
    exact ⟨m, s.draft, D, h1, .oneOf Ds D h2 e1 f1 ((all_to e2).1 ha), f2⟩
  | contains xs _ k _ hp hv hj hx ha =>
    obtain ⟨m, h1, h2, hf⟩ := plain hp
    obtain ⟨hd, D, e1, e2⟩ := optOK_to hf.contains hj
    exact ⟨m, s.draft, D, h1, .contains xs D k _ h2 hv hd e1 hx fun y hy => (e2.sat y).1 (ha y hy), e2⟩

/-- What a document applies, its node applies. -/
theorem must_of (hwf : s.doc.WF) (hn : NodeOK w h refs s) (hlt : ∀ r j, getKey r refs = some j → j < h.length) {o d' D' x}
    (hd : s.doc = .obj m) (hm : DMust w.env (resolveIn w h refs) (SH s.draft) (SF s.draft) s.draft m v o d' D' x) :
    ∃ j, Must w.env (satNode h SH) (satNode h SF) s v o j x ∧ Stat h d' D' j := by
  cases hn with
  | bool b hb => rw [hb] at hd; cases hd
  | ref m' r u j h1 h2 h3 h4 h5 h6 _ =>
    rw [h1] at hd; cases hd
    have no : ∀ v, ¬ Applies w.env m v := fun v ha => ha.1 r h2
    cases hm with
    | ref t _ _ hk hr =>
      rw [Kw, h2] at hk; cases hk
      have := hlt _ _ h4
      refine ⟨j, .ref j h6 h5, ?_⟩
      unfold resolveIn at hr
      rw [h3] at hr; simp only [h4] at hr; simp [this] at hr
      obtain ⟨rfl, rfl⟩ := hr
      exact Stat.of (by simp [this] : h[j]? = some h[j])
    | _ => exact absurd ‹_› (no _)
  | plain m' h1 h2 h3 h4 hf =>
    rw [h1] at hd; cases hd
    rw [h1] at hwf
    have ap : Applies w.env m v → Plain w.env s v := (plain_iff h2 h3 h4 hf).2
    cases hm with
    | ref t _ _ hk hr => rw [Kw, h2] at hk; cases hk
    | allOf Ds _ hp hD hm =>
      obtain ⟨i, f1, f2⟩ := forall₂_mem_left (listOK_of hf.allOf hD) hm
      exact ⟨i, .allOf i (ap hp) f1, f2⟩
    | dependency kvs ds k _ hp hv hds hm hna hk =>
      rcases depsOK_of hwf hf.deps hds hm with ⟨ks, e1, e2⟩ | ⟨_, c, e1, e2⟩
      · exact absurd e1 (hna _)
      · exact ⟨c, .dependency kvs k c (ap hp) hv hk e1, e2⟩
    | then_ I _ hp ha hI hT hH =>
      obtain ⟨i, e1, e2⟩ := optOK_of hf.if_ ha hI
      obtain ⟨t, e3, e4⟩ := optOK_of hf.then_ ha hT
      exact ⟨t, .then_ i t (ap hp) e1 e3 ((e2.sat v).2 hH), e4⟩
    | else_ I _ hp ha hI hT hH =>
      obtain ⟨i, e1, e2⟩ := optOK_of hf.if_ ha hI
      obtain ⟨t, e3, e4⟩ := optOK_of hf.else_ ha hT
      exact ⟨t, .else_ i t (ap hp) e1 e3 ((e2.sat v).2 hH), e4⟩
    | items xs _ k _ hp hv hI hna hx =>
      obtain ⟨c, e1, e2, e3⟩ := itemsOK_one hf.items hI hna
      exact ⟨c, .items xs c k _ (ap hp) hv e3 (by rw [e1]; rfl) hx, e2⟩
    | item xs Ds _ k _ hp hv hI hD hx =>
      obtain ⟨e1, e2⟩ := itemsOK_arr hf.items hI
      obtain ⟨i, f1, f2⟩ := forall₂_left e1 hD
      exact ⟨i, .item xs i k _ (ap hp) hv e2 f1 hx, f2⟩
    | additionalItems xs Ds A k _ hp hv hI hne hk hA hx =>
      obtain ⟨e1, e2⟩ := itemsOK_arr hf.items hI
      obtain ⟨c, f1, f2⟩ := extraOK_of hf.addItems hA
      have := (forall₂_get e1).1
      exact ⟨c, .additionalItems xs c k _ (ap hp) hv e2 (forall₂_ne e1 hne) (by omega) f1 hx, f2⟩
    | property kvs ps k _ _ hp hv hps hm hx =>
      obtain ⟨c, e1, e2⟩ := hf.props.mem_iff.2 _ _ _ hps hm
      exact ⟨c, .property kvs c k _ (ap hp) hv e1 hx, e2⟩
    | patternProperty kvs ps q _ k _ hp hv hps hm hx hq =>
      obtain ⟨c, e1, e2⟩ := hf.patProps.mem_iff.2 _ _ _ hps hm
      exact ⟨c, .patternProperty kvs c q k _ (ap hp) hv e1 hx hq, e2⟩
    | additionalProperty kvs A k _ hp hv hm hx hA =>
      obtain ⟨c, f1, f2⟩ := extraOK_of hf.addProps hA
      exact ⟨c, .additionalProperty kvs c k _ (ap hp) hv hm ((corr_additional hf.props hf.patProps k).2 hx) f1, f2⟩
    | propertyName kvs _ k hp hv hk ha hD =>
      obtain ⟨c, e1, e2⟩ := optOK_of hf.propNames ha hD
      exact ⟨c, .propertyName kvs c k (ap hp) hv hk e1, e2⟩

/-- A node has the faults of its document. -/
theorem corr_fault (hwf : s.doc.WF) (hn : NodeOK w h refs s) {k x} :
    Fault w.env (satNode h SH) (satNode h SF) s v k x ↔ DFault w.env (SH s.draft) (SF s.draft) s.draft v s.doc k x := by
  cases hn with
  | bool b hb =>
    have hp : s.pass = some b := by rw [hb]
    have hd : s.doc = .bool b := by rw [hb]
    rw [hd]
    constructor
    · intro hf
      cases hf with
      | false_ h1 => rw [hp] at h1; cases h1; exact .false_
      | type _ h1 => rw [hp] at h1; cases h1
      | keyword _ _ h1 => rw [h1.pass] at hp; cases hp
    · intro hf
      cases hf
      exact .false_ hp
  | ref m r u j h1 h2 h3 h4 h5 h6 _ =>
    rw [h1]
    constructor
    · intro hf
      cases hf with
      | false_ e => rw [h6] at e; cases e
      | type _ _ e => rw [h5] at e; cases e
      | keyword _ _ e => have := e.ref; rw [h5] at this; cases this
    · intro hf
      cases hf with
      | type _ _ _ e => exact absurd h2 (e r)
      | keyword _ _ _ e => exact absurd h2 (e r)
  | plain m h1 h2 h3 h4 hf =>
    rw [h1] at hwf ⊢
    have nr : NoRefHere m := fun t ht => by rw [Kw, h2] at ht; cases ht
    constructor
    · intro he
      cases he with
      | false_ e => rw [h4] at e; cases e
      | type t _ _ e1 e2 =>
        exact .type m s.types t nr ((typesOK_iff hf.types (types_ne e1)).2 rfl) (fun e => e1 ((corr_type hf.types).2 e)) e2
      | keyword _ _ e1 e2 => exact .keyword m k x nr ((corr_type hf.types).1 e1.type) ((corr_kwFault hwf hf).1 e2)
    · intro he
      cases he with
      | type _ ts t _ e1 e2 e3 =>
        have e4 : ¬ TypeRule w.env s.types v := fun e => e2 ((corr_type hf.types).1 e)
        cases (typesOK_iff hf.types (types_ne e4)).1 e1
        exact .type t h4 h3 e4 e3
      | keyword _ _ _ _ e1 e2 =>
        exact .keyword k x ⟨h4, h3, (corr_type hf.types).2 e1⟩ ((corr_kwFault hwf hf).2 e2)

theorem docUnfold_add {env resolve} (P) : ∀ n m, docUnfold env resolve P (n + m) = docUnfold env resolve (docUnfold env resolve P m) n := by
  intro n
  induction n with
  | zero => intro m; rw [Nat.zero_add]; rfl
  | succ n ih =>
    intro m
    rw [show n + 1 + m = (n + m) + 1 by omega]
    show DocRules env resolve (docUnfold env resolve P (n + m)) = _
    rw [ih]
    rfl

theorem not_dholds_dfails {env resolve d D v} (h1 : DHolds env resolve d D v) (h2 : DFails env resolve d D v) : False := by
  obtain ⟨n, h1⟩ := h1
  obtain ⟨m, h2⟩ := h2
  apply h2 (docUnfold env resolve (fun _ _ _ => True) n)
  rw [← docUnfold_add, Nat.add_comm, docUnfold_add]
  exact h1 _

section
variable {l : LState} {S : Schema} {D : Json}

theorem Good.settles (g : Good w l S d D) (σ : Sched) (n : Nat) :
    Settles (satNode S.heap (DHolds w.env (resolveIn w S.heap S.refs))) (satNode S.heap (DFails w.env (resolveIn w S.heap S.refs)))
      (validateRecursive w.env σ S.heap n) := by
  have key : ∀ p i v c r, validateRecursive w.env σ S.heap n p i v c = .ok r → ∃ s, S.heap[i]? = some s ∧
      ∀ P, r.valid = true ↔ docUnfold w.env (resolveIn w S.heap S.refs) P n s.draft s.doc v := by
    intro p i v c r hr
    cases hi : S.heap[i]? with
    | none =>
      cases n with
      | zero => simp [validateRecursive] at hr
      | succ n => simp [validateRecursive, validateStep, hi] at hr
    | some s =>
      refine ⟨s, rfl, fun P => ?_⟩
      rw [validateRecursive_agrees w.env σ S.heap (satNode S.heap P) n _ _ _ _ _ hr, g.unfold P n]
      exact (Stat.of hi).satNode
  constructor
  · rintro i v ⟨s, h1, h2⟩ ⟨s', h3, h4⟩
    rw [h1] at h3; cases h3
    exact not_dholds_dfails h2 h4
  · intro p i v c r hr hv
    obtain ⟨s, h1, h2⟩ := key p i v c r hr
    exact ⟨s, h1, n, fun P => (h2 P).1 hv⟩
  · intro p i v c r hr hv
    obtain ⟨s, h1, h2⟩ := key p i v c r hr
    refine ⟨s, h1, n, fun P hu => ?_⟩
    rw [(h2 P).2 hu] at hv; cases hv

theorem Good.reach_may (g : Good w l S d D) {i v path j x}
    (hr : Reach S.heap (May w.env (satNode S.heap SH) (satNode S.heap SF)) i v path j x) : ∀ {s s'}, S.heap[i]? = some s → S.heap[j]? = some s' →
    DReach (fun d => DMay w.env (resolveIn w S.heap S.refs) (SH d) (SF d) d) s.draft s.doc v path s'.draft s'.doc x := by
  induction hr with
  | here i v =>
    intro s s' h1 h2
    rw [h1] at h2; cases h2
    exact .here _ _ _
  | step i s0 v o j w' path i' w'' h0 hm _ ih =>
    intro s s' h1 h2
    rw [h0] at h1; cases h1
    obtain ⟨m, d', D', e1, e2, sj, e3, e4, e5⟩ := may_to (g.docs _ _ h0) (g.nodes _ _ h0) (fun r j hj => g.refs_lt hj) hm
    subst e4 e5
    rw [e1]
    exact .step _ m _ o _ _ _ _ _ _ _ e2 (ih e3 h2)

theorem Good.reach_must (g : Good w l S d D) {d1 D1 v path d2 D2 x}
    (hr : DReach (fun d => DMust w.env (resolveIn w S.heap S.refs) (SH d) (SF d) d) d1 D1 v path d2 D2 x) :
    ∀ {i}, Stat S.heap d1 D1 i → ∃ j, Stat S.heap d2 D2 j ∧ Reach S.heap (Must w.env (satNode S.heap SH) (satNode S.heap SF)) i v path j x := by
  induction hr with
  | here d D v => intro i hi; exact ⟨i, hi, .here _ _⟩
  | step d m v o d' D' v' path d'' D'' v'' hm _ ih =>
    rintro i ⟨s, h1, h2, h3⟩
    subst h2
    obtain ⟨j, e1, e2⟩ := must_of (g.docs _ _ h1) (g.nodes _ _ h1) (fun r j hj => g.refs_lt hj) h3 hm
    obtain ⟨j', f1, f2⟩ := ih e2
    exact ⟨j', f1, .step i s _ o j _ _ _ _ h1 e1 f2⟩

end

end GJS

import Verif.Corr
/-
Helper lemmas: a finished node obeys the compiled rules exactly when its document obeys the
document rules.
-/
namespace GJS
open Spec

variable {w : World} {h : Heap} {refs : List (String × Id)} {Sat : Draft → Json → Json → Prop}
  {d : Draft} {m : List (String × Json)}

theorem Stat.sat {D c} (hc : Stat h d D c) (v : Json) : satNode h Sat c v ↔ Sat d D v := by
  obtain ⟨s, h1, rfl, rfl⟩ := hc
  constructor
  · rintro ⟨s', h2, h3⟩; rw [h1] at h2; cases h2; exact h3
  · intro h3; exact ⟨s, h1, h3⟩

theorem Stat.lt {D c} (hc : Stat h d D c) : c < h.length := by
  obtain ⟨s, h1, _⟩ := hc
  exact (List.getElem?_eq_some_iff.1 h1).1

theorem forall₂_get {R : α → β → Prop} {l₁ l₂} (hf : List.Forall₂ R l₁ l₂) :
    l₁.length = l₂.length ∧ ∀ (k : Nat) a b, l₁[k]? = some a → l₂[k]? = some b → R a b := by
  induction hf with
  | nil => simp
  | cons hR _ ih =>
    refine ⟨by simp [ih.1], ?_⟩
    intro k a b ha hb
    cases k with
    | zero => simp at ha hb; subst ha; subst hb; exact hR
    | succ k => simp at ha hb; exact ih.2 k a b ha hb

theorem forall₂_left {R : α → β → Prop} {l₁ l₂} (hf : List.Forall₂ R l₁ l₂) {k : Nat} {a} (ha : l₁[k]? = some a) :
    ∃ b, l₂[k]? = some b ∧ R a b := by
  obtain ⟨h1, h2⟩ := forall₂_get hf
  have hk := (List.getElem?_eq_some_iff.1 ha).1
  have : k < l₂.length := by omega
  exact ⟨l₂[k], by simp [this], h2 k a _ ha (by simp [this])⟩

theorem forall₂_right {R : α → β → Prop} {l₁ l₂} (hf : List.Forall₂ R l₁ l₂) {k : Nat} {b} (hb : l₂[k]? = some b) :
    ∃ a, l₁[k]? = some a ∧ R a b := by
  obtain ⟨h1, h2⟩ := forall₂_get hf
  have hk := (List.getElem?_eq_some_iff.1 hb).1
  have : k < l₁.length := by omega
  exact ⟨l₁[k], by simp [this], h2 k _ b (by simp [this]) hb⟩

theorem forall₂_mem_left {R : α → β → Prop} {l₁ l₂} (hf : List.Forall₂ R l₁ l₂) {a} (ha : a ∈ l₁) :
    ∃ b ∈ l₂, R a b := by
  obtain ⟨k, hk⟩ := List.getElem?_of_mem ha
  obtain ⟨b, h1, h2⟩ := forall₂_left hf hk
  exact ⟨b, List.mem_of_getElem? h1, h2⟩

theorem forall₂_mem_right {R : α → β → Prop} {l₁ l₂} (hf : List.Forall₂ R l₁ l₂) {b} (hb : b ∈ l₂) :
    ∃ a ∈ l₁, R a b := by
  obtain ⟨k, hk⟩ := List.getElem?_of_mem hb
  obtain ⟨a, h1, h2⟩ := forall₂_right hf hk
  exact ⟨a, List.mem_of_getElem? h1, h2⟩

/-! ### One lemma per keyword -/

theorem corr_type {env : Env} {ts v} (hk : TypesOK m ts) : TypeRule env ts v ↔ DType env m v := by
  unfold DType Kw TypeRule
  rcases hk with ⟨h1, rfl⟩ | ⟨t, h1, rfl⟩ | h1
  · simp [h1]
  · simp [h1]
  · rw [h1]
    simp only [Option.some.injEq, reduceCtorEq, false_imp_iff, implies_true, true_and, Json.arr.injEq]
    constructor
    · rintro h _ rfl
      rcases h with rfl | ⟨t, ht, hh⟩
      · simp
      · exact .inr ⟨t, List.mem_map.2 ⟨t, ht, rfl⟩, hh⟩
    · intro h
      rcases h _ rfl with h | ⟨t, ht, hh⟩
      · left; simpa using h
      · obtain ⟨t', ht', e⟩ := List.mem_map.1 ht
        cases e
        exact .inr ⟨t, ht', hh⟩

theorem corr_anyOf {ids v} (hk : ListOK h d m "anyOf" ids) :
    AnyOfRule (satNode h Sat) ids v ↔ DAnyOf (Sat d) m v := by
  unfold DAnyOf Kw AnyOfRule
  rcases hk with ⟨h1, rfl⟩ | ⟨Ds, h1, hf⟩
  · simp [h1]
  · simp only [h1, Option.some.injEq, Json.arr.injEq]
    have hnil : ids = [] ↔ Ds = [] := by cases hf <;> simp
    constructor
    · rintro hh _ rfl
      rcases hh with hh | ⟨i, hi, hs⟩
      · exact .inl (hnil.1 hh)
      · obtain ⟨D, hD, hR⟩ := forall₂_mem_right hf hi
        exact .inr ⟨D, hD, (hR.sat v).1 hs⟩
    · intro hh
      rcases hh _ rfl with hh | ⟨D, hD, hs⟩
      · exact .inl (hnil.2 hh)
      · obtain ⟨i, hi, hR⟩ := forall₂_mem_left hf hD
        exact .inr ⟨i, hi, (hR.sat v).2 hs⟩

theorem corr_oneOf {ids v} (hk : ListOK h d m "oneOf" ids) :
    OneOfRule (satNode h Sat) ids v ↔ DOneOf (Sat d) m v := by
  unfold DOneOf Kw OneOfRule
  rcases hk with ⟨h1, rfl⟩ | ⟨Ds, h1, hf⟩
  · simp [h1]
  · simp only [h1, Option.some.injEq, Json.arr.injEq]
    have hnil : ids = [] ↔ Ds = [] := by cases hf <;> simp
    constructor
    · rintro hh _ rfl
      rcases hh with hh | ⟨k, i, hi, hs, hu⟩
      · exact .inl (hnil.1 hh)
      · obtain ⟨D, hD, hR⟩ := forall₂_right hf hi
        refine .inr ⟨k, D, hD, (hR.sat v).1 hs, fun k' D' hD' hs' => ?_⟩
        obtain ⟨i', hi', hR'⟩ := forall₂_left hf hD'
        exact hu k' i' hi' ((hR'.sat v).2 hs')
    · intro hh
      rcases hh _ rfl with hh | ⟨k, D, hD, hs, hu⟩
      · exact .inl (hnil.2 hh)
      · obtain ⟨i, hi, hR⟩ := forall₂_left hf hD
        refine .inr ⟨k, i, hi, (hR.sat v).2 hs, fun k' i' hi' hs' => ?_⟩
        obtain ⟨D', hD', hR'⟩ := forall₂_right hf hi'
        exact hu k' D' hD' ((hR'.sat v).1 hs')

theorem corr_allOf {ids v} (hk : ListOK h d m "allOf" ids) :
    AllOfRule (satNode h Sat) ids v ↔ DAllOf (Sat d) m v := by
  unfold DAllOf Kw AllOfRule
  rcases hk with ⟨h1, rfl⟩ | ⟨Ds, h1, hf⟩
  · simp [h1]
  · simp only [h1, Option.some.injEq, Json.arr.injEq]
    constructor
    · rintro hh _ rfl D hD
      obtain ⟨i, hi, hR⟩ := forall₂_mem_left hf hD
      exact (hR.sat v).1 (hh i hi)
    · intro hh i hi
      obtain ⟨D, hD, hR⟩ := forall₂_mem_right hf hi
      exact (hR.sat v).2 (hh _ rfl D hD)

/-- A quantification over an optional sub-schema is one over the keyword's value. -/
theorem corr_opt {act : Prop} {key o} (hk : OptOK h d act m key o) {P : Id → Prop} {Q : Json → Prop}
    (hPQ : ∀ D c, Stat h d D c → (P c ↔ Q D)) :
    (∀ i, o = some i → P i) ↔ (act → ∀ D, Kw m key D → Q D) := by
  unfold Kw
  rcases hk with ⟨rfl, h1⟩ | ⟨ha, D, c, h1, rfl, hs⟩
  · simp only [reduceCtorEq, false_imp_iff, implies_true, true_iff]
    intro ha D hD; rw [h1 ha] at hD; cases hD
  · simp [h1, ha, hPQ D c hs]

theorem corr_not {o v} (hk : OptOK h d True m "not" o) : NotRule (satNode h Sat) o v ↔ DNot (Sat d) m v := by
  unfold NotRule DNot
  rw [corr_opt hk (Q := fun D => ¬ Sat d D v) (fun D c hs => by rw [hs.sat v])]
  simp

theorem corr_if {i t e v} (hi : OptOK h d (Draft7 ≤ d) m "if" i) (ht : OptOK h d (Draft7 ≤ d) m "then" t)
    (he : OptOK h d (Draft7 ≤ d) m "else" e) :
    IfRule (satNode h Sat) i t e v ↔ DIf (Sat d) d m v := by
  unfold IfRule DIf
  by_cases ha : Draft7 ≤ d
  · refine (corr_opt hi (Q := fun D => (∀ T, Kw m "then" T → Sat d D v → Sat d T v) ∧
      (∀ E, Kw m "else" E → ¬ Sat d D v → Sat d E v)) ?_)
    intro D c hs
    rw [hs.sat v]
    have e1 := corr_opt ht (P := fun c => Sat d D v → satNode h Sat c v) (Q := fun T => Sat d D v → Sat d T v)
      (fun T c hs' => by rw [hs'.sat v])
    have e2 := corr_opt he (P := fun c => ¬ Sat d D v → satNode h Sat c v) (Q := fun T => ¬ Sat d D v → Sat d T v)
      (fun T c hs' => by rw [hs'.sat v])
    rw [e1, e2]
    simp [ha]
  · rcases hi with ⟨rfl, _⟩ | ⟨h2, _⟩
    · simp [ha]
    · exact absurd h2 ha

theorem corr_const {o v} (hk : (o = none ∧ (Draft6 ≤ d → getKey "const" m = none)) ∨
    (Draft6 ≤ d ∧ ∃ c t, getKey "const" m = some c ∧ w.env.marshal c = some t ∧ o = some t)) :
    ConstRule w.env o v ↔ DConst w.env d m v := by
  unfold ConstRule DConst Kw ValEq
  rcases hk with ⟨rfl, h1⟩ | ⟨ha, c, t, h1, h2, rfl⟩
  · simp only [reduceCtorEq, false_imp_iff, implies_true, true_iff]
    intro ha c hc; rw [h1 ha] at hc; cases hc
  · simp [h1, ha, h2]

theorem corr_enum {es v} (hk : (getKey "enum" m = none ∧ es = []) ∨ ∃ cs, getKey "enum" m = some (.arr cs) ∧
    List.Forall₂ (fun c t => w.env.marshal c = some t) cs es) :
    EnumRule w.env es v ↔ DEnum w.env m v := by
  unfold EnumRule DEnum Kw ValEq
  rcases hk with ⟨h1, rfl⟩ | ⟨cs, h1, hf⟩
  · simp [h1]
  · simp only [h1, Option.some.injEq, Json.arr.injEq]
    have hnil : es = [] ↔ cs = [] := by cases hf <;> simp
    constructor
    · rintro hh _ rfl
      rcases hh with hh | ⟨t, ht, hs⟩
      · exact .inl (hnil.1 hh)
      · obtain ⟨c, hc, hR⟩ := forall₂_mem_right hf ht
        exact .inr ⟨c, hc, t, hs, hR⟩
    · intro hh
      rcases hh _ rfl with hh | ⟨c, hc, t, hs, ht⟩
      · exact .inl (hnil.2 hh)
      · obtain ⟨k, hk, hR⟩ := forall₂_mem_left hf hc
        rw [hR] at ht; cases ht
        exact .inr ⟨_, hk, hs⟩

theorem corr_format {f v} (hk : (getKey "format" m = none ∧ f = "") ∨ getKey "format" m = some (.str f)) :
    FormatRule w.env f v ↔ DFormat w.env m v := by
  unfold FormatRule DFormat Kw
  rcases hk with ⟨h1, rfl⟩ | h1
  · simp [h1]
  · simp [h1]

theorem depEntry_mem {k : String} {ks : List String} {k' dep} :
    depEntry k ks = some (k', dep) ↔ ks ≠ [] ∧ k' = k ∧ dep = .keys ks := by
  cases ks <;> simp [depEntry, eq_comm]

theorem DepOK.key {kv e k dep} (he : DepOK h d kv e) (h2 : e = some (k, dep)) : k = kv.1 := by
  rcases he with ⟨ks, _, h3⟩ | ⟨_, c, h3, _⟩
  · rw [h2] at h3; exact (depEntry_mem.1 h3.symm).2.1
  · rw [h2] at h3; simp at h3; exact h3.1

theorem deps_lookup_none {k : String} : ∀ {l : List (String × Json)} {es}, List.Forall₂ (DepOK h d) l es →
    k ∉ l.map Prod.fst → List.lookup k (es.filterMap (fun e => e)) = none := by
  intro l es hf
  induction hf with
  | nil => simp
  | @cons a b l es hR hf ih =>
    intro hk
    simp only [List.map_cons, List.mem_cons, not_or] at hk
    cases b with
    | none => simpa using ih hk.2
    | some b =>
      obtain ⟨k', dep⟩ := b
      have := hR.key rfl
      subst this
      have hne : (k == a.1) = false := by simpa using hk.1
      simpa [List.lookup_cons, hne] using ih hk.2

theorem deps_lookup {k : String} {D : Json} : ∀ {l : List (String × Json)} {es}, List.Forall₂ (DepOK h d) l es →
    (l.map Prod.fst).Nodup → (k, D) ∈ l →
    ∃ e, DepOK h d (k, D) e ∧ List.lookup k (es.filterMap (fun e => e)) = e.map Prod.snd := by
  intro l es hf
  induction hf with
  | nil => simp
  | @cons a b l es hR hf ih =>
    intro hn hm
    simp only [List.map_cons, List.nodup_cons] at hn
    simp only [List.mem_cons] at hm
    rcases hm with rfl | hm
    · refine ⟨b, hR, ?_⟩
      cases b with
      | none => simpa using deps_lookup_none hf hn.1
      | some b =>
        obtain ⟨k', dep⟩ := b
        have := hR.key rfl
        subst this
        simp
    · obtain ⟨e, h1, h2⟩ := ih hn.2 hm
      refine ⟨e, h1, ?_⟩
      cases b with
      | none => simpa using h2
      | some b =>
        obtain ⟨k', dep⟩ := b
        have := hR.key rfl
        subst this
        have hne : k ≠ a.1 := by
          rintro rfl; exact hn.1 (List.mem_map.2 ⟨_, hm, rfl⟩)
        have hne : (k == a.1) = false := by simpa using hne
        simpa [List.lookup_cons, hne] using h2

theorem wf_member {D k} (hwf : (Json.obj m).WF) (hk : getKey k m = some D) : D.WF := by
  cases hwf with
  | obj _ _ h2 => exact h2 _ (lookup_some_mem hk)

theorem wf_nodup (hwf : (Json.obj m).WF) : (m.map Prod.fst).Nodup := by
  cases hwf with
  | obj _ h1 _ => exact h1

theorem corr_dependencies {ds v} (hwf : (Json.obj m).WF) (hk : DepsOK h d m ds) :
    DependenciesRule (satNode h Sat) ds v ↔ DDependencies (Sat d) m v := by
  unfold DependenciesRule DDependencies Kw keysOf
  rcases hk with ⟨h1, rfl⟩ | ⟨Ds, l, es, h1, hp, hf, rfl⟩
  · simp [h1]
  · have hn : (l.map Prod.fst).Nodup := by
      have := wf_nodup (wf_member hwf h1)
      exact (hp.map Prod.fst).nodup_iff.2 this
    rw [h1]
    constructor
    · rintro hh Ds' kvs heq hv k D hD hk
      cases heq
      obtain ⟨e, hR, hl⟩ := deps_lookup hf hn (hp.mem_iff.2 hD)
      obtain ⟨ha, hb⟩ := hh kvs hv k hk
      rcases hR with ⟨ks, h3, h4⟩ | ⟨h3, c, rfl, hs⟩
      · simp only at h3
        subst h3
        intro q hq
        obtain ⟨q', hq', e'⟩ := List.mem_map.1 hq
        cases e'
        cases ks with
        | nil => simp at hq'
        | cons a ks =>
          subst h4
          exact ha (a :: ks) (by simpa [depEntry, getKey] using hl) q hq'
      · have : Sat d D v := (hs.sat v).1 (hb c (by simpa [getKey] using hl))
        split
        · exact absurd rfl (h3 _)
        · exact this
    · intro hh kvs hv k hk
      by_cases hkl : k ∈ l.map Prod.fst
      · obtain ⟨⟨k', D⟩, hD, rfl⟩ := List.mem_map.1 hkl
        obtain ⟨e, hR, hl⟩ := deps_lookup hf hn hD
        have := hh Ds kvs rfl hv _ D (hp.mem_iff.1 hD) hk
        simp only [getKey, hl]
        rcases hR with ⟨ks, h3, h4⟩ | ⟨h3, c, rfl, hs⟩
        · simp only at h3
          subst h3
          subst h4
          constructor
          · intro ks' hks q hq
            cases ks with
            | nil => simp [depEntry] at hks
            | cons a ks =>
              simp [depEntry] at hks
              subst hks
              exact this q (List.mem_map.2 ⟨q, hq, rfl⟩)
          · intro i hi
            cases ks <;> simp [depEntry] at hi
        · constructor
          · intro ks hks; simp at hks
          · intro i hi
            simp at hi
            subst hi
            refine (hs.sat v).2 ?_
            split at this
            · exact absurd rfl (h3 _)
            · exact this
      · have := deps_lookup_none hf hkl
        simp [getKey, this]

theorem corr_items {s : Sub} {v} (hk : ItemsOK h d m s.itemsChildren s.itemsChildrenIsSingleSchema)
    (ha : ExtraOK h d m "additionalItems" s.additionalItems) :
    (∀ xs, v = .arr xs → ItemsRule (satNode h Sat) s xs) ↔ DItems (Sat d) m v := by
  unfold DItems Kw ItemsRule
  rcases hk with ⟨h1, h2, h3⟩ | ⟨Ds, h1, hf, h3⟩ | ⟨D, c, h1, hna, h2, hs, h3⟩
  · simp [h1, h2, h3]
  · have hnil : s.itemsChildren = [] ↔ Ds = [] := by
      have := (forall₂_get hf).1
      rw [← List.length_eq_zero_iff, ← List.length_eq_zero_iff, this]
    have hlen := (forall₂_get hf).1
    simp only [h1, h3, Bool.false_eq_true, if_false, Option.some.injEq]
    constructor
    · rintro hh xs _ hv rfl
      obtain ⟨p1, p2⟩ := hh xs hv
      refine ⟨fun k D x hD hx => ?_, fun hne => ⟨fun hb => ?_, fun A hA k x hk hx => ?_⟩⟩
      · obtain ⟨i, hi, hR⟩ := forall₂_left hf hD
        exact (hR.sat x).1 (p1 k i x hi hx)
      · have p2 := p2 (fun e => hne (hnil.1 e))
        rcases ha with ⟨h4, _⟩ | ⟨b, h4, h5⟩ | ⟨A, c, h4, _⟩
        · rw [h4] at hb; cases hb
        · rw [h4] at hb; cases hb; rw [h5] at p2; rw [hlen]; exact p2 rfl
        · rw [h4] at hb; cases hb
      · have p2 := p2 (fun e => hne (hnil.1 e))
        rcases ha with ⟨h4, _⟩ | ⟨b, h4, h5⟩ | ⟨A, c, h4, h5, hs⟩
        · rw [h4] at hA; cases hA
        · rw [h4] at hA; cases hA
        · rw [h4] at hA; cases hA; rw [h5] at p2
          exact (hs.sat x).1 (p2 k x (hlen ▸ hk) hx)
    · intro hh xs hv
      obtain ⟨p1, p2⟩ := hh xs _ hv rfl
      refine ⟨fun k i x hi hx => ?_, fun hne => ?_⟩
      · obtain ⟨D, hD, hR⟩ := forall₂_right hf hi
        exact (hR.sat x).2 (p1 k D x hD hx)
      · obtain ⟨q1, q2⟩ := p2 (fun e => hne (hnil.2 e))
        rcases ha with ⟨h4, h5⟩ | ⟨b, h4, h5⟩ | ⟨A, c, h4, h5, hs⟩
        · rw [h5]; trivial
        · rw [h5]; rintro rfl; rw [← hlen]; exact q1 h4
        · rw [h5]; intro k x hk hx
          exact (hs.sat x).2 (q2 A h4 k x (hlen ▸ hk) hx)
  · simp only [h1, h2, h3, if_true, Option.some.injEq, List.head?_cons]
    constructor
    · rintro hh xs _ hv rfl
      split
      · exact absurd rfl (hna _)
      · intro x hx
        obtain ⟨i, hi, hs'⟩ := hh xs hv x hx
        cases hi
        exact (hs.sat x).1 hs'
    · intro hh xs hv x hx
      have := hh xs _ hv rfl
      refine ⟨c, rfl, (hs.sat x).2 ?_⟩
      split at this
      · exact absurd rfl (hna _)
      · exact this x hx

theorem int64_val {n : NumLit} {z : Int} (hz : n.int64? = some z) : n.val = z := by
  unfold NumLit.int64? at hz
  split at hz
  · rename_i hh
    obtain ⟨h1, h2⟩ := hh
    have hv : n.val = ((if n.neg then -(n.ip : Int) else n.ip : Int) : Rat) := by
      simp only [NumLit.val, NumLit.mag, NumLit.exp10, NumLit.mant, h1, h2, digitsVal]
      cases n.neg <;> simp [Rat.intCast_neg, Rat.intCast_natCast]
    rw [hv]
    generalize (if n.neg then -(n.ip : Int) else n.ip : Int) = y at hz ⊢
    by_cases hy : -(2 ^ 63 : Int) ≤ y ∧ y ≤ 2 ^ 63 - 1
    · simp only [hy, and_self, if_true, Option.some.injEq] at hz; rw [hz]
    · simp only [hy, if_false] at hz; cases hz
  · cases hz

theorem corr_size {mn mx : String} {a b : Option Int} {size : Nat} (ha : SizeOK m mn a) (hb : SizeOK m mx b) :
    SizeRule a b size ↔ DSize m mn mx size := by
  unfold SizeRule DSize Kw
  refine and_congr ?_ ?_
  · rcases ha with ⟨h1, rfl⟩ | ⟨n, z, h1, rfl, h2⟩
    · simp [h1]
    · simp only [h1, Option.some.injEq, forall_eq', Json.num.injEq, int64_val h2]
      exact_mod_cast Iff.rfl
  · rcases hb with ⟨h1, rfl⟩ | ⟨n, z, h1, rfl, h2⟩
    · simp [h1]
    · simp only [h1, Option.some.injEq, forall_eq', Json.num.injEq, int64_val h2]
      exact_mod_cast Iff.rfl

theorem corr_array {s : Sub} {v} (hf : FieldsOK w h d m s) :
    ArrayRules w.env (satNode h Sat) s v ↔ DItems (Sat d) m v ∧ DArray w.env (Sat d) d m v := by
  rw [← corr_items hf.items hf.addItems]
  unfold ArrayRules DArray
  have hu : ∀ xs : List Json, UniqueRule w.env s.uniqueItems xs ↔
      (Kw m "uniqueItems" (.bool true) → ∀ (a b : Nat) x y, a < b → xs[a]? = some x → xs[b]? = some y →
      w.env.marshal x ≠ w.env.marshal y) := by
    intro xs
    unfold UniqueRule Kw
    rcases hf.uniqueItems with ⟨h1, h2⟩ | h1
    · simp [h1, h2]
    · simp [h1]
  have hc : ∀ xs : List Json, ContainsRule (satNode h Sat) s.contains xs ↔
      (Draft6 ≤ d → ∀ D, Kw m "contains" D → ∃ x ∈ xs, Sat d D x) := by
    intro xs
    exact corr_opt hf.contains (P := fun i => ∃ x ∈ xs, satNode h Sat i x) (fun D c hs => by simp only [hs.sat])
  constructor
  · intro hh
    exact ⟨fun xs hv => (hh xs hv).1, fun xs hv =>
      ⟨(corr_size hf.minItems hf.maxItems).1 (hh xs hv).2.1, (hu xs).1 (hh xs hv).2.2.1, (hc xs).1 (hh xs hv).2.2.2⟩⟩
  · rintro ⟨h1, h2⟩ xs hv
    obtain ⟨a, b, c⟩ := h2 xs hv
    exact ⟨h1 xs hv, (corr_size hf.minItems hf.maxItems).2 a, (hu xs).2 b, (hc xs).2 c⟩

theorem MapOK.mem_iff {key ps} (hk : MapOK h d m key ps) : 
    (∀ k c, (k, c) ∈ ps → ∃ Ds D, getKey key m = some (.obj Ds) ∧ (k, D) ∈ Ds ∧ Stat h d D c) ∧
    (∀ Ds k D, getKey key m = some (.obj Ds) → (k, D) ∈ Ds → ∃ c, (k, c) ∈ ps ∧ Stat h d D c) := by
  rcases hk with ⟨h1, rfl⟩ | ⟨Ds, l, h1, hp, hf⟩
  · simp [h1]
  · refine ⟨fun k c hc => ?_, fun Ds' k D hD hm => ?_⟩
    · obtain ⟨⟨k', D⟩, hD, hR⟩ := forall₂_mem_right hf hc
      simp only at hR
      obtain ⟨rfl, hR⟩ := hR
      exact ⟨Ds, D, h1, hp.mem_iff.1 hD, hR⟩
    · rw [h1] at hD; cases hD
      obtain ⟨⟨k', c⟩, hc, hR⟩ := forall₂_mem_left hf (hp.mem_iff.2 hm)
      simp only at hR
      obtain ⟨rfl, hR⟩ := hR
      exact ⟨c, hc, hR⟩

theorem corr_additional {env : Env} {s : Sub} (h1 : MapOK h d m "properties" s.propertiesChildren)
    (h2 : MapOK h d m "patternProperties" s.patternProperties) (k : String) :
    ((∀ i, (k, i) ∉ s.propertiesChildren) ∧
      (∀ pat i, (pat, i) ∈ s.patternProperties → env.reMatch pat k = false)) ↔ Additional env m k := by
  unfold Additional Kw keysOf
  refine and_congr ⟨fun hh ps hp hk => ?_, fun hh i hi => ?_⟩ ⟨fun hh ps hp q hq => ?_, fun hh pat i hi => ?_⟩
  · obtain ⟨⟨k', D⟩, hD, rfl⟩ := List.mem_map.1 hk
    obtain ⟨c, hc, _⟩ := h1.mem_iff.2 ps _ D hp hD
    exact hh c hc
  · obtain ⟨Ds, D, hD, hm, _⟩ := h1.mem_iff.1 k i hi
    exact hh Ds hD (List.mem_map.2 ⟨_, hm, rfl⟩)
  · obtain ⟨⟨k', D⟩, hD, rfl⟩ := List.mem_map.1 hq
    obtain ⟨c, hc, _⟩ := h2.mem_iff.2 ps _ D hp hD
    exact hh _ c hc
  · obtain ⟨Ds, D, hD, hm, _⟩ := h2.mem_iff.1 pat i hi
    exact hh Ds hD pat (List.mem_map.2 ⟨_, hm, rfl⟩)

theorem corr_object {s : Sub} {v} (hf : FieldsOK w h d m s) :
    ObjectRules w.env (satNode h Sat) s v ↔ DObject w.env (Sat d) d m v := by
  unfold ObjectRules DObject
  refine forall_congr' fun kvs => forall_congr' fun _ => ?_
  have e1 : RequiredRule s.required kvs ↔
      (∀ qs, Kw m "required" (.arr qs) → ∀ q, Json.str q ∈ qs → q ∈ keysOf kvs) := by
    unfold RequiredRule Kw keysOf
    rcases hf.required with ⟨h1, h2⟩ | h1
    · simp [h1, h2]
    · simp [h1]
  have e2 : PropertiesRule (satNode h Sat) s.propertiesChildren kvs ↔
      (∀ ps, Kw m "properties" (.obj ps) → ∀ k D, (k, D) ∈ ps → ∀ x, getKey k kvs = some x → Sat d D x) := by
    constructor
    · intro hh ps hp k D hD x hx
      obtain ⟨c, hc, hs⟩ := hf.props.mem_iff.2 ps k D hp hD
      exact (hs.sat x).1 (hh k c hc x hx)
    · intro hh k c hc x hx
      obtain ⟨Ds, D, hD, hm, hs⟩ := hf.props.mem_iff.1 k c hc
      exact (hs.sat x).2 (hh Ds hD k D hm x hx)
  have e3 : PatternRule w.env (satNode h Sat) s.patternProperties kvs ↔
      (∀ ps, Kw m "patternProperties" (.obj ps) → ∀ q D, (q, D) ∈ ps → ∀ k x, (k, x) ∈ kvs →
      w.env.reMatch q k = true → Sat d D x) := by
    constructor
    · intro hh ps hp q D hD k x hx hm
      obtain ⟨c, hc, hs⟩ := hf.patProps.mem_iff.2 ps q D hp hD
      exact (hs.sat x).1 (hh q c hc k x hx hm)
    · intro hh q c hc k x hx hmm
      obtain ⟨Ds, D, hD, hm, hs⟩ := hf.patProps.mem_iff.1 q c hc
      exact (hs.sat x).2 (hh Ds hD q D hm k x hx hmm)
  have e4 : AdditionalRule w.env (satNode h Sat) s kvs ↔
      (Kw m "additionalProperties" (.bool false) → ∀ k ∈ keysOf kvs, ¬ Additional w.env m k) ∧
      (∀ A, Kw m "additionalProperties" (.obj A) → ∀ k x, (k, x) ∈ kvs → Additional w.env m k → Sat d (.obj A) x) := by
    unfold AdditionalRule
    have : (∀ k x, (k, x) ∈ kvs → (∀ i, (k, i) ∉ s.propertiesChildren) →
        (∀ pat i, (pat, i) ∈ s.patternProperties → w.env.reMatch pat k = false) →
        ExtraRule (satNode h Sat) s.additionalProperties x) ↔
        (∀ k x, (k, x) ∈ kvs → Additional w.env m k → ExtraRule (satNode h Sat) s.additionalProperties x) := by
      refine forall_congr' fun k => forall_congr' fun x => forall_congr' fun _ => ?_
      rw [← corr_additional hf.props hf.patProps k]
      exact and_imp.symm
    rw [this]
    unfold Kw keysOf
    rcases hf.addProps with ⟨h1, h2⟩ | ⟨b, h1, h2⟩ | ⟨A, c, h1, h2, hs⟩
    · simp [h1, h2, ExtraRule]
    · rw [h1, h2]
      cases b
      · simp only [ExtraRule, reduceCtorEq, imp_false, Option.some.injEq, true_imp_iff, false_imp_iff, implies_true, and_true]
        constructor
        · intro hh k hk
          obtain ⟨⟨k', x⟩, hx, rfl⟩ := List.mem_map.1 hk
          exact hh _ x hx
        · intro hh k x hx
          exact hh k (List.mem_map.2 ⟨_, hx, rfl⟩)
      · simp [ExtraRule]
    · rw [h1, h2]
      simp [ExtraRule, hs.sat]
  have e5 : PropertyNamesRule (satNode h Sat) s.propertyNames kvs ↔
      (Draft6 ≤ d → ∀ D, Kw m "propertyNames" D → ∀ k ∈ keysOf kvs, Sat d D (.str k)) := by
    refine corr_opt hf.propNames (P := fun i => ∀ k ∈ kvs.map Prod.fst, satNode h Sat i (.str k)) ?_
    intro D c hs
    simp only [hs.sat, keysOf]
  rw [corr_size hf.minProperties hf.maxProperties, e1, e2, e3, e4, e5, and_assoc]

theorem corr_string {s : Sub} {v} (hf : FieldsOK w h d m s) :
    StringRules w.env s v ↔ DString w.env m v := by
  unfold StringRules DString
  refine forall_congr' fun t => forall_congr' fun _ => and_congr (corr_size hf.minLength hf.maxLength) ?_
  unfold Kw
  rcases hf.pattern with ⟨h1, h2⟩ | ⟨q, h1, h2⟩
  · simp [h1, h2]
  · simp [h1, h2]

theorem corr_number {s : Sub} {v} (hf : FieldsOK w h d m s) : NumberRules s v ↔ DNumber w.env m v := by
  unfold NumberRules DNumber
  refine forall_congr' fun n => forall_congr' fun _ => ?_
  have e1 : (∀ q, s.multipleOf = some q → ∃ z : Int, n.val = z * q) ↔
      (∀ q, Kw m "multipleOf" (.num q) → ∃ z : Int, n.val = z * q.val) := by
    unfold Kw
    rcases hf.multipleOf with ⟨h1, h2⟩ | ⟨q, h1, h2, _⟩
    · simp [h1, h2]
    · simp [h1, h2]
  have e2 : ((∀ b, s.maximum = some b → n.val ≤ b) ∧ (∀ b, s.exclusiveMaximum = some b → n.val < b)) ↔
      (∀ q, Kw m "maximum" (.num q) → n.val ≤ q.val) ∧
      (∀ q, Kw m "maximum" (.num q) → Kw m "exclusiveMaximum" (.bool true) → n.val < q.val) ∧
      (∀ q, Kw m "exclusiveMaximum" (.num q) → w.env.ratOk q = true → n.val < q.val) := by
    unfold Kw
    obtain ⟨b, hb, hx⟩ := hf.maxs
    rcases hb with ⟨h1, rfl⟩ | ⟨q, h1, rfl, _⟩
    · rcases hx with ⟨h2, h3, h4⟩ | ⟨q, h2, _⟩ | ⟨q, h2, _⟩ | ⟨q, h2, h3, h4⟩
      · simp [h1, h2, h3, h4]
      · cases h2
      · cases h2
      · simp [h1, h2, h3, h4, Env.rat]
    · rcases hx with ⟨h2, h3, h4⟩ | ⟨q', h2, h5, h3, h4⟩ | ⟨q', h2, h5, h3, h4⟩ | ⟨q', h2, h3, h4⟩
      · simp [h1, h2, h3, h4]
      · cases h2
        simp only [h1, h3, h4, h5, reduceCtorEq, false_imp_iff, implies_true, true_and, Option.some.injEq,
          Json.num.injEq, forall_eq', true_imp_iff, and_true]
        exact ⟨fun hh => ⟨Rat.le_of_lt hh, hh⟩, fun hh => hh.2⟩
      · cases h2; simp [h1, h3, h4, h5]
      · simp [h1, h2, h3, h4, Env.rat]
  have e3 : ((∀ b, s.minimum = some b → b ≤ n.val) ∧ (∀ b, s.exclusiveMinimum = some b → b < n.val)) ↔
      (∀ q, Kw m "minimum" (.num q) → q.val ≤ n.val) ∧
      (∀ q, Kw m "minimum" (.num q) → Kw m "exclusiveMinimum" (.bool true) → q.val < n.val) ∧
      (∀ q, Kw m "exclusiveMinimum" (.num q) → w.env.ratOk q = true → q.val < n.val) := by
    unfold Kw
    obtain ⟨b, hb, hx⟩ := hf.mins
    rcases hb with ⟨h1, rfl⟩ | ⟨q, h1, rfl, _⟩
    · rcases hx with ⟨h2, h3, h4⟩ | ⟨q, h2, _⟩ | ⟨q, h2, _⟩ | ⟨q, h2, h3, h4⟩
      · simp [h1, h2, h3, h4]
      · cases h2
      · cases h2
      · simp [h1, h2, h3, h4, Env.rat]
    · rcases hx with ⟨h2, h3, h4⟩ | ⟨q', h2, h5, h3, h4⟩ | ⟨q', h2, h5, h3, h4⟩ | ⟨q', h2, h3, h4⟩
      · simp [h1, h2, h3, h4]
      · cases h2
        simp only [h1, h3, h4, h5, reduceCtorEq, false_imp_iff, implies_true, true_and, Option.some.injEq,
          Json.num.injEq, forall_eq', true_imp_iff, and_true]
        exact ⟨fun hh => ⟨Rat.le_of_lt hh, hh⟩, fun hh => hh.2⟩
      · cases h2; simp [h1, h3, h4, h5]
      · simp [h1, h2, h3, h4, Env.rat]
  rw [e1]
  constructor
  · rintro ⟨a, b, c, f, g⟩
    obtain ⟨x1, x2, x3⟩ := e2.1 ⟨b, c⟩
    obtain ⟨y1, y2, y3⟩ := e3.1 ⟨f, g⟩
    exact ⟨a, y1, x1, y2, x2, y3, x3⟩
  · rintro ⟨a, y1, x1, y2, x2, y3, x3⟩
    obtain ⟨b, c⟩ := e2.2 ⟨x1, x2, x3⟩
    obtain ⟨f, g⟩ := e3.2 ⟨y1, y2, y3⟩
    exact ⟨a, b, c, f, g⟩

theorem corr_keywords {s : Sub} {v} (hwf : (Json.obj m).WF) (hf : FieldsOK w h d m s) :
    Keywords w.env (satNode h Sat) s v ↔ DKeywords w.env (Sat d) d m v := by
  unfold Keywords DKeywords
  rw [corr_type hf.types, corr_anyOf hf.anyOf, corr_oneOf hf.oneOf, corr_allOf hf.allOf, corr_not hf.not,
    corr_dependencies hwf hf.deps, corr_if hf.if_ hf.then_ hf.else_, corr_const hf.const, corr_enum hf.enum,
    corr_format hf.format, corr_array hf, corr_object hf, corr_string hf, corr_number hf, and_assoc]

/-- A finished node means what its document means. -/
theorem corr_node {s : Sub} {i v} (hi : h[i]? = some s) (hwf : s.doc.WF) (hn : NodeOK w h refs s)
    (hrefs : ∀ r j, getKey r refs = some j → j < h.length) :
    NodeRules w.env h (satNode h Sat) i v ↔ DocRules w.env (resolveIn w h refs) Sat s.draft s.doc v := by
  have hex : NodeRules w.env h (satNode h Sat) i v ↔
      (match s.pass with
      | some b => b = true
      | none =>
        match s.refSchema with
        | some j => satNode h Sat j v
        | none => Keywords w.env (satNode h Sat) s v) := by
    constructor
    · rintro ⟨s', h1, h2⟩; rw [hi] at h1; cases h1; exact h2
    · intro h2; exact ⟨s, hi, h2⟩
  rw [hex]
  cases hn with
  | bool b he _ => rw [he]; rfl
  | ref m r u j h1 h2 h3 h4 h5 h6 _ =>
    rw [h1, h5, h6]
    simp only [DocRules, h2, resolveIn, h3, h4]
    have hj := hrefs u j h4
    simp only [List.getElem?_eq_getElem hj, Option.map_some, Option.some.injEq, Prod.mk.injEq]
    constructor
    · rintro ⟨s', hs', hv⟩
      rw [List.getElem?_eq_getElem hj] at hs'; cases hs'
      exact ⟨_, _, ⟨rfl, rfl⟩, hv⟩
    · rintro ⟨_, _, ⟨rfl, rfl⟩, hv⟩
      exact ⟨_, List.getElem?_eq_getElem hj, hv⟩
  | plain m h1 h2 h3 h4 h5 =>
    rw [h1] at hwf
    rw [h1, h3, h4]
    simp only [DocRules, h2]
    exact corr_keywords hwf h5

end GJS

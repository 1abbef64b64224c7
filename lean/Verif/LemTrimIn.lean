import Verif.LemTrim
/-
Helper lemmas: exchanging sub-schemas that say the same.
-/
namespace GJS
open Spec

variable {env : Env} {sat : SatD} {d : Draft} {m m' : List (String × Json)} {v : Json} {R R' : Json → Json → Prop}

/-- The same document, or two objects related by `R`. -/
def SaysLike (R : Json → Json → Prop) (D D' : Json) : Prop := D = D' ∨ ∃ a b, D = .obj a ∧ D' = .obj b ∧ R D D'

/-- Two documents that say the same. -/
def Eqv (sat : SatD) (D D' : Json) : Prop := ∀ v, sat D v ↔ sat D' v

theorem eqv_symm (a b) (h : Eqv sat a b) : Eqv sat b a := fun v => (h v).symm

theorem SaysLike.symm {D D'} (h : SaysLike R D D') (hs : ∀ a b, R a b → R' b a) : SaysLike R' D' D := by
  rcases h with rfl | ⟨a, b, h1, h2, h3⟩
  · exact .inl rfl
  · exact .inr ⟨b, a, h2, h1, hs _ _ h3⟩

theorem SaysLike.iff {D D'} (h : SaysLike (Eqv sat) D D') (v) : sat D v ↔ sat D' v := by
  rcases h with rfl | ⟨a, b, h1, h2, h3⟩
  · exact Iff.rfl
  · exact h3 v

def ListLike (R : Json → Json → Prop) (Ds Ds' : List Json) : Prop := List.Forall₂ (SaysLike R) Ds Ds'
def MapLike (R : Json → Json → Prop) (ps ps' : List (String × Json)) : Prop :=
  List.Forall₂ (fun a b => a.1 = b.1 ∧ SaysLike R a.2 b.2) ps ps'

theorem ListLike.refl (Ds) : ListLike R Ds Ds := by
  induction Ds with
  | nil => exact .nil
  | cons D Ds ih => exact .cons (.inl rfl) ih

theorem MapLike.refl (Ds) : MapLike R Ds Ds := by
  induction Ds with
  | nil => exact .nil
  | cons D Ds ih => exact .cons ⟨rfl, .inl rfl⟩ ih

theorem ListLike.symm {Ds Ds'} (h : ListLike R Ds Ds') (hs : ∀ a b, R a b → R' b a) : ListLike R' Ds' Ds := by
  induction h with
  | nil => exact .nil
  | cons h _ ih => exact .cons (h.symm hs) ih

theorem MapLike.symm {Ds Ds'} (h : MapLike R Ds Ds') (hs : ∀ a b, R a b → R' b a) : MapLike R' Ds' Ds := by
  induction h with
  | nil => exact .nil
  | cons h _ ih => exact .cons ⟨h.1.symm, h.2.symm hs⟩ ih

theorem ListLike.length {Ds Ds'} (h : ListLike R Ds Ds') : Ds.length = Ds'.length := List.Forall₂.length_eq h

theorem ListLike.mem {Ds Ds'} (h : ListLike R Ds Ds') {D} (hd : D ∈ Ds) : ∃ D' ∈ Ds', SaysLike R D D' := by
  induction h with
  | nil => cases hd
  | cons h _ ih =>
    rcases List.mem_cons.1 hd with rfl | hd
    · exact ⟨_, List.mem_cons_self, h⟩
    · obtain ⟨D', h1, h2⟩ := ih hd
      exact ⟨D', List.mem_cons_of_mem _ h1, h2⟩

theorem ListLike.at {Ds Ds'} (h : ListLike R Ds Ds') : ∀ {k : Nat} {D}, Ds[k]? = some D → ∃ D', Ds'[k]? = some D' ∧ SaysLike R D D' := by
  induction h with
  | nil => intro k D hd; cases hd
  | cons h _ ih =>
    intro k D hd
    cases k with
    | zero => cases hd; exact ⟨_, rfl, h⟩
    | succ k => exact ih hd

theorem MapLike.mem {Ds Ds'} (h : MapLike R Ds Ds') {k D} (hd : (k, D) ∈ Ds) : ∃ D', (k, D') ∈ Ds' ∧ SaysLike R D D' := by
  induction h with
  | nil => cases hd
  | @cons a b l l' h _ ih =>
    rcases List.mem_cons.1 hd with rfl | hd
    · exact ⟨b.2, by rw [show k = b.1 from h.1]; exact List.mem_cons_self, h.2⟩
    · obtain ⟨D', h1, h2⟩ := ih hd
      exact ⟨D', List.mem_cons_of_mem _ h1, h2⟩

theorem MapLike.keys {Ds Ds'} (h : MapLike R Ds Ds') : keysOf Ds = keysOf Ds' := by
  induction h with
  | nil => rfl
  | cons h _ ih => simp only [keysOf, List.map_cons, h.1] at ih ⊢; rw [ih]

/-- Two values of the keyword `k` that say the same. -/
inductive ValLike (R : Json → Json → Prop) (k : String) : Json → Json → Prop
  | refl (x) : ValLike R k x x
  | schema (x y) : k ∈ schemaKeywords → SaysLike R x y → ValLike R k x y
  | list (xs ys) : k ∈ listKeywords → ListLike R xs ys → ValLike R k (.arr xs) (.arr ys)
  | map (xs ys) : k ∈ mapKeywords → MapLike R xs ys → ValLike R k (.obj xs) (.obj ys)

theorem ValLike.symm {k x y} (h : ValLike R k x y) (hs : ∀ a b, R a b → R' b a) : ValLike R' k y x := by
  cases h with
  | refl => exact .refl _
  | schema _ _ h1 h2 => exact .schema _ _ h1 (h2.symm hs)
  | list _ _ h1 h2 => exact .list _ _ h1 (h2.symm hs)
  | map _ _ h1 h2 => exact .map _ _ h1 (h2.symm hs)

/-- Two schema objects whose keywords say the same, one by one. -/
def Near (R : Json → Json → Prop) (m m' : List (String × Json)) : Prop :=
  ∀ k, (getKey k m = none ∧ getKey k m' = none) ∨
    ∃ x y, getKey k m = some x ∧ getKey k m' = some y ∧ ValLike R k x y

theorem Near.symm (h : Near R m m') (hs : ∀ a b, R a b → R' b a) : Near R' m' m := fun k => by
  rcases h k with ⟨h1, h2⟩ | ⟨x, y, h1, h2, h3⟩
  · exact .inl ⟨h2, h1⟩
  · exact .inr ⟨y, x, h2, h1, h3.symm hs⟩

theorem Near.same (h : Near R m m') (k) (hk : k ∉ schemaKeywords ++ listKeywords ++ mapKeywords) :
    getKey k m = getKey k m' := by
  simp only [List.mem_append, not_or] at hk
  rcases h k with ⟨h1, h2⟩ | ⟨x, y, h1, h2, h3⟩
  · rw [h1, h2]
  · cases h3 with
    | refl => rw [h1, h2]
    | schema _ _ h => exact absurd h hk.1.1
    | list _ _ h => exact absurd h hk.1.2
    | map _ _ h => exact absurd h hk.2

theorem Near.schema (h : Near R m m') {k} (hk : k ∉ listKeywords ++ mapKeywords) {y} (hy : Kw m' k y) :
    ∃ x, Kw m k x ∧ SaysLike R x y := by
  simp only [List.mem_append, not_or] at hk
  unfold Kw at hy ⊢
  rcases h k with ⟨h1, h2⟩ | ⟨x, y, h1, h2, h3⟩
  · rw [hy] at h2; cases h2
  · rw [hy] at h2; cases h2
    cases h3 with
    | refl => exact ⟨_, h1, .inl rfl⟩
    | schema _ _ _ h => exact ⟨_, h1, h⟩
    | list _ _ h => exact absurd h hk.1
    | map _ _ h => exact absurd h hk.2

theorem Near.list (h : Near R m m') {k} (hk : k ∉ mapKeywords) {Ds'} (hy : Kw m' k (.arr Ds')) :
    ∃ Ds, Kw m k (.arr Ds) ∧ ListLike R Ds Ds' := by
  unfold Kw at hy ⊢
  rcases h k with ⟨h1, h2⟩ | ⟨x, y, h1, h2, h3⟩
  · rw [hy] at h2; cases h2
  · rw [hy] at h2; cases h2
    cases h3 with
    | refl => exact ⟨_, h1, .refl _⟩
    | schema _ _ _ h =>
      rcases h with rfl | ⟨_, _, _, h, _⟩
      · exact ⟨_, h1, .refl _⟩
      · cases h
    | list _ _ _ h => exact ⟨_, h1, h⟩

theorem Near.map (h : Near R m m') {k} (hk : k ∉ schemaKeywords) {Ds'} (hy : Kw m' k (.obj Ds')) :
    ∃ Ds, Kw m k (.obj Ds) ∧ MapLike R Ds Ds' := by
  unfold Kw at hy ⊢
  rcases h k with ⟨h1, h2⟩ | ⟨x, y, h1, h2, h3⟩
  · rw [hy] at h2; cases h2
  · rw [hy] at h2; cases h2
    cases h3 with
    | refl => exact ⟨_, h1, .refl _⟩
    | schema _ _ h => exact absurd h hk
    | map _ _ _ h => exact ⟨_, h1, h⟩

/-- A value of `items` that is not a list. -/
theorem Near.item (h : Near R m m') {D'} (hy : Kw m' "items" D') (hn : ∀ Ds, D' ≠ .arr Ds) :
    ∃ D, Kw m "items" D ∧ SaysLike R D D' := by
  unfold Kw at hy ⊢
  rcases h "items" with ⟨h1, h2⟩ | ⟨x, y, h1, h2, h3⟩
  · rw [hy] at h2; cases h2
  · rw [hy] at h2; cases h2
    cases h3 with
    | refl => exact ⟨_, h1, .inl rfl⟩
    | schema _ _ _ h => exact ⟨_, h1, h⟩
    | list _ _ _ h => exact absurd rfl (hn _)
    | map _ _ h => exact absurd h (by decide)

theorem SaysLike.bool {x b} (h : SaysLike R x (.bool b)) : x = .bool b := by
  rcases h with rfl | ⟨_, _, _, h, _⟩
  · rfl
  · cases h

theorem SaysLike.obj {x b} (h : SaysLike R x (.obj b)) : ∃ a, x = .obj a := by
  rcases h with rfl | ⟨a, _, h, _⟩
  · exact ⟨_, rfl⟩
  · exact ⟨a, h⟩

theorem SaysLike.notArr {x y} (h : SaysLike R x y) (hn : ∀ Ds, y ≠ .arr Ds) : ∀ Ds, x ≠ .arr Ds := by
  rcases h with rfl | ⟨a, _, h, _⟩
  · exact hn
  · rintro Ds rfl; cases h

theorem Near.additional (h : Near (Eqv sat) m m') {k} (ha : Additional env m' k) : Additional env m k := by
  constructor
  · intro ps hp
    obtain ⟨ps', h1, h2⟩ := (h.symm eqv_symm).map (by decide) hp
    rw [← h2.keys]; exact ha.1 _ h1
  · intro ps hp
    obtain ⟨ps', h1, h2⟩ := (h.symm eqv_symm).map (by decide) hp
    rw [← h2.keys]; exact ha.2 _ h1

theorem ditems_near (h : Near (Eqv sat) m m') (hd : DItems sat m v) : DItems sat m' v := by
  intro xs I' hv hI'
  by_cases hn : ∃ Ds', I' = .arr Ds'
  · obtain ⟨Ds', rfl⟩ := hn
    obtain ⟨Ds, h1, h2⟩ := h.list (by decide) hI'
    have := hd xs _ hv h1
    simp only at this ⊢
    refine ⟨fun k D' x h3 h4 => ?_, fun hne => ⟨fun h3 => ?_, fun A' h3 k x h4 h5 => ?_⟩⟩
    · obtain ⟨D, h5, h6⟩ := (h2.symm eqv_symm).at h3
      exact ((h6.symm eqv_symm).iff x).1 (this.1 k D x h5 h4)
    · obtain ⟨y, h4, h5⟩ := h.schema (by decide) h3
      cases h5.bool
      rw [← h2.length]
      refine (this.2 ?_).1 h4
      rintro rfl; cases h2; exact hne rfl
    · obtain ⟨y, h6, h7⟩ := h.schema (by decide) h3
      obtain ⟨A, rfl⟩ := h7.obj
      rw [← h2.length] at h4
      refine (h7.iff x).1 ((this.2 ?_).2 A h6 k x h4 h5)
      rintro rfl; cases h2; exact hne rfl
  · have hn : ∀ Ds, I' ≠ .arr Ds := fun Ds h => hn ⟨Ds, h⟩
    obtain ⟨I, h1, h2⟩ := h.item hI' hn
    have := hd xs I hv h1
    have hn2 := h2.notArr hn
    have h3 : ∀ x ∈ xs, sat I x := by
      cases I with
      | arr Ds => exact absurd rfl (hn2 Ds)
      | _ => exact this
    cases I' with
    | arr Ds => exact absurd rfl (hn Ds)
    | _ => exact fun x hx => (h2.iff x).1 (h3 x hx)

theorem ddependencies_near (h : Near (Eqv sat) m m') (hd : DDependencies sat m v) : DDependencies sat m' v := by
  intro ds' kvs h1 hv k D' h2 h3
  obtain ⟨ds, h4, h5⟩ := h.map (by decide) h1
  obtain ⟨D, h6, h7⟩ := (h5.symm eqv_symm).mem h2
  have := hd ds kvs h4 hv k D h6 h3
  rcases h7 with rfl | ⟨a, b, rfl, rfl, h8⟩
  · exact this
  · exact (h8 v).2 this

theorem dobject_near (h : Near (Eqv sat) m m') (hd : DObject env sat d m v) : DObject env sat d m' v := by
  intro kvs hv
  obtain ⟨h1, h2, h3, h4, h5, h6, h7⟩ := hd kvs hv
  refine ⟨?_, ?_, ?_, ?_, ?_, ?_, ?_⟩
  · simpa only [DSize, Kw, ← h.same "minProperties" (by decide), ← h.same "maxProperties" (by decide)] using h1
  · simpa only [Kw, ← h.same "required" (by decide)] using h2
  · intro ps' hp k D' hD x hx
    obtain ⟨ps, h8, h9⟩ := h.map (by decide) hp
    obtain ⟨D, h10, h11⟩ := (h9.symm eqv_symm).mem hD
    exact ((h11.symm eqv_symm).iff x).1 (h3 ps h8 k D h10 x hx)
  · intro ps' hp q D' hD k x hx hm
    obtain ⟨ps, h8, h9⟩ := h.map (by decide) hp
    obtain ⟨D, h10, h11⟩ := (h9.symm eqv_symm).mem hD
    exact ((h11.symm eqv_symm).iff x).1 (h4 ps h8 q D h10 k x hx hm)
  · intro hf k hk ha
    obtain ⟨y, h8, h9⟩ := h.schema (by decide) hf
    cases h9.bool
    exact h5 h8 k hk (h.additional ha)
  · intro A' hA k x hx ha
    obtain ⟨y, h8, h9⟩ := h.schema (by decide) hA
    obtain ⟨A, rfl⟩ := h9.obj
    exact (h9.iff x).1 (h6 A h8 k x hx (h.additional ha))
  · intro hd D' hD k hk
    obtain ⟨D, h8, h9⟩ := h.schema (by decide) hD
    exact (h9.iff _).1 (h7 hd D h8 k hk)

theorem darray_near (h : Near (Eqv sat) m m') (hd : DArray env sat d m v) : DArray env sat d m' v := by
  intro xs hv
  obtain ⟨h1, h2, h3⟩ := hd xs hv
  refine ⟨?_, ?_, ?_⟩
  · simpa only [DSize, Kw, ← h.same "minItems" (by decide), ← h.same "maxItems" (by decide)] using h1
  · simpa only [Kw, ← h.same "uniqueItems" (by decide)] using h2
  · intro hd D' hD
    obtain ⟨D, h4, h5⟩ := h.schema (by decide) hD
    obtain ⟨x, h6, h7⟩ := h3 hd D h4
    exact ⟨x, h6, (h5.iff x).1 h7⟩

theorem dkeywords_near (h : Near (Eqv sat) m m') (hd : DKeywords env sat d m v) : DKeywords env sat d m' v := by
  obtain ⟨h1, h2, h3, h4, h5, h6, h7, h8, h9, h10, h11, h12, h13, h14, h15⟩ := hd
  refine ⟨?_, ?_, ?_, ?_, ?_, ddependencies_near h h6, ?_, ?_, ?_, ?_, ditems_near h h11, darray_near h h12,
    dobject_near h h13, ?_, ?_⟩
  · simpa only [DType, Kw, ← h.same "type" (by decide)] using h1
  · intro Ds' hD
    obtain ⟨Ds, h16, h17⟩ := h.list (by decide) hD
    rcases h2 Ds h16 with rfl | ⟨D, h18, h19⟩
    · cases h17; exact .inl rfl
    · obtain ⟨D', h20, h21⟩ := h17.mem h18
      exact .inr ⟨D', h20, (h21.iff v).1 h19⟩
  · intro Ds' hD
    obtain ⟨Ds, h16, h17⟩ := h.list (by decide) hD
    rcases h3 Ds h16 with rfl | ⟨k, D, h18, h19, h20⟩
    · cases h17; exact .inl rfl
    · obtain ⟨D', h21, h22⟩ := h17.at h18
      refine .inr ⟨k, D', h21, (h22.iff v).1 h19, fun k' D'' h23 h24 => ?_⟩
      obtain ⟨D0, h25, h26⟩ := (h17.symm eqv_symm).at h23
      exact h20 k' D0 h25 ((h26.iff v).1 h24)
  · intro Ds' hD D' hD'
    obtain ⟨Ds, h16, h17⟩ := h.list (by decide) hD
    obtain ⟨D, h18, h19⟩ := (h17.symm eqv_symm).mem hD'
    exact (h19.iff v).2 (h4 Ds h16 D h18)
  · intro D' hD' hs
    obtain ⟨D, h16, h17⟩ := h.schema (by decide) hD'
    exact h5 D h16 ((h17.iff v).2 hs)
  · intro hd I' hI'
    obtain ⟨I, h16, h17⟩ := h.schema (by decide) hI'
    obtain ⟨h18, h19⟩ := h7 hd I h16
    refine ⟨fun T' hT' hs => ?_, fun E' hE' hs => ?_⟩
    · obtain ⟨T, h20, h21⟩ := h.schema (by decide) hT'
      exact (h21.iff v).1 (h18 T h20 ((h17.iff v).2 hs))
    · obtain ⟨E, h20, h21⟩ := h.schema (by decide) hE'
      exact (h21.iff v).1 (h19 E h20 (fun hs' => hs ((h17.iff v).1 hs')))
  · simpa only [DConst, Kw, ← h.same "const" (by decide)] using h8
  · simpa only [DEnum, Kw, ← h.same "enum" (by decide)] using h9
  · simpa only [DFormat, Kw, ← h.same "format" (by decide)] using h10
  · simpa only [DString, DSize, Kw, ← h.same "minLength" (by decide), ← h.same "maxLength" (by decide),
      ← h.same "pattern" (by decide)] using h14
  · simpa only [DNumber, Kw, ← h.same "multipleOf" (by decide), ← h.same "minimum" (by decide), ← h.same "maximum" (by decide),
      ← h.same "exclusiveMinimum" (by decide), ← h.same "exclusiveMaximum" (by decide)] using h15

/-- One member of an object exchanged. -/
theorem near_hole {a b : List (String × Json)} {k : String} {x y : Json} (h : ValLike R k x y) :
    Near R (a ++ (k, x) :: b) (a ++ (k, y) :: b) := by
  intro q
  induction a with
  | nil =>
    simp only [getKey, List.nil_append, List.lookup_cons]
    by_cases e : q = k
    · subst e
      exact .inr ⟨x, y, by simp, by simp, h⟩
    · have : (q == k) = false := by simp [e]
      simp only [this]
      cases List.lookup q b with
      | none => exact .inl ⟨rfl, rfl⟩
      | some z => exact .inr ⟨z, z, rfl, rfl, .refl _⟩
  | cons e a ih =>
    obtain ⟨e1, e2⟩ := e
    simp only [getKey, List.cons_append, List.lookup_cons] at ih ⊢
    cases (q == e1) with
    | true => exact .inr ⟨_, _, rfl, rfl, .refl _⟩
    | false => exact ih

theorem listLike_hole {xs ys : List Json} {D D'} (h : SaysLike R D D') : ListLike R (xs ++ D :: ys) (xs ++ D' :: ys) := by
  induction xs with
  | nil => exact .cons h (ListLike.refl _)
  | cons x xs ih => exact .cons (.inl rfl) ih

theorem mapLike_hole {xs ys : List (String × Json)} {q D D'} (h : SaysLike R D D') :
    MapLike R (xs ++ (q, D) :: ys) (xs ++ (q, D') :: ys) := by
  induction xs with
  | nil => exact .cons ⟨rfl, h⟩ (MapLike.refl _)
  | cons x xs ih => exact .cons ⟨rfl, .inl rfl⟩ ih

/-- Every value satisfies such schemas at every depth of unfolding. -/
theorem docUnfold_anything (resolve : String → Option (Draft × Json)) (n : Nat) (d : Draft) (D v : Json) (h : Anything D) :
    docUnfold env resolve (fun _ _ _ => True) n d D v := by
  cases n with
  | zero => trivial
  | succ n =>
    rcases h with rfl | rfl
    · rfl
    · simp [docUnfold, DocRules, DKeywords, DType, DAnyOf, DOneOf, DAllOf, DNot, DDependencies, DIf, DConst, DEnum, DFormat,
        DItems, DArray, DObject, DString, DNumber, DSize, Additional, Kw, getKey]

theorem trim_obj {D D'} (h : Trim d D D') : ∃ a b, D = .obj a ∧ D' = .obj b := by
  cases h <;> exact ⟨_, _, rfl, rfl⟩

theorem docRules_congr {resolve : String → Option (Draft × Json)} {Sat : Draft → Json → Json → Prop}
    (hr : getKey "$ref" m = getKey "$ref" m') (hk : DKeywords env (Sat d) d m v ↔ DKeywords env (Sat d) d m' v) :
    DocRules env resolve Sat d (.obj m) v ↔ DocRules env resolve Sat d (.obj m') v := by
  unfold DocRules
  simp only
  rw [← hr]
  split
  · exact Iff.rfl
  · exact hk

theorem idle_notRef {k x} (hi : Idle d m k x) : k ≠ "$ref" := by
  rintro hk
  cases hi with
  | other _ _ h => subst hk; exact h ⟨by decide, fun h => absurd h (by decide), fun h => absurd h (by decide)⟩
  | list _ h => subst hk; exact absurd h (by decide)
  | map _ h => subst hk; exact absurd h (by decide)
  | any _ _ h => subst hk; exact absurd h (by decide)
  | off _ h => subst hk; exact absurd h (by decide)
  | zero _ _ h => subst hk; exact absurd h (by decide)
  | noIf _ _ h => subst hk; exact absurd h (by decide)
  | noFormat => exact absurd hk (by decide)
  | rest => exact absurd hk (by decide)
  | onlyIf => exact absurd hk (by decide)

/-- Taking out a member that asks for nothing, at any depth, changes nothing. -/
theorem docUnfold_trim (resolve : String → Option (Draft × Json)) {D D'} (h : Trim d D D') : ∀ (n : Nat) (v : Json),
    docUnfold env resolve (fun _ _ _ => True) n d D v ↔ docUnfold env resolve (fun _ _ _ => True) n d D' v := by
  induction h with
  | here m k x hx hi =>
    intro n v
    cases n with
    | zero => exact Iff.rfl
    | succ n =>
      refine docRules_congr ?_ (dkeywords_idle hx hi (fun D v => docUnfold_anything resolve n d D v))
      rw [getKey_without, if_neg]
      rintro rfl
      exact idle_notRef hi rfl
  | one a b k D D' hk ht ih =>
    intro n v
    cases n with
    | zero => exact Iff.rfl
    | succ n =>
      obtain ⟨p, q, rfl, rfl⟩ := trim_obj ht
      have hn : Near (Eqv (docUnfold env resolve (fun _ _ _ => True) n d)) (a ++ (k, .obj p) :: b) (a ++ (k, .obj q) :: b) :=
        near_hole (.schema _ _ hk (.inr ⟨p, q, rfl, rfl, ih n⟩))
      exact docRules_congr (hn.same _ (by decide)) ⟨dkeywords_near hn, dkeywords_near (hn.symm eqv_symm)⟩
  | list a b k xs ys D D' hk ht ih =>
    intro n v
    cases n with
    | zero => exact Iff.rfl
    | succ n =>
      obtain ⟨p, q, rfl, rfl⟩ := trim_obj ht
      have hn : Near (Eqv (docUnfold env resolve (fun _ _ _ => True) n d)) (a ++ (k, .arr (xs ++ .obj p :: ys)) :: b)
          (a ++ (k, .arr (xs ++ .obj q :: ys)) :: b) :=
        near_hole (.list _ _ hk (listLike_hole (.inr ⟨p, q, rfl, rfl, ih n⟩)))
      exact docRules_congr (hn.same _ (by decide)) ⟨dkeywords_near hn, dkeywords_near (hn.symm eqv_symm)⟩
  | map a b k xs ys r D D' hk ht ih =>
    intro n v
    cases n with
    | zero => exact Iff.rfl
    | succ n =>
      obtain ⟨p, q, rfl, rfl⟩ := trim_obj ht
      have hn : Near (Eqv (docUnfold env resolve (fun _ _ _ => True) n d)) (a ++ (k, .obj (xs ++ (r, .obj p) :: ys)) :: b)
          (a ++ (k, .obj (xs ++ (r, .obj q) :: ys)) :: b) :=
        near_hole (.map _ _ hk (mapLike_hole (.inr ⟨p, q, rfl, rfl, ih n⟩)))
      exact docRules_congr (hn.same _ (by decide)) ⟨dkeywords_near hn, dkeywords_near (hn.symm eqv_symm)⟩

theorem docUnfold_trims (resolve : String → Option (Draft × Json)) {D D'} (h : Trims d D D') (n : Nat) (v : Json) :
    docUnfold env resolve (fun _ _ _ => True) n d D v ↔ docUnfold env resolve (fun _ _ _ => True) n d D' v := by
  induction h with
  | refl => exact Iff.rfl
  | out _ _ _ h _ ih => exact (docUnfold_trim resolve h n v).trans ih
  | put _ _ _ h _ ih => exact (docUnfold_trim resolve h n v).symm.trans ih

end GJS

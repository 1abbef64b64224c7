import Verif.SpecTerm
import Verif.LemPanic
/-
Helper lemmas: the compiler does not run out of fuel.
-/
namespace GJS
open Spec

/-! ### Lists of candidates -/

/-- Finitely many finite sets have a finite union. -/
theorem exists_cover {xs : List α} {P : α → List β → Prop} (hmono : ∀ x R R', P x R → (∀ r ∈ R, r ∈ R') → P x R')
    (h : ∀ x ∈ xs, ∃ R, P x R) : ∃ R, ∀ x ∈ xs, P x R := by
  induction xs with
  | nil => exact ⟨[], by simp⟩
  | cons x xs ih =>
    obtain ⟨R1, h1⟩ := h x (by simp)
    obtain ⟨R2, h2⟩ := ih fun x hx => h x (by simp [hx])
    refine ⟨R1 ++ R2, List.forall_mem_cons.2 ⟨hmono _ _ _ h1 (by simp +contextual), fun y hy => hmono _ _ _ (h2 y hy) (by simp +contextual)⟩⟩

/-- Induction on the size of documents. -/
theorem size_induction {P : Json → Prop} (h : ∀ D, (∀ x : Json, x.size < D.size → P x) → P D) : ∀ D, P D := by
  intro D
  have : ∀ n, ∀ D : Json, D.size ≤ n → P D := by
    intro n
    induction n with
    | zero => intro D hD; have := D.size_pos; omega
    | succ n ih => intro D hD; exact h D fun x hx => ih x (by omega)
  exact this _ D (Nat.le_refl _)

theorem within_arr {xs : List Json} {s} (h : Within (.arr xs) (.str s)) : ∃ y ∈ xs, Within y (.str s) := by
  cases h with
  | elem _ y _ hy hm => exact ⟨y, hy, hm⟩
theorem within_obj {m : List (String × Json)} {s} (h : Within (.obj m) (.str s)) : ∃ kv ∈ m, Within kv.2 (.str s) := by
  cases h with
  | member _ k y _ hy hm => exact ⟨(k, y), hy, hm⟩

/-- A document contains finitely many strings. -/
theorem texts_raw : ∀ D : Json, ∃ R : List String, ∀ t, Within D (.str t) → t ∈ R := by
  refine size_induction fun D ih => ?_
  cases D with
  | arr xs =>
    obtain ⟨R, hR⟩ := exists_cover (xs := xs) (P := fun x R => ∀ t, Within x (.str t) → t ∈ R)
      (fun x R R' h hs t ht => hs _ (h t ht)) fun x hx => ih x (Json.size_lt_of_mem hx)
    refine ⟨R, fun t ht => ?_⟩
    obtain ⟨y, hy, h⟩ := within_arr ht
    exact hR y hy t h
  | obj kvs =>
    obtain ⟨R, hR⟩ := exists_cover (xs := kvs) (P := fun x R => ∀ t, Within x.2 (.str t) → t ∈ R)
      (fun x R R' h hs t ht => hs _ (h t ht)) fun x hx => ih x.2 (by have := Json.size_lt_of_mem_kv (k := x.1) (x := x.2) hx; omega)
    refine ⟨R, fun t ht => ?_⟩
    obtain ⟨y, hy, h⟩ := within_obj ht
    exact hR y hy t h
  | str s => exact ⟨[s], by rintro t ht; cases ht; simp⟩
  | _ => exact ⟨[], by rintro t hm; cases hm⟩

/-- The member of the original that a member of a list with the same keys comes from. -/
theorem member_origin {m m' : List (String × Json)} (hk : m.map Prod.fst = m'.map Prod.fst) {k v'} (h : (k, v') ∈ m') :
    ∃ (i : Nat) (v : Json), m[i]? = some (k, v) ∧ m'[i]? = some (k, v') ∧ (k, v) ∈ m := by
  obtain ⟨i, hi⟩ := List.getElem?_of_mem h
  have h1 := congrArg (·[i]?) hk
  simp only [List.getElem?_map, hi, Option.map_some] at h1
  cases hb : m[i]? with
  | none => rw [hb] at h1; cases h1
  | some e =>
    obtain ⟨k', x⟩ := e
    rw [hb] at h1
    simp only [Option.map_some, Option.some.injEq] at h1
    subst h1
    exact ⟨i, x, hb, hi, List.mem_of_getElem? hb⟩

/-- Rewriting a document produces finitely many different strings. -/
theorem texts_rw {w : World} : ∀ D : Json, ∀ b, ∃ R : List String, ∀ D' t, Rw w b D D' → Within D' (.str t) → t ∈ R := by
  refine size_induction fun D ih => ?_
  intro b
  cases D with
  | arr xs =>
    obtain ⟨R, hR⟩ := exists_cover (xs := xs) (P := fun x R => ∀ D' t, Rw w b x D' → Within D' (.str t) → t ∈ R)
      (fun x R R' h hs D' t hr ht => hs _ (h D' t hr ht)) fun x hx => ih x (Json.size_lt_of_mem hx) b
    refine ⟨R, ?_⟩
    intro D' t hr ht
    cases hr with
    | scalar _ _ h => exact absurd rfl (h _)
    | arr _ _ ys hlen hxy =>
      obtain ⟨y, hy, hm⟩ := within_arr ht
      obtain ⟨i, hi⟩ := List.getElem?_of_mem hy
      have hlt := (List.getElem?_eq_some_iff.1 hi).1
      have hx : xs[i]? = some (xs[i]'(by omega)) := List.getElem?_eq_getElem _
      exact hR _ (List.mem_of_getElem? hx) _ t (hxy i _ _ hx hi) hm
  | obj kvs =>
    have h1 : ∃ R : List String, ∀ kv ∈ kvs, ∀ v' t, RwMember w (scopeOf w b kvs) kv.1 kv.2 v' → Within v' (.str t) → t ∈ R := by
      refine exists_cover (P := fun (kv : String × Json) R => ∀ v' t, RwMember w (scopeOf w b kvs) kv.1 kv.2 v' →
        Within v' (.str t) → t ∈ R) (fun x R R' h hs v' t h1 h2 => hs _ (h v' t h1 h2)) ?_
      rintro ⟨k, v⟩ hkv
      have hsz := Json.size_lt_of_mem_kv hkv
      obtain ⟨R1, hR1⟩ := texts_raw v
      obtain ⟨R2, hR2⟩ := ih v (by omega) (scopeOf w b kvs)
      have : ∃ R3 : List String, ∀ c, v = .obj c → ∀ kv ∈ c, ∀ D' t, Rw w (scopeOf w b kvs) kv.2 D' → Within D' (.str t) → t ∈ R3 := by
        cases v with
        | obj c =>
          obtain ⟨R, hR⟩ := exists_cover (xs := c)
            (P := fun (x : String × Json) R => ∀ D' t, Rw w (scopeOf w b kvs) x.2 D' → Within D' (.str t) → t ∈ R)
            (fun x R R' h hs D' t hr ht => hs _ (h D' t hr ht))
            fun x hx => ih x.2 (by have := Json.size_lt_of_mem_kv (k := x.1) (x := x.2) hx; omega) _
          exact ⟨R, by rintro c' hc; cases hc; exact hR⟩
        | _ => exact ⟨[], by rintro c hc; cases hc⟩
      obtain ⟨R3, hR3⟩ := this
      refine ⟨(match v with | .str t => ((w.norm t).bind (w.inherits (scopeOf w b kvs))).toList | _ => []) ++ R1 ++ R2 ++ R3, ?_⟩
      intro v' t hr ht
      simp only [List.mem_append]
      cases hr with
      | literal => exact .inl (.inl (.inr (hR1 t ht)))
      | ref _ t0 t' h => cases ht; exact .inl (.inl (.inl (by simp [h])))
      | badRef => exact .inl (.inl (.inr (hR1 t ht)))
      | map _ _ c c' hs hk hc =>
        obtain ⟨kv, hkv, hm⟩ := within_obj ht
        obtain ⟨i, x, h1, h2, h3⟩ := member_origin hk hkv
        exact .inr (hR3 c rfl _ h3 _ t (hc i _ _ _ h1 h2) hm)
      | noMap => exact .inl (.inl (.inr (hR1 t ht)))
      | sub _ _ _ _ _ _ hnr hr => exact .inl (.inr (hR2 _ t hr ht))
    obtain ⟨R, hR⟩ := h1
    obtain ⟨R0, hR0⟩ := texts_raw (.obj kvs)
    refine ⟨R ++ R0, ?_⟩
    intro D' t hr ht
    cases hr with
    | scalar _ _ _ h => exact absurd rfl (h _)
    | obj _ _ m' hk hm =>
      obtain ⟨kv, hkv, hw⟩ := within_obj ht
      obtain ⟨i, x, h1, h2, h3⟩ := member_origin hk hkv
      exact List.mem_append.2 (.inl (hR _ h3 _ t (hm i _ _ _ h1 h2) hw))
    | taken => exact List.mem_append.2 (.inr (hR0 t ht))
  | str s =>
    refine ⟨[s], ?_⟩
    intro D' t hr ht
    cases hr
    cases ht
    simp
  | _ =>
    refine ⟨[], ?_⟩
    intro D' t hr hm
    cases hr
    cases hm

/-! ### Rewriting is possible, and can be extended from a part to the whole -/

mutual
theorem rw_exists {w : World} {T : Prop} : ∀ (D : Json) (b : String), ∃ D', RwT w T b D D'
  | .null, b => ⟨_, .scalar _ _ nofun nofun⟩
  | .bool _, b => ⟨_, .scalar _ _ nofun nofun⟩
  | .num _, b => ⟨_, .scalar _ _ nofun nofun⟩
  | .str _, b => ⟨_, .scalar _ _ nofun nofun⟩
  | .arr xs, b => by
    obtain ⟨ys, h⟩ := rw_existsL xs b
    exact ⟨_, .arr _ _ _ h.1 h.2⟩
  | .obj m, b => by
    obtain ⟨m', h⟩ := rw_existsM m (scopeOf w b m)
    exact ⟨_, .obj _ _ _ h.1 h.2⟩
theorem rw_existsL {w : World} {T : Prop} : ∀ (xs : List Json) (b : String), ∃ ys : List Json, xs.length = ys.length ∧
    ∀ (i : Nat) x y, xs[i]? = some x → ys[i]? = some y → RwT w T b x y
  | [], b => ⟨[], rfl, by simp⟩
  | x :: xs, b => by
    obtain ⟨y, hy⟩ := rw_exists x b
    obtain ⟨ys, h1, h2⟩ := rw_existsL xs b
    refine ⟨y :: ys, by simp [h1], ?_⟩
    intro i a c ha hc
    cases i with
    | zero => simp at ha hc; subst ha; subst hc; exact hy
    | succ i => simp at ha hc; exact h2 i a c ha hc
theorem rw_existsM {w : World} {T : Prop} : ∀ (m : List (String × Json)) (b : String), ∃ m' : List (String × Json),
    m.map Prod.fst = m'.map Prod.fst ∧
    ∀ (i : Nat) k x y, m[i]? = some (k, x) → m'[i]? = some (k, y) → RwMemberT w T b k x y
  | [], b => ⟨[], rfl, by simp⟩
  | (k, x) :: m, b => by
    obtain ⟨y, hy⟩ : ∃ y, RwMemberT w T b k x y := by
      by_cases hl : Literal k
      · exact ⟨_, .literal _ _ _ hl⟩
      · by_cases hs : SchemaMap k
        · cases x with
          | obj c =>
            obtain ⟨c', h1, h2⟩ := rw_existsV c b
            exact ⟨_, .map _ _ _ _ hs h1 h2⟩
          | _ => exact ⟨_, .noMap _ _ _ hs nofun⟩
        · by_cases hr : k = "$ref" ∧ ∃ t, x = .str t
          · obtain ⟨rfl, t, rfl⟩ := hr
            cases h : (w.norm t).bind (w.inherits b) with
            | none => exact ⟨_, .badRef _ _ h⟩
            | some t' => exact ⟨_, .ref _ _ _ h⟩
          · obtain ⟨y, hy⟩ := rw_exists x b
            exact ⟨y, .sub _ _ _ _ hl hs (by rintro rfl t rfl; exact hr ⟨rfl, t, rfl⟩) hy⟩
    obtain ⟨m', h1, h2⟩ := rw_existsM m b
    refine ⟨(k, y) :: m', by simp [h1], ?_⟩
    intro i a c d ha hc
    cases i with
    | zero =>
      simp only [List.getElem?_cons_zero, Option.some.injEq, Prod.mk.injEq] at ha hc
      obtain ⟨rfl, rfl⟩ := ha
      obtain ⟨_, rfl⟩ := hc
      exact hy
    | succ i => simp at ha hc; exact h2 i a c d ha hc
theorem rw_existsV {w : World} {T : Prop} : ∀ (m : List (String × Json)) (b : String), ∃ m' : List (String × Json),
    m.map Prod.fst = m'.map Prod.fst ∧
    ∀ (i : Nat) k x y, m[i]? = some (k, x) → m'[i]? = some (k, y) → RwT w T b x y
  | [], b => ⟨[], rfl, by simp⟩
  | (k, x) :: m, b => by
    obtain ⟨y, hy⟩ := rw_exists x b
    obtain ⟨m', h1, h2⟩ := rw_existsV m b
    refine ⟨(k, y) :: m', by simp [h1], ?_⟩
    intro i a c d ha hc
    cases i with
    | zero =>
      simp only [List.getElem?_cons_zero, Option.some.injEq, Prod.mk.injEq] at ha hc
      obtain ⟨rfl, rfl⟩ := ha
      obtain ⟨_, rfl⟩ := hc
      exact hy
    | succ i => simp at ha hc; exact h2 i a c d ha hc
end

/-- Replace one entry of a pointwise related list. -/
theorem replace_at {xs ys : List α} {R : α → α → Prop} (hlen : xs.length = ys.length)
    (h : ∀ (i : Nat) x y, xs[i]? = some x → ys[i]? = some y → R x y) {x y} (hx : x ∈ xs) (hxy : R x y) :
    ∃ zs : List α, xs.length = zs.length ∧ y ∈ zs ∧ ∀ (i : Nat) x y, xs[i]? = some x → zs[i]? = some y → R x y := by
  obtain ⟨j, hj⟩ := List.getElem?_of_mem hx
  have hlt := (List.getElem?_eq_some_iff.1 hj).1
  refine ⟨ys.set j y, by simpa using hlen, ?_, ?_⟩
  · exact List.mem_of_getElem? (i := j) (by rw [List.getElem?_set_self (by omega)])
  · intro i a c ha hc
    by_cases hij : j = i
    · subst hij
      rw [List.getElem?_set_self (by omega)] at hc
      rw [hj] at ha
      cases ha; cases hc; exact hxy
    · rw [List.getElem?_set_ne hij] at hc
      exact h i a c ha hc

/-- Replace one member. -/
theorem replace_member {m m' : List (String × Json)} {R : String → Json → Json → Prop} (hk : m.map Prod.fst = m'.map Prod.fst)
    (h : ∀ (i : Nat) k x y, m[i]? = some (k, x) → m'[i]? = some (k, y) → R k x y) {k x y} (hx : (k, x) ∈ m) (hxy : R k x y) :
    ∃ z : List (String × Json), m.map Prod.fst = z.map Prod.fst ∧ (k, y) ∈ z ∧
      ∀ (i : Nat) k x y, m[i]? = some (k, x) → z[i]? = some (k, y) → R k x y := by
  obtain ⟨j, hj⟩ := List.getElem?_of_mem hx
  have hlt := (List.getElem?_eq_some_iff.1 hj).1
  have hlen : m.length = m'.length := by simpa using congrArg List.length hk
  refine ⟨m'.set j (k, y), ?_, ?_, ?_⟩
  · refine List.ext_getElem? fun i => ?_
    rw [hk]
    by_cases hij : j = i
    · subst hij
      simp only [List.getElem?_map]
      rw [List.getElem?_set_self (by omega)]
      have h1 := congrArg (·[j]?) hk
      simp only [List.getElem?_map, hj, Option.map_some] at h1
      rw [← h1]; rfl
    · simp only [List.getElem?_map]
      rw [List.getElem?_set_ne hij]
  · exact List.mem_of_getElem? (i := j) (by rw [List.getElem?_set_self (by omega)])
  · intro i a c d ha hc
    by_cases hij : j = i
    · subst hij
      rw [List.getElem?_set_self (by omega)] at hc
      rw [hj] at ha
      cases ha; cases hc; exact hxy
    · rw [List.getElem?_set_ne hij] at hc
      exact h i a c d ha hc

theorem rw_ext_arr {w : World} {b xs x x'} (hx : x ∈ xs) (h : Rw w b x x') : ∃ D', Rw w b (.arr xs) D' ∧ Within D' x' := by
  obtain ⟨ys, h1, h2⟩ := rw_existsL (w := w) xs b
  obtain ⟨zs, g1, g2, g3⟩ := replace_at h1 h2 hx h
  exact ⟨.arr zs, .arr _ _ _ g1 g3, within_elem g2⟩

theorem rw_ext_member {w : World} {b} {m : List (String × Json)} {k x x'} (hx : (k, x) ∈ m)
    (h : RwMember w (scopeOf w b m) k x x') : ∃ D', Rw w b (.obj m) D' ∧ Within D' x' := by
  obtain ⟨ys, h1, h2⟩ := rw_existsM (w := w) m (scopeOf w b m)
  obtain ⟨zs, g1, g2, g3⟩ := replace_member (R := RwMember w (scopeOf w b m)) h1 h2 hx h
  exact ⟨.obj zs, .obj _ _ _ g1 g3, within_member (kv := (k, x')) g2⟩

theorem rw_ext_inMap {w : World} {b} {m c : List (String × Json)} {k n x x'} (hc : (k, .obj c) ∈ m) (hs : SchemaMap k)
    (hx : (n, x) ∈ c) (h : Rw w (scopeOf w b m) x x') : ∃ D', Rw w b (.obj m) D' ∧ Within D' x' := by
  obtain ⟨ys, h1, h2⟩ := rw_existsV (w := w) c (scopeOf w b m)
  obtain ⟨zs, g1, g2, g3⟩ := replace_member (R := fun _ => Rw w (scopeOf w b m)) h1 h2 hx h
  obtain ⟨D', e1, e2⟩ := rw_ext_member hc (.map _ _ _ _ hs g1 g3)
  exact ⟨D', e1, within_trans e2 (within_member (kv := (n, x')) g2)⟩

/-! ### Sizes -/

mutual
theorem size_blank : ∀ D : Json, (blank D).size = D.size
  | .null => rfl
  | .bool _ => rfl
  | .num _ => rfl
  | .str _ => rfl
  | .arr xs => by simp only [blank, Json.size, size_blankL xs]
  | .obj m => by simp only [blank, Json.size, size_blankM m]
theorem size_blankL : ∀ xs : List Json, Json.sizeL (blankL xs) = Json.sizeL xs
  | [] => rfl
  | x :: xs => by simp only [blankL, Json.sizeL, size_blank x, size_blankL xs]
theorem size_blankM : ∀ m : List (String × Json), Json.sizeKV (blankM m) = Json.sizeKV m
  | [] => rfl
  | (_, x) :: m => by simp only [blankM, Json.sizeKV, size_blank x, size_blankM m]
end

theorem rw_size {w : World} {T : Prop} {b D D'} (h : RwT w T b D D') : D'.size = D.size := by
  rw [← size_blank D', rw_blank h, size_blank]

theorem within_size {D x : Json} (h : Within D x) : x.size ≤ D.size := by
  induction h with
  | self => exact Nat.le_refl _
  | elem xs y x hy _ ih => have := Json.size_lt_of_mem hy; omega
  | member m k y x hy _ ih => have := Json.size_lt_of_mem_kv hy; omega

theorem refers_within {w : World} {D x r} (h : Within D x) (hr : Refers w x r) : Refers w D r := by
  obtain ⟨m, t, h1, h2⟩ := hr
  exact ⟨m, t, within_trans h h1, h2⟩

/-! ### The documents a compilation meets -/

/-- Documents that may be in the pool: of bounded size, referring to `R` only. -/
def PoolFine (w : World) (S : Nat) (R : String → Prop) (D : Json) : Prop := D.size ≤ S ∧ ∀ r, Refers w D r → R r

/-- Documents that may be rewritten with base `b`. -/
def RwFine (w : World) (S : Nat) (R : String → Prop) (b : String) (D : Json) : Prop :=
  D.WF ∧ ∀ D', Version w b D D' → PoolFine w S R D'

theorem PoolFine.within {w S R D x} (h : PoolFine w S R D) (hx : Within D x) : PoolFine w S R x :=
  ⟨Nat.le_trans (within_size hx) h.1, fun r hr => h.2 r (refers_within hx hr)⟩

theorem str_noRefers {w : World} {t r} : ¬ Refers w (.str t) r := by
  rintro ⟨m, _, h, _⟩; cases h

theorem rwFine_closed {w : World} {S : Nat} {R : String → Prop} : RwClosed w (RwFine w S R) (PoolFine w S R) where
  wf := fun _ _ h => h.1
  elem := by
    intro b xs x h hx
    refine ⟨wf_arr h.1 _ hx, ?_⟩
    rintro x' (rfl | hr)
    · exact (h.2 _ (.inl rfl)).within (within_elem hx)
    · obtain ⟨D', h1, h2⟩ := rw_ext_arr hx hr
      exact (h.2 _ (.inr h1)).within h2
  member := by
    intro b m k v h hv hl hs
    refine ⟨wf_obj h.1 _ hv, ?_⟩
    have hraw := (h.2 _ (.inl rfl)).within (within_member hv)
    rintro v' (rfl | hr)
    · exact hraw
    · by_cases hk : k = "$ref" ∧ ∃ t, v = .str t
      · obtain ⟨rfl, t, rfl⟩ := hk
        cases hr
        exact hraw
      · obtain ⟨D', h1, h2⟩ := rw_ext_member hv (.sub _ _ _ _ hl hs (by rintro rfl t rfl; exact hk ⟨rfl, t, rfl⟩) hr)
        exact (h.2 _ (.inr h1)).within h2
  inMap := by
    intro b m k c n x h hc hs hx
    have hw := within_trans (within_member hc) (within_member (m := c) (kv := (n, x)) hx)
    refine ⟨wf_within hw h.1, ?_⟩
    rintro x' (rfl | hr)
    · exact (h.2 _ (.inl rfl)).within hw
    · obtain ⟨D', h1, h2⟩ := rw_ext_inMap hc hs hx hr
      exact (h.2 _ (.inr h1)).within h2
  str := by
    intro b m t h
    refine ⟨.str _, ?_⟩
    have h1 := (h.2 _ (.inl rfl)).1
    have hpos := (Json.obj m).size_pos
    rintro x' (rfl | hr)
    · exact ⟨by simp only [Json.size] at *; omega, fun r hr => absurd hr str_noRefers⟩
    · cases hr
      exact ⟨by simp only [Json.size] at *; omega, fun r hr => absurd hr str_noRefers⟩
  done := fun _ _ _ h hr => h.2 _ (.inr hr)
  raw := fun _ _ h => h.2 _ (.inl rfl)

/-- Every document of a closed set may be rewritten. -/
theorem closed_fine {w : World} {L : List (String × Json)} (hL : ClosedSet w L) : ∃ (S : Nat) (rs : List String),
    ∀ b D, (b, D) ∈ L → RwFine w S (fun r => r ∈ rs ∧ LeadsInto w L r) b D := by
  have h1 : ∃ T : List String, ∀ bD ∈ L, ∀ D' t, Version w bD.1 bD.2 D' → Within D' (.str t) → t ∈ T := by
    refine exists_cover (P := fun (bD : String × Json) T => ∀ D' t, Version w bD.1 bD.2 D' → Within D' (.str t) → t ∈ T)
      (fun x R R' h hs D' t h1 h2 => hs _ (h D' t h1 h2)) ?_
    rintro ⟨b, D⟩ _
    obtain ⟨R1, hR1⟩ := texts_raw D
    obtain ⟨R2, hR2⟩ := texts_rw (w := w) D b
    refine ⟨R1 ++ R2, ?_⟩
    rintro D' t (rfl | hr) ht
    · exact List.mem_append.2 (.inl (hR1 t ht))
    · exact List.mem_append.2 (.inr (hR2 _ t hr ht))
  obtain ⟨T, hT⟩ := h1
  have h2 : ∃ S : Nat, ∀ bD ∈ L, bD.2.size ≤ S := by
    clear hL hT
    induction L with
    | nil => exact ⟨0, by simp⟩
    | cons x L ih =>
      obtain ⟨S, h⟩ := ih
      exact ⟨max S x.2.size, List.forall_mem_cons.2 ⟨Nat.le_max_right _ _, fun y hy => Nat.le_trans (h y hy) (Nat.le_max_left _ _)⟩⟩
  obtain ⟨S, hS⟩ := h2
  refine ⟨S, T.filterMap w.norm, ?_⟩
  intro b D hD
  refine ⟨hL.wf _ _ hD, fun D' hD' => ⟨?_, ?_⟩⟩
  · rcases hD' with rfl | hr
    · exact hS _ hD
    · rw [rw_size hr]; exact hS _ hD
  · intro r hr
    refine ⟨?_, fun n f d hd => hL.refs _ _ _ _ hD hD' hr n f d hd⟩
    obtain ⟨m, t, h1, h2, h3⟩ := hr
    exact List.mem_filterMap.2 ⟨t, hT _ hD _ t hD' (within_trans h1 (within_get h2)), h3⟩

end GJS

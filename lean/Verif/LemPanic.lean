import Verif.SpecPanic
import Verif.LemRegister
import Verif.LemCompile
import Verif.LemAbort
import Verif.LemAcceptRoot
/-
Helper lemmas: rewriting keeps everything but strings; absence of panics in the loader.
-/
namespace GJS
open Spec

mutual
/-- The document with all strings erased. -/
def blank : Json → Json
  | .str _ => .str ""
  | .arr xs => .arr (blankL xs)
  | .obj m => .obj (blankM m)
  | v => v
/-- ... for the elements of an array -/
def blankL : List Json → List Json
  | [] => []
  | x :: xs => blank x :: blankL xs
/-- ... for the members of an object -/
def blankM : List (String × Json) → List (String × Json)
  | [] => []
  | (k, x) :: m => (k, blank x) :: blankM m
end

theorem blankL_eq (xs) : blankL xs = xs.map blank := by
  induction xs with
  | nil => rfl
  | cons x xs ih => simp [blankL, ih]

theorem blankM_eq (m : List (String × Json)) : blankM m = m.map (fun e => (e.1, blank e.2)) := by
  induction m with
  | nil => rfl
  | cons e m ih => obtain ⟨k, x⟩ := e; simp [blankM, ih]

theorem blank_num {v n} (h : blank v = .num n) : v = .num n := by
  cases v <;> simp_all [blank]
theorem blank_bool {v b} (h : blank v = .bool b) : v = .bool b := by
  cases v <;> simp_all [blank]
theorem blank_arr {v xs} (h : blank v = .arr xs) : ∃ ys, v = .arr ys ∧ ys.map blank = xs := by
  cases v with
  | arr ys => exact ⟨ys, rfl, by simpa [blank, blankL_eq] using h⟩
  | _ => simp [blank] at h
theorem blank_obj {v m} (h : blank v = .obj m) : ∃ c, v = .obj c ∧ c.map (fun e => (e.1, blank e.2)) = m := by
  cases v with
  | obj c => exact ⟨c, rfl, by simpa [blank, blankM_eq] using h⟩
  | _ => simp [blank] at h

theorem getKey_blank (m : List (String × Json)) (k) : getKey k (m.map (fun e => (e.1, blank e.2))) = (getKey k m).map blank := by
  induction m with
  | nil => rfl
  | cons e m ih =>
    obtain ⟨k', x⟩ := e
    simp only [getKey, List.map_cons, List.lookup_cons] at ih ⊢
    split
    · rfl
    · exact ih

theorem within_blank {D x} (h : Within D x) : Within (blank D) (blank x) := by
  induction h with
  | self D => exact .self _
  | elem xs y x hy _ ih =>
    rw [blank, blankL_eq]
    exact .elem _ _ _ (List.mem_map_of_mem hy) ih
  | member m k y x hy _ ih =>
    rw [blank, blankM_eq]
    exact .member _ k _ _ (List.mem_map.2 ⟨_, hy, rfl⟩) ih

theorem within_unblank {E x} (h : Within E x) : ∀ {D}, E = blank D → ∃ y, Within D y ∧ blank y = x := by
  induction h with
  | self E => intro D h; exact ⟨D, .self _, h.symm⟩
  | elem xs y x hy _ ih =>
    intro D h
    obtain ⟨ys, rfl, rfl⟩ := blank_arr h.symm
    obtain ⟨z, hz, rfl⟩ := List.mem_map.1 hy
    obtain ⟨y', h1, h2⟩ := ih rfl
    exact ⟨y', .elem _ _ _ hz h1, h2⟩
  | member m k y x hy _ ih =>
    intro D h
    obtain ⟨c, rfl, rfl⟩ := blank_obj h.symm
    obtain ⟨⟨k', z⟩, hz, e⟩ := List.mem_map.1 hy
    simp only [Prod.mk.injEq] at e
    obtain ⟨rfl, rfl⟩ := e
    obtain ⟨y', h1, h2⟩ := ih rfl
    exact ⟨y', .member _ _ _ _ hz h1, h2⟩

theorem map_ext_getElem? {xs : List α} {ys : List β} {f : α → γ} {g : β → γ} (hlen : xs.length = ys.length)
    (h : ∀ (i : Nat) x y, xs[i]? = some x → ys[i]? = some y → g y = f x) : ys.map g = xs.map f := by
  refine List.ext_getElem? fun i => ?_
  rw [List.getElem?_map, List.getElem?_map]
  cases ha : xs[i]? with
  | none =>
    rw [List.getElem?_eq_none_iff] at ha
    rw [List.getElem?_eq_none_iff.2 (by omega)]; rfl
  | some a =>
    have hi := (List.getElem?_eq_some_iff.1 ha).1
    have hb : ys[i]? = some (ys[i]'(by omega)) := List.getElem?_eq_getElem _
    rw [hb, Option.map_some, Option.map_some, h i a _ ha hb]

theorem blank_members {m m' : List (String × Json)} (hk : m.map Prod.fst = m'.map Prod.fst)
    (h : ∀ (i : Nat) k v v', m[i]? = some (k, v) → m'[i]? = some (k, v') → blank v' = blank v) : blank (.obj m') = blank (.obj m) := by
  rw [blank, blank, blankM_eq, blankM_eq]
  congr 1
  refine map_ext_getElem? (by simpa using congrArg List.length hk) fun i x y hx hy => ?_
  have h1 := congrArg (·[i]?) hk
  simp only [List.getElem?_map, hx, hy, Option.map_some, Option.some.injEq] at h1
  obtain ⟨k, v⟩ := x
  obtain ⟨k', v'⟩ := y
  simp only at h1
  subst h1
  rw [h i k v v' hx hy]

/-- Rewriting changes strings only. -/
theorem rw_blank {w : World} {T : Prop} {base : String} {D D' : Json} (h : RwT w T base D D') : blank D' = blank D := by
  refine RwT.rec (motive_1 := fun _ D D' _ => blank D' = blank D)
    (motive_2 := fun _ k v v' _ => blank v' = blank v) ?_ ?_ ?_ ?_ ?_ ?_ ?_ ?_ ?_ ?_ h
  · intros; rfl
  · intro base xs ys hlen _ ih
    rw [blank, blank, blankL_eq, blankL_eq]
    congr 1
    exact map_ext_getElem? hlen fun i x y hx hy => ih i x y hx hy
  · intro base m m' hk _ ih
    exact blank_members hk fun i k v v' h1 h2 => ih i k v v' h1 h2
  · intros; rfl
  · intros; rfl
  · intro base t t' _; rfl
  · intros; rfl
  · intro base k c c' _ hk _ ih
    exact blank_members hk fun i k v v' h1 h2 => ih i k v v' h1 h2
  · intros; rfl
  · intro base k v v' _ _ _ _ ih; exact ih

mutual
theorem wf_blank : ∀ D, D.WF → (blank D).WF
  | .null, _ => .null
  | .bool b, _ => .bool b
  | .num n, _ => .num n
  | .str s, _ => .str _
  | .arr xs, h => by rw [blank]; exact .arr _ (wf_blankL xs (wf_arr h))
  | .obj m, h => by
    rw [blank]
    refine .obj _ ?_ (wf_blankM m (wf_obj h))
    rw [blankM_eq, List.map_map]
    exact wf_nodup h
theorem wf_blankL : ∀ xs : List Json, (∀ x ∈ xs, x.WF) → ∀ x ∈ blankL xs, x.WF
  | [], _ => by simp [blankL]
  | x :: xs, h => by
    rw [blankL]
    exact List.forall_mem_cons.2 ⟨wf_blank x (h x (by simp)), wf_blankL xs fun y hy => h y (by simp [hy])⟩
theorem wf_blankM : ∀ m : List (String × Json), (∀ e ∈ m, e.2.WF) → ∀ e ∈ blankM m, e.2.WF
  | [], _ => by simp [blankM]
  | (k, x) :: m, h => by
    rw [blankM]
    exact List.forall_mem_cons.2 ⟨wf_blank x (h (k, x) (by simp)), wf_blankM m fun y hy => h y (by simp [hy])⟩
end

mutual
theorem wf_unblank : ∀ D, (blank D).WF → D.WF
  | .null, _ => .null
  | .bool b, _ => .bool b
  | .num n, _ => .num n
  | .str s, _ => .str _
  | .arr xs, h => by rw [blank] at h; exact .arr _ (wf_unblankL xs (wf_arr h))
  | .obj m, h => by
    rw [blank] at h
    refine .obj _ ?_ (wf_unblankM m (wf_obj h))
    have := wf_nodup h
    rw [blankM_eq, List.map_map] at this
    exact this
theorem wf_unblankL : ∀ xs : List Json, (∀ x ∈ blankL xs, x.WF) → ∀ x ∈ xs, x.WF
  | [], _ => by simp
  | x :: xs, h => by
    rw [blankL] at h
    exact List.forall_mem_cons.2 ⟨wf_unblank x (h _ (by simp)), wf_unblankL xs fun y hy => h y (by simp [hy])⟩
theorem wf_unblankM : ∀ m : List (String × Json), (∀ e ∈ blankM m, e.2.WF) → ∀ e ∈ m, e.2.WF
  | [], _ => by simp
  | (k, x) :: m, h => by
    rw [blankM] at h
    exact List.forall_mem_cons.2 ⟨wf_unblank x (h (k, blank x) (by simp)), wf_unblankM m fun y hy => h y (by simp [hy])⟩
end

theorem within_trans {a b c : Json} (h1 : Within a b) (h2 : Within b c) : Within a c := by
  induction h1 with
  | self => exact h2
  | elem xs y x hy _ ih => exact .elem _ _ _ hy (ih h2)
  | member m k y x hy _ ih => exact .member _ k _ _ hy (ih h2)

theorem wf_within {D x : Json} (h : Within D x) (hD : D.WF) : x.WF := by
  induction h with
  | self => exact hD
  | elem xs y x hy _ ih => exact ih (wf_arr hD _ hy)
  | member m k y x hy _ ih => exact ih (wf_obj hD _ hy)

theorem within_same {D D' x : Json} (h : blank D' = blank D) (hx : Within D' x) : ∃ y, Within D y ∧ blank y = blank x :=
  within_unblank (within_blank hx) h

theorem Spec.Tame.like {env : Env} {D D' : Json} (h : Tame env D) (hb : blank D' = blank D) : Tame env D' where
  nums := by
    intro n hn
    obtain ⟨y, hy, e⟩ := within_same hb hn
    rw [blank_num (n := n) e] at hy
    exact h.nums n hy
  definitions := by
    intro m b hm hk
    obtain ⟨y, hy, e⟩ := within_same hb hm
    rw [show blank (.obj m) = .obj (blankM m) from rfl, blankM_eq] at e
    obtain ⟨c, rfl, e2⟩ := blank_obj e
    have := congrArg (getKey "definitions") e2
    rw [getKey_blank, getKey_blank, hk] at this
    cases hc : getKey "definitions" c with
    | none => rw [hc] at this; cases this
    | some v =>
      rw [hc] at this
      simp only [Option.map_some, Option.some.injEq] at this
      rw [blank_bool (b := b) this] at hc
      exact h.definitions c b hy hc
  types := by
    intro m xs n hm hk hn
    obtain ⟨y, hy, e⟩ := within_same hb hm
    rw [show blank (.obj m) = .obj (blankM m) from rfl, blankM_eq] at e
    obtain ⟨c, rfl, e2⟩ := blank_obj e
    have := congrArg (getKey "type") e2
    rw [getKey_blank, getKey_blank, hk] at this
    cases hc : getKey "type" c with
    | none => rw [hc] at this; cases this
    | some v =>
      rw [hc] at this
      simp only [Option.map_some, Option.some.injEq] at this
      rw [show blank (.arr xs) = .arr (blankL xs) from rfl, blankL_eq] at this
      obtain ⟨ys, rfl, e'⟩ := blank_arr this
      have hn' : blank (.num n) ∈ xs.map blank := List.mem_map_of_mem hn
      rw [← e'] at hn'
      obtain ⟨z, hz, ez⟩ := List.mem_map.1 hn'
      rw [blank_num (n := n) ez] at hz
      exact h.types c ys n hy hc hz

theorem Spec.NumsF64.like {D D' : Json} (h : NumsF64 D) (hb : blank D' = blank D) : NumsF64 D' := by
  intro n hn
  obtain ⟨y, hy, e⟩ := within_same hb hn
  rw [blank_num (n := n) e] at hy
  exact h n hy

theorem Spec.Tame.within {env : Env} {D x : Json} (h : Tame env D) (hx : Within D x) : Tame env x where
  nums := fun n hn => h.nums n (within_trans hx hn)
  definitions := fun m b hm => h.definitions m b (within_trans hx hm)
  types := fun m xs n hm => h.types m xs n (within_trans hx hm)

theorem Spec.NumsF64.within {D x : Json} (h : NumsF64 D) (hx : Within D x) : NumsF64 x :=
  fun n hn => h n (within_trans hx hn)

theorem within_elem {xs : List Json} {x} (h : x ∈ xs) : Within (.arr xs) x := .elem _ _ _ h (.self _)
theorem within_member {m : List (String × Json)} {kv} (h : kv ∈ m) : Within (.obj m) kv.2 := .member _ kv.1 _ _ h (.self _)
theorem within_get {m : List (String × Json)} {k v} (h : getKey k m = some v) : Within (.obj m) v :=
  within_member (kv := (k, v)) (lookup_some_mem h)

mutual
theorem inRange_of {env : Env} : ∀ D, NumsRat env D → NumsF64 D → InRange env D
  | .null, _, _ => .null
  | .bool b, _, _ => .bool b
  | .str s, _, _ => .str s
  | .num n, h1, h2 => .num n (h1 n (.self _)) (h2 n (.self _))
  | .arr xs, h1, h2 => .arr xs (inRange_ofL xs (fun _ hx n hn => h1 n (.elem _ _ _ hx hn)) fun _ hx n hn => h2 n (.elem _ _ _ hx hn))
  | .obj m, h1, h2 => .obj m fun k x hx =>
    inRange_ofM m (fun x hx n hn => h1 n (.member _ x.1 _ _ hx hn)) (fun x hx n hn => h2 n (.member _ x.1 _ _ hx hn)) (k, x) hx
theorem inRange_ofL {env : Env} : ∀ xs : List Json, (∀ x ∈ xs, NumsRat env x) → (∀ x ∈ xs, NumsF64 x) → ∀ x ∈ xs, InRange env x
  | [], _, _ => by simp
  | x :: xs, h1, h2 => List.forall_mem_cons.2 ⟨inRange_of x (h1 x (by simp)) (h2 x (by simp)),
      inRange_ofL xs (fun y hy => h1 y (by simp [hy])) fun y hy => h2 y (by simp [hy])⟩
theorem inRange_ofM {env : Env} : ∀ m : List (String × Json), (∀ x ∈ m, NumsRat env x.2) → (∀ x ∈ m, NumsF64 x.2) →
    ∀ x ∈ m, InRange env x.2
  | [], _, _ => by simp
  | (k, x) :: m, h1, h2 => List.forall_mem_cons.2 ⟨inRange_of x (h1 (k, x) (by simp)) (h2 (k, x) (by simp)),
      inRange_ofM m (fun y hy => h1 y (by simp [hy])) fun y hy => h2 y (by simp [hy])⟩
end

/-! ### The loader -/

/-- The documents in play: well-formed, tame, and with numbers fitting float64 if `V`. -/
def Fine (env : Env) (V : Prop) (D : Json) : Prop := D.WF ∧ Tame env D ∧ (V → NumsF64 D)

theorem Fine.like {env V D D'} (h : Fine env V D) (hb : blank D' = blank D) : Fine env V D' :=
  ⟨wf_unblank _ (by rw [hb]; exact wf_blank _ h.1), h.2.1.like hb, fun v => (h.2.2 v).like hb⟩
theorem Fine.within {env V D x} (h : Fine env V D) (hx : Within D x) : Fine env V x :=
  ⟨wf_within hx h.1, h.2.1.within hx, fun v => (h.2.2 v).within hx⟩

theorem fine_str {env V t} : Fine env V (.str t) :=
  ⟨.str _, ⟨fun _ h => by (cases h), fun _ _ h => by (cases h), fun _ _ _ h => by (cases h)⟩, fun _ _ h => by (cases h)⟩

theorem fine_closed {w : World} {V : Prop} : RwClosed w (fun _ D => Fine w.env V D) (Fine w.env V) where
  wf := fun _ _ h => h.1
  elem := fun _ _ _ h hx => h.within (within_elem hx)
  member := fun _ _ k v h hx _ _ => h.within (within_member (kv := (k, v)) hx)
  inMap := fun _ _ k c n x h hc _ hx =>
    h.within (within_trans (within_member (kv := (k, .obj c)) hc) (within_member (kv := (n, x)) hx))
  str := fun _ _ _ _ => fine_str
  done := fun _ _ _ h hr => h.like (rw_blank hr)
  raw := fun _ _ h => h

/-- The failure is a panic. -/
def IsPanic (f : Fail) : Prop := f = .panic

theorem errFine_panic : ErrAll IsPanic := fun _ h => by cases h

theorem docsFine_fine {w : World} {V : Prop} : DocsFine IsPanic w (Fine w.env V) where
  top := fun m h => {
    num := fun k v hv n hn => .inl (h.2.1.nums n (by subst hn; exact within_get hv))
    definitions := fun b hb => absurd hb (h.2.1.definitions m b (.self _))
    types := fun vs n hv hn => absurd hn (h.2.1.types m vs n (.self _) hv)
    elems := fun k vs v hv hx n hn => .inl (h.2.1.nums n (by subst hn; exact within_trans (within_get hv) (within_elem hx)))
    members := fun k kvs kv hv hx n hn => .inl (h.2.1.nums n (by rw [← hn]; exact within_trans (within_get hv) (within_member hx)))
    deps := fun kvs k vs v hv hx hvs n hn => .inl (h.2.1.nums n (by
      subst hn
      exact within_trans (within_get hv) (within_trans (within_member (kv := (k, .arr vs)) hx) (within_elem hvs)))) }
  self := fun v h n hn => .inl (h.2.1.nums n (by subst hn; exact .self _))
  member := fun _ _ _ h hk => h.within (within_get hk)
  entry := fun _ _ h hk => h.within (within_member hk)
  elem := fun _ _ h hk => h.within (within_elem hk)

theorem Total.avoid {B : Fail → Prop} {x : M τ α} (h : Total x) : Avoid B x := by
  intro s e s' hx
  obtain ⟨a, s1, h1⟩ := (h.iff s).2 trivial
  rw [hx] at h1; cases h1

theorem Safe.of {P : τ → Prop} {B : Fail → Prop} {x : M τ α} {Q : α → Prop} (h : Tri P x Q) (ha : Avoid B x) : Safe P B x Q :=
  fun l hl => ⟨(h l hl).1, (h l hl).2, fun e l' he => ha l e l' he⟩

section
variable {w : World} {σ : Sched} {V : Prop}

theorem detectDraft_safe {P : LState → Prop} {doc} (hd : Fine w.env V doc) : Safe P IsPanic (detectDraft w doc) (fun _ => True) := by
  unfold detectDraft
  refine .bind (.get fun _ _ => trivial) fun l _ => ?_
  split
  · exact .bind (parseSchemaURL_safe errFine_panic docsFine_fine hd) fun _ _ => .pure trivial
  · exact .pure trivial

theorem parseReferences_noPanic (hw : Standard w) {p doc ref pooled} (hd : Fine w.env V doc) :
    Safe (fun _ => True) IsPanic (parseReferences w σ p doc ref pooled) (fun _ => True) := by
  unfold parseReferences
  refine .bind (.of inPool_still.tri inPool_total.avoid) fun there _ => ?_
  split
  · exact .pure trivial
  · refine .bind (detectDraft_safe hd) fun o _ =>
      .bind (.of (Q := fun _ => True) (fun _ _ => ⟨trivial, fun _ _ _ => trivial⟩)
        (rewrite_total hw.inherits _ _ _ _ hd.2.1.nums (Nat.le_refl _)).avoid) fun x hx => .bind (Q := fun _ => True) ?_ fun _ _ => .pure trivial
    unfold putIf
    split
    · exact .modify fun _ _ => trivial
    · exact .pure trivial

theorem parseReferences_fine (hw : Standard w) {p doc ref pooled} (hd : Fine w.env V doc) :
    Safe (PoolAll (Fine w.env V)) IsPanic (parseReferences w σ p doc ref pooled) (fun x => Fine w.env V x.1) :=
  .of (parseReferences_all fine_closed hd) fun l e l' he => (parseReferences_noPanic (σ := σ) hw hd l trivial).2.2 e l' he

theorem ignore_safe {P : LState → Prop} {p doc ref} {Q : Json → Prop}
    (h : Safe P IsPanic (parseReferences w σ p doc ref true) (fun x => Q x.1)) (hd : Q doc) :
    Safe P IsPanic (parseReferencesIgnore w σ p doc ref) Q := by
  intro l hl
  obtain ⟨h1, h2, h3⟩ := h l hl
  unfold parseReferencesIgnore
  cases hx : parseReferences w σ p doc ref true l with
  | mk r l1 =>
    rw [hx] at h1
    cases r with
    | ok x =>
      refine ⟨h1, ?_, by intro e l' h; simp at h⟩
      intro a l' h
      simp only [Prod.mk.injEq, Except.ok.injEq] at h
      rw [← h.1]; exact h2 _ _ hx
    | error e =>
      cases e with
      | err e =>
        refine ⟨h1, ?_, by intro e l' h; simp at h⟩
        intro a l' h
        simp only [Prod.mk.injEq, Except.ok.injEq] at h
        rw [← h.1]; exact hd
      | panic => exact absurd rfl (h3 _ _ hx)
      | fuel => exact ⟨h1, by intro a l' h; simp at h, by intro e l' h; simp at h; rw [← h.1]; intro h; cases h⟩

theorem draftIgnore_safe {P : LState → Prop} {doc} (hd : Fine w.env V doc) :
    Safe P IsPanic (schemaDraftIgnore w doc) (fun _ => True) := by
  intro l hl
  obtain ⟨h1, _, h3⟩ := parseSchemaURL_safe (P := P) errFine_panic docsFine_fine hd l hl
  unfold schemaDraftIgnore
  cases hx : parseSchemaURL w doc l with
  | mk r l1 =>
    rw [hx] at h1
    cases r with
    | ok x => exact ⟨h1, fun _ _ _ => trivial, by intro e l' h; simp at h⟩
    | error e =>
      cases e with
      | err e => exact ⟨h1, fun _ _ _ => trivial, by intro e l' h; simp at h⟩
      | panic => exact absurd rfl (h3 _ _ hx)
      | fuel => exact ⟨h1, fun _ _ _ => trivial, by intro e l' h; simp at h; rw [← h.1]; intro h; cases h⟩

theorem loadReference_brings {N : Json → Prop} (hb : Brings w N) {n f r d} (h : loadReference w n f r = some d) : N d := by
  unfold loadReference at h
  split at h
  · cases h
  · simp only at h
    split at h
    · obtain ⟨name, _, h⟩ := Option.bind_eq_some_iff.1 h
      exact hb.1 _ _ _ _ h
    · unfold loadFromHTTP at h
      split at h
      · exact hb.2.2 _ _ h
      · exact hb.2.1 _ _ _ h

theorem getDocument_noPanic (hw : Standard w) (hb : Brings w (Fine w.env V)) {p ref} :
    Safe (PoolAll (Fine w.env V)) IsPanic (getDocument w σ p ref) (fun e => Fine w.env V e.doc) := by
  have hget : ∀ k, Safe (PoolAll (Fine w.env V)) IsPanic (poolGet k) (fun o => ∀ e, o = some e → Fine w.env V e.doc) := by
    intro k
    refine .bind (.get (Q := fun l => PoolAll (Fine w.env V) l) fun l h => h) fun l h => .pure fun e he => h k e he
  have hptr : ∀ D, Fine w.env V D → Safe (PoolAll (Fine w.env V)) IsPanic (pointerGet w ref D) (Fine w.env V) := by
    intro D hD
    unfold pointerGet
    split
    · rename_i d hd; exact .pure (hD.within (hw.pointer _ _ _ hd))
    · exact .err (errFine_panic _)
  unfold getDocument
  refine .bind (hget _) fun e1 h1 => ?_
  split
  · exact .pure (h1 _ rfl)
  · refine .bind (hget _) fun e2 h2 => ?_
    split
    · unfold getCached
      exact .bind (hptr _ (h2 _ rfl)) fun d hd => .bind (.modify fun l hl => hl.put hd) fun _ _ => .pure hd
    · unfold getRemote
      split
      · exact .err (errFine_panic _)
      · refine .bind (Q := Fine w.env V) ?_ fun doc hd => .bind (ignore_safe (parseReferences_fine hw hd) hd) fun doc' hd' =>
          .bind (draftIgnore_safe hd') fun dr _ => .bind (hptr _ hd') fun d hd => .pure hd
        intro l hpl
        unfold fetch
        simp only
        cases hlr : loadReference w l.clock l.factory ref with
        | none => exact ⟨hpl, by intro a l' h; simp at h, by intro e l' h; simp at h; rw [← h.1]; exact errFine_panic _⟩
        | some d =>
          refine ⟨hpl, ?_, by intro e l' h; simp at h⟩
          intro a l' h
          simp only [Prod.mk.injEq, Except.ok.injEq] at h
          rw [← h.1]; exact loadReference_brings hb hlr

/-- Nothing in the loader panics on fine documents. -/
theorem fine_inv (hw : Standard w) (hb : Brings w (Fine w.env V)) :
    LoaderInv w σ (PoolAll (Fine w.env V)) IsPanic (Fine w.env V) where
  get := fun _ _ => getDocument_noPanic hw hb
  refs := fun _ _ _ _ _ hd => parseReferences_fine hw hd
  own := fun _ _ h => h
  factory := fun _ _ h => h
  validate := fun _ _ h => h
  err := errFine_panic
  fuel := fun h => by cases h
  docs := docsFine_fine

theorem lawful_of (hw : Standard w) (hb : Brings w (Fine w.env V)) : Lawful w where
  readFile := fun _ _ _ _ h => (hb.1 _ _ _ _ h).1
  http := fun _ _ _ h => (hb.2.1 _ _ _ h).1
  decode := hw.decode
  pointer := fun _ _ _ h hD => wf_within (hw.pointer _ _ _ h) hD

theorem metaschema_noPanic (hw : Standard w) (hb : Brings w (Fine w.env V)) (hV : V) {fuel p doc} (hd : Fine w.env V doc) :
    Safe (PoolAll (Fine w.env V)) IsPanic (validateMetaschema w σ fuel p doc) (fun _ => True) := by
  unfold validateMetaschema
  refine .bind (metaSchemaURL_safe (fine_inv (σ := σ) hw hb) hd) fun u _ => ?_
  split
  · exact .pure trivial
  · rename_i schema
    refine .bind (.modify fun l hl => hl) fun _ _ => .bind (Q := fun s => HeapOK s.heap ∧ s.root < s.heap.length) ?_ fun s hs =>
      .bind (.modify fun l hl => hl) fun _ _ => ?_
    · intro l hl
      obtain ⟨h1, _, h3⟩ := compileInner_safe (σ := σ) (fuel := fuel) (p := 63 :: p) (a := .reference schema 0) (fine_inv hw hb)
        (fun _ n d hld => loadReference_brings hb hld) trivial l hl
      refine ⟨h1, ?_, h3⟩
      intro s l' hs
      obtain ⟨D, _, _, g⟩ := compileInner_good (lawful_of hw hb) (fun k e he => (hl k e he).1) (by intro D h; cases h) hs
      exact ⟨g.heapOK, g.root.lt⟩
    · unfold checkDocument
      split
      · split
        · exact .pure trivial
        · exact .err (errFine_panic _)
      · rename_i hx
        exact absurd hx (no_panic hs.1 _ _ _ _ _ hs.2 (inRange_of _ hd.2.1.nums (hd.2.2 hV)))
      · exact .fail (by intro h; cases h)

theorem compile_noPanic (hw : Standard w) (hb : Brings w (Fine w.env V)) (hV : V) {fuel p a} (ha : a.ref w = some "" → ArgOK w (Fine w.env V) a) :
    Safe (PoolAll (Fine w.env V)) IsPanic (compile w σ fuel p a) (fun _ => True) :=
  compileG_safe (fine_inv hw hb) ha fun _ _ hd => metaschema_noPanic hw hb hV hd

theorem addSchema_noPanic (hw : Standard w) (hb : Brings w (Fine w.env V)) (hV : V) {fuel p url a} (ha : ArgOK w (Fine w.env V) a) :
    Safe (PoolAll (Fine w.env V)) IsPanic (addSchema w σ fuel p url a) (fun _ => True) := by
  unfold addSchema
  split
  · exact .err (errFine_panic _)
  · exact .bind (loadJSON_safe (fine_inv (σ := σ) hw hb) ha) fun _ hd =>
      .bind (whenValidate_safe (metaschema_noPanic hw hb hV hd)) fun _ _ =>
      .bind (parseReferences_fine hw hd) fun _ hx => .bind (failIf_safe (N := Fine w.env V) errFine_panic hx) fun _ _ => .pure trivial

theorem addSchemas_noPanic (hw : Standard w) (hb : Brings w (Fine w.env V)) (hV : V) {fuel p as}
    (ha : ∀ a ∈ as, ArgOK w (Fine w.env V) a) :
    Safe (PoolAll (Fine w.env V)) IsPanic (addSchemas w σ fuel p as) (fun _ => True) :=
  .bind (.mapL' fun _ a hx => .bind (loadJSON_safe (fine_inv (σ := σ) hw hb) (ha a hx)) fun _ hd =>
      .bind (whenValidate_safe (metaschema_noPanic hw hb hV hd)) fun _ _ =>
      .bind (parseReferences_fine hw hd) fun _ hx => .bind (failIf_safe (N := Fine w.env V) errFine_panic hx) fun _ _ => .pure trivial)
    fun _ _ => .pure trivial

theorem op_noPanic (hw : Standard w) (hb : Brings w (Fine w.env V)) (hV : V) {fuel p o} (ho : OpOK w (Fine w.env V) o) :
    Safe (PoolAll (Fine w.env V)) IsPanic (o.run w σ fuel p) (fun _ => True) := by
  cases o with
  | addSchema url a => exact .bind (addSchema_noPanic hw hb hV ho) fun _ _ => .pure trivial
  | addSchemas as => exact .bind (addSchemas_noPanic hw hb hV ho) fun _ _ => .pure trivial
  | compile a => exact .bind (compile_noPanic hw hb hV ho) fun _ _ => .pure trivial
  | setAutoDetect b => exact .bind (.modify fun l hl => hl) fun _ _ => .pure trivial
  | setValidate b => exact .bind (.modify fun l hl => hl) fun _ _ => .pure trivial
  | setDraft d => exact .bind (.modify fun l hl => hl) fun _ _ => .pure trivial

theorem runOps_noPanic (hw : Standard w) (hb : Brings w (Fine w.env V)) (hV : V) {fuel} :
    ∀ {os k l}, (∀ o ∈ os, OpOK w (Fine w.env V) o) → PoolAll (Fine w.env V) l →
      ∀ r ∈ (runOps w σ fuel k os l).1, r ≠ .error .panic := by
  intro os
  induction os with
  | nil => intro k l _ _ r hr; cases hr
  | cons o os ih =>
    intro k l ho hl
    obtain ⟨h1, _, h3⟩ := op_noPanic (σ := σ) (fuel := fuel) (p := [k]) hw hb hV (ho o (by simp)) l hl
    simp only [runOps]
    refine List.forall_mem_cons.2 ⟨?_, ih (fun o h => ho o (by simp [h])) h1⟩
    intro he
    exact h3 .panic (o.run w σ fuel [k] l).2 (by rw [← he]) rfl

/-! ### Without validation against the meta-schema -/

theorem rootDocument_validate {p a ref l D l'} (h : rootDocument w σ p a ref l = (.ok D, l')) : l'.validate = l.validate := by
  unfold rootDocument at h
  split at h
  · obtain ⟨e, l1, h1, h⟩ := M.bind_ok.1 h
    rw [M.pure_ok] at h
    obtain ⟨h2, _, _⟩ := getDocument_inv (W := False) (w := w) (σ := σ) (p := 60 :: p) (ref := ref) (l := l) False.elim False.elim
    rw [h1] at h2
    rw [← h.2]; exact h2.cfg.2.2.1
  · obtain ⟨d, l1, h1, h⟩ := M.bind_ok.1 h
    obtain ⟨x, l2, h2, h⟩ := M.bind_ok.1 h
    have e1 : l1.validate = l.validate := by
      unfold loadJSON at h1
      split at h1
      · cases h1; rfl
      · cases h1
      · simp only at h1
        split at h1
        · cases h1; rfl
        · cases h1
    obtain ⟨h3, _⟩ := parseReferences_tri (W := False) (w := w) (σ := σ) (p := 61 :: p) (doc := d) (ref := ref)
      (pooled := true) (l0 := l1) False.elim False.elim
    rw [h2] at h3
    rw [(failIf_ok h).1, ← e1]
    exact h3.cfg.2.2.1

/-- With `Validate` off, `Compile` does not depend on how documents are validated. -/
theorem compileG_off {fuel hook hook' p a} {l : LState} (hv : l.validate = false) :
    compileG w σ fuel hook p a l = compileG w σ fuel hook' p a l := by
  unfold compileG
  cases hr : a.ref w with
  | none => rfl
  | some ref =>
    simp only
    rw [M.bind_def, M.bind_def]
    simp only [M.modify]
    rw [M.bind_def, M.bind_def]
    cases hx : rootDocument w σ p a ref { l with factory := a.factory } with
    | mk r l2 =>
      cases r with
      | error e => rfl
      | ok D =>
        have h2 : l2.validate = false := by rw [rootDocument_validate hx]; exact hv
        simp only
        rw [M.bind_def, M.bind_def, whenValidate_off h2, whenValidate_off h2]

theorem compile_off_noPanic (hw : Standard w) (hb : Brings w (Fine w.env V)) {fuel p a} {l : LState} (hv : l.validate = false)
    (ha : ArgOK w (Fine w.env V) a) (hl : PoolAll (Fine w.env V) l) : (compile w σ fuel p a l).1 ≠ .error .panic := by
  unfold compile
  rw [compileG_off (hook' := fun _ _ => return ()) hv]
  intro he
  exact (compileInner_safe (σ := σ) (fuel := fuel) (p := p) (fine_inv hw hb) (fun _ => ha) trivial l hl).2.2 .panic
    (compileG w σ fuel (fun _ _ => return ()) p a l).2 (by unfold compileInner; rw [← he]) rfl

end
end GJS

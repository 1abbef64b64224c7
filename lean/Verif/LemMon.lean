import Verif.Mon
/-
Helper lemmas: reasoning about successful runs of compiler computations.
-/
namespace GJS
namespace M

theorem bind_def (x : M σ α) (f : α → M σ β) (s : σ) :
    (x >>= f) s = match x s with | (.ok a, s') => f a s' | (.error e, s') => (.error e, s') := rfl

theorem pure_def (a : α) (s : σ) : (pure a : M σ α) s = (.ok a, s) := rfl

@[simp] theorem bind_ok {x : M σ α} {f : α → M σ β} {s s' : σ} {b : β} :
    (x >>= f) s = (.ok b, s') ↔ ∃ a s1, x s = (.ok a, s1) ∧ f a s1 = (.ok b, s') := by
  rw [bind_def]
  constructor
  · intro h
    split at h
    · rename_i a s1 hx; exact ⟨a, s1, hx, h⟩
    · simp at h
  · rintro ⟨a, s1, h1, h2⟩; rw [h1]; exact h2

@[simp] theorem pure_ok {a b : α} {s s' : σ} : (pure a : M σ α) s = (.ok b, s') ↔ a = b ∧ s = s' := by
  rw [pure_def]; simp

@[simp] theorem fail_ok {e} {b : α} {s s' : σ} : (fail e : M σ α) s = (.ok b, s') ↔ False := by
  simp [fail]

@[simp] theorem err_ok {e} {b : α} {s s' : σ} : (err e : M σ α) s = (.ok b, s') ↔ False := by
  simp [err, fail]

@[simp] theorem get_ok {b s s' : σ} : (get : M σ σ) s = (.ok b, s') ↔ s = b ∧ s = s' := by
  simp [get]

@[simp] theorem modify_ok {f : σ → σ} {u : Unit} {s s' : σ} : (modify f) s = (.ok u, s') ↔ f s = s' := by
  simp [modify]

theorem bind_error {x : M σ α} {f : α → M σ β} {s s' : σ} {e : Fail} :
    (x >>= f) s = (.error e, s') ↔
      x s = (.error e, s') ∨ ∃ a s1, x s = (.ok a, s1) ∧ f a s1 = (.error e, s') := by
  rw [bind_def]
  constructor
  · intro h
    split at h
    · rename_i a s1 hx; exact .inr ⟨a, s1, hx, h⟩
    · rename_i e' s1 hx; left; rw [hx]; simpa using h
  · rintro (h | ⟨a, s1, h1, h2⟩)
    · rw [h]
    · rw [h1]; exact h2

end M

end GJS

namespace GJS

/-- Hoare triple with an invariant: `P` holds before and after, whatever the outcome, and a
value returned satisfies `Q`. -/
def Tri (P : σ → Prop) (x : M σ α) (Q : α → Prop) : Prop :=
  ∀ l, P l → P (x l).2 ∧ ∀ a l', x l = (.ok a, l') → Q a

namespace Tri

variable {P : σ → Prop}

theorem bind {x : M σ α} {f : α → M σ β} {Q : α → Prop} {R : β → Prop} (h1 : Tri P x Q)
    (h2 : ∀ a, Q a → Tri P (f a) R) : Tri P (x >>= f) R := by
  intro l hl
  obtain ⟨p1, q1⟩ := h1 l hl
  rw [M.bind_def]
  cases hx : x l with
  | mk r l1 =>
    rw [hx] at p1
    cases r with
    | error e => exact ⟨p1, by intro a l' h; simp at h⟩
    | ok a => exact h2 a (q1 a l1 hx) l1 p1

theorem pure {a : α} {Q : α → Prop} (h : Q a) : Tri P (Pure.pure a : M σ α) Q := by
  intro l hl
  refine ⟨hl, ?_⟩
  intro b l' hb
  rw [M.pure_ok] at hb
  rw [← hb.1]; exact h

theorem fail {e} {Q : α → Prop} : Tri P (M.fail e : M σ α) Q :=
  fun l hl => ⟨hl, by intro a l' h; simp at h⟩

theorem err {e} {Q : α → Prop} : Tri P (M.err e : M σ α) Q := fail

theorem get {Q : σ → Prop} (h : ∀ l, P l → Q l) : Tri P (M.get : M σ σ) Q := by
  intro l hl
  refine ⟨hl, ?_⟩
  intro a l' ha
  rw [M.get_ok] at ha
  rw [← ha.1]; exact h l hl

theorem modify {f : σ → σ} (h : ∀ l, P l → P (f l)) : Tri P (M.modify f) (fun _ => True) :=
  fun l hl => ⟨h l hl, fun _ _ _ => trivial⟩

theorem mono {x : M σ α} {Q R : α → Prop} (h : Tri P x Q) (hQR : ∀ a, Q a → R a) : Tri P x R :=
  fun l hl => ⟨(h l hl).1, fun a l' ha => hQR a ((h l hl).2 a l' ha)⟩

theorem triv {x : M σ α} {Q : α → Prop} (h : Tri P x Q) : Tri P x (fun _ => True) := h.mono fun _ _ => trivial

theorem mapL {f : Nat → α → M σ β} {Q : α → β → Prop} : ∀ {xs : List α} {k : Nat},
    (∀ k x, x ∈ xs → Tri P (f k x) (Q x)) →
    Tri P (GJS.mapL f k xs) (fun ys => ys.length = xs.length ∧ ∀ (i : Nat) x y, xs[i]? = some x → ys[i]? = some y → Q x y) := by
  intro xs
  induction xs with
  | nil => intro k _; exact pure (by simp)
  | cons x xs ih =>
    intro k hf
    refine bind (hf k x (by simp)) fun y hy => bind (ih fun k x hx => hf k x (by simp [hx])) fun ys hys => pure ?_
    refine ⟨by simp [hys.1], ?_⟩
    intro i a b ha hb
    cases i with
    | zero => simp at ha hb; subst ha; subst hb; exact hy
    | succ i => simp at ha hb; exact hys.2 i a b ha hb

end Tri

/-- A computation that leaves the state alone. -/
def Still (x : M σ α) : Prop := ∀ l, (x l).2 = l

theorem Still.tri {x : M σ α} (h : Still x) {P : σ → Prop} : Tri P x (fun _ => True) :=
  fun l hl => ⟨by rw [h l]; exact hl, fun _ _ _ => trivial⟩

theorem Still.ok {x : M σ α} (h : Still x) {l a l'} (hx : x l = (.ok a, l')) : l' = l := by
  have := h l; rw [hx] at this; exact this

theorem Still.pure {a : α} : Still (Pure.pure a : M σ α) := fun _ => rfl
theorem Still.fail {e} : Still (M.fail e : M σ α) := fun _ => rfl
theorem Still.err {e} : Still (M.err e : M σ α) := fun _ => rfl
theorem Still.get : Still (M.get : M σ σ) := fun _ => rfl

theorem Still.bind {x : M σ α} {f : α → M σ β} (h1 : Still x) (h2 : ∀ a, Still (f a)) : Still (x >>= f) := by
  intro l
  rw [M.bind_def]
  have := h1 l
  cases hx : x l with
  | mk r l1 =>
    rw [hx] at this
    simp only at this
    subst this
    cases r with
    | error e => rfl
    | ok a => exact h2 a _

/-- A computation that never fails with a failure in `B`. -/
def Avoid (B : Fail → Prop) (x : M σ α) : Prop := ∀ l e l', x l = (.error e, l') → ¬ B e

namespace Avoid
variable {B : Fail → Prop}

theorem pure {a : α} : Avoid B (Pure.pure a : M σ α) := by
  intro l e l' h; simp [M.pure_def] at h

theorem fail {e} (h : ¬ B e) : Avoid B (M.fail e : M σ α) := by
  intro l e' l' he; simp [M.fail] at he; rw [← he.1]; exact h

theorem err {e} (h : ¬ B (.err e)) : Avoid B (M.err e : M σ α) := fail h

theorem get : Avoid B (M.get : M σ σ) := by
  intro l e l' h; simp [M.get] at h

theorem modify {f : σ → σ} : Avoid B (M.modify f) := by
  intro l e l' h; simp [M.modify] at h

theorem bind {x : M σ α} {f : α → M σ β} (h1 : Avoid B x) (h2 : ∀ a, Avoid B (f a)) : Avoid B (x >>= f) := by
  intro l e l' h
  rcases M.bind_error.1 h with h | ⟨a, s1, _, h⟩
  · exact h1 l e l' h
  · exact h2 a s1 e l' h

theorem mapL {f : Nat → α → M σ β} : ∀ {xs : List α} {k : Nat},
    (∀ k x, x ∈ xs → Avoid B (f k x)) → Avoid B (GJS.mapL f k xs) := by
  intro xs
  induction xs with
  | nil => intro k _; exact pure
  | cons x xs ih =>
    intro k hf
    exact bind (hf k x (by simp)) fun y => bind (ih fun k x hx => hf k x (by simp [hx])) fun ys => pure

end Avoid

/-- `Tri` together with a restriction on failures: none in `B`. -/
def Safe (P : σ → Prop) (B : Fail → Prop) (x : M σ α) (Q : α → Prop) : Prop :=
  ∀ l, P l → P (x l).2 ∧ (∀ a l', x l = (.ok a, l') → Q a) ∧ ∀ e l', x l = (.error e, l') → ¬ B e

namespace Safe

variable {P : σ → Prop} {B : Fail → Prop}

theorem bind {x : M σ α} {f : α → M σ β} {Q : α → Prop} {R : β → Prop} (h1 : Safe P B x Q)
    (h2 : ∀ a, Q a → Safe P B (f a) R) : Safe P B (x >>= f) R := by
  intro l hl
  obtain ⟨p1, q1, e1⟩ := h1 l hl
  rw [M.bind_def]
  cases hx : x l with
  | mk r l1 =>
    rw [hx] at p1
    cases r with
    | error e =>
      refine ⟨p1, by intro a l' h; simp at h, ?_⟩
      intro e' l' h
      simp only [Prod.mk.injEq, Except.error.injEq] at h
      rw [← h.1]; exact e1 e l1 hx
    | ok a => exact h2 a (q1 a l1 hx) l1 p1

theorem pure {a : α} {Q : α → Prop} (h : Q a) : Safe P B (Pure.pure a : M σ α) Q := by
  intro l hl
  refine ⟨hl, ?_, ?_⟩
  · intro b l' hb
    rw [M.pure_ok] at hb
    rw [← hb.1]; exact h
  · intro e l' he; simp [M.pure_def] at he

theorem fail {e} {Q : α → Prop} (h : ¬ B e) : Safe P B (M.fail e : M σ α) Q :=
  fun l hl => ⟨hl, by intro a l' h; simp at h, by intro e' l' he; simp [M.fail] at he; rw [← he.1]; exact h⟩

theorem err {e} {Q : α → Prop} (h : ¬ B (.err e)) : Safe P B (M.err e : M σ α) Q := fail h

theorem get {Q : σ → Prop} (h : ∀ l, P l → Q l) : Safe P B (M.get : M σ σ) Q := by
  intro l hl
  refine ⟨hl, ?_, ?_⟩
  · intro a l' ha
    rw [M.get_ok] at ha
    rw [← ha.1]; exact h l hl
  · intro e l' he; simp [M.get] at he

theorem modify {f : σ → σ} (h : ∀ l, P l → P (f l)) : Safe P B (M.modify f) (fun _ => True) :=
  fun l hl => ⟨h l hl, fun _ _ _ => trivial, by intro e l' he; simp [M.modify] at he⟩

theorem mono {x : M σ α} {Q R : α → Prop} (h : Safe P B x Q) (hQR : ∀ a, Q a → R a) : Safe P B x R :=
  fun l hl => ⟨(h l hl).1, fun a l' ha => hQR a ((h l hl).2.1 a l' ha), (h l hl).2.2⟩

theorem triv {x : M σ α} {Q : α → Prop} (h : Safe P B x Q) : Safe P B x (fun _ => True) := h.mono fun _ _ => trivial

theorem of_tri {x : M σ α} {Q : α → Prop} (h : Tri P x Q) : Safe P (fun _ => False) x Q :=
  fun l hl => ⟨(h l hl).1, (h l hl).2, fun _ _ _ h => h⟩

theorem tri {x : M σ α} {Q : α → Prop} (h : Safe P B x Q) : Tri P x Q :=
  fun l hl => ⟨(h l hl).1, (h l hl).2.1⟩

theorem of_still {x : M σ α} {Q : α → Prop} (hs : Still x) (ha : Avoid B x)
    (hq : ∀ l a l', x l = (.ok a, l') → Q a) : Safe P B x Q :=
  fun l hl => ⟨by rw [hs l]; exact hl, hq l, ha l⟩

theorem mapL {f : Nat → α → M σ β} {Q : α → β → Prop} : ∀ {xs : List α} {k : Nat},
    (∀ k x, x ∈ xs → Safe P B (f k x) (Q x)) →
    Safe P B (GJS.mapL f k xs)
      (fun ys => ys.length = xs.length ∧ ∀ (i : Nat) x y, xs[i]? = some x → ys[i]? = some y → Q x y) := by
  intro xs
  induction xs with
  | nil => intro k _; exact pure (by simp)
  | cons x xs ih =>
    intro k hf
    refine bind (hf k x (by simp)) fun y hy => bind (ih fun k x hx => hf k x (by simp [hx])) fun ys hys => pure ?_
    refine ⟨by simp [hys.1], ?_⟩
    intro i a b ha hb
    cases i with
    | zero => simp at ha hb; subst ha; subst hb; exact hy
    | succ i => simp at ha hb; exact hys.2 i a b ha hb

theorem mapL' {f : Nat → α → M σ β} {xs : List α} {k : Nat}
    (h : ∀ k x, x ∈ xs → Safe P B (f k x) (fun _ => True)) :
    Safe P B (GJS.mapL f k xs) (fun _ => True) := (mapL (Q := fun _ _ => True) h).triv

end Safe

end GJS

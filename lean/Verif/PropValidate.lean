import Verif.LemOrder
import Verif.LemMeaning
import Verif.LemErrors
import Verif.Demo
/-
Properties of the validation phase on compiled schemas: C02, C03, C04, C05 (divergence of
reference cycles), C06, C07, C08, C13, C14.
-/
namespace GJS
open Spec

/-! ### C02: the verdict is compositional -/

/-- C02.  Whenever `Validate` returns a result, it is error-free exactly when the instance
satisfies the keyword rules, for every relation `Sat` that is a fixed point of the rules. -/
theorem C02_verdict (env : Env) (σ : Sched) (h : Heap) (fuel : Nat) (root : Id) (v : Json)
    (r : Result) (hr : validateDocument env σ h fuel root v = .ok r)
    (Sat : Id → Json → Prop) (hm : IsMeaning env h Sat) : r.valid = true ↔ Sat root v :=
  (validateRecursive_agrees env σ h Sat fuel _ _ _ _ _ hr).trans (unfold_fix hm fuel root v)

/-- C02, without assuming that the rules have a fixed point: after `fuel` unfoldings of the
rules the answer no longer depends on how sub-schemas are interpreted below, and it is the
verdict. -/
theorem C02_verdict_unfold (env : Env) (σ : Sched) (h : Heap) (fuel : Nat) (root : Id) (v : Json)
    (r : Result) (hr : validateDocument env σ h fuel root v = .ok r) (P : Id → Json → Prop) :
    r.valid = true ↔ unfold env h P fuel root v :=
  validateRecursive_agrees env σ h P fuel _ _ _ _ _ hr

/-- C02, existence and uniqueness of the meaning when no in-place chain is cyclic. -/
theorem C02_meaning (env : Env) (h : Heap) (hac : Acyclic h) :
    ∃ Sat, IsMeaning env h Sat ∧ ∀ T, IsMeaning env h T → ∀ i v, T i v ↔ Sat i v := by
  obtain ⟨S, hS⟩ := meaning_exists (env := env) hac
  exact ⟨S, hS, fun T hT i v => meaning_unique hac hT hS i v⟩

/-- The list schema has no in-place cycle. -/
theorem Demo.listHeap_acyclic : Acyclic Demo.listHeap := by
  have key : ∀ i j, InPlaceEdge Demo.listHeap i j → i = 2 ∧ j = 0 := by
    rintro i j ⟨s, hs, hj⟩
    match i, hs with
    | 0, hs => cases hs; simp [inPlace] at hj
    | 1, hs => cases hs; simp [inPlace] at hj
    | 2, hs => cases hs; simp [inPlace] at hj; exact ⟨rfl, hj⟩
    | n + 3, hs => simp [Demo.listHeap] at hs
  intro i hi
  have h0 : ∀ k, Relation.TransGen (InPlaceEdge Demo.listHeap) i k → i = 2 ∧ k = 0 := by
    intro k hk
    induction hk with
    | single h => exact key _ _ h
    | tail _ h ih =>
      obtain ⟨h1, h2⟩ := key _ _ h
      exact ⟨ih.1, h2⟩
  obtain ⟨h1, h2⟩ := h0 i hi
  rw [h1] at h2
  exact absurd h2 (by decide)

example : ∃ r, validateDocument Demo.env Sched.id Demo.listHeap 10 0 Demo.list2 = .ok r ∧ r.valid = true :=
  ⟨_, rfl, by decide⟩
example : ∃ r, validateDocument Demo.env Sched.rev Demo.listHeap 10 0 Demo.listBad = .ok r ∧ r.valid = false :=
  ⟨_, rfl, by decide⟩

/-! ### C03: iteration order is irrelevant -/

/-- C03.  If one execution returns a result, every other execution (other iteration orders,
possibly more nested calls allowed) returns the same errors up to order, the same score and
the same verdict. -/
theorem C03_order_independent (env : Env) (σ₁ σ₂ : Sched) (h : Heap) (n m : Nat) (hnm : n ≤ m)
    (root : Id) (v : Json) (r₁ : Result) (hr : validateDocument env σ₁ h n root v = .ok r₁) :
    ∃ r₂, validateDocument env σ₂ h m root v = .ok r₂ ∧ r₁.errors.Perm r₂.errors ∧
      r₁.score = r₂.score ∧ r₁.valid = r₂.valid := by
  obtain ⟨r₂, h1, h2⟩ := validateRecursive_rel (env := env) (σ1 := σ₁) (σ2 := σ₂) (h := h) n m hnm
    [] [] root v rootCtx r₁ hr
  exact ⟨r₂, h1, h2.1, h2.2, h2.valid⟩

/-- C03, both or none: one execution returns with some number of nested calls exactly when
the other does. -/
theorem C03_same_return (env : Env) (σ₁ σ₂ : Sched) (h : Heap) (root : Id) (v : Json) :
    (∃ n r, validateDocument env σ₁ h n root v = .ok r) ↔
    (∃ n r, validateDocument env σ₂ h n root v = .ok r) := by
  constructor
  · rintro ⟨n, r, hr⟩
    obtain ⟨r', h1, _⟩ := C03_order_independent env σ₁ σ₂ h n n (Nat.le_refl _) root v r hr
    exact ⟨n, r', h1⟩
  · rintro ⟨n, r, hr⟩
    obtain ⟨r', h1, _⟩ := C03_order_independent env σ₂ σ₁ h n n (Nat.le_refl _) root v r hr
    exact ⟨n, r', h1⟩

/-- Two orders that list the errors of one instance differently. -/
example : ∃ r₁ r₂,
    validateDocument Demo.env Sched.id [{ doc := .null, draft := Draft7, additionalProperties := .bool false }]
      5 0 (.obj [("a", .null), ("b", .null)]) = .ok r₁ ∧
    validateDocument Demo.env Sched.rev [{ doc := .null, draft := Draft7, additionalProperties := .bool false }]
      5 0 (.obj [("a", .null), ("b", .null)]) = .ok r₂ ∧
    r₁.errors.map (·.kind) ≠ r₂.errors.map (·.kind) ∧ r₁.errors.length = 2 :=
  ⟨_, _, rfl, rfl, by decide, by decide⟩

/-! ### C04: validation returns when references make progress -/

/-- C04.  If no chain of in-place applications returns to its start, every execution on every
instance ends within a number of nested calls bounded by sizes of schema and instance. -/
theorem C04_terminates (env : Env) (σ : Sched) (h : Heap) (hac : Acyclic h) (root : Id) (v : Json)
    (n : Nat) (hn : v.size * (h.length + 1) + h.length + 1 ≤ n) :
    validateDocument env σ h n root v ≠ .error .fuel :=
  no_fuel_acyclic hac hn

example : Acyclic Demo.listHeap := Demo.listHeap_acyclic

/-! ### C05: reference cycles -/

/-- C05 on compiled schemas: an endless chain of references never returns, whatever the
instance and the number of nested calls.  (`Verif.PropCompile` shows that `Compile` produces
such a chain from `{"$ref":"#"}`.) -/
theorem C05_ref_chain_diverges (env : Env) (σ : Sched) (h : Heap) (f : Nat → Id)
    (hf : ∀ k, ∃ s, h[f k]? = some s ∧ s.pass = none ∧ s.refSchema = some (f (k + 1)))
    (n : Nat) (v : Json) : validateDocument env σ h n (f 0) v = .error .fuel := by
  have : ∀ n k p c, validateRecursive env σ h n p (f k) v c = .error .fuel := by
    intro n
    induction n with
    | zero => intros; rfl
    | succ n ih =>
      intro k p c
      obtain ⟨s, h1, h2, h3⟩ := hf k
      simp only [validateRecursive, validateStep, h1, h2, h3]
      exact ih _ _ _
  exact this n 0 _ _

example : ∀ k, ∃ s, ([{ doc := .null, draft := Draft7, refSchema := some 0 }] : Heap)[(fun _ => 0 : Nat → Id) k]? = some s ∧
    s.pass = none ∧ s.refSchema = some ((fun _ => 0 : Nat → Id) (k + 1)) := fun _ => ⟨_, rfl, rfl, rfl⟩

/-! ### C06: no panic on in-range instances -/

/-- C06.  On a heap whose pointers are all valid, an instance whose numbers are accepted by
`big.Rat` and fit a float64 never makes `Validate` panic. -/
theorem C06_no_panic (env : Env) (σ : Sched) (h : Heap) (hh : HeapOK h) (root : Id)
    (hroot : root < h.length) (v : Json) (hv : InRange env v) (n : Nat) :
    validateDocument env σ h n root v ≠ .error .panic :=
  no_panic hh n root v _ _ hroot hv

/-- C04 and C06 together: with in-place acyclicity the call returns a result. -/
theorem C06_total (env : Env) (σ : Sched) (h : Heap) (hh : HeapOK h) (hac : Acyclic h) (root : Id)
    (hroot : root < h.length) (v : Json) (hv : InRange env v) (n : Nat)
    (hn : v.size * (h.length + 1) + h.length + 1 ≤ n) :
    ∃ r, validateDocument env σ h n root v = .ok r := by
  have h1 := C04_terminates env σ h hac root v n hn
  have h2 := C06_no_panic env σ h hh root hroot v hv n
  cases hx : validateDocument env σ h n root v with
  | ok r => exact ⟨r, rfl⟩
  | error e => cases e <;> simp_all

example : HeapOK Demo.listHeap := by
  intro s hs
  simp only [Demo.listHeap, List.mem_cons, List.not_mem_nil, or_false] at hs
  rcases hs with rfl | rfl | rfl <;> simp [inPlace, nested, extraId, Demo.listHeap]
example : InRange Demo.env Demo.list2 := by
  have n1 : InRange Demo.env (Demo.int 1) := .num _ rfl (by decide +kernel)
  have n2 : InRange Demo.env (Demo.int 2) := .num _ rfl (by decide +kernel)
  refine .obj _ ?_
  intro k x hx
  simp only [List.mem_cons, Prod.mk.injEq, List.not_mem_nil, or_false] at hx
  rcases hx with ⟨_, rfl⟩ | ⟨_, rfl⟩
  · exact n1
  · refine .obj _ ?_
    intro k x hx
    simp only [List.mem_cons, Prod.mk.injEq, List.not_mem_nil, or_false] at hx
    obtain ⟨_, rfl⟩ := hx
    exact n2

/-- C06, the side condition is needed: `{"enum":[1]}` panics on `1e400`. -/
theorem C06_panics_out_of_range :
    validateDocument Demo.env Sched.id [{ doc := .null, draft := Draft7, enum := ["1e1"] }] 5 0
      (.num ⟨false, 1, [], some 400⟩) = .error .panic := by
  have h : NumLit.toF64 ⟨false, 1, [], some 400⟩ = none := by decide +kernel
  have hc : checkEnum Demo.env { doc := .null, draft := Draft7, enum := ["1e1"] }
      (.num ⟨false, 1, [], some 400⟩) rootCtx = .error .panic := by
    simp only [checkEnum, Env.marshal, marshalWithoutNumber, canon, h]; rfl
  simp only [validateDocument, validateRecursive, validateStep, List.getElem?_cons_zero, typeError,
    validateNode, validateCommon, hc]
  rfl

end GJS

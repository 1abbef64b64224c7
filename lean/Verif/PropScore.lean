import Verif.LemScore
import Verif.LemFault
import Verif.Demo
/-
C14, the score.
-/
namespace GJS
open Spec

/-- C14, score.  A node without sub-schemas, applied to a value of the right type, scores a fixed
amount for the type of the value, one for every required name that is present, and minus two for
every error. -/
theorem C14_score (env : Env) (σ : Sched) (h : Heap) (n : Nat) (p : Path) (i : Id) (v : Json) (c : Ctx) (r : Result) (s : Sub)
    (hr : validateRecursive env σ h n p i v c = .ok r) (hs : h[i]? = some s) (hl : Leaf s) (ht : TypeRule env s.types v) :
    r.score = leafScore s v - 2 * r.errors.length := by
  cases n with
  | zero => simp [validateRecursive] at hr
  | succ n =>
    simp only [validateRecursive, validateStep, hs, hl.pass, hl.ref, typeError_none.2 ht, Exec.bind_ok, Exec.pure_ok] at hr
    obtain ⟨a, ha, rfl⟩ := hr
    exact validateNode_bal hl ha

/-- C14, score of a value of the wrong type. -/
theorem C14_score_type (env : Env) (σ : Sched) (h : Heap) (n : Nat) (p : Path) (i : Id) (v : Json) (c : Ctx) (r : Result) (s : Sub)
    (hr : validateRecursive env σ h n p i v c = .ok r) (hs : h[i]? = some s) (hp : s.pass = none) (href : s.refSchema = none)
    (ht : ¬ TypeRule env s.types v) : r.score = -2 := by
  cases n with
  | zero => simp [validateRecursive] at hr
  | succ n =>
    cases hx : typeError env s.types v with
    | none => exact absurd (typeError_none.1 hx) ht
    | some t =>
      simp only [validateRecursive, validateStep, hs, hp, href, hx, Exec.pure_ok] at hr
      subst hr
      rfl

/-- C14, score of the schemas `true` and `false`. -/
theorem C14_score_bool (env : Env) (σ : Sched) (h : Heap) (n : Nat) (p : Path) (i : Id) (v : Json) (c : Ctx) (r : Result) (s : Sub)
    (b : Bool) (hr : validateRecursive env σ h n p i v c = .ok r) (hs : h[i]? = some s) (hp : s.pass = some b) :
    r.score = if b then 0 else -2 := by
  cases n with
  | zero => simp [validateRecursive] at hr
  | succ n =>
    simp only [validateRecursive, validateStep, hs, hp] at hr
    cases b <;> simp at hr <;> subst hr <;> rfl

/-- One of three required names is there: 4 + 1 - 2 * 2. -/
example : ∃ r, validateRecursive Demo.env Sched.id
    [ { doc := .null, draft := Draft7, types := ["object"], required := ["a", "b", "c"] } ] 3 [] 0
    (.obj [("b", .null)]) [] = .ok r ∧ r.score = 1 ∧ r.errors.length = 2 := ⟨_, rfl, rfl, rfl⟩

example : Leaf { doc := .null, draft := Draft7, types := ["object"], required := ["a", "b", "c"] } := by
  constructor <;> simp [getKey]

/-- Of two failing branches the one with more of its required names present is reported, though
it comes second. -/
example : ∃ r, validateDocument Demo.env Sched.id
    [ { doc := .null, draft := Draft7, anyOf := [1, 2] },
      { doc := .null, draft := Draft7, required := ["x"] },
      { doc := .null, draft := Draft7, required := ["a", "b", "c"] } ] 5 0
    (.obj [("a", .null), ("b", .null)]) = .ok r ∧ r.errors.map (·.kind) = [.numberAnyOf, .required "c"] :=
  ⟨_, rfl, rfl⟩

end GJS

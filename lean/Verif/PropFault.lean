import Verif.LemFault
import Verif.Demo
/-
C49: the error report says what is wrong: every reported error is a violated keyword of a
sub-schema that was rightly applied there, and every violated keyword of a sub-schema that has to
be applied is reported.
-/
namespace GJS
open Spec

/-- C49, truth.  Every reported error is explained: there is a chain of sub-schemas from the root
to the one that is violated, each rightly applied by the one before (a branch of `anyOf`, `oneOf`
and `contains` only if none will do), the context of the error spells the steps into the instance
along that chain, and the violated sub-schema, applied to the value found there, has precisely the
fault that the error names, with the same details and the same value. -/
theorem C49_sound (env : Env) (σ : Sched) (h : Heap) (n : Nat) (root : Id) (v : Json) (r : Result)
    (hr : validateDocument env σ h n root v = .ok r) (e : Err) (he : e ∈ r.errors) :
    ∃ path j w s, e.ctx = path.reverse ++ ["(root)"] ∧ Reach h (May env (Holds env h) (Fails env h)) root v path j w ∧
      h[j]? = some s ∧ Fault env (Holds env h) (Fails env h) s w e.kind e.value :=
  validateRecursive_blame (fun n => validateRecursive_settles n) n _ _ _ _ _ hr e he

/-- C49, completeness.  Every fault of every sub-schema that has to be applied is reported, at the
context of the part of the instance it is applied to. -/
theorem C49_complete (env : Env) (σ : Sched) (h : Heap) (n : Nat) (root : Id) (v : Json) (r : Result)
    (hr : validateDocument env σ h n root v = .ok r) (path : List String) (j : Id) (w : Json) (s : Sub) (k : ErrKind) (x : Json)
    (hreach : Reach h (Must env (Holds env h) (Fails env h)) root v path j w) (hs : h[j]? = some s) (hf : Fault env (Holds env h) (Fails env h) s w k x) :
    ⟨k, path.reverse ++ ["(root)"], x⟩ ∈ r.errors :=
  validateRecursive_reports (fun n => validateRecursive_settles n) hreach hs hf n _ _ _ hr

/-- C49, type.  A value of the wrong type gives the type error, naming the wanted types and the type
of the value, and nothing else: no keyword is looked at. -/
theorem C49_type (env : Env) (σ : Sched) (h : Heap) (n : Nat) (root : Id) (v : Json) (r : Result) (s : Sub) (t : String)
    (hr : validateDocument env σ h n root v = .ok r) (hs : h[root]? = some s) (hp : s.pass = none) (href : s.refSchema = none)
    (ht : ¬ TypeRule env s.types v) (hn : TypeName env v t) :
    r.errors = [⟨.invalidType (typeNames s.types) t, ["(root)"], v⟩] := by
  cases n with
  | zero => simp [validateDocument, validateRecursive] at hr
  | succ n =>
    simp only [validateDocument, validateRecursive, validateStep, hs, hp, href, typeError_some.2 ⟨ht, hn⟩,
      typesString_eq (types_ne ht), Exec.pure_ok] at hr
    subst hr
    rfl

/-- The second cell of the list has no value: this has to be reported, at `(root).next`. -/
example (σ : Sched) (n : Nat) (r : Result) (hr : validateDocument Demo.env σ Demo.listHeap n 0 Demo.listBad = .ok r) :
    ⟨.required "value", ["next", "(root)"], .obj []⟩ ∈ r.errors := by
  refine C49_complete Demo.env σ Demo.listHeap n 0 Demo.listBad r hr ["next"] 0 (.obj []) _ _ _ ?_ rfl ?_
  · refine .step 0 _ _ (some "next") 2 (.obj []) [] _ _ rfl ?_ (.step 2 _ _ none 0 _ [] _ _ rfl (.ref 0 rfl rfl) (.here _ _))
    exact .property _ 2 "next" _ ⟨rfl, rfl, .inr ⟨"object", by simp, .obj _⟩⟩ rfl (by simp) rfl
  · exact .keyword _ _ ⟨rfl, rfl, .inr ⟨"object", by simp, .obj _⟩⟩ (.required _ _ rfl (by simp) (by simp [names]))

/-- It is the only error. -/
example : ∃ r, validateDocument Demo.env Sched.id Demo.listHeap 5 0 Demo.listBad = .ok r ∧
    r.errors = [⟨.required "value", ["next", "(root)"], .obj []⟩] := ⟨_, rfl, rfl⟩

/-- The value of the second cell is a string; the error names both types. -/
example : ∃ r, validateDocument Demo.env Sched.rev Demo.listHeap 5 0
    (.obj [("value", Demo.int 1), ("next", .obj [("value", .str "x")])]) = .ok r ∧
    r.errors = [⟨.invalidType "integer" "string", ["value", "next", "(root)"], .str "x"⟩] := ⟨_, rfl, rfl⟩

end GJS

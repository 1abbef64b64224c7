import Verif.Model
/-
Where an error points to.
-/
namespace GJS.Spec
open GJS

/-- Following the steps (outermost first) from `v` leads to `w`: member names in objects,
decimal indices in arrays. -/
inductive At : Json → List String → Json → Prop
  | here (v) : At v [] v
  | elem (xs : List Json) (k : Nat) (x w : Json) (rest : List String) :
      xs[k]? = some x → At x rest w → At (.arr xs) (toString k :: rest) w
  | member (kvs : List (String × Json)) (k : String) (x w : Json) (rest : List String) :
      (k, x) ∈ kvs → At x rest w → At (.obj kvs) (k :: rest) w

/-- The error `e`, reported while validating `v` at context `c`, points to an existing place
of `v`, and its value is the value found there, or (additional property errors) the named
member of it, or (below `propertyNames`) one of its keys. -/
def Located (v : Json) (c : Ctx) (e : Err) : Prop :=
  ∃ steps w, e.ctx = steps ++ c ∧ At v steps.reverse w ∧
    (e.value = w ∨
     (∃ kvs k, w = .obj kvs ∧ e.kind = .additionalPropertyNotAllowed k ∧ (k, e.value) ∈ kvs) ∨
     (∃ kvs k, w = .obj kvs ∧ k ∈ kvs.map Prod.fst ∧ e.value = .str k))

end GJS.Spec

import Verif.SpecTrim
/-
Verdicts of combined schemas, and laws by which schemas can be rewritten.
-/
namespace GJS.Spec
open GJS

/-- The document `D`, compiled on its own by some loader that reads it under draft `d`, gives the verdict `b` on `v`. -/
def Says (w : World) (d : Draft) (D v : Json) (b : Bool) : Prop :=
  ∃ l, Setting w l ∧ draftFor w l D = d ∧ Gives w l D v b

/-- Schema objects with one keyword, and the like. -/
def one (k : String) (x : Json) : Json := .obj [(k, x)]
def all (Ds : List Json) : Json := one "allOf" (.arr Ds)
def any (Ds : List Json) : Json := one "anyOf" (.arr Ds)
def neg (D : Json) : Json := one "not" D
def need (qs : List String) : Json := one "required" (.arr (qs.map .str))

/-- Keywords that are read together. -/
def together : List (List String) :=
  [["properties", "patternProperties", "additionalProperties"], ["items", "additionalItems"], ["if", "then", "else"],
    ["minimum", "exclusiveMinimum"], ["maximum", "exclusiveMaximum"]]

/-- Keywords that are read together are on the same side. -/
def Separate (m m' : List (String × Json)) : Prop :=
  ∀ g ∈ together, (∀ k ∈ g, k ∉ keysOf m) ∨ ∀ k ∈ g, k ∉ keysOf m'

/-- Schema objects that say the same under draft `d`. -/
inductive Law (d : Draft) : Json → Json → Prop
  | single (k m) : k ∈ ["allOf", "anyOf", "oneOf"] → Law d (one k (.arr [.obj m])) (.obj m)
  | notNot (m) : Law d (neg (neg (.obj m))) (.obj m)
  /-- keywords can be given one by one -/
  | split (m m') : (keysOf (m ++ m')).Nodup → "$ref" ∉ keysOf (m ++ m') → Separate m m' →
      Law d (.obj (m ++ m')) (all [.obj m, .obj m'])
  | notAny (Ds) : Ds ≠ [] → Law d (neg (any Ds)) (all (Ds.map neg))
  | notAll (Ds) : Ds ≠ [] → Law d (neg (all Ds)) (any (Ds.map neg))
  /-- order and repetition do not matter -/
  | set (k xs ys) : k ∈ ["allOf", "anyOf", "enum", "type", "required"] → (∀ x, x ∈ xs ↔ x ∈ ys) → Law d (one k (.arr xs)) (one k (.arr ys))
  | perm (xs ys) : xs.Perm ys → Law d (one "oneOf" (.arr xs)) (one "oneOf" (.arr ys))
  | flatAll (As Bs Cs) : Law d (all (As ++ all Bs :: Cs)) (all (As ++ Bs ++ Cs))
  | flatAny (As Bs Cs) : Bs ≠ [] → Law d (any (As ++ any Bs :: Cs)) (any (As ++ Bs ++ Cs))
  | distribute (A Ds) : Ds ≠ [] → Law d (all [A, any Ds]) (any (Ds.map fun D => all [A, D]))
  | absorb (m B) : Law d (all [.obj m, any [.obj m, B]]) (.obj m)
  | either (A B) : Law d (one "oneOf" (.arr [A, B])) (any [all [A, neg B], all [neg A, B]])
  | ite (I T E) : Draft7 ≤ d → Law d (.obj [("if", I), ("then", T), ("else", E)]) (any [all [I, T], all [neg I, E]])
  | const (c) : Draft6 ≤ d → Law d (one "const" c) (one "enum" (.arr [c]))
  | enum (cs) : cs ≠ [] → Law d (one "enum" (.arr cs)) (any (cs.map fun c => one "enum" (.arr [c])))
  | types (ts) : ts ≠ [] → Law d (one "type" (.arr (ts.map .str))) (any (ts.map fun t => one "type" (.str t)))
  | required (qs rs) : Law d (need (qs ++ rs)) (all [need qs, need rs])
  | needs (k qs) : Law d (one "dependencies" (.obj [(k, .arr (qs.map .str))])) (any [neg (need [k]), need qs])
  | implies (k D) : (∀ qs, D ≠ .arr qs) →
      Law d (one "dependencies" (.obj [(k, D)])) (any [neg (.obj [("type", .str "object"), ("required", .arr [.str k])]), D])

/-- `D'` comes from `D` by laws, used in either direction, in the schema itself or in its sub-schemas, at any depth, any
number of times. -/
inductive Refactors (d : Draft) : Json → Json → Prop
  | refl (D) : Refactors d D D
  | law (D D') : Law d D D' → Refactors d D D'
  | symm (D D') : Refactors d D D' → Refactors d D' D
  | trans (D D' D'') : Refactors d D D' → Refactors d D' D'' → Refactors d D D''
  | one (a b k D D') : k ∈ schemaKeywords → Refactors d D D' → Refactors d (.obj (a ++ (k, D) :: b)) (.obj (a ++ (k, D') :: b))
  | list (a b k xs ys D D') : k ∈ listKeywords → Refactors d D D' →
      Refactors d (.obj (a ++ (k, .arr (xs ++ D :: ys)) :: b)) (.obj (a ++ (k, .arr (xs ++ D' :: ys)) :: b))
  | map (a b k xs ys q D D') : k ∈ mapKeywords → Refactors d D D' →
      Refactors d (.obj (a ++ (k, .obj (xs ++ (q, D) :: ys)) :: b)) (.obj (a ++ (k, .obj (xs ++ (q, D') :: ys)) :: b))

end GJS.Spec

import Verif.SpecEqual
import Verif.SpecCompile
import Verif.SpecPool
/-
Vocabulary for the properties about numbers and sizes.
-/
namespace GJS.Spec
open GJS

/-- The same document spelled differently: same structure, same strings, same members whatever
their order, and numbers with the same sign and exact value which `big.Rat` treats alike. -/
inductive Respell (env : Env) : Json → Json → Prop
  | null : Respell env .null .null
  | bool (b) : Respell env (.bool b) (.bool b)
  | str (s) : Respell env (.str s) (.str s)
  | num (m n : NumLit) : m.val = n.val → m.neg = n.neg → env.ratOk m = env.ratOk n → Respell env (.num m) (.num n)
  | arr (xs ys : List Json) : xs.length = ys.length →
      (∀ (k : Nat) x y, xs[k]? = some x → ys[k]? = some y → Respell env x y) → Respell env (.arr xs) (.arr ys)
  | obj (a b : List (String × Json)) : (∀ k, k ∈ a.map Prod.fst ↔ k ∈ b.map Prod.fst) →
      (∀ k x y, (k, x) ∈ a → (k, y) ∈ b → Respell env x y) → Respell env (.obj a) (.obj b)

/-- Formats that do not look at how numbers are spelled (C31: the built-in ones do not look at
numbers at all). -/
def FormatBlind (env : Env) : Prop := ∀ f x y, Respell env x y → env.isFormat f x = env.isFormat f y

/-- Keywords that can have an influence on a verdict. -/
def assertions : List String :=
  ["$ref", "type", "anyOf", "oneOf", "allOf", "not", "dependencies", "if", "then", "else", "const", "enum", "format",
    "items", "additionalItems", "minItems", "maxItems", "uniqueItems", "contains", "minProperties", "maxProperties",
    "required", "properties", "patternProperties", "additionalProperties", "propertyNames", "minLength", "maxLength",
    "pattern", "multipleOf", "minimum", "maximum", "exclusiveMinimum", "exclusiveMaximum"]

/-- Of the keywords that can have an influence on a verdict the schema object has at most `ks`. -/
def Only (m : List (String × Json)) (ks : List String) : Prop := ∀ k ∈ keysOf m, k ∈ assertions → k ∈ ks

/-- Compiling the document `D` with a loader in state `l` and validating `v` gives the verdict `b`
(for some order of map iterations and some fuel). -/
def Gives (w : World) (l : LState) (D v : Json) (b : Bool) : Prop :=
  ∃ (σ : Sched) (fuel : Fuel) (p : Path) (s : Schema) (l' : LState) (σ' : Sched) (n : Nat) (r : Result),
    compile w σ fuel p (.direct (some D)) l = (.ok s, l') ∧ validateDocument w.env σ' s.heap n s.root v = .ok r ∧
    r.valid = b

/-- The world is as assumed and the loader state is one a loader can be in. -/
structure Setting (w : World) (l : LState) : Prop where
  lawful : Lawful w
  pool : PoolWF l
  root : w.norm "#" = some ""

/-- The exact value `x` is within the bounds given by the schema object `m`. -/
def InBounds (env : Env) (m : List (String × Json)) (x : Rat) : Prop :=
  (∀ q, Kw m "multipleOf" (.num q) → ∃ z : Int, x = z * q.val) ∧
  (∀ q, Kw m "minimum" (.num q) → q.val ≤ x) ∧
  (∀ q, Kw m "maximum" (.num q) → x ≤ q.val) ∧
  (∀ q, Kw m "minimum" (.num q) → Kw m "exclusiveMinimum" (.bool true) → q.val < x) ∧
  (∀ q, Kw m "maximum" (.num q) → Kw m "exclusiveMaximum" (.bool true) → x < q.val) ∧
  (∀ q, Kw m "exclusiveMinimum" (.num q) → env.ratOk q = true → q.val < x) ∧
  (∀ q, Kw m "exclusiveMaximum" (.num q) → env.ratOk q = true → x < q.val)

/-- The number keywords. -/
def numberKeywords : List String := ["multipleOf", "minimum", "maximum", "exclusiveMinimum", "exclusiveMaximum"]

/-- Two values of a number keyword that mean the same: equal booleans or numbers of equal value. -/
inductive SameBound (env : Env) : Option Json → Option Json → Prop
  | none : SameBound env none none
  | bool (b) : SameBound env (some (.bool b)) (some (.bool b))
  | num (m n : NumLit) : m.val = n.val → env.ratOk m = env.ratOk n → SameBound env (some (.num m)) (some (.num n))

/-- The size is within the inclusive bounds given by two keywords. -/
def SizeWithin (m : List (String × Json)) (mn mx : String) (size : Nat) : Prop :=
  (∀ n, Kw m mn (.num n) → n.val ≤ size) ∧ (∀ n, Kw m mx (.num n) → (size : Rat) ≤ n.val)

end GJS.Spec

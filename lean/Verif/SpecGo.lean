import Verif.GoLoader
import Verif.SpecText
import Verif.SpecEqual
/-
What a Go value stands for when it is used as a document.
-/
namespace GJS.Spec
open GJS GJS.Go

/-- What is assumed of the printing of numbers: `json.Number`s and integers are printed as JSON numbers that
are what they are; floats as JSON numbers that round to them. -/
structure Prints (lib : Lib) : Prop where
  number : ∀ n, NumText (utf8 (lib.number n)) n
  int : ∀ i : Int, NumText (utf8 (lib.int i)) ⟨decide (i < 0), i.natAbs, [], none⟩
  float : ∀ f, IsF64 f → ∃ n, NumText (utf8 (lib.float f)) n ∧ n.toF64 = some f

/-- The document a Go value stands for. -/
inductive Stands : GoTree → Json → Prop
  | nil : Stands .nil .null
  | bool (b) : Stands (.bool b) (.bool b)
  | number (n) : Stands (.number n) (.num n)
  | int (i n) : n.frac = [] → n.exp = none → n.neg = decide (i < 0) → n.ip = i.natAbs → Stands (.int i) (.num n)
  | float (f n) : n.toF64 = some f → Stands (.float f) (.num n)
  | str (s) : Stands (.str s) (.str s)
  | arr (gs : List GoTree) (xs : List Json) : gs.length = xs.length →
      (∀ (k : Nat) g x, gs[k]? = some g → xs[k]? = some x → Stands g x) → Stands (.arr gs) (.arr xs)
  | map (gs : List (String × GoTree)) (xs : List (String × Json)) : (gs.map Prod.fst).Perm (xs.map Prod.fst) →
      (∀ k g x, (k, g) ∈ gs → (k, x) ∈ xs → Stands g x) → Stands (.map gs) (.obj xs)
  | record (gs : List (String × GoTree)) (xs : List (String × Json)) : gs.map Prod.fst = xs.map Prod.fst →
      (∀ k g x, (k, g) ∈ gs → (k, x) ∈ xs → Stands g x) → Stands (.record gs) (.obj xs)

/-- No name twice in a map or struct; floats are float64s. -/
inductive Proper : GoTree → Prop
  | nil : Proper .nil
  | bool (b) : Proper (.bool b)
  | number (n) : Proper (.number n)
  | int (i) : Proper (.int i)
  | float (f) : IsF64 f → Proper (.float f)
  | str (s) : Proper (.str s)
  | arr (gs) : (∀ g ∈ gs, Proper g) → Proper (.arr gs)
  | map (gs : List (String × GoTree)) : (gs.map Prod.fst).Nodup → (∀ e ∈ gs, Proper e.2) → Proper (.map gs)
  | record (gs : List (String × GoTree)) : (gs.map Prod.fst).Nodup → (∀ e ∈ gs, Proper e.2) → Proper (.record gs)
  | none : Proper .none

/-- Nothing in it is without JSON, and it is nested no deeper than `d`. -/
inductive Encodable : Nat → GoTree → Prop
  | nil (d) : Encodable d .nil
  | bool (d b) : Encodable d (.bool b)
  | number (d n) : Encodable d (.number n)
  | int (d i) : Encodable d (.int i)
  | float (d f) : Encodable d (.float f)
  | str (d s) : Encodable d (.str s)
  | arr (d gs) : (∀ g ∈ gs, Encodable d g) → Encodable (d + 1) (.arr gs)
  | map (d) (gs : List (String × GoTree)) : (∀ e ∈ gs, Encodable d e.2) → Encodable (d + 1) (.map gs)
  | record (d) (gs : List (String × GoTree)) : (∀ e ∈ gs, Encodable d e.2) → Encodable (d + 1) (.record gs)

/-- The same document, members in any order. -/
inductive SameDoc : Json → Json → Prop
  | null : SameDoc .null .null
  | bool (b) : SameDoc (.bool b) (.bool b)
  | num (n) : SameDoc (.num n) (.num n)
  | str (s) : SameDoc (.str s) (.str s)
  | arr (xs ys : List Json) : xs.length = ys.length →
      (∀ (k : Nat) x y, xs[k]? = some x → ys[k]? = some y → SameDoc x y) → SameDoc (.arr xs) (.arr ys)
  | obj (a b : List (String × Json)) : (a.map Prod.fst).Perm (b.map Prod.fst) →
      (∀ k x y, (k, x) ∈ a → (k, y) ∈ b → SameDoc x y) → SameDoc (.obj a) (.obj b)

end GJS.Spec

import Verif.Regex
/-
What regular expressions match.
-/
namespace GJS.Rx.Spec
open GJS.Rx

/-- The number of a character after folding: capitals as small letters, the Kelvin sign as `k`, the long s as `s`. -/
def folded (c : Char) : Nat :=
  if 65 ≤ c.toNat ∧ c.toNat ≤ 90 then c.toNat + 32
  else if c.toNat = 0x212A then 107
  else if c.toNat = 0x17F then 115
  else c.toNat

/-- A class written with the ranges `rs` has the character `c`: a character of the ranges, or one that is the same after
folding if case does not matter; the other way round for a negated class. -/
def InClass (neg fold : Bool) (rs : List (Char × Char)) (c : Char) : Prop :=
  (∃ c' : Char, (if fold = true then folded c' = folded c else c' = c) ∧
    ∃ r ∈ rs, r.1.toNat ≤ c'.toNat ∧ c'.toNat ≤ r.2.toNat) ↔ neg = false

/-- `Mt r b l e`: the expression matches `l`, where `b` says that `l` is at the beginning of the text and `e` that it is at
the end. -/
inductive Mt : Rx → Bool → List Char → Bool → Prop
  | eps (b e) : Mt eps b [] e
  | first (e) : Mt first true [] e
  | last (b) : Mt last b [] true
  | cls (neg fold rs b c e) : InClass neg fold rs c → Mt (cls neg fold rs) b [c] e
  | seq (x y b l m e) : Mt x b l (e && m.isEmpty) → Mt y (b && l.isEmpty) m e → Mt (seq x y) b (l ++ m) e
  | left (x y b l e) : Mt x b l e → Mt (alt x y) b l e
  | right (x y b l e) : Mt y b l e → Mt (alt x y) b l e
  | none (x b e) : Mt (star x) b [] e
  | more (x b l m e) : Mt x b l (e && m.isEmpty) → Mt (star x) (b && l.isEmpty) m e → Mt (star x) b (l ++ m) e

/-- The expression matches somewhere in a text. -/
def Found (r : Rx) (l : List Char) : Prop :=
  ∃ pre mid post, l = pre ++ (mid ++ post) ∧ Mt r pre.isEmpty mid post.isEmpty

end GJS.Rx.Spec

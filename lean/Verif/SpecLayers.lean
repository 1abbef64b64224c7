import Verif.SpecLaws
/-
The rules for documents with references, in layers: a layer says what documents mean, given what the
references mean; the references of a layer mean what the layer below says of what they stand for.
-/
namespace GJS.Spec
open GJS

/-- When the value `v` satisfies the schema document `D` under draft `d`, given when it satisfies a
reference (`T`) and the documents inside `D` (`Sat`). -/
def RefRules (env : Env) (T : String → Json → Prop) (Sat : Draft → Json → Json → Prop) (d : Draft) (D v : Json) : Prop :=
  match D with
  | .bool b => b = true
  | .obj m =>
    match getKey "$ref" m with
    | some (.str r) => T r v
    | _ => DKeywords env (Sat d) d m v
  | _ => False

/-- `Sat` obeys the rules for every document, given what references mean. -/
def Obeys (env : Env) (T : String → Json → Prop) (Sat : Draft → Json → Json → Prop) : Prop :=
  ∀ d D v, Sat d D v ↔ RefRules env T Sat d D v

/-- References mean what `Sat` says of what they stand for. -/
def Through (resolve : String → Option (Draft × Json)) (Sat : Draft → Json → Json → Prop) (t : String) (v : Json) : Prop :=
  ∃ d X, resolve t = some (d, X) ∧ Sat d X v

/-- A sequence of layers.  The references with texts in `R` mean what the same layer says of what they
stand for, the others what the layer below says. -/
def Layers (env : Env) (R : String → Prop) (resolve : String → Option (Draft × Json)) (S : Nat → Draft → Json → Json → Prop) : Prop :=
  ∀ k, Obeys env (fun t v => (R t ∧ Through resolve (S (k + 1)) t v) ∨ (¬ R t ∧ Through resolve (S k) t v)) (S (k + 1))

/-- `D` has a reference with text `t`. -/
def HasText (D : Json) (t : String) : Prop := ∃ m, Within D (.obj m) ∧ Kw m "$ref" (.str t)

/-- Following the references with texts in `R` only, one does not go round in circles. -/
def Grounded (R : String → Prop) (resolve : String → Option (Draft × Json)) : Prop :=
  ∃ (N : Nat) (rank : String → Nat), ∀ t, R t → rank t < N ∧
    ∀ d X t', resolve t = some (d, X) → HasText X t' → R t' → rank t' < rank t

/-- `D'` comes from `D` by the laws of `SpecLaws`, by taking out and putting in members that ask for
nothing (`SpecTrim`), and by replacing references with texts in `R` by what they stand for, all of these in either
direction, in the schema itself or in its sub-schemas, at any depth, any number of times. -/
inductive Rewrites (R : String → Prop) (resolve : String → Option (Draft × Json)) (d : Draft) : Json → Json → Prop
  | refl (D) : Rewrites R resolve d D D
  | law (D D') : Law d D D' → Rewrites R resolve d D D'
  | trim (D D') : Trim d D D' → Rewrites R resolve d D D'
  | inline (m t m') : Kw m "$ref" (.str t) → R t → resolve t = some (d, .obj m') → Rewrites R resolve d (.obj m) (.obj m')
  | symm (D D') : Rewrites R resolve d D D' → Rewrites R resolve d D' D
  | trans (D D' D'') : Rewrites R resolve d D D' → Rewrites R resolve d D' D'' → Rewrites R resolve d D D''
  | one (a b k D D') : k ∈ schemaKeywords → Rewrites R resolve d D D' →
      Rewrites R resolve d (.obj (a ++ (k, D) :: b)) (.obj (a ++ (k, D') :: b))
  | list (a b k xs ys D D') : k ∈ listKeywords → Rewrites R resolve d D D' →
      Rewrites R resolve d (.obj (a ++ (k, .arr (xs ++ D :: ys)) :: b)) (.obj (a ++ (k, .arr (xs ++ D' :: ys)) :: b))
  | map (a b k xs ys q D D') : k ∈ mapKeywords → Rewrites R resolve d D D' →
      Rewrites R resolve d (.obj (a ++ (k, .obj (xs ++ (q, D) :: ys)) :: b)) (.obj (a ++ (k, .obj (xs ++ (q, D') :: ys)) :: b))

/-- The references with texts in `R` stand for the same documents, the others for documents that come from each
other by rewriting. -/
def Matched (R : String → Prop) (resolve resolve' : String → Option (Draft × Json)) : Prop :=
  ∀ t, resolve t = resolve' t ∨ (¬ R t ∧ ∃ d X X', resolve t = some (d, X) ∧ resolve' t = some (d, X') ∧ Rewrites R resolve d X X')

end GJS.Spec

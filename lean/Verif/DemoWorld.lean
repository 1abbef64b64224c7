import Verif.Loader
import Verif.Demo
import Verif.LemParse
/-
A concrete outside world for the examples and counterexamples: references are names followed by
an optional `#` and a fragment, fragments are JSON pointers over object members, and documents
come from a table.
-/
namespace GJS.Demo
open GJS

/-- The part before `#`. -/
def baseOf (r : String) : String := String.ofList (r.toList.takeWhile (· != '#'))
/-- The part from `#` on. -/
def fragOf (r : String) : List Char := r.toList.dropWhile (· != '#')
/-- `a#` is `a`. -/
def normOf (r : String) : String := if fragOf r == ['#'] then baseOf r else r
/-- Split at slashes. -/
def tokens : List Char → List (List Char)
  | [] => [[]]
  | c :: cs =>
    match c == '/', tokens cs with
    | true, ts => [] :: ts
    | false, t :: ts => (c :: t) :: ts
    | false, [] => [[c]]
/-- Follow member names. -/
def walk : List (List Char) → Json → Option Json
  | [], D => some D
  | t :: ts, .obj m =>
    match getKey (String.ofList t) m with
    | some D => walk ts D
    | none => none
  | _ :: _, _ => none
/-- Evaluate the fragment of a reference. -/
def pointerOf (r : String) (D : Json) : Option Json :=
  match fragOf r with
  | [] => some D
  | ['#'] => some D
  | '#' :: '/' :: cs => walk (tokens cs) D
  | _ => none

/-- The world with the given documents, the same at all times, on every file system and over
HTTP.  Texts cannot be decoded. -/
def world (docs : List (String × Json)) : World where
  env := env
  norm := fun t => some (normOf t)
  inherits := fun p c => some (if baseOf c == "" then (if fragOf c == [] then p else baseOf p ++ c) else c)
  base := baseOf
  canonical := fun r => baseOf r != ""
  pointer := pointerOf
  isFile := fun _ => true
  fileName := some
  readFile := fun _ _ r => getKey r docs
  http := fun _ r => getKey r docs
  decode := fun _ => none

theorem walk_wf {ts D d} (h : walk ts D = some d) (hD : D.WF) : d.WF := by
  induction ts generalizing D with
  | nil => cases h; exact hD
  | cons t ts ih =>
    cases D with
    | obj m =>
      simp only [walk] at h
      cases hk : getKey (String.ofList t) m with
      | none => rw [hk] at h; cases h
      | some x => rw [hk] at h; exact ih h (wf_get hD hk)
    | _ => cases h

/-- The world is lawful if its documents are. -/
theorem world_lawful {docs} (h : ∀ k d, getKey k docs = some d → d.WF) : Spec.Lawful (world docs) where
  readFile := fun _ _ name d hd => h name d hd
  http := fun _ u d hd => h u d hd
  decode := fun _ _ h => by cases h
  pointer := by
    intro r D d hd hD
    change pointerOf r D = some d at hd
    unfold pointerOf at hd
    split at hd
    · cases hd; exact hD
    · cases hd; exact hD
    · exact walk_wf hd hD
    · cases hd

end GJS.Demo

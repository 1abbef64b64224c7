import Verif.LemSize
import Verif.LemClosed
/-
Helper lemmas: how many references a document has.
-/
namespace GJS
open Spec

mutual
/-- The texts of the references in a document. -/
def refTexts : Json → List String
  | .arr xs => refTextsL xs
  | .obj m => refTextsM m
  | _ => []
def refTextsL : List Json → List String
  | [] => []
  | x :: xs => refTexts x ++ refTextsL xs
def refTextsM : List (String × Json) → List String
  | [] => []
  | (k, x) :: m => (match k, x with | "$ref", .str t => [t] | _, _ => []) ++ refTexts x ++ refTextsM m
end

mutual
theorem refTexts_size : ∀ D : Json, (refTexts D).length < D.size
  | .null => by simp [refTexts, Json.size]
  | .bool _ => by simp [refTexts, Json.size]
  | .num _ => by simp [refTexts, Json.size]
  | .str _ => by simp [refTexts, Json.size]
  | .arr xs => by
    have := refTextsL_size xs
    simp only [refTexts, Json.size]; omega
  | .obj m => by
    have := refTextsM_size m
    simp only [refTexts, Json.size]; omega
theorem refTextsL_size : ∀ xs : List Json, (refTextsL xs).length ≤ Json.sizeL xs
  | [] => by simp [refTextsL]
  | x :: xs => by
    have := refTexts_size x
    have := refTextsL_size xs
    simp only [refTextsL, Json.sizeL, List.length_append]; omega
theorem refTextsM_size : ∀ m : List (String × Json), (refTextsM m).length ≤ Json.sizeKV m
  | [] => by simp [refTextsM]
  | (k, x) :: m => by
    have := refTexts_size x
    have := refTextsM_size m
    simp only [refTextsM, Json.sizeKV, List.length_append]
    split <;> simp only [List.length_singleton, List.length_nil] <;> omega
end

theorem refTextsL_mem {t : String} {x : Json} (h : t ∈ refTexts x) : ∀ {xs : List Json}, x ∈ xs → t ∈ refTextsL xs
  | y :: ys, hx => by
    simp only [refTextsL, List.mem_append]
    rcases List.mem_cons.mp hx with rfl | hx
    · exact .inl h
    · exact .inr (refTextsL_mem h hx)

theorem refTextsM_mem {t k : String} {x : Json} (h : t ∈ refTexts x) : ∀ {m : List (String × Json)}, (k, x) ∈ m → t ∈ refTextsM m
  | (k', y) :: ys, hx => by
    simp only [refTextsM, List.mem_append]
    rcases List.mem_cons.mp hx with e | hx
    · cases e; exact .inl (.inr h)
    · exact .inr (refTextsM_mem h hx)

theorem refTextsM_own {t : String} : ∀ {m : List (String × Json)}, ("$ref", .str t) ∈ m → t ∈ refTextsM m
  | (k', y) :: ys, hx => by
    simp only [refTextsM, List.mem_append]
    rcases List.mem_cons.mp hx with e | hx
    · cases e; exact .inl (.inl (by simp))
    · exact .inr (refTextsM_own hx)

theorem refTexts_within {D : Json} {m t} (h : Within D (.obj m)) (hk : Kw m "$ref" (.str t)) : t ∈ refTexts D := by
  generalize e : Json.obj m = X at h
  induction h with
  | self => rw [← e]; exact refTextsM_own (lookup_some_mem hk)
  | elem xs y x hy _ ih => exact refTextsL_mem (ih e) hy
  | member m' k y x hy _ ih => exact refTextsM_mem (ih e) hy

end GJS

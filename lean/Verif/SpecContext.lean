/-
Vocabulary for C36.
-/
namespace GJS.Spec

/-- The texts one after the other with `d` in between. -/
def joined (d : List Char) : List (List Char) → List Char
  | [] => []
  | [x] => x
  | x :: y :: r => x ++ d ++ joined d (y :: r)

end GJS.Spec

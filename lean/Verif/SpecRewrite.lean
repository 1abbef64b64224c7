import Verif.Pool
/-
What rewriting does to a document (`Rw`), stated without the rewriting code.
-/
namespace GJS.Spec
open GJS

/-- The identifier a schema object declares: the text of `id` if it has a member `id`, else of
`$id`. -/
def idOf (m : List (String × Json)) : Option String :=
  match getKey (if (getKey "id" m).isSome then "id" else "$id") m with
  | some (.str t) => some t
  | _ => none

/-- The base URI inside a schema object that stands where `base` is in force. -/
def scopeOf (w : World) (base : String) (m : List (String × Json)) : String :=
  match idOf m with
  | none => base
  | some t => ((w.norm t).bind (w.inherits base)).getD base

/-- Keywords whose value is a map of named schemas, as far as rewriting knows. -/
def SchemaMap (k : String) : Prop := k = "properties" ∨ k = "dependencies" ∨ k = "patternProperties"

/-- Keywords whose value is not a schema. -/
def Literal (k : String) : Prop := k = "const" ∨ k = "enum"

mutual
/-- `RwT w T base D D'`: `D'` is `D` with its references made absolute, where `base` is the base URI
in force at `D`; `T` says whether identifiers may be found taken. -/
inductive RwT (w : World) (T : Prop) : String → Json → Json → Prop
  | scalar (base : String) (v : Json) : (∀ xs, v ≠ .arr xs) → (∀ m, v ≠ .obj m) → RwT w T base v v
  /-- an array: element by element -/
  | arr (base : String) (xs ys : List Json) : xs.length = ys.length →
      (∀ (i : Nat) x y, xs[i]? = some x → ys[i]? = some y → RwT w T base x y) → RwT w T base (.arr xs) (.arr ys)
  /-- an object: same members, in the scope of its own identifier -/
  | obj (base : String) (m m' : List (String × Json)) : m.map Prod.fst = m'.map Prod.fst →
      (∀ (i : Nat) k v v', m[i]? = some (k, v) → m'[i]? = some (k, v') → RwMemberT w T (scopeOf w base m) k v v') →
      RwT w T base (.obj m) (.obj m')
  /-- an object whose identifier is taken is left alone -/
  | taken (base : String) (m : List (String × Json)) (t : String) : T → idOf m = some t → RwT w T base (.obj m) (.obj m)

/-- The same for one member of an object. -/
inductive RwMemberT (w : World) (T : Prop) : String → String → Json → Json → Prop
  | literal (base k : String) (v : Json) : Literal k → RwMemberT w T base k v v
  /-- a reference becomes absolute -/
  | ref (base t t' : String) : (w.norm t).bind (w.inherits base) = some t' → RwMemberT w T base "$ref" (.str t) (.str t')
  | badRef (base t : String) : (w.norm t).bind (w.inherits base) = none → RwMemberT w T base "$ref" (.str t) (.str t)
  /-- a map of schemas: the members, whatever they are called, are schemas -/
  | map (base k : String) (c c' : List (String × Json)) : SchemaMap k → c.map Prod.fst = c'.map Prod.fst →
      (∀ (i : Nat) n x x', c[i]? = some (n, x) → c'[i]? = some (n, x') → RwT w T base x x') →
      RwMemberT w T base k (.obj c) (.obj c')
  | noMap (base k : String) (v : Json) : SchemaMap k → (∀ c, v ≠ .obj c) → RwMemberT w T base k v v
  /-- any other member -/
  | sub (base k : String) (v v' : Json) : ¬ Literal k → ¬ SchemaMap k → (k = "$ref" → ∀ t, v ≠ .str t) →
      RwT w T base v v' → RwMemberT w T base k v v'
end


/-- Rewriting in general. -/
abbrev Rw (w : World) := RwT w True
@[inherit_doc Rw] abbrev RwMember (w : World) := RwMemberT w True

/-- Rewriting when no identifier is found taken. -/
abbrev RwStrict (w : World) := RwT w False

/-- The identifier an object declares, made absolute. -/
def absId (w : World) (base : String) (m : List (String × Json)) : List String :=
  match idOf m with
  | none => []
  | some t => ((w.norm t).bind (w.inherits base)).toList

mutual
/-- All identifiers declared by schemas in a document, made absolute. -/
def idsIn (w : World) (base : String) : Json → List String
  | .arr xs => idsInL w base xs
  | .obj m => absId w base m ++ idsInM w (scopeOf w base m) m
  | _ => []
/-- ... in the elements of a list -/
def idsInL (w : World) (base : String) : List Json → List String
  | [] => []
  | x :: xs => idsIn w base x ++ idsInL w base xs
/-- ... in the members of an object, which are schemas unless they are literals -/
def idsInM (w : World) (base : String) : List (String × Json) → List String
  | [] => []
  | (k, .obj c) :: r =>
    (if k = "const" ∨ k = "enum" then []
      else if k = "properties" ∨ k = "dependencies" ∨ k = "patternProperties" then idsInV w base c
      else absId w base c ++ idsInM w (scopeOf w base c) c) ++ idsInM w base r
  | (k, .arr xs) :: r =>
    (if k = "const" ∨ k = "enum" then []
      else if k = "properties" ∨ k = "dependencies" ∨ k = "patternProperties" then []
      else idsInL w base xs) ++ idsInM w base r
  | _ :: r => idsInM w base r
/-- ... in the values of a map of schemas -/
def idsInV (w : World) (base : String) : List (String × Json) → List String
  | [] => []
  | (_, x) :: r => idsIn w base x ++ idsInV w base r
end

end GJS.Spec

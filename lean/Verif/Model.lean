import Verif.Marshal
/-
Data structures shared by the parser and the validator: environment, scheduler, compiled
schemas, errors, results.
-/
namespace GJS

/-- Behaviour of external code the validator depends on. -/
structure Env where
  /-- whether `new(big.Rat).SetString(text)` succeeds (it fails in newer Go versions on very
  large exponents); when it succeeds the value is `NumLit.val` -/
  ratOk    : NumLit → Bool
  /-- `regexp.Compile(p)` succeeds -/
  reOk     : String → Bool
  /-- `regexp.MatchString(p, s)` -/
  reMatch  : String → String → Bool
  /-- `FormatCheckers.IsFormat(name, value)` (`/repo/format_checkers.go` 177-188, modelled in
  `Verif.Formats`) -/
  isFormat : String → Json → Bool
  /-- how `encoding/json` prints a float64 -/
  fmtF64   : F64 → String

/-- `new(big.Rat).SetString(text)`. -/
def Env.rat (env : Env) (n : NumLit) : Option Rat := if env.ratOk n then some n.val else none

/-- `checkJSONInteger` (`/repo/utils.go` 117-125). -/
def Env.checkInteger (env : Env) (n : NumLit) : Bool :=
  match env.rat n with
  | some q => q.den == 1
  | none   => false

/-- `marshalWithoutNumber` in an environment. -/
def Env.marshal (env : Env) (v : Json) : Option String := marshalWithoutNumber env.fmtF64 v

/-- The execution point of a `range` over a map: the list of call-site tags and loop
indices leading to it.  Distinct executions have distinct paths. -/
abbrev Path := List Nat

/-- Go iterates over maps in an unspecified order that may differ between two executions of
the same statement.  A scheduler chooses a permutation for every execution point. -/
structure Sched where
  order : {α : Type} → Path → List α → List α
  perm  : ∀ {α : Type} (p : Path) (l : List α), (order p l).Perm l

/-- The scheduler that follows the listing order (used for examples). -/
def Sched.id : Sched := ⟨fun _ l => l, fun _ _ => .refl _⟩
/-- The scheduler that reverses every listing order (used for examples). -/
def Sched.rev : Sched := ⟨fun _ l => l.reverse, fun _ l => l.reverse_perm⟩

/-- Abnormal outcomes of an execution. -/
inductive Abort where
  /-- a Go run-time panic: nil dereference, failed type assertion, division by zero -/
  | panic
  /-- the model ran out of fuel: the Go code has not returned after that many nested calls -/
  | fuel
deriving DecidableEq, Repr

/-- An execution of validation code. -/
abbrev Exec := Except Abort

/-- A pointer to a `subSchema`: index into the heap. -/
abbrev Id := Nat

/-- `Draft` (`/repo/draft.go` 25-34): an int; users may store any value. -/
abbrev Draft := Int
def Draft4 : Draft := 4
def Draft6 : Draft := 6
def Draft7 : Draft := 7
/-- `math.MaxInt32` -/
def Hybrid : Draft := 2147483647

/-- Values of `subSchema.dependencies` (`/repo/subSchema.go` 124): `[]string` or `*subSchema`. -/
inductive Dep where
  | keys (ks : List String)
  | schema (i : Id)
deriving Repr

/-- Values of `additionalProperties`/`additionalItems` (`/repo/subSchema.go` 125, 135): nil,
`bool` or `*subSchema`. -/
inductive Extra where
  | absent
  | bool (b : Bool)
  | schema (i : Id)
deriving Repr

/-- `subSchema` (`/repo/subSchema.go` 79-149).

Left out: `id`, `title`, `description`, `ref`, `parent` and `property`, which validation does
not read, except that the `property` of a `propertiesChildren` element is stored beside the
pointer.  Added: `doc`, a ghost field with the document node the schema was parsed from.
A nil slice or map is the empty list (the code only tests lengths). -/
structure Sub where
  doc    : Json
  draft  : Draft
  pass   : Option Bool := none
  types  : List String := []
  refSchema : Option Id := none
  itemsChildren : List Id := []
  itemsChildrenIsSingleSchema : Bool := false
  propertiesChildren : List (String × Id) := []
  multipleOf : Option Rat := none
  maximum : Option Rat := none
  exclusiveMaximum : Option Rat := none
  minimum : Option Rat := none
  exclusiveMinimum : Option Rat := none
  minLength : Option Int := none
  maxLength : Option Int := none
  pattern : Option String := none
  format : String := ""
  minProperties : Option Int := none
  maxProperties : Option Int := none
  required : List String := []
  dependencies : List (String × Dep) := []
  additionalProperties : Extra := .absent
  patternProperties : List (String × Id) := []
  propertyNames : Option Id := none
  minItems : Option Int := none
  maxItems : Option Int := none
  uniqueItems : Bool := false
  contains : Option Id := none
  additionalItems : Extra := .absent
  const : Option String := none
  enum : List String := []
  oneOf : List Id := []
  anyOf : List Id := []
  allOf : List Id := []
  not : Option Id := none
  if_ : Option Id := none
  then_ : Option Id := none
  else_ : Option Id := none

/-- The compiled sub-schemas. -/
abbrev Heap := List Sub

/-- `JsonContext` (`/repo/jsonContext.go` 29-38): linked list, innermost step first, ending
with the root. -/
abbrev Ctx := List String

/-- The error types of `/repo/errors.go` 18-210 with the `ErrorDetails` passed at the call
sites (numbers in details are kept exact). -/
inductive ErrKind where
  | false_
  | required (property : String)
  | invalidType (expected given : String)
  | numberAnyOf
  | numberOneOf
  | numberAllOf
  | numberNot
  | missingDependency (dependency : String)
  | internal
  | const (allowed : String)
  | enum (allowed : String)
  | arrayNoAdditionalItems
  | arrayMinItems (min : Int)
  | arrayMaxItems (max : Int)
  | unique (i j : Nat)
  | contains
  | arrayMinProperties (min : Int)
  | arrayMaxProperties (max : Int)
  | additionalPropertyNotAllowed (property : String)
  | invalidPropertyPattern
  | invalidPropertyName (property : String)
  | stringGTE (min : Int)
  | stringLTE (max : Int)
  | pattern (p : String)
  | format (f : String)
  | multipleOf (multiple : Rat)
  | numberGTE (min : Rat)
  | numberGT (min : Rat)
  | numberLTE (max : Rat)
  | numberLT (max : Rat)
  | conditionThen
  | conditionElse
deriving DecidableEq, Repr

/-- The string stored by `SetType` in `newError` (`/repo/errors.go` 213-315). -/
def ErrKind.typeName : ErrKind → String
  | .false_ => "false"
  | .required _ => "required"
  | .invalidType _ _ => "invalid_type"
  | .numberAnyOf => "number_any_of"
  | .numberOneOf => "number_one_of"
  | .numberAllOf => "number_all_of"
  | .numberNot => "number_not"
  | .missingDependency _ => "missing_dependency"
  | .internal => "internal"
  | .const _ => "const"
  | .enum _ => "enum"
  | .arrayNoAdditionalItems => "array_no_additional_items"
  | .arrayMinItems _ => "array_min_items"
  | .arrayMaxItems _ => "array_max_items"
  | .unique _ _ => "unique"
  | .contains => "contains"
  | .arrayMinProperties _ => "array_min_properties"
  | .arrayMaxProperties _ => "array_max_properties"
  | .additionalPropertyNotAllowed _ => "additional_property_not_allowed"
  | .invalidPropertyPattern => "invalid_property_pattern"
  | .invalidPropertyName _ => "invalid_property_name"
  | .stringGTE _ => "string_gte"
  | .stringLTE _ => "string_lte"
  | .pattern _ => "pattern"
  | .format _ => "format"
  | .multipleOf _ => "multiple_of"
  | .numberGTE _ => "number_gte"
  | .numberGT _ => "number_gt"
  | .numberLTE _ => "number_lte"
  | .numberLT _ => "number_lt"
  | .conditionThen => "condition_then"
  | .conditionElse => "condition_else"

/-- `ResultErrorFields` (`/repo/result.go` 74-81): type and details, context, value.  The
description is a function of these (see `Verif.Templates`). -/
structure Err where
  kind : ErrKind
  ctx  : Ctx
  value : Json
deriving Repr

/-- `Result` (`/repo/result.go` 84-89). -/
structure Result where
  errors : List Err := []
  score  : Int := 0
deriving Repr

/-- `Result.Valid` (`/repo/result.go` 185-187). -/
def Result.valid (r : Result) : Bool := r.errors.length == 0

/-- `mergeErrors` (`/repo/result.go` 213-216), also used to sequence the effects of the
validation functions: the code threads one `*Result` through them, only ever appending
errors and adding to the score; the model returns the increments and concatenates them. -/
def Result.append (a b : Result) : Result := ⟨a.errors ++ b.errors, a.score + b.score⟩
instance : Append Result := ⟨Result.append⟩

/-- `addInternalError` (`/repo/result.go` 206-210): one error, score `-2`. -/
def addErr (k : ErrKind) (c : Ctx) (v : Json) : Result := ⟨[⟨k, c, v⟩], -2⟩

/-- `incrementScore` (`/repo/result.go` 218-220). -/
def tick : Result := ⟨[], 1⟩

end GJS

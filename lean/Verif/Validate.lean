import Verif.Model
/-
The validation phase, `/repo/validation.go`.
-/
namespace GJS

/-- JSON type names (`/repo/types.go` 29-37). -/
def TYPE_ARRAY := "array"
def TYPE_BOOLEAN := "boolean"
def TYPE_INTEGER := "integer"
def TYPE_NUMBER := "number"
def TYPE_NULL := "null"
def TYPE_OBJECT := "object"
def TYPE_STRING := "string"

/-- `jsonSchemaType.Contains` (`/repo/schemaType.go` 59-68). -/
def typesContain (ts : List String) (t : String) : Bool := ts.contains t

/-- `jsonSchemaType.IsTyped` (`/repo/schemaType.go` 40-42). -/
def isTyped (ts : List String) : Bool := decide (ts.length > 0)

/-- `jsonSchemaType.String` (`/repo/schemaType.go` 70-83). -/
def typesString (ts : List String) : String :=
  match ts with
  | [] => "undefined"
  | [t] => t
  | ts => "[" ++ String.intercalate "," ts ++ "]"

/-- The recursive call `validateRecursive` as seen by the functions it calls. -/
abbrev Rec := Path → Id → Json → Ctx → Exec Result

/-- A Go loop whose body adds to the result: `for k, x := range l { body }`. -/
def forEach (f : Nat → α → Exec Result) : Nat → List α → Exec Result
  | _, [] => .ok {}
  | k, x :: xs => do
    let r ← f k x
    let rs ← forEach f (k + 1) xs
    return r ++ rs

/-- `best == nil || r.score > best.score` (`/repo/validation.go` 287, 313, 563). -/
def better (best : Option Result) (r : Result) : Bool :=
  match best with
  | none => true
  | some b => decide (r.score > b.score)

/-- The anyOf loop (`/repo/validation.go` 282-291): state is `validatedAnyOf` and
`bestValidationResult`. -/
def anyOfLoop (run : Nat → Id → Exec Result) :
    Nat → List Id → Bool → Option Result → Exec (Bool × Option Result)
  | _, [], validated, best => .ok (validated, best)
  | k, i :: is, validated, best =>
    if !validated then do
      let r ← run k i
      let validated' := r.valid
      let best' := if !validated' && better best r then some r else best
      anyOfLoop run (k + 1) is validated' best'
    else anyOfLoop run (k + 1) is validated best

/-- anyOf (`/repo/validation.go` 277-302). -/
def checkAnyOf (rec : Rec) (p : Path) (s : Sub) (v : Json) (c : Ctx) : Exec Result :=
  if s.anyOf.length > 0 then do
    let (validated, best) ← anyOfLoop (fun k i => rec (k :: 1 :: p) i v c) 0 s.anyOf false none
    if !validated then
      match best with
      | some b => return addErr .numberAnyOf c v ++ b
      | none => return addErr .numberAnyOf c v
    else return {}
  else return {}

/-- The oneOf loop (`/repo/validation.go` 309-316): state is `nbValidated` and
`bestValidationResult`. -/
def oneOfLoop (run : Nat → Id → Exec Result) :
    Nat → List Id → Nat → Option Result → Exec (Nat × Option Result)
  | _, [], nb, best => .ok (nb, best)
  | k, i :: is, nb, best => do
    let r ← run k i
    if r.valid then oneOfLoop run (k + 1) is (nb + 1) best
    else if nb == 0 && better best r then oneOfLoop run (k + 1) is nb (some r)
    else oneOfLoop run (k + 1) is nb best

/-- oneOf (`/repo/validation.go` 304-329).  `mergeErrors(nil)` would panic. -/
def checkOneOf (rec : Rec) (p : Path) (s : Sub) (v : Json) (c : Ctx) : Exec Result :=
  if s.oneOf.length > 0 then do
    let (nb, best) ← oneOfLoop (fun k i => rec (k :: 2 :: p) i v c) 0 s.oneOf 0 none
    if nb != 1 then
      if nb == 0 then
        match best with
        | some b => return addErr .numberOneOf c v ++ b
        | none => throw .panic
      else return addErr .numberOneOf c v
    else return {}
  else return {}

/-- The allOf loop (`/repo/validation.go` 334-340): number of validated branches and the
merged errors. -/
def allOfLoop (run : Nat → Id → Exec Result) :
    Nat → List Id → Exec (Nat × Result)
  | _, [] => .ok (0, {})
  | k, i :: is => do
    let r ← run k i
    let (nb, rs) ← allOfLoop run (k + 1) is
    return ((if r.valid then nb + 1 else nb), r ++ rs)

/-- allOf (`/repo/validation.go` 331-345). -/
def checkAllOf (rec : Rec) (p : Path) (s : Sub) (v : Json) (c : Ctx) : Exec Result :=
  if s.allOf.length > 0 then do
    let (nb, rs) ← allOfLoop (fun k i => rec (k :: 3 :: p) i v c) 0 s.allOf
    if nb != s.allOf.length then return rs ++ addErr .numberAllOf c v
    else return rs
  else return {}

/-- not (`/repo/validation.go` 347-352). -/
def checkNot (rec : Rec) (p : Path) (s : Sub) (v : Json) (c : Ctx) : Exec Result :=
  match s.not with
  | some i => do
    let r ← rec (4 :: p) i v c
    if r.valid then return addErr .numberNot c v else return {}
  | none => return {}

/-- One dependency (`/repo/validation.go` 357-375). -/
def checkDependency (rec : Rec) (p : Path) (s : Sub) (kvs : List (String × Json)) (c : Ctx)
    (key : String) : Exec Result :=
  match getKey key s.dependencies with
  | some (.keys ks) =>
    forEach (fun _ dk =>
      if existsMapKey kvs dk then return {}
      else return addErr (.missingDependency dk) c (.obj kvs)) 0 ks
  | some (.schema i) => rec (6 :: p) i (.obj kvs) c
  | none => return {}

/-- dependencies (`/repo/validation.go` 354-378).  `isKind` dereferences the result of
`mustBeNumber` and so panics on numbers that `big.Rat` rejects (`/repo/utils.go` 34-47). -/
def checkDependencies (env : Env) (σ : Sched) (rec : Rec) (p : Path) (s : Sub) (v : Json)
    (c : Ctx) : Exec Result :=
  if s.dependencies.length > 0 then
    match v with
    | .obj kvs =>
      forEach (fun k kv => checkDependency rec (k :: 5 :: p) s kvs c kv.1) 0 (σ.order (5 :: p) kvs)
    | .num n => if env.ratOk n then return {} else throw .panic
    | _ => return {}
  else return {}

/-- One conditional branch (`/repo/validation.go` 382-388 and 389-395): `on` is the guard,
`kind` the error. -/
def checkBranch (rec : Rec) (p : Path) (o : Option Id) (on : Bool) (kind : ErrKind) (v : Json)
    (c : Ctx) : Exec Result :=
  match o with
  | some t =>
    if on then do
      let rt ← rec p t v c
      if !rt.valid then return addErr kind c v ++ rt else return {}
    else return {}
  | none => return {}

/-- if/then/else (`/repo/validation.go` 380-396). -/
def checkIf (rec : Rec) (p : Path) (s : Sub) (v : Json) (c : Ctx) : Exec Result :=
  match s.if_ with
  | none => return {}
  | some i => do
    let r ← rec (7 :: p) i v c
    let a ← checkBranch rec (8 :: p) s.then_ r.valid .conditionThen v c
    let b ← checkBranch rec (9 :: p) s.else_ (!r.valid) .conditionElse v c
    return a ++ b

/-- `validateSchema` (`/repo/validation.go` 270-399). -/
def validateSchema (env : Env) (σ : Sched) (rec : Rec) (p : Path) (s : Sub) (v : Json) (c : Ctx) :
    Exec Result := do
  let r1 ← checkAnyOf rec p s v c
  let r2 ← checkOneOf rec p s v c
  let r3 ← checkAllOf rec p s v c
  let r4 ← checkNot rec p s v c
  let r5 ← checkDependencies env σ rec p s v c
  let r6 ← checkIf rec p s v c
  return r1 ++ r2 ++ r3 ++ r4 ++ r5 ++ r6 ++ tick

/-- const (`/repo/validation.go` 408-423).  When serialisation fails, line 412 records an
internal error and line 414 dereferences a nil pointer. -/
def checkConst (env : Env) (s : Sub) (v : Json) (c : Ctx) : Exec Result :=
  match s.const with
  | none => return {}
  | some k =>
    match env.marshal v with
    | none => throw .panic
    | some t => if t != k then return addErr (.const k) c v else return {}

/-- enum (`/repo/validation.go` 425-441), same panic as const. -/
def checkEnum (env : Env) (s : Sub) (v : Json) (c : Ctx) : Exec Result :=
  if s.enum.length > 0 then
    match env.marshal v with
    | none => throw .panic
    | some t =>
      if !s.enum.contains t then return addErr (.enum (String.intercalate ", " s.enum)) c v
      else return {}
  else return {}

/-- format (`/repo/validation.go` 443-453). -/
def checkFormat (env : Env) (s : Sub) (v : Json) (c : Ctx) : Exec Result :=
  if s.format != "" then
    if !env.isFormat s.format v then return addErr (.format s.format) c v else return {}
  else return {}

/-- `validateCommon` (`/repo/validation.go` 401-456). -/
def validateCommon (env : Env) (s : Sub) (v : Json) (c : Ctx) : Exec Result := do
  let r1 ← checkConst env s v c
  let r2 ← checkEnum env s v c
  let r3 ← checkFormat env s v c
  return r1 ++ r2 ++ r3 ++ tick

/-- additionalItems (`/repo/validation.go` 486-503). -/
def checkAdditionalItems (rec : Rec) (p : Path) (s : Sub) (xs : List Json) (c : Ctx) : Exec Result :=
  let nbItems := s.itemsChildren.length
  if nbItems < xs.length then
    match s.additionalItems with
    | .bool b => if !b then return addErr .arrayNoAdditionalItems c (.arr xs) else return {}
    | .schema i =>
      forEach (fun k x => rec (k :: 11 :: p) i x (toString k :: c)) nbItems (xs.drop nbItems)
    | .absent => return {}
  else return {}

/-- items and additionalItems (`/repo/validation.go` 467-505).  `itemsChildren[0]` of an
empty slice would panic. -/
def checkItems (rec : Rec) (p : Path) (s : Sub) (xs : List Json) (c : Ctx) : Exec Result :=
  if s.itemsChildrenIsSingleSchema then
    forEach (fun k x =>
      match s.itemsChildren with
      | i :: _ => rec (k :: 10 :: p) i x (toString k :: c)
      | [] => throw .panic) 0 xs
  else if s.itemsChildren.length > 0 then do
    let r1 ← forEach (fun k (ix : Id × Json) => rec (k :: 10 :: p) ix.1 ix.2 (toString k :: c)) 0
      (s.itemsChildren.zip xs)
    let r2 ← checkAdditionalItems rec p s xs c
    return r1 ++ r2
  else return {}

/-- A pair of inclusive size bounds: first the lower, then the upper one
(`/repo/validation.go` 507-527, 591-611, 726-746). -/
def sizeCheck (mn mx : Option Int) (n : Nat) (kMin kMax : Int → ErrKind) (c : Ctx) (v : Json) : Result :=
  (match mn with
   | some m => if (n : Int) < m then addErr (kMin m) c v else {}
   | none => {}) ++
  (match mx with
   | some m => if (n : Int) > m then addErr (kMax m) c v else {}
   | none => {})

/-- minItems and maxItems (`/repo/validation.go` 507-527). -/
def checkItemCount (s : Sub) (xs : List Json) (c : Ctx) : Result :=
  sizeCheck s.minItems s.maxItems xs.length .arrayMinItems .arrayMaxItems c (.arr xs)

/-- The duplicate test of uniqueItems (`/repo/validation.go` 537-544). -/
def dupError (seen : List (String × Nat)) (t : String) (j : Nat) (c : Ctx) (v : Json) : Result :=
  match seen.lookup t with
  | some i => addErr (.unique i j) c v
  | none => {}

/-- The uniqueItems loop (`/repo/validation.go` 531-546): `seen` is `stringifiedItems`, most
recent entry first (so that `lookup` finds the latest assignment); `j` is the index.
A nil `vString` is dereferenced at line 537. -/
def uniqueLoop (env : Env) (all : List Json) (c : Ctx) :
    List (String × Nat) → Nat → List Json → Exec Result
  | _, _, [] => .ok {}
  | seen, j, x :: xs =>
    match env.marshal x with
    | none => throw .panic
    | some t => do
      let rs ← uniqueLoop env all c ((t, j) :: seen) (j + 1) xs
      return dupError seen t j c (.arr all) ++ rs

/-- uniqueItems (`/repo/validation.go` 529-547). -/
def checkUnique (env : Env) (s : Sub) (xs : List Json) (c : Ctx) : Exec Result :=
  if s.uniqueItems then uniqueLoop env xs c [] 0 xs else return {}

/-- The contains loop (`/repo/validation.go` 555-567): `validatedOne`, `bestValidationResult`. -/
def containsLoop (run : Nat → Json → Exec Result) :
    Nat → List Json → Option Result → Exec (Bool × Option Result)
  | _, [], best => .ok (false, best)
  | k, x :: xs, best => do
    let r ← run k x
    if r.valid then return (true, best)
    else containsLoop run (k + 1) xs (if better best r then some r else best)

/-- contains (`/repo/validation.go` 549-579). -/
def checkContains (rec : Rec) (p : Path) (s : Sub) (xs : List Json) (c : Ctx) : Exec Result :=
  match s.contains with
  | none => return {}
  | some i => do
    let (one, best) ← containsLoop (fun k x => rec (k :: 12 :: p) i x (toString k :: c)) 0 xs none
    if !one then
      match best with
      | some b => return addErr .contains c (.arr xs) ++ b
      | none => return addErr .contains c (.arr xs)
    else return {}

/-- `validateArray` (`/repo/validation.go` 458-582). -/
def validateArray (env : Env) (rec : Rec) (p : Path) (s : Sub) (xs : List Json) (c : Ctx) :
    Exec Result := do
  let r1 ← checkItems rec p s xs c
  let r2 := checkItemCount s xs c
  let r3 ← checkUnique env s xs c
  let r4 ← checkContains rec p s xs c
  return r1 ++ r2 ++ r3 ++ r4 ++ tick

/-- minProperties and maxProperties (`/repo/validation.go` 591-611). -/
def checkPropCount (s : Sub) (kvs : List (String × Json)) (c : Ctx) : Result :=
  sizeCheck s.minProperties s.maxProperties kvs.length .arrayMinProperties .arrayMaxProperties c (.obj kvs)

/-- required (`/repo/validation.go` 613-626). -/
def checkRequired (kvs : List (String × Json)) (c : Ctx) : List String → Result
  | [] => {}
  | q :: qs =>
    (if existsMapKey kvs q then tick else addErr (.required q) c (.obj kvs)) ++ checkRequired kvs c qs

/-- One iteration of `validatePatternProperty` (`/repo/validation.go` 691-696). -/
def patternOne (env : Env) (rec : Rec) (p : Path) (key : String) (value : Json) (c : Ctx)
    (pat : String) (i : Id) : Exec (Bool × Result) :=
  if env.reMatch pat key then do
    let r ← rec p i value (key :: c)
    return (true, r)
  else return (false, {})

/-- The loop of `validatePatternProperty` (`/repo/validation.go` 688-697): whether a pattern
matched, and the merged errors. -/
def patternLoop (env : Env) (rec : Rec) (p : Path) (key : String) (value : Json) (c : Ctx) :
    Nat → List (String × Id) → Exec (Bool × Result)
  | _, [] => .ok (false, {})
  | k, (pat, i) :: rest => do
    let r ← patternOne env rec (k :: 15 :: p) key value c pat i
    let rs ← patternLoop env rec p key value c (k + 1) rest
    return (r.1 || rs.1, r.2 ++ rs.2)

/-- `validatePatternProperty` (`/repo/validation.go` 681-705). -/
def validatePatternProperty (env : Env) (σ : Sched) (rec : Rec) (p : Path) (s : Sub) (key : String)
    (value : Json) (c : Ctx) : Exec (Bool × Result) := do
  let (validated, r) ← patternLoop env rec p key value c 0 (σ.order (14 :: p) s.patternProperties)
  if !validated then return (false, r) else return (true, r ++ tick)

/-- One iteration of the additionalProperties/patternProperties loop
(`/repo/validation.go` 629-661). -/
def checkProperty (env : Env) (σ : Sched) (rec : Rec) (p : Path) (s : Sub) (key : String)
    (value : Json) (c : Ctx) : Exec Result := do
  let found := s.propertiesChildren.any (fun q => key == q.1)
  let (ppMatch, r) ← validatePatternProperty env σ rec p s key value c
  if !found && !ppMatch then
    match s.additionalProperties with
    | .bool b =>
      if !b then return r ++ addErr (.additionalPropertyNotAllowed key) c value else return r
    | .schema i => do
      let r' ← rec (16 :: p) i value (key :: c)
      return r ++ r'
    | .absent => return r
  else return r

/-- propertyNames (`/repo/validation.go` 663-676). -/
def checkPropertyNames (σ : Sched) (rec : Rec) (p : Path) (s : Sub) (kvs : List (String × Json))
    (c : Ctx) : Exec Result :=
  match s.propertyNames with
  | none => return {}
  | some i =>
    forEach (fun k (kv : String × Json) => do
      let r ← rec (k :: 18 :: p) i (.str kv.1) c
      if !r.valid then return addErr (.invalidPropertyName kv.1) c (.obj kvs) ++ r else return {})
      0 (σ.order (17 :: p) kvs)

/-- `validateObject` (`/repo/validation.go` 584-679). -/
def validateObject (env : Env) (σ : Sched) (rec : Rec) (p : Path) (s : Sub)
    (kvs : List (String × Json)) (c : Ctx) : Exec Result := do
  let r1 := checkPropCount s kvs c
  let r2 := checkRequired kvs c s.required
  let r3 ← forEach (fun k (kv : String × Json) => checkProperty env σ rec (k :: 13 :: p) s kv.1 kv.2 c)
    0 (σ.order (13 :: p) kvs)
  let r4 ← checkPropertyNames σ rec p s kvs c
  return r1 ++ r2 ++ r3 ++ r4 ++ tick

/-- The `properties` loop (`/repo/validation.go` 206-212). -/
def checkProperties (rec : Rec) (p : Path) (s : Sub) (kvs : List (String × Json)) (c : Ctx) :
    Exec Result :=
  forEach (fun k (q : String × Id) =>
    match getKey q.1 kvs with
    | some x => rec (k :: 19 :: p) q.2 x (q.1 :: c)
    | none => return {}) 0 s.propertiesChildren

/-- pattern (`/repo/validation.go` 748-759). -/
def checkPattern (env : Env) (s : Sub) (t : String) (c : Ctx) (v : Json) : Result :=
  match s.pattern with
  | some q => if !env.reMatch q t then addErr (.pattern q) c v else {}
  | none => {}

/-- `validateString` (`/repo/validation.go` 707-762): ignores everything but strings. -/
def validateString (env : Env) (s : Sub) (v : Json) (c : Ctx) : Result :=
  match v with
  | .str t =>
    sizeCheck s.minLength s.maxLength t.length .stringGTE .stringLTE c v ++
    checkPattern env s t c v ++ tick
  | _ => {}

/-- `float64Value.Cmp(bound)` fails the test `bad`; a nil receiver panics. -/
def boundCheck (x : Option Rat) (bound : Option Rat) (bad : Rat → Rat → Bool)
    (kind : Rat → ErrKind) (c : Ctx) (v : Json) : Exec Result :=
  match bound with
  | none => return {}
  | some b =>
    match x with
    | none => throw .panic
    | some q => if bad q b then return addErr (kind b) c v else return {}

/-- multipleOf (`/repo/validation.go` 779-791): `Quo` panics on a zero divisor or a nil
operand. -/
def checkMultipleOf (x : Option Rat) (m : Option Rat) (c : Ctx) (v : Json) : Exec Result :=
  match m with
  | none => return {}
  | some b =>
    match x with
    | none => throw .panic
    | some q =>
      if b == 0 then throw .panic
      else if (q / b).den != 1 then return addErr (.multipleOf b) c v else return {}

/-- `validateNumber` (`/repo/validation.go` 764-846): ignores everything but numbers. -/
def validateNumber (env : Env) (s : Sub) (v : Json) (c : Ctx) : Exec Result :=
  match v with
  | .num n => do
    let x := env.rat n
    let r1 ← checkMultipleOf x s.multipleOf c v
    let r2 ← boundCheck x s.maximum (fun a b => decide (a > b)) .numberLTE c v
    let r3 ← boundCheck x s.exclusiveMaximum (fun a b => decide (a ≥ b)) .numberLT c v
    let r4 ← boundCheck x s.minimum (fun a b => decide (a < b)) .numberGTE c v
    let r5 ← boundCheck x s.exclusiveMinimum (fun a b => decide (a ≤ b)) .numberGT c v
    return r1 ++ r2 ++ r3 ++ r4 ++ r5 ++ tick
  | _ => return {}

/-- The type test of `validateRecursive`, one case per dynamic type of the node
(`/repo/validation.go` 98-110, 121-142, 160-171, 183-194, 218-229, 240-251): the type name
given in the error, if the test fails. -/
def typeError (env : Env) (ts : List String) (v : Json) : Option String :=
  let fail (t : String) : Option String :=
    if isTyped ts && !typesContain ts t then some t else none
  match v with
  | .null => fail TYPE_NULL
  | .bool _ => fail TYPE_BOOLEAN
  | .str _ => fail TYPE_STRING
  | .arr _ => fail TYPE_ARRAY
  | .obj _ => fail TYPE_OBJECT
  | .num n =>
    let isInt := env.checkInteger n
    let validType := typesContain ts TYPE_NUMBER || (isInt && typesContain ts TYPE_INTEGER)
    if isTyped ts && !validType then some (if isInt then TYPE_INTEGER else TYPE_NUMBER) else none

/-- The keyword checks of `validateRecursive` after the type test
(`/repo/validation.go` 112-113, 144-147, 175-178, 201-212, 233-236, 255-258). -/
def validateNode (env : Env) (σ : Sched) (rec : Rec) (p : Path) (s : Sub) (v : Json) (c : Ctx) :
    Exec Result := do
  let r1 ← validateSchema env σ rec p s v c
  match v with
  | .null => do
    let r2 ← validateCommon env s v c
    return r1 ++ r2
  | .arr xs => do
    let r2 ← validateArray env rec p s xs c
    let r3 ← validateCommon env s v c
    return r1 ++ r2 ++ r3
  | .obj kvs => do
    let r2 ← validateObject env σ rec p s kvs c
    let r3 ← validateCommon env s v c
    let r4 ← checkProperties rec p s kvs c
    return r1 ++ r2 ++ r3 ++ r4
  | v => do
    let r2 ← validateNumber env s v c
    let r3 ← validateCommon env s v c
    let r4 := validateString env s v c
    return r1 ++ r2 ++ r3 ++ r4

/-- One level of `validateRecursive` (`/repo/validation.go` 71-267) with `rec` for the nested
calls.  A dangling pointer panics. -/
def validateStep (env : Env) (σ : Sched) (h : Heap) (rec : Rec) (p : Path) (i : Id) (v : Json)
    (c : Ctx) : Exec Result :=
  match h[i]? with
  | none => throw .panic
  | some s =>
    match s.pass with
    | some b => if !b then return addErr .false_ c v else return {}
    | none =>
      match s.refSchema with
      | some j => rec (20 :: p) j v c
      | none =>
        match typeError env s.types v with
        | some given => return addErr (.invalidType (typesString s.types) given) c v
        | none => do
          let r ← validateNode env σ rec p s v c
          return r ++ tick

/-- `validateRecursive` (`/repo/validation.go` 71-267) with at most `fuel` nested calls.
`subValidateWithContext` (lines 64-68) is the same function started on an empty result. -/
def validateRecursive (env : Env) (σ : Sched) (h : Heap) : Nat → Rec
  | 0 => fun _ _ _ _ => throw .fuel
  | n + 1 => fun p i v c => validateStep env σ h (validateRecursive env σ h n) p i v c

/-- `STRING_CONTEXT_ROOT` (`/repo/locales.go` 470). -/
def rootCtx : Ctx := ["(root)"]

/-- `Schema.validateDocument` (`/repo/validation.go` 57-62) on the schema whose root is node
`root` of the heap. -/
def validateDocument (env : Env) (σ : Sched) (h : Heap) (fuel : Nat) (root : Id) (v : Json) :
    Exec Result :=
  validateRecursive env σ h fuel [] root v rootCtx

end GJS

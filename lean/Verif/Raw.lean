import Verif.Validate
/-
Instances that are Go values (`NewRawLoader`, `/repo/jsonLoader.go` 360-387) instead of decoded
JSON: the parts of `/repo/validation.go` and `/repo/utils.go` that look at the dynamic type of a
node.  The functions of `Validate` are the special case of JSON values (`Verif.PropRaw`).
-/
namespace GJS

/-- `reflect.Kind`s that `validateRecursive` distinguishes (`/repo/validation.go` 154-260). -/
inductive GoKind where
  | slice
  | map
  | bool
  | string
  /-- any other kind: integers, floats, structs, pointers, functions, ... -/
  | other
deriving DecidableEq, Repr

/-- Go values.  Nil slices and maps are the empty ones. -/
inductive GoVal where
  /-- the nil interface -/
  | nil
  | bool (b : Bool)
  /-- `json.Number`.  Simplification: its text is a JSON number. -/
  | num (n : NumLit)
  | str (s : String)
  /-- `[]interface{}` -/
  | arr (xs : List GoVal)
  /-- `map[string]interface{}` -/
  | obj (kvs : List (String × GoVal))
  /-- `map[interface{}]interface{}`; a key is a string or something else -/
  | imap (kvs : List (Option String × GoVal))
  /-- a value of any other type: its kind, and which value it is -/
  | opaque (k : GoKind) (id : Nat)
deriving Repr, Inhabited

mutual
/-- The JSON value with the same structure, if there is one: no values of other types, all keys
strings. -/
def GoVal.json : GoVal → Option Json
  | .nil => some .null
  | .bool b => some (.bool b)
  | .num n => some (.num n)
  | .str s => some (.str s)
  | .arr xs => (jsonL xs).map .arr
  | .obj kvs => (jsonKV kvs).map .obj
  | .imap kvs => (jsonIV kvs).map .obj
  | .opaque _ _ => none
def GoVal.jsonL : List GoVal → Option (List Json)
  | [] => some []
  | x :: xs => do
    let c ← GoVal.json x
    let cs ← GoVal.jsonL xs
    some (c :: cs)
def GoVal.jsonKV : List (String × GoVal) → Option (List (String × Json))
  | [] => some []
  | (k, x) :: xs => do
    let c ← GoVal.json x
    let cs ← GoVal.jsonKV xs
    some ((k, c) :: cs)
def GoVal.jsonIV : List (Option String × GoVal) → Option (List (String × Json))
  | [] => some []
  | (k, x) :: xs => do
    let k ← k
    let c ← GoVal.json x
    let cs ← GoVal.jsonIV xs
    some ((k, c) :: cs)
end

/-- What the model records as the value of an error.  Simplification: values without JSON
counterpart are recorded as `null`. -/
def GoVal.view (g : GoVal) : Json := g.json.getD .null

/-- The environment, with what is outside about Go values. -/
structure RawEnv extends Env where
  /-- the document that marshalling a value of another type and decoding it gives -/
  goCanon : Nat → Option Canon
  /-- `FormatCheckers.IsFormat` on a Go value -/
  goFormat : String → GoVal → Bool

mutual
/-- `json.Marshal` and `json.Unmarshal` (`/repo/utils.go` 90-101).  `encoding/json` refuses
`map[interface{}]interface{}`, empty or not. -/
def rawCanon (env : RawEnv) : GoVal → Option Canon
  | .nil => some .null
  | .bool b => some (.bool b)
  | .num n => (n.toF64).map .num
  | .str s => some (.str s)
  | .arr xs => (rawCanonL env xs).map .arr
  | .obj kvs => (rawCanonKV env kvs).map fun l => .obj (l.mergeSort keyLE)
  | .imap _ => none
  | .opaque _ i => env.goCanon i
def rawCanonL (env : RawEnv) : List GoVal → Option (List Canon)
  | [] => some []
  | x :: xs => do
    let c ← rawCanon env x
    let cs ← rawCanonL env xs
    some (c :: cs)
def rawCanonKV (env : RawEnv) : List (String × GoVal) → Option (List (String × Canon))
  | [] => some []
  | (k, x) :: xs => do
    let c ← rawCanon env x
    let cs ← rawCanonKV env xs
    some ((k, c) :: cs)
end

/-- `marshalWithoutNumber` (`/repo/utils.go` 84-104). -/
def RawEnv.rawMarshal (env : RawEnv) (g : GoVal) : Option String :=
  (rawCanon env g).map fun c => String.ofList (enc env.fmtF64 c)

mutual
/-- `convertDocumentNode` (`/repo/utils.go` 171-197): descends through `[]interface{}` and
`map[interface{}]interface{}` only; `k.(string)` panics on other keys. -/
def convertDocumentNode : GoVal → Exec GoVal
  | .arr xs => do
    let ys ← convertL xs
    return .arr ys
  | .imap kvs => do
    let l ← convertIV kvs
    return .obj l
  | v => return v
def convertL : List GoVal → Exec (List GoVal)
  | [] => .ok []
  | x :: xs => do
    let y ← convertDocumentNode x
    let ys ← convertL xs
    return y :: ys
def convertIV : List (Option String × GoVal) → Exec (List (String × GoVal))
  | [] => .ok []
  | (k, x) :: xs =>
    match k with
    | none => throw .panic
    | some k => do
      let y ← convertDocumentNode x
      let ys ← convertIV xs
      return (k, y) :: ys
end

/-- The recursive call as seen by the functions it calls. -/
abbrev RawRec := Path → Id → GoVal → Ctx → Exec Result

/-- A recursive call on the same node, for the functions of `Validate` that apply sub-schemas in
place. -/
def RawRec.here (rec : RawRec) (g : GoVal) : Rec := fun p i _ c => rec p i g c

/-- dependencies (`/repo/validation.go` 354-378). -/
def rawDependencies (env : RawEnv) (σ : Sched) (rec : RawRec) (p : Path) (s : Sub) (g : GoVal) (c : Ctx) : Exec Result :=
  if s.dependencies.length > 0 then
    match g with
    | .obj kvs =>
      forEach (fun k (kv : String × GoVal) =>
        match getKey kv.1 s.dependencies with
        | some (.keys ks) =>
          forEach (fun _ dk => if existsMapKey kvs dk then return {} else return addErr (.missingDependency dk) c g.view) 0 ks
        | some (.schema i) => rec (6 :: k :: 5 :: p) i g c
        | none => return {}) 0 (σ.order (5 :: p) kvs)
    | .num n => if env.ratOk n then return {} else throw .panic
    | _ => return {}
  else return {}

/-- `validateSchema` (`/repo/validation.go` 270-399). -/
def rawSchema (env : RawEnv) (σ : Sched) (rec : RawRec) (p : Path) (s : Sub) (g : GoVal) (c : Ctx) : Exec Result := do
  let r1 ← checkAnyOf (rec.here g) p s g.view c
  let r2 ← checkOneOf (rec.here g) p s g.view c
  let r3 ← checkAllOf (rec.here g) p s g.view c
  let r4 ← checkNot (rec.here g) p s g.view c
  let r5 ← rawDependencies env σ rec p s g c
  let r6 ← checkIf (rec.here g) p s g.view c
  return r1 ++ r2 ++ r3 ++ r4 ++ r5 ++ r6 ++ tick

/-- const (`/repo/validation.go` 408-423). -/
def rawConst (env : RawEnv) (s : Sub) (g : GoVal) (c : Ctx) : Exec Result :=
  match s.const with
  | none => return {}
  | some k =>
    match env.rawMarshal g with
    | none => throw .panic
    | some t => if t != k then return addErr (.const k) c g.view else return {}

/-- enum (`/repo/validation.go` 425-441). -/
def rawEnum (env : RawEnv) (s : Sub) (g : GoVal) (c : Ctx) : Exec Result :=
  if s.enum.length > 0 then
    match env.rawMarshal g with
    | none => throw .panic
    | some t =>
      if !s.enum.contains t then return addErr (.enum (String.intercalate ", " s.enum)) c g.view
      else return {}
  else return {}

/-- format (`/repo/validation.go` 443-453). -/
def rawFormat (env : RawEnv) (s : Sub) (g : GoVal) (c : Ctx) : Exec Result :=
  if s.format != "" then
    if !env.goFormat s.format g then return addErr (.format s.format) c g.view else return {}
  else return {}

/-- `validateCommon` (`/repo/validation.go` 401-456). -/
def rawCommon (env : RawEnv) (s : Sub) (g : GoVal) (c : Ctx) : Exec Result := do
  let r1 ← rawConst env s g c
  let r2 ← rawEnum env s g c
  let r3 ← rawFormat env s g c
  return r1 ++ r2 ++ r3 ++ tick

/-- additionalItems (`/repo/validation.go` 486-503). -/
def rawAdditionalItems (rec : RawRec) (p : Path) (s : Sub) (xs : List GoVal) (v : Json) (c : Ctx) : Exec Result :=
  let nbItems := s.itemsChildren.length
  if nbItems < xs.length then
    match s.additionalItems with
    | .bool b => if !b then return addErr .arrayNoAdditionalItems c v else return {}
    | .schema i =>
      forEach (fun k x => rec (k :: 11 :: p) i x (toString k :: c)) nbItems (xs.drop nbItems)
    | .absent => return {}
  else return {}

/-- items and additionalItems (`/repo/validation.go` 467-505). -/
def rawItems (rec : RawRec) (p : Path) (s : Sub) (xs : List GoVal) (v : Json) (c : Ctx) : Exec Result :=
  if s.itemsChildrenIsSingleSchema then
    forEach (fun k x =>
      match s.itemsChildren with
      | i :: _ => rec (k :: 10 :: p) i x (toString k :: c)
      | [] => throw .panic) 0 xs
  else if s.itemsChildren.length > 0 then do
    let r1 ← forEach (fun k (ix : Id × GoVal) => rec (k :: 10 :: p) ix.1 ix.2 (toString k :: c)) 0
      (s.itemsChildren.zip xs)
    let r2 ← rawAdditionalItems rec p s xs v c
    return r1 ++ r2
  else return {}

/-- The uniqueItems loop (`/repo/validation.go` 531-546). -/
def rawUniqueLoop (env : RawEnv) (v : Json) (c : Ctx) :
    List (String × Nat) → Nat → List GoVal → Exec Result
  | _, _, [] => .ok {}
  | seen, j, x :: xs =>
    match env.rawMarshal x with
    | none => throw .panic
    | some t => do
      let rs ← rawUniqueLoop env v c ((t, j) :: seen) (j + 1) xs
      return dupError seen t j c v ++ rs

/-- uniqueItems (`/repo/validation.go` 529-547). -/
def rawUnique (env : RawEnv) (s : Sub) (xs : List GoVal) (v : Json) (c : Ctx) : Exec Result :=
  if s.uniqueItems then rawUniqueLoop env v c [] 0 xs else return {}

/-- The contains loop (`/repo/validation.go` 555-567). -/
def rawContainsLoop (run : Nat → GoVal → Exec Result) :
    Nat → List GoVal → Option Result → Exec (Bool × Option Result)
  | _, [], best => .ok (false, best)
  | k, x :: xs, best => do
    let r ← run k x
    if r.valid then return (true, best)
    else rawContainsLoop run (k + 1) xs (if better best r then some r else best)

/-- contains (`/repo/validation.go` 549-579). -/
def rawContains (rec : RawRec) (p : Path) (s : Sub) (xs : List GoVal) (v : Json) (c : Ctx) : Exec Result :=
  match s.contains with
  | none => return {}
  | some i => do
    let (one, best) ← rawContainsLoop (fun k x => rec (k :: 12 :: p) i x (toString k :: c)) 0 xs none
    if !one then
      match best with
      | some b => return addErr .contains c v ++ b
      | none => return addErr .contains c v
    else return {}

/-- `validateArray` (`/repo/validation.go` 458-582). -/
def rawArray (env : RawEnv) (rec : RawRec) (p : Path) (s : Sub) (xs : List GoVal) (c : Ctx) : Exec Result := do
  let v := (GoVal.arr xs).view
  let r1 ← rawItems rec p s xs v c
  let r2 := sizeCheck s.minItems s.maxItems xs.length .arrayMinItems .arrayMaxItems c v
  let r3 ← rawUnique env s xs v c
  let r4 ← rawContains rec p s xs v c
  return r1 ++ r2 ++ r3 ++ r4 ++ tick

/-- required (`/repo/validation.go` 613-626). -/
def rawRequired (kvs : List (String × GoVal)) (v : Json) (c : Ctx) : List String → Result
  | [] => {}
  | q :: qs =>
    (if existsMapKey kvs q then tick else addErr (.required q) c v) ++ rawRequired kvs v c qs

/-- One iteration of `validatePatternProperty` (`/repo/validation.go` 691-696). -/
def rawPatternOne (env : RawEnv) (rec : RawRec) (p : Path) (key : String) (value : GoVal) (c : Ctx)
    (pat : String) (i : Id) : Exec (Bool × Result) :=
  if env.reMatch pat key then do
    let r ← rec p i value (key :: c)
    return (true, r)
  else return (false, {})

/-- The loop of `validatePatternProperty` (`/repo/validation.go` 688-697). -/
def rawPatternLoop (env : RawEnv) (rec : RawRec) (p : Path) (key : String) (value : GoVal) (c : Ctx) :
    Nat → List (String × Id) → Exec (Bool × Result)
  | _, [] => .ok (false, {})
  | k, (pat, i) :: rest => do
    let r ← rawPatternOne env rec (k :: 15 :: p) key value c pat i
    let rs ← rawPatternLoop env rec p key value c (k + 1) rest
    return (r.1 || rs.1, r.2 ++ rs.2)

/-- `validatePatternProperty` (`/repo/validation.go` 681-705). -/
def rawPatternProperty (env : RawEnv) (σ : Sched) (rec : RawRec) (p : Path) (s : Sub) (key : String)
    (value : GoVal) (c : Ctx) : Exec (Bool × Result) := do
  let (validated, r) ← rawPatternLoop env rec p key value c 0 (σ.order (14 :: p) s.patternProperties)
  if !validated then return (false, r) else return (true, r ++ tick)

/-- One iteration of the additionalProperties/patternProperties loop
(`/repo/validation.go` 629-661). -/
def rawProperty (env : RawEnv) (σ : Sched) (rec : RawRec) (p : Path) (s : Sub) (key : String)
    (value : GoVal) (c : Ctx) : Exec Result := do
  let found := s.propertiesChildren.any (fun q => key == q.1)
  let (ppMatch, r) ← rawPatternProperty env σ rec p s key value c
  if !found && !ppMatch then
    match s.additionalProperties with
    | .bool b =>
      if !b then return r ++ addErr (.additionalPropertyNotAllowed key) c value.view else return r
    | .schema i => do
      let r' ← rec (16 :: p) i value (key :: c)
      return r ++ r'
    | .absent => return r
  else return r

/-- propertyNames (`/repo/validation.go` 663-676). -/
def rawPropertyNames (σ : Sched) (rec : RawRec) (p : Path) (s : Sub) (kvs : List (String × GoVal)) (v : Json)
    (c : Ctx) : Exec Result :=
  match s.propertyNames with
  | none => return {}
  | some i =>
    forEach (fun k (kv : String × GoVal) => do
      let r ← rec (k :: 18 :: p) i (.str kv.1) c
      if !r.valid then return addErr (.invalidPropertyName kv.1) c v ++ r else return {})
      0 (σ.order (17 :: p) kvs)

/-- `validateObject` (`/repo/validation.go` 584-679). -/
def rawObject (env : RawEnv) (σ : Sched) (rec : RawRec) (p : Path) (s : Sub)
    (kvs : List (String × GoVal)) (c : Ctx) : Exec Result := do
  let v := (GoVal.obj kvs).view
  let r1 := sizeCheck s.minProperties s.maxProperties kvs.length .arrayMinProperties .arrayMaxProperties c v
  let r2 := rawRequired kvs v c s.required
  let r3 ← forEach (fun k (kv : String × GoVal) => rawProperty env σ rec (k :: 13 :: p) s kv.1 kv.2 c)
    0 (σ.order (13 :: p) kvs)
  let r4 ← rawPropertyNames σ rec p s kvs v c
  return r1 ++ r2 ++ r3 ++ r4 ++ tick

/-- The `properties` loop (`/repo/validation.go` 206-212). -/
def rawProperties (rec : RawRec) (p : Path) (s : Sub) (kvs : List (String × GoVal)) (c : Ctx) : Exec Result :=
  forEach (fun k (q : String × Id) =>
    match getKey q.1 kvs with
    | some x => rec (k :: 19 :: p) q.2 x (q.1 :: c)
    | none => return {}) 0 s.propertiesChildren

/-- The type tests of `validateRecursive` (`/repo/validation.go` 98-110, 121-142, 160-171,
183-194, 218-229, 240-251), by dynamic type or kind of the node. -/
def rawTypeError (env : RawEnv) (ts : List String) (g : GoVal) : Option String :=
  let fail (t : String) : Option String :=
    if isTyped ts && !typesContain ts t then some t else none
  match g with
  | .nil => fail TYPE_NULL
  | .num n => typeError env.toEnv ts (.num n)
  | .bool _ | .opaque .bool _ => fail TYPE_BOOLEAN
  | .str _ | .opaque .string _ => fail TYPE_STRING
  | .arr _ | .opaque .slice _ => fail TYPE_ARRAY
  | .obj _ | .imap _ | .opaque .map _ => fail TYPE_OBJECT
  | .opaque .other _ => none

/-- The node after the type assertions of `validateRecursive` (`/repo/validation.go` 173,
196-199, 231, 253): a failed assertion panics; for other kinds the `switch` has no case. -/
def rawCast : GoVal → Exec (Option GoVal)
  | .imap kvs => do
    let g ← convertDocumentNode (.imap kvs)
    return some g
  | .opaque .other _ => return none
  | .opaque _ _ => throw .panic
  | g => return some g

/-- The keyword checks of `validateRecursive` (`/repo/validation.go` 112-113, 144-147, 175-178,
201-212, 233-236, 255-258). -/
def rawNode (env : RawEnv) (σ : Sched) (rec : RawRec) (p : Path) (s : Sub) (g : GoVal) (c : Ctx) : Exec Result := do
  let r1 ← rawSchema env σ rec p s g c
  match g with
  | .nil => do
    let r2 ← rawCommon env s g c
    return r1 ++ r2
  | .arr xs => do
    let r2 ← rawArray env rec p s xs c
    let r3 ← rawCommon env s g c
    return r1 ++ r2 ++ r3
  | .obj kvs => do
    let r2 ← rawObject env σ rec p s kvs c
    let r3 ← rawCommon env s g c
    let r4 ← rawProperties rec p s kvs c
    return r1 ++ r2 ++ r3 ++ r4
  | g => do
    let r2 ← validateNumber env.toEnv s g.view c
    let r3 ← rawCommon env s g c
    let r4 := validateString env.toEnv s g.view c
    return r1 ++ r2 ++ r3 ++ r4

/-- One level of `validateRecursive` (`/repo/validation.go` 71-267). -/
def rawStep (env : RawEnv) (σ : Sched) (h : Heap) (rec : RawRec) (p : Path) (i : Id) (g : GoVal) (c : Ctx) : Exec Result :=
  match h[i]? with
  | none => throw .panic
  | some s =>
    match s.pass with
    | some b => if !b then return addErr .false_ c g.view else return {}
    | none =>
      match s.refSchema with
      | some j => rec (20 :: p) j g c
      | none =>
        match rawTypeError env s.types g with
        | some given => return addErr (.invalidType (typesString s.types) given) c g.view
        | none => do
          match ← rawCast g with
          | none => return tick
          | some g' => do
            let r ← rawNode env σ rec p s g' c
            return r ++ tick

/-- `validateRecursive` (`/repo/validation.go` 71-267) with at most `fuel` nested calls. -/
def rawRecursive (env : RawEnv) (σ : Sched) (h : Heap) : Nat → RawRec
  | 0 => fun _ _ _ _ => throw .fuel
  | n + 1 => fun p i g c => rawStep env σ h (rawRecursive env σ h n) p i g c

/-- `Schema.Validate` on `NewRawLoader(g)` (`/repo/validation.go` 44-62). -/
def rawDocument (env : RawEnv) (σ : Sched) (h : Heap) (fuel : Nat) (root : Id) (g : GoVal) : Exec Result :=
  rawRecursive env σ h fuel [] root g rootCtx

end GJS

import Verif.Pool
/-
The schema compiler, `/repo/schema.go`.

`currentSchema` is built up field by field in the Go code; here every keyword is a function
that returns the value of its field(s), and the node is written once, when all keywords have
been read.  Nothing reads a node that is still being built, except its draft and id, which are
passed as arguments.
-/
namespace GJS

/-- State of a compilation: the sub-schemas allocated so far, the reference pool
(`/repo/schemaReferencePool.go` 32-34) and the loader. -/
structure PState where
  heap : Heap := []
  refs : List (String × Id) := []
  l : LState

/-- Run loader code inside a compilation. -/
def liftL (x : M LState α) : M PState α := fun s =>
  match x s.l with
  | (r, l') => (r, { s with l := l' })

/-- `&subSchema{…}`: `doc` is the document the node is going to be parsed from. -/
def alloc (doc : Json) (draft : Draft) : M PState Id := fun s =>
  (.ok s.heap.length, { s with heap := s.heap ++ [{ doc := doc, draft := draft }] })

/-- Write a node. -/
def setNode (c : Id) (n : Sub) : M PState Unit :=
  M.modify (fun s => { s with heap := s.heap.set c n })

/-- `schemaReferencePool.Get` (`/repo/schemaReferencePool.go` 44-58). -/
def refGet (ref : String) : M PState (Option Id) := do
  let s ← M.get
  return getKey ref s.refs

/-- `schemaReferencePool.Add` (`/repo/schemaReferencePool.go` 60-68). -/
def refAdd (ref : String) (c : Id) : M PState Unit :=
  M.modify (fun s => if existsMapKey s.refs ref then s else { s with refs := s.refs ++ [(ref, c)] })

/-- `mustBeNumber` (`/repo/utils.go` 157-169). -/
def mustBeNumber (env : Env) (v : Json) : Option Rat :=
  match v with
  | .num n => env.rat n
  | _ => none

/-- `mustBeInteger` (`/repo/utils.go` 133-155).  Simplification: `int` is 64 bits wide. -/
def mustBeInteger (env : Env) (v : Json) : Option Int :=
  match v with
  | .num n => if env.checkInteger n then n.int64? else none
  | _ => none

/-- `JSON_TYPES` (`/repo/types.go` 46-54). -/
def jsonTypes : List String := ["array", "boolean", "integer", "number", "null", "object", "string"]

/-- `jsonSchemaType.Add` (`/repo/schemaType.go` 44-57). -/
def addType (ts : List String) (t : String) : M σ (List String) :=
  if !jsonTypes.contains t then M.err (.notAValidType t)
  else if ts.contains t then M.err (.duplicated t)
  else return ts ++ [t]

/-- The recursive call `parseSchema(doc, node)`: execution point, id of the parent, id the node
has before its own id keyword is read, document, draft, node. -/
abbrev PRec := Path → String → String → Json → Draft → Id → M PState Unit

/-- `newSchema := &subSchema{parent: currentSchema}; d.parseSchema(doc, newSchema)`: the draft and
the id are inherited from the parent (`/repo/schema.go` 79-84, 109-111). -/
def child (rec : PRec) (p : Path) (id : String) (draft : Draft) (doc : Json) : M PState Id := do
  let c ← alloc doc draft
  rec p id id doc draft c
  return c

/-- The name of the id keyword (`/repo/schema.go` 113-127). -/
def keyID (draft : Draft) (m : List (String × Json)) : String :=
  if draft == Draft4 then "id"
  else if draft == Hybrid then (if existsMapKey m "id" then "id" else "$id")
  else "$id"

/-- The id of a node (`/repo/schema.go` 128-151). -/
def kwId (w : World) (isRoot : Bool) (pid id0 : String) (draft : Draft) (m : List (String × Json)) :
    M PState String :=
  match getKey (keyID draft m) m with
  | none => return id0
  | some v => do
    let b ← isKind w.env v [.string]
    if !b then M.err (.invalidType "string" (keyID draft m)) else
    match v with
    | .str k =>
      match w.norm k with
      | none => M.err (.badReference k)
      | some r =>
        if isRoot then return r
        else
          match w.inherits pid r with
          | none => M.err (.badReference k)
          | some u => return u
    | _ => return id0

/-- One definition (`/repo/schema.go` 157-174). -/
def kwDefinition (w : World) (rec : PRec) (p : Path) (id : String) (draft : Draft) (dv : Json) :
    M PState Unit := do
  let b ← isKind w.env dv [.map, .bool]
  if b then do
    let _ ← child rec p id draft dv
    return ()
  else M.err (.invalidType "array of schemas" "definitions")

/-- definitions (`/repo/schema.go` 153-186).  The guard lets booleans through, which then fail
the type assertion. -/
def kwDefinitions (w : World) (σ : Sched) (rec : PRec) (p : Path) (id : String) (draft : Draft)
    (m : List (String × Json)) : M PState Unit :=
  match getKey "definitions" m with
  | none => return ()
  | some v => do
    let b ← isKind w.env v [.map, .bool]
    if b then
      match v with
      | .obj kvs => do
        let _ ← mapL (fun k (kv : String × Json) => kwDefinition w rec (k :: 22 :: p) id draft kv.2) 0
          (σ.order (21 :: p) kvs)
        return ()
      | _ => M.fail .panic
    else M.err (.invalidType "array of schemas" "definitions")

/-- title and description (`/repo/schema.go` 188-214). -/
def kwText (w : World) (key : String) (m : List (String × Json)) : M PState Unit :=
  match getKey key m with
  | none => return ()
  | some v => do
    let b ← isKind w.env v [.string]
    if !b then M.err (.invalidType "string" key) else return ()

/-- The `$ref` string (`/repo/schema.go` 216-234). -/
def kwRefText (w : World) (m : List (String × Json)) : M PState (Option String) :=
  match getKey "$ref" m with
  | none => return none
  | some v => do
    let b ← isKind w.env v [.string]
    if !b then M.err (.invalidType "string" "$ref") else
    match v with
    | .str k =>
      match w.norm k with
      | none => M.err (.badReference k)
      | some r => return some r
    | _ => return none

/-- The loop over a type array (`/repo/schema.go` 260-274): a `json.Number` has kind String but
fails the type assertion. -/
def typeLoop : List String → List Json → M PState (List String)
  | ts, [] => return ts
  | ts, v :: vs =>
    if rawKind v != .string then M.err (.invalidType "string/array of strings" "type") else
    match v with
    | .str t => do
      let ts' ← addType ts t
      typeLoop ts' vs
    | _ => M.fail .panic

/-- type (`/repo/schema.go` 249-286). -/
def kwType (w : World) (m : List (String × Json)) : M PState (List String) :=
  match getKey "type" m with
  | none => return []
  | some v => do
    let b ← isKind w.env v [.string]
    if b then
      match v with
      | .str t => addType [] t
      | _ => return []
    else do
      let b ← isKind w.env v [.slice]
      if b then
        match v with
        | .arr vs => typeLoop [] vs
        | _ => M.fail .panic
      else M.err (.invalidType "string/array of strings" "type")

/-- properties (`/repo/schema.go` 288-294, 1010-1031). -/
def kwProperties (w : World) (σ : Sched) (rec : PRec) (p : Path) (id : String) (draft : Draft)
    (m : List (String × Json)) : M PState (List (String × Id)) :=
  match getKey "properties" m with
  | none => return []
  | some v => do
    let b ← isKind w.env v [.map]
    if !b then M.err (.mustBeOfType "properties" "object") else
    match v with
    | .obj kvs =>
      mapL (fun k (kv : String × Json) => do
        let c ← child rec (k :: 26 :: p) id draft kv.2
        return (kv.1, c)) 0 (σ.order (25 :: p) kvs)
    | _ => M.fail .panic

/-- additionalProperties and additionalItems (`/repo/schema.go` 296-316, 422-442). -/
def kwExtra (w : World) (rec : PRec) (p : Path) (id : String) (draft : Draft) (key : String)
    (m : List (String × Json)) : M PState Extra :=
  match getKey key m with
  | none => return .absent
  | some v => do
    let b ← isKind w.env v [.bool]
    if b then
      match v with
      | .bool x => return .bool x
      | _ => M.fail .panic
    else do
      let b ← isKind w.env v [.map]
      if b then do
        let c ← child rec p id draft v
        return .schema c
      else M.err (.invalidType "boolean/valid schema" key)

/-- One pattern property (`/repo/schema.go` 325-337). -/
def kwPattern1 (w : World) (rec : PRec) (p : Path) (id : String) (draft : Draft) (kv : String × Json) :
    M PState (String × Id) :=
  if !w.env.reOk kv.1 then M.err (.regexPattern kv.1) else do
  let c ← child rec p id draft kv.2
  return (kv.1, c)

/-- patternProperties (`/repo/schema.go` 318-349). -/
def kwPatternProperties (w : World) (σ : Sched) (rec : PRec) (p : Path) (id : String) (draft : Draft)
    (m : List (String × Json)) : M PState (List (String × Id)) :=
  match getKey "patternProperties" m with
  | none => return []
  | some v => do
    let b ← isKind w.env v [.map]
    if b then
      match v with
      | .obj kvs => mapL (fun k kv => kwPattern1 w rec (k :: 24 :: p) id draft kv) 0 (σ.order (23 :: p) kvs)
      | _ => M.fail .panic
    else M.err (.invalidType "valid schema" "patternProperties")

/-- A keyword whose value is one schema: propertyNames, not, if, then, else
(`/repo/schema.go` 353-368, 900-912, 917-929, 933-945, 949-961); `active` is the draft guard. -/
def kwSchema (w : World) (rec : PRec) (p : Path) (id : String) (draft : Draft) (active : Bool)
    (key : String) (e : CErr) (m : List (String × Json)) : M PState (Option Id) :=
  match getKey key m with
  | none => return none
  | some v =>
    if active then do
      let b ← isKind w.env v [.map, .bool]
      if b then do
        let c ← child rec p id draft v
        return some c
      else M.err e
    else return none

/-- The loop over a dependency array (`/repo/schema.go` 1052-1064). -/
def depKeys (w : World) : List Json → M PState (List String)
  | [] => return []
  | v :: vs => do
    let b ← isKind w.env v [.string]
    if !b then M.err (.mustBeOfType "dependency" "schema or array of strings") else
    match v with
    | .str t => do
      let ts ← depKeys w vs
      return t :: ts
    | _ => M.fail .panic

/-- The entry registered for a dependency array: none if it is empty, because the assignment is
inside the loop (`/repo/schema.go` 1063). -/
def depEntry (k : String) (ks : List String) : Option (String × Dep) :=
  match ks with
  | [] => none
  | ks => some (k, .keys ks)

/-- One dependency (`/repo/schema.go` 1046-1082). -/
def kwDependency (w : World) (rec : PRec) (p : Path) (id : String) (draft : Draft) (kv : String × Json) :
    M PState (Option (String × Dep)) :=
  match kv.2 with
  | .arr vs => do
    let ks ← depKeys w vs
    return depEntry kv.1 ks
  | .null => M.err (.mustBeOfType "dependency" "schema or array of strings")
  | .num _ => M.err (.mustBeOfType "dependency" "schema or array of strings")
  | .str _ => M.err (.mustBeOfType "dependency" "schema or array of strings")
  | v => do
    let c ← child rec p id draft v
    return some (kv.1, .schema c)

/-- dependencies (`/repo/schema.go` 371-377, 1033-1087). -/
def kwDependencies (w : World) (σ : Sched) (rec : PRec) (p : Path) (id : String) (draft : Draft)
    (m : List (String × Json)) : M PState (List (String × Dep)) :=
  match getKey "dependencies" m with
  | none => return []
  | some v => do
    let b ← isKind w.env v [.map]
    if !b then M.err (.mustBeOfType "dependencies" "object") else
    match v with
    | .obj kvs => do
      let es ← mapL (fun k kv => kwDependency w rec (k :: 28 :: p) id draft kv) 0 (σ.order (27 :: p) kvs)
      return es.filterMap (fun e => e)
    | _ => M.fail .panic

/-- One element of an items array (`/repo/schema.go` 383-399). -/
def kwItem (w : World) (rec : PRec) (p : Path) (id : String) (draft : Draft) (v : Json) : M PState Id := do
  let b ← isKind w.env v [.map, .bool]
  if b then child rec p id draft v
  else M.err (.invalidType "valid schema/array of schemas" "items")

/-- items (`/repo/schema.go` 379-420): `itemsChildren` and `itemsChildrenIsSingleSchema`. -/
def kwItems (w : World) (rec : PRec) (p : Path) (id : String) (draft : Draft)
    (m : List (String × Json)) : M PState (List Id × Bool) :=
  match getKey "items" m with
  | none => return ([], false)
  | some v => do
    let b ← isKind w.env v [.slice]
    if b then
      match v with
      | .arr vs => do
        let cs ← mapL (fun k x => kwItem w rec (k :: 31 :: p) id draft x) 0 vs
        return (cs, false)
      | _ => M.fail .panic
    else do
      let b ← isKind w.env v [.map, .bool]
      if b then do
        let c ← child rec (31 :: p) id draft v
        return ([c], true)
      else M.err (.invalidType "valid schema/array of schemas" "items")

/-- multipleOf (`/repo/schema.go` 446-464). -/
def kwMultipleOf (w : World) (m : List (String × Json)) : M PState (Option Rat) :=
  match getKey "multipleOf" m with
  | none => return none
  | some v =>
    match mustBeNumber w.env v with
    | none => M.err (.invalidType "number" "multipleOf")
    | some q => if q ≤ 0 then M.err (.greaterThanZero "multipleOf") else return some q

/-- minimum and maximum (`/repo/schema.go` 466-475, 537-546). -/
def kwBound (w : World) (key : String) (m : List (String × Json)) : M PState (Option Rat) :=
  match getKey key m with
  | none => return none
  | some v =>
    match mustBeNumber w.env v with
    | none => M.err (.mustBeOfA key "number")
    | some q => return some q

/-- A boolean exclusive bound (`/repo/schema.go` 489-498, 501-510, 560-569, 572-581). -/
def exclusiveBool (xkey key : String) (x : Bool) (bound : Option Rat) : M PState (Option Rat × Option Rat) :=
  match bound with
  | none => M.err (.cannotBeUsedWithout xkey key)
  | some q => if x then return (none, some q) else return (some q, none)

/-- exclusiveMinimum and exclusiveMaximum (`/repo/schema.go` 477-535, 548-606): the inclusive and
the exclusive bound, given the inclusive one read before. -/
def kwExclusive (w : World) (draft : Draft) (xkey key : String) (bound : Option Rat)
    (m : List (String × Json)) : M PState (Option Rat × Option Rat) :=
  match getKey xkey m with
  | none => return (bound, none)
  | some v =>
    if draft == Draft4 then do
      let b ← isKind w.env v [.bool]
      if !b then M.err (.invalidType "boolean" xkey) else
      match v with
      | .bool x => exclusiveBool xkey key x bound
      | _ => M.fail .panic
    else if draft == Hybrid then do
      let b ← isKind w.env v [.bool]
      match b, v with
      | true, .bool x => exclusiveBool xkey key x bound
      | _, .num n => return (bound, w.env.rat n)
      | _, _ => M.err (.invalidType "boolean/number" xkey)
    else
      match v with
      | .num n => return (bound, w.env.rat n)
      | _ => M.err (.invalidType "number" xkey)

/-- A size keyword (`/repo/schema.go` 610-642, 684-716, 756-788). -/
def kwSize (w : World) (key : String) (m : List (String × Json)) : M PState (Option Int) :=
  match getKey key m with
  | none => return none
  | some v =>
    match mustBeInteger w.env v with
    | none => M.err (.mustBeOfAn key "integer")
    | some z => if z < 0 then M.err (.mustBeGTEZero key) else return some z

/-- The comparison of a lower and an upper size (`/repo/schema.go` 644-651, 718-725). -/
def checkOrder (mn mx : Option Int) (e : CErr) : M PState Unit :=
  match mn, mx with
  | some a, some b => if a > b then M.err e else return ()
  | _, _ => return ()

/-- pattern (`/repo/schema.go` 653-669). -/
def kwPattern (w : World) (m : List (String × Json)) : M PState (Option String) :=
  match getKey "pattern" m with
  | none => return none
  | some v => do
    let b ← isKind w.env v [.string]
    if b then
      match v with
      | .str t => if w.env.reOk t then return some t else M.err (.mustBeValidRegex "pattern")
      | _ => M.fail .panic
    else M.err (.mustBeOfA "pattern" "string")

/-- format (`/repo/schema.go` 671-680). -/
def kwFormat (m : List (String × Json)) : M PState String :=
  match getKey "format" m with
  | none => return ""
  | some v =>
    match v with
    | .str t => return t
    | _ => M.err (.mustBeOfType "format" "string")

/-- The loop over a required array (`/repo/schema.go` 730-745). -/
def requiredLoop (w : World) : List String → List Json → M PState (List String)
  | qs, [] => return qs
  | qs, v :: vs => do
    let b ← isKind w.env v [.string]
    if b then
      match v with
      | .str t =>
        if qs.contains t then M.err (.keyItemsMustBeUnique "required")
        else requiredLoop w (qs ++ [t]) vs
      | _ => M.fail .panic
    else M.err (.keyItemsMustBeOfType "required" "string")

/-- required (`/repo/schema.go` 727-752). -/
def kwRequired (w : World) (m : List (String × Json)) : M PState (List String) :=
  match getKey "required" m with
  | none => return []
  | some v => do
    let b ← isKind w.env v [.slice]
    if b then
      match v with
      | .arr vs => requiredLoop w [] vs
      | _ => M.fail .panic
    else M.err (.mustBeOfAn "required" "array")

/-- uniqueItems (`/repo/schema.go` 790-799). -/
def kwUnique (w : World) (m : List (String × Json)) : M PState Bool :=
  match getKey "uniqueItems" m with
  | none => return false
  | some v => do
    let b ← isKind w.env v [.bool]
    if b then
      match v with
      | .bool x => return x
      | _ => M.fail .panic
    else M.err (.mustBeOfA "uniqueItems" "boolean")

/-- contains (`/repo/schema.go` 801-808). -/
def kwContains (rec : PRec) (p : Path) (id : String) (draft : Draft)
    (m : List (String × Json)) : M PState (Option Id) :=
  match getKey "contains" m with
  | none => return none
  | some v =>
    if draft ≥ Draft6 then do
      let c ← child rec p id draft v
      return some c
    else return none

/-- const (`/repo/schema.go` 812-818). -/
def kwConst (w : World) (draft : Draft) (m : List (String × Json)) : M PState (Option String) :=
  match getKey "const" m with
  | none => return none
  | some v =>
    if draft ≥ Draft6 then
      match w.env.marshal v with
      | none => M.err .marshal
      | some t => return some t
    else return none

/-- The loop over an enum array (`/repo/schema.go` 822-834). -/
def enumLoop (w : World) : List String → List Json → M PState (List String)
  | es, [] => return es
  | es, v :: vs =>
    match w.env.marshal v with
    | none => M.err .marshal
    | some t =>
      if es.contains t then M.err (.keyItemsMustBeUnique "enum")
      else enumLoop w (es ++ [t]) vs

/-- enum (`/repo/schema.go` 820-841). -/
def kwEnum (w : World) (m : List (String × Json)) : M PState (List String) :=
  match getKey "enum" m with
  | none => return []
  | some v => do
    let b ← isKind w.env v [.slice]
    if b then
      match v with
      | .arr vs => enumLoop w [] vs
      | _ => M.fail .panic
    else M.err (.mustBeOfAn "enum" "array")

/-- oneOf, anyOf, allOf (`/repo/schema.go` 845-897). -/
def kwSchemas (w : World) (rec : PRec) (p : Path) (id : String) (draft : Draft) (key : String) (e : CErr)
    (m : List (String × Json)) : M PState (List Id) :=
  match getKey key m with
  | none => return []
  | some v => do
    let b ← isKind w.env v [.slice]
    if b then
      match v with
      | .arr vs => mapL (fun k x => child rec (k :: p) id draft x) 0 vs
      | _ => M.fail .panic
    else M.err e

/-- `parseReference` (`/repo/schema.go` 968-1008): the new node.  The Go code registers the node
before it gets the document, which cannot be observed: the compilation fails if the document
cannot be had. -/
def parseReference (w : World) (σ : Sched) (rec : PRec) (p : Path) (id : String) (draft : Draft)
    (ref : String) : M PState Id := do
  let dsp ← liftL (getDocument w σ (42 :: p) ref)
  let c ← alloc dsp.doc (dsp.draft.getD draft)
  refAdd ref c
  let b ← isKind w.env dsp.doc [.map, .bool]
  if !b then M.err (.mustBeOfType "valid schema" "object") else do
  rec (41 :: p) id ref dsp.doc (dsp.draft.getD draft) c
  return c

/-- The keywords after `$ref` (`/repo/schema.go` 249-965) and the final node. -/
def parseKeywords (w : World) (σ : Sched) (rec : PRec) (p : Path) (id : String) (draft : Draft)
    (c : Id) (refSchema : Option Id) (m : List (String × Json)) : M PState Unit := do
  let types ← kwType w m
  let props ← kwProperties w σ rec p id draft m
  let addProps ← kwExtra w rec (29 :: p) id draft "additionalProperties" m
  let patProps ← kwPatternProperties w σ rec p id draft m
  let propNames ← kwSchema w rec (30 :: p) id draft (draft ≥ Draft6) "propertyNames"
    (.invalidType "valid schema" "patternProperties") m
  let deps ← kwDependencies w σ rec p id draft m
  let items ← kwItems w rec p id draft m
  let addItems ← kwExtra w rec (32 :: p) id draft "additionalItems" m
  let multipleOf ← kwMultipleOf w m
  let minimum ← kwBound w "minimum" m
  let mins ← kwExclusive w draft "exclusiveMinimum" "minimum" minimum m
  let maximum ← kwBound w "maximum" m
  let maxs ← kwExclusive w draft "exclusiveMaximum" "maximum" maximum m
  let minLength ← kwSize w "minLength" m
  let maxLength ← kwSize w "maxLength" m
  checkOrder minLength maxLength (.cannotBeGT "minLength" "maxLength")
  let pattern ← kwPattern w m
  let format ← kwFormat m
  let minProperties ← kwSize w "minProperties" m
  let maxProperties ← kwSize w "maxProperties" m
  checkOrder minProperties maxProperties (.keyCannotBeGreaterThan "minProperties" "maxProperties")
  let required ← kwRequired w m
  let minItems ← kwSize w "minItems" m
  let maxItems ← kwSize w "maxItems" m
  let uniqueItems ← kwUnique w m
  let contains ← kwContains rec (33 :: p) id draft m
  let const ← kwConst w draft m
  let enum ← kwEnum w m
  let oneOf ← kwSchemas w rec (34 :: p) id draft "oneOf" (.mustBeOfAn "oneOf" "array") m
  let anyOf ← kwSchemas w rec (35 :: p) id draft "anyOf" (.mustBeOfAn "anyOf" "array") m
  let allOf ← kwSchemas w rec (36 :: p) id draft "allOf" (.mustBeOfAn "anyOf" "array") m
  let not ← kwSchema w rec (37 :: p) id draft true "not" (.mustBeOfAn "not" "object") m
  let if_ ← kwSchema w rec (38 :: p) id draft (draft ≥ Draft7) "if" (.mustBeOfAn "if" "object") m
  let then_ ← kwSchema w rec (39 :: p) id draft (draft ≥ Draft7) "then" (.mustBeOfAn "then" "object") m
  let else_ ← kwSchema w rec (40 :: p) id draft (draft ≥ Draft7) "else" (.mustBeOfAn "else" "object") m
  setNode c
    { doc := .obj m, draft := draft, types := types, refSchema := refSchema,
      itemsChildren := items.1, itemsChildrenIsSingleSchema := items.2,
      propertiesChildren := props,
      multipleOf := multipleOf, maximum := maxs.1, exclusiveMaximum := maxs.2,
      minimum := mins.1, exclusiveMinimum := mins.2,
      minLength := minLength, maxLength := maxLength, pattern := pattern, format := format,
      minProperties := minProperties, maxProperties := maxProperties, required := required,
      dependencies := deps, additionalProperties := addProps, patternProperties := patProps,
      propertyNames := propNames, minItems := minItems, maxItems := maxItems,
      uniqueItems := uniqueItems, contains := contains, additionalItems := addItems,
      const := const, enum := enum, oneOf := oneOf, anyOf := anyOf, allOf := allOf,
      not := not, if_ := if_, then_ := then_, else_ := else_ }

/-- After the `$ref` keyword was read (`/repo/schema.go` 227-247): a reference met before only
sets `refSchema` and the siblings are read; a new one is parsed and ends the node. -/
def parseAfterRef (w : World) (σ : Sched) (rec : PRec) (p : Path) (id : String) (draft : Draft)
    (c : Id) (ref : Option String) (m : List (String × Json)) : M PState Unit :=
  match ref with
  | none => parseKeywords w σ rec p id draft c none m
  | some r => do
    let known ← refGet r
    match known with
    | some j => parseKeywords w σ rec p id draft c (some j) m
    | none => do
      let j ← parseReference w σ rec p id draft r
      setNode c { doc := .obj m, draft := draft, refSchema := some j }

/-- `parseSchema` on a map (`/repo/schema.go` 102-965). -/
def parseObject (w : World) (σ : Sched) (rec : PRec) (isRoot : Bool) (p : Path) (pid id0 : String)
    (m : List (String × Json)) (draft : Draft) (c : Id) : M PState Unit := do
  let id ← kwId w isRoot pid id0 draft m
  kwDefinitions w σ rec p id draft m
  kwText w "title" m
  kwText w "description" m
  let ref ← kwRefText w m
  parseAfterRef w σ rec p id draft c ref m

/-- One level of `parseSchema` (`/repo/schema.go` 77-966). -/
def parseStep (w : World) (σ : Sched) (rec : PRec) (isRoot : Bool) (p : Path) (pid id0 : String)
    (doc : Json) (draft : Draft) (c : Id) : M PState Unit := do
  let b ← isKind w.env doc [.bool]
  match (decide (draft ≥ Draft6) && b), doc with
  | true, .bool x => setNode c { doc := doc, draft := draft, pass := some x }
  | _, _ => do
    let b ← isKind w.env doc [.map]
    if !b then M.err .parseError else
    match doc with
    | .obj m => parseObject w σ rec isRoot p pid id0 m draft c
    | _ => M.fail .panic

/-- `parseSchema` on nodes other than the root, with at most `fuel` nested calls. -/
def parseSchema (w : World) (σ : Sched) : Nat → PRec
  | 0 => fun _ _ _ _ _ _ => M.fail .fuel
  | n + 1 => fun p pid id0 doc draft c => parseStep w σ (parseSchema w σ n) false p pid id0 doc draft c

/-- `Schema.parse` (`/repo/schema.go` 61-64): the root node. -/
def parseRoot (w : World) (σ : Sched) (fuel : Nat) (p : Path) (documentReference : String) (doc : Json)
    (draft : Draft) : M PState Id := do
  let c ← alloc doc draft
  parseStep w σ (parseSchema w σ fuel) true p documentReference documentReference doc draft c
  return c

end GJS

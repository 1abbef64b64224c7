import Verif.Raw
import Verif.Loader
/-
Schemas that are Go values (`NewRawLoader`, `/repo/jsonLoader.go` 360-387): the compiler where it looks at the dynamic
type of a value.  `/repo/schemaPool.go`, `parseSchemaURL` of `/repo/draft.go`, `/repo/schema.go` and `Compile` of
`/repo/schemaLoader.go` are modelled again over Go values; the functions of `Pool`, `Parse` and `Loader` are the special
case of JSON values (`Verif.PropRawSchema`).

Simplification: the document recorded in a node (ghost) is the JSON view of the value.
-/
namespace GJS.RawS
open GJS

mutual
/-- Size of a Go value, as `Json.size`. -/
def size : GoVal → Nat
  | .arr xs => 1 + sizeL xs
  | .obj kvs => 1 + sizeKV kvs
  | _ => 1
def sizeL : List GoVal → Nat
  | [] => 0
  | x :: xs => size x + sizeL xs
def sizeKV : List (String × GoVal) → Nat
  | [] => 0
  | (_, x) :: xs => 1 + size x + sizeKV xs
end

mutual
/-- What `encoding/json` decodes a document to. -/
def ofJson : Json → GoVal
  | .null => .nil
  | .bool b => .bool b
  | .num n => .num n
  | .str s => .str s
  | .arr xs => .arr (ofJsonL xs)
  | .obj kvs => .obj (ofJsonKV kvs)
def ofJsonL : List Json → List GoVal
  | [] => []
  | x :: xs => ofJson x :: ofJsonL xs
def ofJsonKV : List (String × Json) → List (String × GoVal)
  | [] => []
  | (k, x) :: xs => (k, ofJson x) :: ofJsonKV xs
end

/-- Everything outside the package, Go values included. -/
structure Outside extends World where
  /-- `reference.GetPointer().Get(document)`; it panics on maps of other types -/
  look : String → GoVal → Except Fail GoVal
  /-- the document that marshalling a value of another type and decoding it gives -/
  goCanon : Nat → Option Canon
  /-- `FormatCheckers.IsFormat` on a Go value -/
  goFormat : String → GoVal → Bool

/-- What validation of Go values depends on. -/
def Outside.raw (w : Outside) : RawEnv := ⟨w.env, w.goCanon, w.goFormat⟩

/-- `marshalWithoutNumber` (`/repo/utils.go` 84-104). -/
def Outside.marshal (w : Outside) (g : GoVal) : Option String := w.raw.rawMarshal g

/-- Entries of the pool (`/repo/schemaPool.go` 37-40). -/
structure PoolDoc where
  doc : GoVal
  draft : Option Draft

/-- The state of a `SchemaLoader` (`LState`). -/
structure State where
  pool : List (String × PoolDoc) := []
  factory : Factory := 0
  autoDetect : Bool := true
  validate : Bool := false
  draft : Draft := Hybrid
  log : List (Factory × String) := []
  own : List (Factory × String) := []

/-- Number of loads so far. -/
def State.clock (l : State) : Nat := l.log.length + l.own.length

/-- `reflect.ValueOf(v).Kind()`; `struct` stands for all kinds the compiler does not ask for. -/
def rawKind : GoVal → Kind
  | .nil => .invalid
  | .bool _ | .opaque .bool _ => .bool
  | .num _ | .str _ | .opaque .string _ => .string
  | .arr _ | .opaque .slice _ => .slice
  | .obj _ | .imap _ | .opaque .map _ => .map
  | .opaque .other _ => .struct

/-- `isKind` (`/repo/utils.go` 34-47). -/
def isKind (env : Env) (v : GoVal) (ks : List Kind) : M σ Bool :=
  match v with
  | .num n => if env.ratOk n then pure (ks.contains .struct) else M.fail .panic
  | v => pure (ks.contains (rawKind v))

/-- `parseSchemaURL` (`/repo/draft.go` 90-125): the normalised `$schema` (empty if absent) and
the draft it stands for. -/
def parseSchemaURL (w : Outside) (doc : GoVal) : M σ (String × Option Draft) := do
  let b ← isKind w.env doc [.bool]
  if b then return ("", none) else
  let b ← isKind w.env doc [.map]
  if !b then M.err .schemaInvalid else
  match doc with
  | .obj m =>
    match getKey "$schema" m with
    | none => return ("", none)
    | some v => do
      let b ← isKind w.env v [.string]
      if !b then M.err (.mustBeOfType "$schema" TYPE_STRING) else
      match v with
      | .str t =>
        match w.norm t with
        | none => M.err (.badReference t)
        | some u => return (u, getDraftVersion u)
      | _ => M.fail .panic
  | _ => M.fail .panic
where TYPE_STRING := "string"

/-- The `$id` block of `parseReferencesRecursive` (`/repo/schemaPool.go` 91-96): the text of the
identifier if there is one. -/
def idText (w : Outside) (m : List (String × GoVal)) : M σ (Option String) :=
  let keyID := if existsMapKey m "id" then "id" else "$id"
  match getKey keyID m with
  | none => return none
  | some v => do
    let b ← isKind w.env v [.string]
    match b, v with
    | true, .str t => return some t
    | true, _ => M.fail .panic
    | false, _ => return none

/-- Replacement of a `$ref` string by the absolute reference (`/repo/schemaPool.go` 108-116). -/
def rewriteRef (w : Outside) (localRef : String) (m : List (String × GoVal)) : M σ (List (String × GoVal)) :=
  match getKey "$ref" m with
  | none => return m
  | some v => do
    let b ← isKind w.env v [.string]
    match b, v with
    | true, .str t =>
      match (w.norm t).bind (w.inherits localRef) with
      | some a => return replaceKey "$ref" (.str a) m
      | none => return m
    | true, _ => M.fail .panic
    | false, _ => return m

/-- `for k, v := range m` with in-place changes of the values: `f` returns the new value. -/
def rangeKV (f : Nat → String → GoVal → M σ GoVal) :
    Nat → List (String × GoVal) → List (String × GoVal) → M σ (List (String × GoVal))
  | _, [], m => return m
  | i, (k, v) :: rest, m => do
    let v' ← f i k v
    rangeKV f (i + 1) rest (replaceKey k v' m)

/-- The recursive calls for one member of a map (`/repo/schemaPool.go` 119-133). -/
def rewriteMember (σ : Sched) (rec : Path → String → GoVal → M State GoVal) (p : Path) (localRef : String)
    (k : String) (v : GoVal) : M State GoVal :=
  if k == "const" || k == "enum" then return v
  else if isSchemaMap k then
    match v with
    | .obj child => do
      let child' ← rangeKV (fun j _ x => rec (j :: 54 :: p) localRef x) 0 (σ.order (53 :: p) child) child
      return .obj child'
    | v => return v
  else rec p localRef v

/-- Whether the pool has an entry (`_, ok := p.schemaPoolDocuments[k]`). -/
def inPool (k : String) : M State Bool := do
  let l ← M.get
  return existsMapKey l.pool k

/-- `p.schemaPoolDocuments[k] = …` -/
def putPool (k : String) (d : PoolDoc) : M State Unit :=
  M.modify (fun l => { l with pool := putKey k d l.pool })

/-- Registration under an identifier, if any. -/
def register (o : Option String) (d : PoolDoc) : M State Unit :=
  match o with
  | some k => putPool k d
  | none => return ()

/-- Whether the identifier is taken (`/repo/schemaPool.go` 100). -/
def taken (o : Option String) : M State Bool :=
  match o with
  | some k => inPool k
  | none => return false

/-- `parseReferencesRecursive` (`/repo/schemaPool.go` 76-137) on a map.

The Go code changes maps in place, so that the entry registered under an identifier and the
enclosing document share structure.  Here the rewritten map is returned, and an entry is
written twice: first to occupy the key, then with the rewritten map.  Nothing reads the
content in between. -/
def rewriteObj (w : Outside) (σ : Sched) (rec : Path → String → GoVal → M State (GoVal × Option CErr))
    (p : Path) (ref : String) (draft : Option Draft) (m : List (String × GoVal)) :
    M State (GoVal × Option CErr) := do
  let id ← idText w m
  let sc ← idScope w.toWorld ref id
  let t ← taken sc.2
  if t then return (.obj m, some (.referenceAlreadyExists sc.1)) else
  register sc.2 ⟨.obj m, draft⟩
  let m1 ← rewriteRef w sc.1 m
  let m2 ← rangeKV (fun k key v => rewriteMember σ (fun p r v => do let x ← rec p r v; return x.1)
    (k :: 52 :: p) sc.1 key v) 0 (σ.order (51 :: p) m1) m1
  register sc.2 ⟨.obj m2, draft⟩
  return (.obj m2, none)

/-- `parseReferencesRecursive` (`/repo/schemaPool.go` 76-137): the rewritten document and the
returned error.  Errors of nested calls are ignored, as in the code. -/
def rewrite (w : Outside) (σ : Sched) (draft : Option Draft) :
    Nat → Path → String → GoVal → M State (GoVal × Option CErr)
  | 0 => fun _ _ _ => M.fail .fuel
  | n + 1 => fun p ref doc =>
    match doc with
    | .arr xs => do
      let ys ← mapL (fun k x => do let y ← rewrite w σ draft n (k :: 50 :: p) ref x; return y.1) 0 xs
      return (.arr ys, none)
    | .obj m => rewriteObj w σ (rewrite w σ draft n) p ref draft m
    | v => return (v, none)

/-- Draft detection of `parseReferences` (`/repo/schemaPool.go` 60-65). -/
def detectDraft (w : Outside) (doc : GoVal) : M State (Option Draft) := do
  let l ← M.get
  if l.autoDetect then do
    let x ← parseSchemaURL w doc
    return x.2
  else return none

/-- Add the root document if `pooled` (`/repo/schemaPool.go` 69-71). -/
def putIf (b : Bool) (k : String) (d : PoolDoc) : M State Unit :=
  if b then putPool k d else return ()

/-- `parseReferences` (`/repo/schemaPool.go` 48-74): the rewritten document and the returned
error (the caller keeps using the document even when an error is returned; a failure of the
computation itself is an error returned before anything was changed). -/
def parseReferences (w : Outside) (σ : Sched) (p : Path) (doc : GoVal) (ref : String) (pooled : Bool) :
    M State (GoVal × Option CErr) := do
  let there ← inPool ref
  if pooled && there then return (doc, some (.referenceAlreadyExists ref)) else
  let draft ← detectDraft w doc
  let x ← rewrite w σ draft (size doc) p ref doc
  putIf pooled ref ⟨x.1, draft⟩
  return x

/-- Load a reference through the loader factory in force (`/repo/schemaPool.go` 195-200). -/
def fetch (w : Outside) (reference : String) : M State GoVal := fun l =>
  let l' := { l with log := l.log ++ [(l.factory, reference)] }
  match loadReference w.toWorld l.clock l.factory reference with
  | some d => (.ok (ofJson d), l')
  | none => (.error (.err (.load reference)), l')

/-- `parseReferences(document, refToURL, true)` with its error ignored
(`/repo/schemaPool.go` 203): an error returned early leaves document and pool alone. -/
def parseReferencesIgnore (w : Outside) (σ : Sched) (p : Path) (doc : GoVal) (ref : String) :
    M State GoVal := fun l =>
  match parseReferences w σ p doc ref true l with
  | (.ok x, l') => (.ok x.1, l')
  | (.error (.err _), l') => (.ok doc, l')
  | (.error e, l') => (.error e, l')

/-- `_, draft, _ = parseSchemaURL(document)` (`/repo/schemaPool.go` 205). -/
def schemaDraftIgnore (w : Outside) (doc : GoVal) : M State (Option Draft) := fun l =>
  match parseSchemaURL w doc l with
  | (.ok x, l') => (.ok x.2, l')
  | (.error (.err _), l') => (.ok none, l')
  | (.error e, l') => (.error e, l')

/-- Read an entry of the pool. -/
def poolGet (k : String) : M State (Option PoolDoc) := do
  let l ← M.get
  return getKey k l.pool

/-- `reference.GetPointer().Get(document)` (`/repo/schemaPool.go` 171, 208). -/
def pointerGet (w : Outside) (reference : String) (doc : GoVal) : M State GoVal :=
  match w.look reference doc with
  | .ok d => return d
  | .error e => M.fail e

/-- The second case of `GetDocument` (`/repo/schemaPool.go` 170-185): the document is in the
pool under the base URL. -/
def getCached (w : Outside) (reference : String) (e : PoolDoc) : M State PoolDoc := do
  let d ← pointerGet w reference e.doc
  putPool reference ⟨d, e.draft⟩
  return ⟨d, e.draft⟩

/-- The third case of `GetDocument` (`/repo/schemaPool.go` 187-214): load it. -/
def getRemote (w : Outside) (σ : Sched) (p : Path) (reference : String) : M State PoolDoc :=
  if !w.canonical reference then M.err (.referenceMustBeCanonical reference) else do
  let doc ← fetch w reference
  let doc ← parseReferencesIgnore w σ p doc (w.base reference)
  let draft ← schemaDraftIgnore w doc
  let d ← pointerGet w reference doc
  return ⟨d, draft⟩

/-- `GetDocument` (`/repo/schemaPool.go` 139-215). -/
def getDocument (w : Outside) (σ : Sched) (p : Path) (reference : String) : M State PoolDoc := do
  let e1 ← poolGet reference
  match e1 with
  | some e => return e
  | none => do
    let e2 ← poolGet (w.base reference)
    match e2 with
    | some e => getCached w reference e
    | none => getRemote w σ p reference

/-- State of a compilation: the sub-schemas allocated so far, the reference pool
(`/repo/schemaReferencePool.go` 32-34) and the loader. -/
structure PState where
  heap : Heap := []
  refs : List (String × Id) := []
  l : State

/-- Run loader code inside a compilation. -/
def liftL (x : M State α) : M PState α := fun s =>
  match x s.l with
  | (r, l') => (r, { s with l := l' })

/-- `&subSchema{…}`: `doc` is the document the node is going to be parsed from. -/
def alloc (doc : GoVal) (draft : Draft) : M PState Id := fun s =>
  (.ok s.heap.length, { s with heap := s.heap ++ [{ doc := doc.view, draft := draft }] })

/-- Write a node. -/
def setNode (c : Id) (n : Sub) : M PState Unit :=
  M.modify (fun s => { s with heap := s.heap.set c n })

/-- `schemaReferencePool.Get` (`/repo/schemaReferencePool.go` 44-58). -/
def refGet (ref : String) : M PState (Option Id) := do
  let s ← M.get
  return getKey ref s.refs

/-- `schemaReferencePool.Add` (`/repo/schemaReferencePool.go` 60-68). -/
def refAdd (ref : String) (c : Id) : M PState Unit :=
  M.modify (fun s => if existsMapKey s.refs ref then s else { s with refs := s.refs ++ [(ref, c)] })

/-- `mustBeNumber` (`/repo/utils.go` 157-169). -/
def mustBeNumber (env : Env) (v : GoVal) : Option Rat :=
  match v with
  | .num n => env.rat n
  | _ => none

/-- `mustBeInteger` (`/repo/utils.go` 133-155).  Simplification: `int` is 64 bits wide. -/
def mustBeInteger (env : Env) (v : GoVal) : Option Int :=
  match v with
  | .num n => if env.checkInteger n then n.int64? else none
  | _ => none

/-- The recursive call `parseSchema(doc, node)`: execution point, id of the parent, id the node
has before its own id keyword is read, document, draft, node. -/
abbrev PRec := Path → String → String → GoVal → Draft → Id → M PState Unit

/-- `newSchema := &subSchema{parent: currentSchema}; d.parseSchema(doc, newSchema)`: the draft and
the id are inherited from the parent (`/repo/schema.go` 79-84, 109-111). -/
def child (rec : PRec) (p : Path) (id : String) (draft : Draft) (doc : GoVal) : M PState Id := do
  let c ← alloc doc draft
  rec p id id doc draft c
  return c

/-- The name of the id keyword (`/repo/schema.go` 113-127). -/
def keyID (draft : Draft) (m : List (String × GoVal)) : String :=
  if draft == Draft4 then "id"
  else if draft == Hybrid then (if existsMapKey m "id" then "id" else "$id")
  else "$id"

/-- The id of a node (`/repo/schema.go` 128-151). -/
def kwId (w : Outside) (isRoot : Bool) (pid id0 : String) (draft : Draft) (m : List (String × GoVal)) :
    M PState String :=
  match getKey (keyID draft m) m with
  | none => return id0
  | some v => do
    let b ← isKind w.env v [.string]
    if !b then M.err (.invalidType "string" (keyID draft m)) else
    match v with
    | .str k =>
      match w.norm k with
      | none => M.err (.badReference k)
      | some r =>
        if isRoot then return r
        else
          match w.inherits pid r with
          | none => M.err (.badReference k)
          | some u => return u
    | _ => return id0

/-- One definition (`/repo/schema.go` 157-174). -/
def kwDefinition (w : Outside) (rec : PRec) (p : Path) (id : String) (draft : Draft) (dv : GoVal) :
    M PState Unit := do
  let b ← isKind w.env dv [.map, .bool]
  if b then do
    let _ ← child rec p id draft dv
    return ()
  else M.err (.invalidType "array of schemas" "definitions")

/-- definitions (`/repo/schema.go` 153-186).  The guard lets booleans through, which then fail
the type assertion. -/
def kwDefinitions (w : Outside) (σ : Sched) (rec : PRec) (p : Path) (id : String) (draft : Draft)
    (m : List (String × GoVal)) : M PState Unit :=
  match getKey "definitions" m with
  | none => return ()
  | some v => do
    let b ← isKind w.env v [.map, .bool]
    if b then
      match v with
      | .obj kvs => do
        let _ ← mapL (fun k (kv : String × GoVal) => kwDefinition w rec (k :: 22 :: p) id draft kv.2) 0
          (σ.order (21 :: p) kvs)
        return ()
      | _ => M.fail .panic
    else M.err (.invalidType "array of schemas" "definitions")

/-- title and description (`/repo/schema.go` 188-214). -/
def kwText (w : Outside) (key : String) (m : List (String × GoVal)) : M PState Unit :=
  match getKey key m with
  | none => return ()
  | some v => do
    let b ← isKind w.env v [.string]
    if !b then M.err (.invalidType "string" key) else return ()

/-- The `$ref` string (`/repo/schema.go` 216-234). -/
def kwRefText (w : Outside) (m : List (String × GoVal)) : M PState (Option String) :=
  match getKey "$ref" m with
  | none => return none
  | some v => do
    let b ← isKind w.env v [.string]
    if !b then M.err (.invalidType "string" "$ref") else
    match v with
    | .str k =>
      match w.norm k with
      | none => M.err (.badReference k)
      | some r => return some r
    | _ => return none

/-- The loop over a type array (`/repo/schema.go` 260-274): a `json.Number` has kind String but
fails the type assertion. -/
def typeLoop : List String → List GoVal → M PState (List String)
  | ts, [] => return ts
  | ts, v :: vs =>
    if rawKind v != .string then M.err (.invalidType "string/array of strings" "type") else
    match v with
    | .str t => do
      let ts' ← addType ts t
      typeLoop ts' vs
    | _ => M.fail .panic

/-- type (`/repo/schema.go` 249-286). -/
def kwType (w : Outside) (m : List (String × GoVal)) : M PState (List String) :=
  match getKey "type" m with
  | none => return []
  | some v => do
    let b ← isKind w.env v [.string]
    if b then
      match v with
      | .str t => addType [] t
      | _ => return []
    else do
      let b ← isKind w.env v [.slice]
      if b then
        match v with
        | .arr vs => typeLoop [] vs
        | _ => M.fail .panic
      else M.err (.invalidType "string/array of strings" "type")

/-- properties (`/repo/schema.go` 288-294, 1010-1031). -/
def kwProperties (w : Outside) (σ : Sched) (rec : PRec) (p : Path) (id : String) (draft : Draft)
    (m : List (String × GoVal)) : M PState (List (String × Id)) :=
  match getKey "properties" m with
  | none => return []
  | some v => do
    let b ← isKind w.env v [.map]
    if !b then M.err (.mustBeOfType "properties" "object") else
    match v with
    | .obj kvs =>
      mapL (fun k (kv : String × GoVal) => do
        let c ← child rec (k :: 26 :: p) id draft kv.2
        return (kv.1, c)) 0 (σ.order (25 :: p) kvs)
    | _ => M.fail .panic

/-- additionalProperties and additionalItems (`/repo/schema.go` 296-316, 422-442). -/
def kwExtra (w : Outside) (rec : PRec) (p : Path) (id : String) (draft : Draft) (key : String)
    (m : List (String × GoVal)) : M PState Extra :=
  match getKey key m with
  | none => return .absent
  | some v => do
    let b ← isKind w.env v [.bool]
    if b then
      match v with
      | .bool x => return .bool x
      | _ => M.fail .panic
    else do
      let b ← isKind w.env v [.map]
      if b then do
        let c ← child rec p id draft v
        return .schema c
      else M.err (.invalidType "boolean/valid schema" key)

/-- One pattern property (`/repo/schema.go` 325-337). -/
def kwPattern1 (w : Outside) (rec : PRec) (p : Path) (id : String) (draft : Draft) (kv : String × GoVal) :
    M PState (String × Id) :=
  if !w.env.reOk kv.1 then M.err (.regexPattern kv.1) else do
  let c ← child rec p id draft kv.2
  return (kv.1, c)

/-- patternProperties (`/repo/schema.go` 318-349). -/
def kwPatternProperties (w : Outside) (σ : Sched) (rec : PRec) (p : Path) (id : String) (draft : Draft)
    (m : List (String × GoVal)) : M PState (List (String × Id)) :=
  match getKey "patternProperties" m with
  | none => return []
  | some v => do
    let b ← isKind w.env v [.map]
    if b then
      match v with
      | .obj kvs => mapL (fun k kv => kwPattern1 w rec (k :: 24 :: p) id draft kv) 0 (σ.order (23 :: p) kvs)
      | _ => M.fail .panic
    else M.err (.invalidType "valid schema" "patternProperties")

/-- A keyword whose value is one schema: propertyNames, not, if, then, else
(`/repo/schema.go` 353-368, 900-912, 917-929, 933-945, 949-961); `active` is the draft guard. -/
def kwSchema (w : Outside) (rec : PRec) (p : Path) (id : String) (draft : Draft) (active : Bool)
    (key : String) (e : CErr) (m : List (String × GoVal)) : M PState (Option Id) :=
  match getKey key m with
  | none => return none
  | some v =>
    if active then do
      let b ← isKind w.env v [.map, .bool]
      if b then do
        let c ← child rec p id draft v
        return some c
      else M.err e
    else return none

/-- The loop over a dependency array (`/repo/schema.go` 1052-1064). -/
def depKeys (w : Outside) : List GoVal → M PState (List String)
  | [] => return []
  | v :: vs => do
    let b ← isKind w.env v [.string]
    if !b then M.err (.mustBeOfType "dependency" "schema or array of strings") else
    match v with
    | .str t => do
      let ts ← depKeys w vs
      return t :: ts
    | _ => M.fail .panic

/-- One dependency (`/repo/schema.go` 1046-1082). -/
def kwDependency (w : Outside) (rec : PRec) (p : Path) (id : String) (draft : Draft) (kv : String × GoVal) :
    M PState (Option (String × Dep)) :=
  match rawKind kv.2 with
  | .slice =>
    match kv.2 with
    | .arr vs => do
      let ks ← depKeys w vs
      return depEntry kv.1 ks
    | _ => M.fail .panic
  | .map | .bool => do
    let c ← child rec p id draft kv.2
    return some (kv.1, .schema c)
  | _ => M.err (.mustBeOfType "dependency" "schema or array of strings")

/-- dependencies (`/repo/schema.go` 371-377, 1033-1087). -/
def kwDependencies (w : Outside) (σ : Sched) (rec : PRec) (p : Path) (id : String) (draft : Draft)
    (m : List (String × GoVal)) : M PState (List (String × Dep)) :=
  match getKey "dependencies" m with
  | none => return []
  | some v => do
    let b ← isKind w.env v [.map]
    if !b then M.err (.mustBeOfType "dependencies" "object") else
    match v with
    | .obj kvs => do
      let es ← mapL (fun k kv => kwDependency w rec (k :: 28 :: p) id draft kv) 0 (σ.order (27 :: p) kvs)
      return es.filterMap (fun e => e)
    | _ => M.fail .panic

/-- One element of an items array (`/repo/schema.go` 383-399). -/
def kwItem (w : Outside) (rec : PRec) (p : Path) (id : String) (draft : Draft) (v : GoVal) : M PState Id := do
  let b ← isKind w.env v [.map, .bool]
  if b then child rec p id draft v
  else M.err (.invalidType "valid schema/array of schemas" "items")

/-- items (`/repo/schema.go` 379-420): `itemsChildren` and `itemsChildrenIsSingleSchema`. -/
def kwItems (w : Outside) (rec : PRec) (p : Path) (id : String) (draft : Draft)
    (m : List (String × GoVal)) : M PState (List Id × Bool) :=
  match getKey "items" m with
  | none => return ([], false)
  | some v => do
    let b ← isKind w.env v [.slice]
    if b then
      match v with
      | .arr vs => do
        let cs ← mapL (fun k x => kwItem w rec (k :: 31 :: p) id draft x) 0 vs
        return (cs, false)
      | _ => M.fail .panic
    else do
      let b ← isKind w.env v [.map, .bool]
      if b then do
        let c ← child rec (31 :: p) id draft v
        return ([c], true)
      else M.err (.invalidType "valid schema/array of schemas" "items")

/-- multipleOf (`/repo/schema.go` 446-464). -/
def kwMultipleOf (w : Outside) (m : List (String × GoVal)) : M PState (Option Rat) :=
  match getKey "multipleOf" m with
  | none => return none
  | some v =>
    match mustBeNumber w.env v with
    | none => M.err (.invalidType "number" "multipleOf")
    | some q => if q ≤ 0 then M.err (.greaterThanZero "multipleOf") else return some q

/-- minimum and maximum (`/repo/schema.go` 466-475, 537-546). -/
def kwBound (w : Outside) (key : String) (m : List (String × GoVal)) : M PState (Option Rat) :=
  match getKey key m with
  | none => return none
  | some v =>
    match mustBeNumber w.env v with
    | none => M.err (.mustBeOfA key "number")
    | some q => return some q

/-- A boolean exclusive bound (`/repo/schema.go` 489-498, 501-510, 560-569, 572-581). -/
def exclusiveBool (xkey key : String) (x : Bool) (bound : Option Rat) : M PState (Option Rat × Option Rat) :=
  match bound with
  | none => M.err (.cannotBeUsedWithout xkey key)
  | some q => if x then return (none, some q) else return (some q, none)

/-- A value of kind Bool as exclusive bound (`/repo/schema.go` 489-498, 501-510, 560-569, 572-581): the other bound is
looked at before the type assertion. -/
def exclusiveValue (xkey key : String) (v : GoVal) (bound : Option Rat) : M PState (Option Rat × Option Rat) :=
  match bound, v with
  | _, .bool x => exclusiveBool xkey key x bound
  | none, _ => M.err (.cannotBeUsedWithout xkey key)
  | some _, _ => M.fail .panic

/-- exclusiveMinimum and exclusiveMaximum (`/repo/schema.go` 477-535, 548-606): the inclusive and
the exclusive bound, given the inclusive one read before. -/
def kwExclusive (w : Outside) (draft : Draft) (xkey key : String) (bound : Option Rat)
    (m : List (String × GoVal)) : M PState (Option Rat × Option Rat) :=
  match getKey xkey m with
  | none => return (bound, none)
  | some v =>
    if draft == Draft4 then do
      let b ← isKind w.env v [.bool]
      if !b then M.err (.invalidType "boolean" xkey) else
      exclusiveValue xkey key v bound
    else if draft == Hybrid then do
      let b ← isKind w.env v [.bool]
      match b, v with
      | true, v => exclusiveValue xkey key v bound
      | false, .num n => return (bound, w.env.rat n)
      | false, _ => M.err (.invalidType "boolean/number" xkey)
    else
      match v with
      | .num n => return (bound, w.env.rat n)
      | _ => M.err (.invalidType "number" xkey)

/-- A size keyword (`/repo/schema.go` 610-642, 684-716, 756-788). -/
def kwSize (w : Outside) (key : String) (m : List (String × GoVal)) : M PState (Option Int) :=
  match getKey key m with
  | none => return none
  | some v =>
    match mustBeInteger w.env v with
    | none => M.err (.mustBeOfAn key "integer")
    | some z => if z < 0 then M.err (.mustBeGTEZero key) else return some z

/-- The comparison of a lower and an upper size (`/repo/schema.go` 644-651, 718-725). -/
def checkOrder (mn mx : Option Int) (e : CErr) : M PState Unit :=
  match mn, mx with
  | some a, some b => if a > b then M.err e else return ()
  | _, _ => return ()

/-- pattern (`/repo/schema.go` 653-669). -/
def kwPattern (w : Outside) (m : List (String × GoVal)) : M PState (Option String) :=
  match getKey "pattern" m with
  | none => return none
  | some v => do
    let b ← isKind w.env v [.string]
    if b then
      match v with
      | .str t => if w.env.reOk t then return some t else M.err (.mustBeValidRegex "pattern")
      | _ => M.fail .panic
    else M.err (.mustBeOfA "pattern" "string")

/-- format (`/repo/schema.go` 671-680). -/
def kwFormat (m : List (String × GoVal)) : M PState String :=
  match getKey "format" m with
  | none => return ""
  | some v =>
    match v with
    | .str t => return t
    | _ => M.err (.mustBeOfType "format" "string")

/-- The loop over a required array (`/repo/schema.go` 730-745). -/
def requiredLoop (w : Outside) : List String → List GoVal → M PState (List String)
  | qs, [] => return qs
  | qs, v :: vs => do
    let b ← isKind w.env v [.string]
    if b then
      match v with
      | .str t =>
        if qs.contains t then M.err (.keyItemsMustBeUnique "required")
        else requiredLoop w (qs ++ [t]) vs
      | _ => M.fail .panic
    else M.err (.keyItemsMustBeOfType "required" "string")

/-- required (`/repo/schema.go` 727-752). -/
def kwRequired (w : Outside) (m : List (String × GoVal)) : M PState (List String) :=
  match getKey "required" m with
  | none => return []
  | some v => do
    let b ← isKind w.env v [.slice]
    if b then
      match v with
      | .arr vs => requiredLoop w [] vs
      | _ => M.fail .panic
    else M.err (.mustBeOfAn "required" "array")

/-- uniqueItems (`/repo/schema.go` 790-799). -/
def kwUnique (w : Outside) (m : List (String × GoVal)) : M PState Bool :=
  match getKey "uniqueItems" m with
  | none => return false
  | some v => do
    let b ← isKind w.env v [.bool]
    if b then
      match v with
      | .bool x => return x
      | _ => M.fail .panic
    else M.err (.mustBeOfA "uniqueItems" "boolean")

/-- contains (`/repo/schema.go` 801-808). -/
def kwContains (rec : PRec) (p : Path) (id : String) (draft : Draft)
    (m : List (String × GoVal)) : M PState (Option Id) :=
  match getKey "contains" m with
  | none => return none
  | some v =>
    if draft ≥ Draft6 then do
      let c ← child rec p id draft v
      return some c
    else return none

/-- const (`/repo/schema.go` 812-818). -/
def kwConst (w : Outside) (draft : Draft) (m : List (String × GoVal)) : M PState (Option String) :=
  match getKey "const" m with
  | none => return none
  | some v =>
    if draft ≥ Draft6 then
      match w.marshal v with
      | none => M.err .marshal
      | some t => return some t
    else return none

/-- The loop over an enum array (`/repo/schema.go` 822-834). -/
def enumLoop (w : Outside) : List String → List GoVal → M PState (List String)
  | es, [] => return es
  | es, v :: vs =>
    match w.marshal v with
    | none => M.err .marshal
    | some t =>
      if es.contains t then M.err (.keyItemsMustBeUnique "enum")
      else enumLoop w (es ++ [t]) vs

/-- enum (`/repo/schema.go` 820-841). -/
def kwEnum (w : Outside) (m : List (String × GoVal)) : M PState (List String) :=
  match getKey "enum" m with
  | none => return []
  | some v => do
    let b ← isKind w.env v [.slice]
    if b then
      match v with
      | .arr vs => enumLoop w [] vs
      | _ => M.fail .panic
    else M.err (.mustBeOfAn "enum" "array")

/-- oneOf, anyOf, allOf (`/repo/schema.go` 845-897). -/
def kwSchemas (w : Outside) (rec : PRec) (p : Path) (id : String) (draft : Draft) (key : String) (e : CErr)
    (m : List (String × GoVal)) : M PState (List Id) :=
  match getKey key m with
  | none => return []
  | some v => do
    let b ← isKind w.env v [.slice]
    if b then
      match v with
      | .arr vs => mapL (fun k x => child rec (k :: p) id draft x) 0 vs
      | _ => M.fail .panic
    else M.err e

/-- `parseReference` (`/repo/schema.go` 968-1008): the new node.  The Go code registers the node
before it gets the document, which cannot be observed: the compilation fails if the document
cannot be had. -/
def parseReference (w : Outside) (σ : Sched) (rec : PRec) (p : Path) (id : String) (draft : Draft)
    (ref : String) : M PState Id := do
  let dsp ← liftL (getDocument w σ (42 :: p) ref)
  let c ← alloc dsp.doc (dsp.draft.getD draft)
  refAdd ref c
  let b ← isKind w.env dsp.doc [.map, .bool]
  if !b then M.err (.mustBeOfType "valid schema" "object") else do
  rec (41 :: p) id ref dsp.doc (dsp.draft.getD draft) c
  return c

/-- The keywords after `$ref` (`/repo/schema.go` 249-965) and the final node. -/
def parseKeywords (w : Outside) (σ : Sched) (rec : PRec) (p : Path) (id : String) (draft : Draft)
    (c : Id) (refSchema : Option Id) (m : List (String × GoVal)) : M PState Unit := do
  let types ← kwType w m
  let props ← kwProperties w σ rec p id draft m
  let addProps ← kwExtra w rec (29 :: p) id draft "additionalProperties" m
  let patProps ← kwPatternProperties w σ rec p id draft m
  let propNames ← kwSchema w rec (30 :: p) id draft (draft ≥ Draft6) "propertyNames"
    (.invalidType "valid schema" "patternProperties") m
  let deps ← kwDependencies w σ rec p id draft m
  let items ← kwItems w rec p id draft m
  let addItems ← kwExtra w rec (32 :: p) id draft "additionalItems" m
  let multipleOf ← kwMultipleOf w m
  let minimum ← kwBound w "minimum" m
  let mins ← kwExclusive w draft "exclusiveMinimum" "minimum" minimum m
  let maximum ← kwBound w "maximum" m
  let maxs ← kwExclusive w draft "exclusiveMaximum" "maximum" maximum m
  let minLength ← kwSize w "minLength" m
  let maxLength ← kwSize w "maxLength" m
  checkOrder minLength maxLength (.cannotBeGT "minLength" "maxLength")
  let pattern ← kwPattern w m
  let format ← kwFormat m
  let minProperties ← kwSize w "minProperties" m
  let maxProperties ← kwSize w "maxProperties" m
  checkOrder minProperties maxProperties (.keyCannotBeGreaterThan "minProperties" "maxProperties")
  let required ← kwRequired w m
  let minItems ← kwSize w "minItems" m
  let maxItems ← kwSize w "maxItems" m
  let uniqueItems ← kwUnique w m
  let contains ← kwContains rec (33 :: p) id draft m
  let const ← kwConst w draft m
  let enum ← kwEnum w m
  let oneOf ← kwSchemas w rec (34 :: p) id draft "oneOf" (.mustBeOfAn "oneOf" "array") m
  let anyOf ← kwSchemas w rec (35 :: p) id draft "anyOf" (.mustBeOfAn "anyOf" "array") m
  let allOf ← kwSchemas w rec (36 :: p) id draft "allOf" (.mustBeOfAn "anyOf" "array") m
  let not ← kwSchema w rec (37 :: p) id draft true "not" (.mustBeOfAn "not" "object") m
  let if_ ← kwSchema w rec (38 :: p) id draft (draft ≥ Draft7) "if" (.mustBeOfAn "if" "object") m
  let then_ ← kwSchema w rec (39 :: p) id draft (draft ≥ Draft7) "then" (.mustBeOfAn "then" "object") m
  let else_ ← kwSchema w rec (40 :: p) id draft (draft ≥ Draft7) "else" (.mustBeOfAn "else" "object") m
  setNode c
    { doc := (GoVal.obj m).view, draft := draft, types := types, refSchema := refSchema,
      itemsChildren := items.1, itemsChildrenIsSingleSchema := items.2,
      propertiesChildren := props,
      multipleOf := multipleOf, maximum := maxs.1, exclusiveMaximum := maxs.2,
      minimum := mins.1, exclusiveMinimum := mins.2,
      minLength := minLength, maxLength := maxLength, pattern := pattern, format := format,
      minProperties := minProperties, maxProperties := maxProperties, required := required,
      dependencies := deps, additionalProperties := addProps, patternProperties := patProps,
      propertyNames := propNames, minItems := minItems, maxItems := maxItems,
      uniqueItems := uniqueItems, contains := contains, additionalItems := addItems,
      const := const, enum := enum, oneOf := oneOf, anyOf := anyOf, allOf := allOf,
      not := not, if_ := if_, then_ := then_, else_ := else_ }

/-- After the `$ref` keyword was read (`/repo/schema.go` 227-247): a reference met before only
sets `refSchema` and the siblings are read; a new one is parsed and ends the node. -/
def parseAfterRef (w : Outside) (σ : Sched) (rec : PRec) (p : Path) (id : String) (draft : Draft)
    (c : Id) (ref : Option String) (m : List (String × GoVal)) : M PState Unit :=
  match ref with
  | none => parseKeywords w σ rec p id draft c none m
  | some r => do
    let known ← refGet r
    match known with
    | some j => parseKeywords w σ rec p id draft c (some j) m
    | none => do
      let j ← parseReference w σ rec p id draft r
      setNode c { doc := (GoVal.obj m).view, draft := draft, refSchema := some j }

/-- `parseSchema` on a map (`/repo/schema.go` 102-965). -/
def parseObject (w : Outside) (σ : Sched) (rec : PRec) (isRoot : Bool) (p : Path) (pid id0 : String)
    (m : List (String × GoVal)) (draft : Draft) (c : Id) : M PState Unit := do
  let id ← kwId w isRoot pid id0 draft m
  kwDefinitions w σ rec p id draft m
  kwText w "title" m
  kwText w "description" m
  let ref ← kwRefText w m
  parseAfterRef w σ rec p id draft c ref m

/-- One level of `parseSchema` (`/repo/schema.go` 77-966). -/
def parseStep (w : Outside) (σ : Sched) (rec : PRec) (isRoot : Bool) (p : Path) (pid id0 : String)
    (doc : GoVal) (draft : Draft) (c : Id) : M PState Unit := do
  let b ← isKind w.env doc [.bool]
  match (decide (draft ≥ Draft6) && b), doc with
  | true, .bool x => setNode c { doc := doc.view, draft := draft, pass := some x }
  | true, _ => M.fail .panic
  | false, _ => do
    let b ← isKind w.env doc [.map]
    if !b then M.err .parseError else
    match doc with
    | .obj m => parseObject w σ rec isRoot p pid id0 m draft c
    | _ => M.fail .panic

/-- `parseSchema` on nodes other than the root, with at most `fuel` nested calls. -/
def parseSchema (w : Outside) (σ : Sched) : Nat → PRec
  | 0 => fun _ _ _ _ _ _ => M.fail .fuel
  | n + 1 => fun p pid id0 doc draft c => parseStep w σ (parseSchema w σ n) false p pid id0 doc draft c

/-- `Schema.parse` (`/repo/schema.go` 61-64): the root node. -/
def parseRoot (w : Outside) (σ : Sched) (fuel : Nat) (p : Path) (documentReference : String) (doc : GoVal)
    (draft : Draft) : M PState Id := do
  let c ← alloc doc draft
  parseStep w σ (parseSchema w σ fuel) true p documentReference documentReference doc draft c
  return c


/-- `d.parse(doc, draft)` with a fresh reference pool (`/repo/schemaLoader.go` 155-159, 200). -/
def runParse (w : Outside) (σ : Sched) (fuel : Nat) (p : Path) (ref : String) (doc : GoVal) (draft : Draft) :
    M State Schema := fun l =>
  match parseRoot w σ fuel p ref doc draft { l := l } with
  | (.ok c, s) => (.ok ⟨s.heap, c, s.refs⟩, s.l)
  | (.error e, s) => (.error e, s.l)

/-- The draft to compile with (`/repo/schemaLoader.go` 189-198). -/
def rootDraft (w : Outside) (doc : GoVal) : M State Draft := do
  let l ← M.get
  if l.autoDetect then do
    let x ← parseSchemaURL w doc
    return x.2.getD l.draft
  else return l.draft

/-- `err = …parseReferences(…); if err != nil { return err }`. -/
def failIf (x : GoVal × Option CErr) : M State GoVal :=
  match x.2 with
  | some e => M.err e
  | none => return x.1

/-- A `JSONLoader` argument (`LoaderArg`): `NewRawLoader(g)` or `NewReferenceLoader` with a file system. -/
inductive GoArg where
  | raw (g : GoVal)
  | reference (source : String) (fs : Factory)

/-- `JsonReference()` (`/repo/jsonLoader.go` 106-108, 366-368). -/
def GoArg.ref (w : Outside) : GoArg → Option String
  | .raw _ => w.norm "#"
  | .reference source _ => w.norm source

/-- `LoaderFactory()` (`/repo/jsonLoader.go` 110-114, 369-371). -/
def GoArg.factory : GoArg → Factory
  | .raw _ => 0
  | .reference _ fs => fs

/-- `LoadJSON()` called on a loader passed by the user. -/
def loadJSON (w : Outside) (a : GoArg) : M State GoVal := fun l =>
  match a with
  | .raw g => (.ok g, l)
  | .reference source fs =>
    let l' := { l with own := l.own ++ [(fs, source)] }
    match loadReference w.toWorld l.clock fs source with
    | some d => (.ok (ofJson d), l')
    | none => (.error (.err (.load source)), l')

/-- The document to compile (`/repo/schemaLoader.go` 161-181). -/
def rootDocument (w : Outside) (σ : Sched) (p : Path) (a : GoArg) (ref : String) : M State GoVal :=
  if ref != "" then do
    let e ← getDocument w σ (60 :: p) ref
    return e.doc
  else do
    let doc ← loadJSON w a
    let x ← parseReferences w σ (61 :: p) doc ref true
    failIf x

/-- `if sl.Validate { validateMetaschema(doc) }`. -/
def whenValidate (hook : M State Unit) : M State Unit := do
  let l ← M.get
  if l.validate then hook else return ()

/-- `Compile` (`/repo/schemaLoader.go` 147-206) over the function that validates against the meta-schema. -/
def compileG (w : Outside) (σ : Sched) (fuel : Fuel) (hook : Path → GoVal → M State Unit) (p : Path) (a : GoArg) :
    M State Schema :=
  match a.ref w with
  | none => M.err (.badReference "#")
  | some ref => do
    M.modify (fun l => { l with factory := a.factory })
    let doc ← rootDocument w σ p a ref
    whenValidate (hook p doc)
    let draft ← rootDraft w doc
    runParse w σ fuel.parse (62 :: p) ref doc draft

/-- The nested `Compile` of `validateMetaschema`, with `Validate` off. -/
def compileInner (w : Outside) (σ : Sched) (fuel : Fuel) (p : Path) (a : GoArg) : M State Schema :=
  compileG w σ fuel (fun _ _ => return ()) p a

/-- The `$schema` of a document if detection is on (`/repo/schemaLoader.go` 54-59). -/
def detectedURL (w : Outside) (doc : GoVal) : M State String := do
  let l ← M.get
  if l.autoDetect then do
    let x ← parseSchemaURL w doc
    return x.1
  else return ""

/-- Which meta-schema to use (`/repo/schemaLoader.go` 50-67); `none`: nothing to do. -/
def metaSchemaURL (w : Outside) (doc : GoVal) : M State (Option String) := do
  let schema ← detectedURL w doc
  let l ← M.get
  if schema == "" then
    if l.draft == Hybrid then return none
    else return some (getSchemaURL l.draft)
  else return some schema

/-- `validateDocument` and the error made of its result (`/repo/schemaLoader.go` 80-91). -/
def checkDocument (w : Outside) (σ : Sched) (fuel : Fuel) (s : Schema) (doc : GoVal) : M State Unit :=
  match rawDocument w.raw σ s.heap fuel.validate s.root doc with
  | .ok r => if r.valid then return () else M.err (.metaSchema r.errors)
  | .error .panic => M.fail .panic
  | .error .fuel => M.fail .fuel

/-- `validateMetaschema` (`/repo/schemaLoader.go` 48-92). -/
def validateMetaschema (w : Outside) (σ : Sched) (fuel : Fuel) (p : Path) (doc : GoVal) : M State Unit := do
  let u ← metaSchemaURL w doc
  match u with
  | none => return ()
  | some schema => do
    M.modify (fun l => { l with validate := false })
    let s ← compileInner w σ fuel (63 :: p) (.reference schema 0)
    M.modify (fun l => { l with validate := true })
    checkDocument w σ fuel s doc

/-- `Compile` (`/repo/schemaLoader.go` 147-206). -/
def compile (w : Outside) (σ : Sched) (fuel : Fuel) (p : Path) (a : GoArg) : M State Schema :=
  compileG w σ fuel (validateMetaschema w σ fuel) p a

/-- `NewSchema(NewRawLoader(g))` (`/repo/schema.go` 49-51). -/
def newSchema (w : Outside) (σ : Sched) (fuel : Fuel) (g : GoVal) : Except Fail Schema :=
  (compile w σ fuel [] (.raw g) {}).1

end GJS.RawS

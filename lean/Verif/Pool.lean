import Verif.Mon
import Verif.Drafts
/-
The schema pool: `/repo/schemaPool.go`, `parseSchemaURL` in `/repo/draft.go`, and loading by
reference in `/repo/jsonLoader.go`.
-/
namespace GJS

/-- A file system passed to `NewReferenceLoaderFileSystem`; `0` is `osFS`
(`/repo/jsonLoader.go` 45, 87-92).  `JSONLoaderFactory` values are identified with the file
system they use (`/repo/jsonLoader.go` 61-84). -/
abbrev Factory := Nat

/-- Everything outside the package. -/
structure World where
  env : Env
  /-- `gojsonreference.NewJsonReference(text)`, if it succeeds.  A `JsonReference` is identified
  with its `String()`. -/
  norm : String → Option String
  /-- `parent.Inherits(child)` -/
  inherits : String → String → Option String
  /-- the reference with its URL fragment set to `""` -/
  base : String → String
  /-- `IsCanonical` -/
  canonical : String → Bool
  /-- `reference.GetPointer().Get(document)` -/
  pointer : String → Json → Option Json
  /-- `HasFileScheme` -/
  isFile : String → Bool
  /-- file name of a `file:` reference (`/repo/jsonLoader.go` 148-161), if it can be unescaped -/
  fileName : String → Option String
  /-- what reading and decoding a file of a file system yields; the number counts loads -/
  readFile : Nat → Factory → String → Option Json
  /-- what an HTTP request yields (status, reading and decoding included) -/
  http : Nat → String → Option Json
  /-- `decodeJSONUsingNumber` of a text (`/repo/jsonLoader.go` 372-386) -/
  decode : String → Option Json

/-- Entries of the pool (`/repo/schemaPool.go` 37-40).  -/
structure PoolDoc where
  doc : Json
  draft : Option Draft

/-- The state of a `SchemaLoader` and its pool (`/repo/schemaLoader.go` 25-30,
`/repo/schemaPool.go` 42-46), with logs (ghost) of the loads made by the pool and of those
made by a loader passed to the API. -/
structure LState where
  pool : List (String × PoolDoc) := []
  factory : Factory := 0
  autoDetect : Bool := true
  validate : Bool := false
  draft : Draft := Hybrid
  log : List (Factory × String) := []
  own : List (Factory × String) := []

/-- Number of loads so far; the outside world may answer differently each time. -/
def LState.clock (l : LState) : Nat := l.log.length + l.own.length

/-- `m[k] = v`. -/
def putKey (k : String) (v : α) (l : List (String × α)) : List (String × α) :=
  (k, v) :: l.filter (fun e => e.1 != k)

/-- Replace the value of an existing key in place. -/
def replaceKey (k : String) (v : α) (l : List (String × α)) : List (String × α) :=
  l.map (fun e => if e.1 == k then (e.1, v) else e)

/-- `reflect.Kind`s that matter. -/
inductive Kind where
  | invalid | bool | string | slice | map | struct
deriving DecidableEq, Repr

/-- `reflect.ValueOf(v).Kind()`; a `json.Number` is a string. -/
def rawKind : Json → Kind
  | .null => .invalid
  | .bool _ => .bool
  | .num _ => .string
  | .str _ => .string
  | .arr _ => .slice
  | .obj _ => .map

/-- `isKind` (`/repo/utils.go` 34-47): a number is replaced by its `big.Rat`, a struct; the nil
pointer `mustBeNumber` returns for unacceptable literals is dereferenced. -/
def isKind (env : Env) (v : Json) (ks : List Kind) : M σ Bool :=
  match v with
  | .num n => if env.ratOk n then pure (ks.contains .struct) else M.fail .panic
  | v => pure (ks.contains (rawKind v))

/-- `parseSchemaURL` (`/repo/draft.go` 90-125): the normalised `$schema` (empty if absent) and
the draft it stands for. -/
def parseSchemaURL (w : World) (doc : Json) : M σ (String × Option Draft) := do
  let b ← isKind w.env doc [.bool]
  if b then return ("", none) else
  let b ← isKind w.env doc [.map]
  if !b then M.err .schemaInvalid else
  match doc with
  | .obj m =>
    match getKey "$schema" m with
    | none => return ("", none)
    | some v => do
      let b ← isKind w.env v [.string]
      if !b then M.err (.mustBeOfType "$schema" TYPE_STRING) else
      match v with
      | .str t =>
        match w.norm t with
        | none => M.err (.badReference t)
        | some u => return (u, getDraftVersion u)
      | _ => M.fail .panic
  | _ => M.fail .panic
where TYPE_STRING := "string"

/-- The `$id` block of `parseReferencesRecursive` (`/repo/schemaPool.go` 91-96): the text of the
identifier if there is one. -/
def idText (w : World) (m : List (String × Json)) : M σ (Option String) :=
  let keyID := if existsMapKey m "id" then "id" else "$id"
  match getKey keyID m with
  | none => return none
  | some v => do
    let b ← isKind w.env v [.string]
    match b, v with
    | true, .str t => return some t
    | _, _ => return none

/-- The scope in force inside a map and the pool key to register it under
(`/repo/schemaPool.go` 96-99).  An error of `Inherits` leaves a nil pointer that the loop
dereferences. -/
def idScope (w : World) (ref : String) (id : Option String) : M σ (String × Option String) :=
  match id with
  | none => return (ref, none)
  | some t =>
    match w.norm t with
    | none => return (ref, none)
    | some r =>
      match w.inherits ref r with
      | none => M.fail .panic
      | some l => return (l, some l)

/-- Replacement of a `$ref` string by the absolute reference (`/repo/schemaPool.go` 108-116). -/
def rewriteRef (w : World) (localRef : String) (m : List (String × Json)) : M σ (List (String × Json)) :=
  match getKey "$ref" m with
  | none => return m
  | some v => do
    let b ← isKind w.env v [.string]
    match b, v with
    | true, .str t =>
      match (w.norm t).bind (w.inherits localRef) with
      | some a => return replaceKey "$ref" (.str a) m
      | none => return m
    | _, _ => return m

/-- Map-valued keywords whose members, not themselves, are schemas
(`/repo/schemaPool.go` 125). -/
def isSchemaMap (k : String) : Bool := k == "properties" || k == "dependencies" || k == "patternProperties"

/-- `for k, v := range m` with in-place changes of the values: `f` returns the new value. -/
def rangeKV (f : Nat → String → Json → M σ Json) :
    Nat → List (String × Json) → List (String × Json) → M σ (List (String × Json))
  | _, [], m => return m
  | i, (k, v) :: rest, m => do
    let v' ← f i k v
    rangeKV f (i + 1) rest (replaceKey k v' m)

/-- The recursive calls for one member of a map (`/repo/schemaPool.go` 119-133). -/
def rewriteMember (σ : Sched) (rec : Path → String → Json → M LState Json) (p : Path) (localRef : String)
    (k : String) (v : Json) : M LState Json :=
  if k == "const" || k == "enum" then return v
  else if isSchemaMap k then
    match v with
    | .obj child => do
      let child' ← rangeKV (fun j _ x => rec (j :: 54 :: p) localRef x) 0 (σ.order (53 :: p) child) child
      return .obj child'
    | v => return v
  else rec p localRef v

/-- Whether the pool has an entry (`_, ok := p.schemaPoolDocuments[k]`). -/
def inPool (k : String) : M LState Bool := do
  let l ← M.get
  return existsMapKey l.pool k

/-- `p.schemaPoolDocuments[k] = …` -/
def putPool (k : String) (d : PoolDoc) : M LState Unit :=
  M.modify (fun l => { l with pool := putKey k d l.pool })

/-- Registration under an identifier, if any. -/
def register (o : Option String) (d : PoolDoc) : M LState Unit :=
  match o with
  | some k => putPool k d
  | none => return ()

/-- Whether the identifier is taken (`/repo/schemaPool.go` 100). -/
def taken (o : Option String) : M LState Bool :=
  match o with
  | some k => inPool k
  | none => return false

/-- `parseReferencesRecursive` (`/repo/schemaPool.go` 76-137) on a map.

The Go code changes maps in place, so that the entry registered under an identifier and the
enclosing document share structure.  Here the rewritten map is returned, and an entry is
written twice: first to occupy the key, then with the rewritten map.  Nothing reads the
content in between. -/
def rewriteObj (w : World) (σ : Sched) (rec : Path → String → Json → M LState (Json × Option CErr))
    (p : Path) (ref : String) (draft : Option Draft) (m : List (String × Json)) :
    M LState (Json × Option CErr) := do
  let id ← idText w m
  let sc ← idScope w ref id
  let t ← taken sc.2
  if t then return (.obj m, some (.referenceAlreadyExists sc.1)) else
  register sc.2 ⟨.obj m, draft⟩
  let m1 ← rewriteRef w sc.1 m
  let m2 ← rangeKV (fun k key v => rewriteMember σ (fun p r v => do let x ← rec p r v; return x.1)
    (k :: 52 :: p) sc.1 key v) 0 (σ.order (51 :: p) m1) m1
  register sc.2 ⟨.obj m2, draft⟩
  return (.obj m2, none)

/-- `parseReferencesRecursive` (`/repo/schemaPool.go` 76-137): the rewritten document and the
returned error.  Errors of nested calls are ignored, as in the code. -/
def rewrite (w : World) (σ : Sched) (draft : Option Draft) :
    Nat → Path → String → Json → M LState (Json × Option CErr)
  | 0 => fun _ _ _ => M.fail .fuel
  | n + 1 => fun p ref doc =>
    match doc with
    | .arr xs => do
      let ys ← mapL (fun k x => do let y ← rewrite w σ draft n (k :: 50 :: p) ref x; return y.1) 0 xs
      return (.arr ys, none)
    | .obj m => rewriteObj w σ (rewrite w σ draft n) p ref draft m
    | v => return (v, none)

/-- Draft detection of `parseReferences` (`/repo/schemaPool.go` 60-65). -/
def detectDraft (w : World) (doc : Json) : M LState (Option Draft) := do
  let l ← M.get
  if l.autoDetect then do
    let x ← parseSchemaURL w doc
    return x.2
  else return none

/-- Add the root document if `pooled` (`/repo/schemaPool.go` 69-71). -/
def putIf (b : Bool) (k : String) (d : PoolDoc) : M LState Unit :=
  if b then putPool k d else return ()

/-- `parseReferences` (`/repo/schemaPool.go` 48-74): the rewritten document and the returned
error (the caller keeps using the document even when an error is returned; a failure of the
computation itself is an error returned before anything was changed). -/
def parseReferences (w : World) (σ : Sched) (p : Path) (doc : Json) (ref : String) (pooled : Bool) :
    M LState (Json × Option CErr) := do
  let there ← inPool ref
  if pooled && there then return (doc, some (.referenceAlreadyExists ref)) else
  let draft ← detectDraft w doc
  let x ← rewrite w σ draft doc.size p ref doc
  putIf pooled ref ⟨x.1, draft⟩
  return x

/-- `jsonReferenceLoader.loadFromHTTP` (`/repo/jsonLoader.go` 180-204). -/
def loadFromHTTP (w : World) (n : Nat) (address : String) : Option Json :=
  if getMetaSchema address != "" then w.decode (getMetaSchema address) else w.http n address

/-- `jsonReferenceLoader.LoadJSON` (`/repo/jsonLoader.go` 132-178), through a file system. -/
def loadReference (w : World) (n : Nat) (f : Factory) (source : String) : Option Json :=
  match w.norm source with
  | none => none
  | some r =>
    let u := w.base r
    if w.isFile r then (w.fileName u).bind (w.readFile n f)
    else loadFromHTTP w n u

/-- Load a reference through the loader factory in force (`/repo/schemaPool.go` 195-200). -/
def fetch (w : World) (reference : String) : M LState Json := fun l =>
  let l' := { l with log := l.log ++ [(l.factory, reference)] }
  match loadReference w l.clock l.factory reference with
  | some d => (.ok d, l')
  | none => (.error (.err (.load reference)), l')

/-- `parseReferences(document, refToURL, true)` with its error ignored
(`/repo/schemaPool.go` 203): an error returned early leaves document and pool alone. -/
def parseReferencesIgnore (w : World) (σ : Sched) (p : Path) (doc : Json) (ref : String) :
    M LState Json := fun l =>
  match parseReferences w σ p doc ref true l with
  | (.ok x, l') => (.ok x.1, l')
  | (.error (.err _), l') => (.ok doc, l')
  | (.error e, l') => (.error e, l')

/-- `_, draft, _ = parseSchemaURL(document)` (`/repo/schemaPool.go` 205). -/
def schemaDraftIgnore (w : World) (doc : Json) : M LState (Option Draft) := fun l =>
  match parseSchemaURL w doc l with
  | (.ok x, l') => (.ok x.2, l')
  | (.error (.err _), l') => (.ok none, l')
  | (.error e, l') => (.error e, l')

/-- Read an entry of the pool. -/
def poolGet (k : String) : M LState (Option PoolDoc) := do
  let l ← M.get
  return getKey k l.pool

/-- `reference.GetPointer().Get(document)` (`/repo/schemaPool.go` 171, 208). -/
def pointerGet (w : World) (reference : String) (doc : Json) : M LState Json :=
  match w.pointer reference doc with
  | some d => return d
  | none => M.err (.pointer reference)

/-- The second case of `GetDocument` (`/repo/schemaPool.go` 170-185): the document is in the
pool under the base URL. -/
def getCached (w : World) (reference : String) (e : PoolDoc) : M LState PoolDoc := do
  let d ← pointerGet w reference e.doc
  putPool reference ⟨d, e.draft⟩
  return ⟨d, e.draft⟩

/-- The third case of `GetDocument` (`/repo/schemaPool.go` 187-214): load it. -/
def getRemote (w : World) (σ : Sched) (p : Path) (reference : String) : M LState PoolDoc :=
  if !w.canonical reference then M.err (.referenceMustBeCanonical reference) else do
  let doc ← fetch w reference
  let doc ← parseReferencesIgnore w σ p doc (w.base reference)
  let draft ← schemaDraftIgnore w doc
  let d ← pointerGet w reference doc
  return ⟨d, draft⟩

/-- `GetDocument` (`/repo/schemaPool.go` 139-215). -/
def getDocument (w : World) (σ : Sched) (p : Path) (reference : String) : M LState PoolDoc := do
  let e1 ← poolGet reference
  match e1 with
  | some e => return e
  | none => do
    let e2 ← poolGet (w.base reference)
    match e2 with
    | some e => getCached w reference e
    | none => getRemote w σ p reference

end GJS

import Verif.Pool
/-
Rewriting in place: `parseReferences`, `parseReferencesRecursive` and `GetDocument` of
`/repo/schemaPool.go` on documents whose maps live in memory and are shared between a document, the
entries of the pool and the caller.  (`Pool` has the same functions on immutable documents.)
-/
namespace GJS.Mem
open GJS

/-- The Go values of a document.  A map is known by its address.  Slices are never assigned to by the
functions below, so they are values here. -/
inductive Val where
  | null
  | bool (b : Bool)
  | num (n : NumLit)
  | str (s : String)
  | arr (xs : List Val)
  | map (a : Nat)
deriving Inhabited

/-- The contents of maps, by address. -/
abbrev Cells := Nat → List (String × Val)

/-- `m[k] = v` for a key that is there, and `m` the map at address `a`. -/
def Cells.set (h : Cells) (a : Nat) (m : List (String × Val)) : Cells := fun b => if b = a then m else h b

/-- A `schemaPoolDocument` (`/repo/schemaPool.go` 37-40). -/
structure Entry where
  doc : Val
  draft : Option Draft

/-- Memory and the pool (`/repo/schemaPool.go` 42-46), with the logs of `LState`; addresses from `next`
on are free. -/
structure State where
  mem : Cells
  next : Nat
  pool : List (String × Entry) := []
  factory : Factory := 0
  autoDetect : Bool := true
  log : List (Factory × String) := []
  own : List (Factory × String) := []

/-- `reflect.ValueOf(v).Kind()`. -/
def rawKind : Val → Kind
  | .null => .invalid
  | .bool _ => .bool
  | .num _ => .string
  | .str _ => .string
  | .arr _ => .slice
  | .map _ => .map

/-- `isKind` (`/repo/utils.go` 34-47), as in `Pool`. -/
def isKind (env : Env) (v : Val) (ks : List Kind) : M State Bool :=
  match v with
  | .num n => if env.ratOk n then pure (ks.contains .struct) else M.fail .panic
  | v => pure (ks.contains (rawKind v))

/-- Read a map. -/
def readMap (a : Nat) : M State (List (String × Val)) := do
  let s ← M.get
  return s.mem a

/-- `parseSchemaURL` (`/repo/draft.go` 90-125). -/
def parseSchemaURL (w : World) (doc : Val) : M State (String × Option Draft) := do
  let b ← isKind w.env doc [.bool]
  if b then return ("", none) else
  let b ← isKind w.env doc [.map]
  if !b then M.err .schemaInvalid else
  match doc with
  | .map a => do
    let m ← readMap a
    match getKey "$schema" m with
    | none => return ("", none)
    | some v => do
      let b ← isKind w.env v [.string]
      if !b then M.err (.mustBeOfType "$schema" "string") else
      match v with
      | .str t =>
        match w.norm t with
        | none => M.err (.badReference t)
        | some u => return (u, getDraftVersion u)
      | _ => M.fail .panic
  | _ => M.fail .panic

/-- The text of the identifier of a map, if there is one (`/repo/schemaPool.go` 89-94). -/
def idText (w : World) (m : List (String × Val)) : M State (Option String) :=
  let keyID := if existsMapKey m "id" then "id" else "$id"
  match getKey keyID m with
  | none => return none
  | some v => do
    let b ← isKind w.env v [.string]
    match b, v with
    | true, .str t => return some t
    | _, _ => return none

/-- Whether the pool has an entry. -/
def inPool (k : String) : M State Bool := do
  let s ← M.get
  return existsMapKey s.pool k

/-- `p.schemaPoolDocuments[k] = …` -/
def putPool (k : String) (e : Entry) : M State Unit :=
  M.modify fun s => { s with pool := putKey k e s.pool }

/-- Registration under an identifier, if any (`/repo/schemaPool.go` 103). -/
def register (o : Option String) (e : Entry) : M State Unit :=
  match o with
  | some k => putPool k e
  | none => return ()

/-- Whether the identifier is taken (`/repo/schemaPool.go` 100). -/
def taken (o : Option String) : M State Bool :=
  match o with
  | some k => inPool k
  | none => return false

/-- `m["$ref"] = absoluteRef.String()` (`/repo/schemaPool.go` 108-116). -/
def rewriteRef (w : World) (localRef : String) (a : Nat) : M State Unit := do
  let m ← readMap a
  match getKey "$ref" m with
  | none => return ()
  | some v => do
    let b ← isKind w.env v [.string]
    match b, v with
    | true, .str t =>
      match (w.norm t).bind (w.inherits localRef) with
      | some u => M.modify fun s => { s with mem := s.mem.set a (replaceKey "$ref" (.str u) (s.mem a)) }
      | none => return ()
    | _, _ => return ()

/-- `for k, v := range m`: the keys in some order, each value read when its turn comes. -/
def rangeMap (a : Nat) (f : Nat → String → Val → M State Unit) : Nat → List String → M State Unit
  | _, [] => return ()
  | i, k :: ks => do
    let m ← readMap a
    match getKey k m with
    | none => rangeMap a f (i + 1) ks
    | some v => do
      f i k v
      rangeMap a f (i + 1) ks

/-- `for _, v := range m` over a slice. -/
def rangeSlice (f : Nat → Val → M State Unit) : Nat → List Val → M State Unit
  | _, [] => return ()
  | i, v :: vs => do
    f i v
    rangeSlice f (i + 1) vs

/-- The recursive calls for one member of a map (`/repo/schemaPool.go` 119-133). -/
def rewriteMember (σ : Sched) (rec : Path → String → Val → M State Unit) (p : Path) (localRef : String)
    (k : String) (v : Val) : M State Unit :=
  if k == "const" || k == "enum" then return ()
  else if isSchemaMap k then
    match v with
    | .map c => do
      let m ← readMap c
      rangeMap c (fun j _ x => rec (j :: 54 :: p) localRef x) 0 ((σ.order (53 :: p) m).map Prod.fst)
    | _ => return ()
  else rec p localRef v

/-- `parseReferencesRecursive` (`/repo/schemaPool.go` 76-137): the error it returns.  Errors of nested
calls are ignored, as in the code.  The number bounds the nesting of calls. -/
def rewrite (w : World) (σ : Sched) (draft : Option Draft) : Nat → Path → String → Val → M State (Option CErr)
  | 0 => fun _ _ _ => M.fail .fuel
  | n + 1 => fun p ref doc =>
    match doc with
    | .arr xs => do
      rangeSlice (fun k x => do let _ ← rewrite w σ draft n (k :: 50 :: p) ref x; return ()) 0 xs
      return none
    | .map a => do
      let m ← readMap a
      let id ← idText w m
      let sc ← idScope w ref id
      let t ← taken sc.2
      if t then return some (.referenceAlreadyExists sc.1) else
      register sc.2 ⟨.map a, draft⟩
      rewriteRef w sc.1 a
      let m1 ← readMap a
      rangeMap a (fun k key v => rewriteMember σ (fun p r v => do let _ ← rewrite w σ draft n p r v; return ())
        (k :: 52 :: p) sc.1 key v) 0 ((σ.order (51 :: p) m1).map Prod.fst)
      return none
    | _ => return none

/-- Draft detection of `parseReferences` (`/repo/schemaPool.go` 60-65). -/
def detectDraft (w : World) (doc : Val) : M State (Option Draft) := do
  let s ← M.get
  if s.autoDetect then do
    let x ← parseSchemaURL w doc
    return x.2
  else return none

/-- Add the root document if `pooled` (`/repo/schemaPool.go` 69-71). -/
def putIf (b : Bool) (k : String) (e : Entry) : M State Unit :=
  if b then putPool k e else return ()

/-- `parseReferences` (`/repo/schemaPool.go` 48-74): the error it returns after the document was gone
through; a failure of the computation is an error returned before. -/
def parseReferences (w : World) (σ : Sched) (n : Nat) (p : Path) (doc : Val) (ref : String) (pooled : Bool) :
    M State (Option CErr) := do
  let there ← inPool ref
  if pooled && there then return some (.referenceAlreadyExists ref) else
  let draft ← detectDraft w doc
  let x ← rewrite w σ draft n p ref doc
  putIf pooled ref ⟨doc, draft⟩
  return x

mutual
/-- Decoding a document builds new maps. -/
def alloc : Json → M State Val
  | .null => return .null
  | .bool b => return .bool b
  | .num n => return .num n
  | .str t => return .str t
  | .arr xs => do
    let vs ← allocL xs
    return .arr vs
  | .obj m => do
    let vs ← allocM m
    let s ← M.get
    M.modify fun s => { s with mem := s.mem.set s.next vs, next := s.next + 1 }
    return .map s.next
/-- ... for a list -/
def allocL : List Json → M State (List Val)
  | [] => return []
  | x :: xs => do
    let v ← alloc x
    let vs ← allocL xs
    return v :: vs
/-- ... for members -/
def allocM : List (String × Json) → M State (List (String × Val))
  | [] => return []
  | (k, x) :: m => do
    let v ← alloc x
    let vs ← allocM m
    return (k, v) :: vs
end

/-- Load a reference through the loader factory in force (`/repo/schemaPool.go` 195-200). -/
def fetch (w : World) (reference : String) : M State Val := fun s =>
  let s' := { s with log := s.log ++ [(s.factory, reference)] }
  match loadReference w (s.log.length + s.own.length) s.factory reference with
  | some d => alloc d s'
  | none => (.error (.err (.load reference)), s')

/-- `p.parseReferences(document, refToURL, true)`, its error ignored (`/repo/schemaPool.go` 203). -/
def parseReferencesIgnore (w : World) (σ : Sched) (n : Nat) (p : Path) (doc : Val) (ref : String) : M State Unit := fun s =>
  match parseReferences w σ n p doc ref true s with
  | (.ok _, s') => (.ok (), s')
  | (.error (.err _), s') => (.ok (), s')
  | (.error e, s') => (.error e, s')

/-- `_, draft, _ = parseSchemaURL(document)` (`/repo/schemaPool.go` 205). -/
def schemaDraftIgnore (w : World) (doc : Val) : M State (Option Draft) := fun s =>
  match parseSchemaURL w doc s with
  | (.ok x, s') => (.ok x.2, s')
  | (.error (.err _), s') => (.ok none, s')
  | (.error e, s') => (.error e, s')

/-- `reference.GetPointer().Get(document)`, given by `look`. -/
def pointerGet (look : String → Cells → Val → Option Val) (reference : String) (doc : Val) : M State Val := do
  let s ← M.get
  match look reference s.mem doc with
  | some v => return v
  | none => M.err (.pointer reference)

/-- The third case of `GetDocument` (`/repo/schemaPool.go` 187-214): load it. -/
def getRemote (w : World) (look : String → Cells → Val → Option Val) (σ : Sched) (n : Nat) (p : Path) (reference : String) : M State Entry :=
  if !w.canonical reference then M.err (.referenceMustBeCanonical reference) else do
  let doc ← fetch w reference
  parseReferencesIgnore w σ n p doc (w.base reference)
  let draft ← schemaDraftIgnore w doc
  let d ← pointerGet look reference doc
  return ⟨d, draft⟩

/-- Read an entry of the pool. -/
def poolGet (k : String) : M State (Option Entry) := do
  let s ← M.get
  return getKey k s.pool

/-- `GetDocument` (`/repo/schemaPool.go` 139-215). -/
def getDocument (w : World) (look : String → Cells → Val → Option Val) (σ : Sched) (n : Nat) (p : Path) (reference : String) : M State Entry := do
  let e1 ← poolGet reference
  match e1 with
  | some e => return e
  | none => do
    let e2 ← poolGet (w.base reference)
    match e2 with
    | some e => do
      let d ← pointerGet look reference e.doc
      putPool reference ⟨d, e.draft⟩
      return ⟨d, e.draft⟩
    | none => getRemote w look σ n p reference

end GJS.Mem

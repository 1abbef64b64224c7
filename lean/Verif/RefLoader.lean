import Verif.Decode
import Verif.CompileTexts
import Verif.SpecText
/-
`jsonReferenceLoader.LoadJSON` down to file systems, HTTP and bytes (`/repo/jsonLoader.go` 95-222).

What a reference is (`gojsonreference`) stays a parameter, as in `Verif.Pool`.  Files and response
bodies are read by `ioutil.ReadAll`, so that only the bytes before their end and whether reading
them fails matter.  What happens outside is recorded as a list of events.
-/
namespace GJS.Ref
open GJS Text Spec
open GJS.Io (Bytes)

/-- What `ioutil.ReadAll` finds in a file or a body. -/
structure Source where
  bytes : Bytes
  fails : Bool := false

/-- `*http.Response` (`StatusCode`, `Status`, `Body`). -/
structure Response where
  code : Nat
  status : String
  body : Source

/-- The outside: `runtime.GOOS == "windows"`, `fs.Open`, `http.Get`.  The number counts loads, as
the answers may differ from one to the next. -/
structure Machine where
  windows : Bool := false
  openFile : Nat → Factory → Bytes → Option Source
  get : Nat → String → Option Response

/-- What a load does outside the program. -/
inductive Event where
  /-- `fs.Open(name)` fails -/
  | refused (name : Bytes)
  /-- `fs.Open(name)` succeeds -/
  | opened (name : Bytes)
  /-- `ioutil.ReadAll` -/
  | readAll
  /-- `f.Close()` -/
  | closed
  /-- `http.Get(address)` fails -/
  | unanswered (address : String)
  /-- `http.Get(address)` succeeds -/
  | answered (address : String)
  /-- `resp.Body.Close()` -/
  | bodyClosed
deriving DecidableEq, Repr

/-- Why a load fails. -/
inductive LoadErr where
  | reference
  | escape
  | open_
  | get
  | read
  | status (text : String)
  | decode (e : DecErr)
deriving DecidableEq, Repr

/-- `url.QueryUnescape` of `net/url`. -/
def queryUnescape : Bytes → Option Bytes
  | [] => some []
  | c :: r =>
    if c = 0x25 then
      match r with
      | a :: b :: r' =>
        match hexVal? a, hexVal? b with
        | some x, some y => (queryUnescape r').map (UInt8.ofNat (16 * x + y) :: ·)
        | _, _ => none
      | _ => none
    else if c = 0x2B then (queryUnescape r).map (0x20 :: ·)
    else (queryUnescape r).map (c :: ·)

/-- `strings.TrimPrefix`. -/
def trimPrefix (p s : Bytes) : Bytes := if p.isPrefixOf s then s.drop p.length else s

/-- `filepath.FromSlash` on Windows. -/
def fromSlash (s : Bytes) : Bytes := s.map fun c => if c = 0x2F then 0x5C else c

/-- The file name (`/repo/jsonLoader.go` 148-160). -/
def fileName (windows : Bool) (u : Bytes) : Option Bytes :=
  match queryUnescape (trimPrefix (ascii "file://") u) with
  | none => none
  | some f => some (if windows then fromSlash (trimPrefix (ascii "/") f) else f)

/-- What follows the opening of a file or the reading of a header: `ioutil.ReadAll` and
`decodeJSONUsingNumber`. -/
def readBytes (s : Source) : Except LoadErr Json :=
  if s.fails then .error .read else (decode maxDepth s.bytes).mapError .decode

/-- `loadFromFile` (`/repo/jsonLoader.go` 206-222); the file is closed by `defer`. -/
def loadFromFile (m : Machine) (n : Nat) (f : Factory) (path : Bytes) : List Event × Except LoadErr Json :=
  match m.openFile n f path with
  | none => ([.refused path], .error .open_)
  | some s => ([.opened path, .readAll, .closed], readBytes s)

/-- `loadFromHTTP` (`/repo/jsonLoader.go` 180-204), with the format of `DefaultLocale`
(`/repo/locales.go` 432-435). -/
def loadFromHTTP (pr : Msg.Printer) (m : Machine) (n : Nat) (address : String) : List Event × Except LoadErr Json :=
  if getMetaSchema address != "" then ([], (decode maxDepth (utf8 (getMetaSchema address))).mapError .decode)
  else
    match m.get n address with
    | none => ([.unanswered address], .error .get)
    | some a =>
      if a.code != 200 then
        ([.answered address], .error (.status (Msg.formatErrorDescription pr
          "Could not read schema from HTTP, response status is {{.status}}" [("status", .str a.status)])))
      else ([.answered address, .readAll], readBytes a.body)

/-- `LoadJSON` (`/repo/jsonLoader.go` 132-178). -/
def loadJSON (w : World) (pr : Msg.Printer) (m : Machine) (n : Nat) (f : Factory) (source : String) :
    List Event × Except LoadErr Json :=
  match w.norm source with
  | none => ([], .error .reference)
  | some r =>
    let u := w.base r
    if w.isFile r then
      match fileName m.windows (utf8 u) with
      | none => ([], .error .escape)
      | some name => loadFromFile m n f name
    else loadFromHTTP pr m n u

/-- The outside as the rest of the model sees it (`World`): only what the loads yield. -/
def Machine.world (m : Machine) (w : World) : World :=
  { w with
    fileName := fun u => if (fileName m.windows (utf8 u)).isSome then some u else none
    readFile := fun n f u => (fileName m.windows (utf8 u)).bind fun name => (loadFromFile m n f name).2.toOption
    http := fun n u =>
      match m.get n u with
      | none => none
      | some a => if a.code != 200 then none else (readBytes a.body).toOption
    decode := fun s => (decode maxDepth (utf8 s)).toOption }

end GJS.Ref

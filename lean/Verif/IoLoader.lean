/-
Loaders fed by a reader or a writer, `/repo/jsonLoader.go` 315-345 and 372-386, with the parts of the Go
library they consist of: `io.TeeReader`, `io.MultiWriter`, `bytes.Buffer`, the buffering of
`json.Decoder`.
-/
namespace GJS.Io

/-- Bytes. -/
abbrev Bytes := List UInt8

/-- Errors of readers and writers. -/
inductive IoErr where
  | eof
  | unexpectedEof
  | shortWrite
  | other (text : String)
deriving DecidableEq, Repr

/-- Any `io.Reader`, with its state: the bytes delivered for a request of at most `n` bytes, and an
error, possibly together with bytes. -/
structure Reader (τ : Type) where
  read : τ → Nat → (Bytes × Option IoErr) × τ

/-- Any `io.Writer`, with its state: how many bytes were taken, and an error. -/
structure Writer (τ : Type) where
  write : τ → Bytes → (Nat × Option IoErr) × τ

/-- The reader returned by `NewReaderLoader` (`/repo/jsonLoader.go` 320-323): `io.TeeReader(source, buf)`.
What has been read is written to the buffer; that cannot fail. The second component of the state is
the unread part of the buffer. -/
def teeReader (source : Reader τ) : Reader (τ × Bytes) where
  read st n :=
    let ((p, err), t) := source.read st.1 n
    if p.length > 0 then ((p, err), (t, st.2 ++ p)) else ((p, err), (t, st.2))

/-- The writer returned by `NewWriterLoader` (`/repo/jsonLoader.go` 326-329):
`io.MultiWriter(source, buf)`. -/
def multiWriter (source : Writer τ) : Writer (τ × Bytes) where
  write st p :=
    let ((n, err), t) := source.write st.1 p
    match err with
    | some e => ((n, some e), (t, st.2))
    | none =>
      if n ≠ p.length then ((n, some .shortWrite), (t, st.2))
      else ((p.length, none), (t, st.2 ++ p))

/-- `jsonIOLoader.JsonSource` (`/repo/jsonLoader.go` 331-333): the unread part of the buffer. -/
def jsonSource (buf : Bytes) : Bytes := buf

/-- The grammar part of `json.Decoder`: what a prefix of the input amounts to, `none` if more is needed,
and what the whole input amounts to when it ends there. -/
structure Scanner (α : Type) where
  scan : Bytes → Option (Except IoErr α)
  atEnd : Bytes → Except IoErr α

/-- `Decoder.Decode` on a `bytes.Buffer`: `have_` is what is in the decoder's own buffer, whose capacity is
`cap`; it is filled up by one read at a time, after making room for at least 512 bytes. The result
and what is left in the `bytes.Buffer`. -/
def decodeLoop (sc : Scanner α) : Nat → Nat → Bytes → Bytes → Except IoErr α × Bytes
  | 0, _, have_, buf => (sc.atEnd have_, buf)
  | fuel + 1, cap, have_, buf =>
    match sc.scan have_ with
    | some r => (r, buf)
    | none =>
      match buf with
      | [] => (sc.atEnd have_, [])
      | _ :: _ =>
        let cap' := if cap - have_.length < 512 then 2 * cap + 512 else cap
        let room := cap' - have_.length
        decodeLoop sc fuel cap' (have_ ++ buf.take room) (buf.drop room)

/-- `jsonIOLoader.LoadJSON` (`/repo/jsonLoader.go` 335-337): every read takes at least one byte, so the
length of the buffer bounds the number of reads. -/
def loadJSON (sc : Scanner α) (buf : Bytes) : Except IoErr α × Bytes :=
  decodeLoop sc (buf.length + 1) 0 [] buf

/-- What a program does with a reader loader and its reader. -/
inductive ReadOp where
  | read (n : Nat)
  | load

/-- What a program does with a writer loader and its writer. -/
inductive WriteOp where
  | write (p : Bytes)
  | load

/-- A program with the loader and the reader: the answers to the reads, and the final state. -/
def runReads (source : Reader τ) (sc : Scanner α) : List ReadOp → τ × Bytes → List (Bytes × Option IoErr) × (τ × Bytes)
  | [], st => ([], st)
  | .read n :: ops, st =>
    let (r, st) := (teeReader source).read st n
    let (rs, st) := runReads source sc ops st
    (r :: rs, st)
  | .load :: ops, st => runReads source sc ops (st.1, (loadJSON sc st.2).2)

/-- A program with the loader and the writer: the answers to the writes, and the final state. -/
def runWrites (source : Writer τ) (sc : Scanner α) : List WriteOp → τ × Bytes → List (Nat × Option IoErr) × (τ × Bytes)
  | [], st => ([], st)
  | .write p :: ops, st =>
    let (r, st) := (multiWriter source).write st p
    let (rs, st) := runWrites source sc ops st
    (r :: rs, st)
  | .load :: ops, st => runWrites source sc ops (st.1, (loadJSON sc st.2).2)

end GJS.Io

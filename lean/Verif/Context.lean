import Verif.Validate
/-
`JsonContext` and `Field`, `/repo/jsonContext.go` and `/repo/result.go`.
-/
namespace GJS

/-- `JsonContext.stringLen` (`/repo/jsonContext.go` 51-59), in bytes; the empty list stands for a
nil tail, for which the method is not called. -/
def ctxStringLen : Ctx → Nat
  | [] => 0
  | head :: tail =>
    let length := if tail ≠ [] then ctxStringLen tail + 1 else 0
    length + head.utf8ByteSize

/-- `JsonContext.writeStringToBuffer` (`/repo/jsonContext.go` 61-73): what is in the buffer
afterwards. -/
def ctxWrite (del : List String) : Ctx → String → String
  | [], buf => buf
  | head :: tail, buf =>
    let buf :=
      if tail ≠ [] then
        ctxWrite del tail buf ++ (match del with | d :: _ => d | [] => ".")
      else buf
    buf ++ head

/-- `JsonContext.String` (`/repo/jsonContext.go` 43-49); the method dereferences its receiver, so a
nil context panics. -/
def ctxString (del : List String) (c : Ctx) : Exec String :=
  match c with
  | [] => .error .panic
  | c => .ok (ctxWrite del c "")

/-- `p` removed from the front of `l`, if it is there. -/
def stripPrefix : List Char → List Char → Option (List Char)
  | [], l => some l
  | _ :: _, [] => none
  | p :: ps, c :: cs => if p = c then stripPrefix ps cs else none

/-- `strings.TrimPrefix`. -/
def trimPrefix (s p : String) : String :=
  match stripPrefix p.toList s.toList with
  | some r => String.ofList r
  | none => s

/-- `STRING_ROOT_SCHEMA_PROPERTY` (`/repo/locales.go` 471). -/
def rootProperty : String := "(root)"

/-- `ResultErrorFields.Field` (`/repo/result.go` 94-96). -/
def fieldOf (c : Ctx) : Exec String := do
  let s ← ctxString [] c
  return trimPrefix s (rootProperty ++ ".")

end GJS

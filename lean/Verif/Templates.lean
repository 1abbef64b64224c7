import Verif.Conc
/-
The cache of error templates as goroutines see it, `/repo/errors.go` 9-16 and 329-364.

`text/template` is a parameter: `parse` gives the trees a text defines, by name (the text itself is defined under
its own name, `{{define}}` adds others), `exec` renders a tree, `empty` says whether a tree is made of white
space only. `ErrorTemplateFuncs` is fixed and part of both. Not modelled: `{{template}}` actions, which look
up other trees while rendering.
-/
namespace GJS.Tpl
open Conc

/-- `text/template`. -/
structure Engine (T D : Type) where
  parse : String → Except String (List (String × T))
  exec : T → D → Except String String
  empty : T → Bool

/-- The map behind `errorTemplates`, with the flag the runtime sets while it is written. -/
structure Cache (T : Type) where
  trees : List (String × T) := []
  writing : Bool := false

/-- What can be seen of a call of `formatErrorDescription`. -/
inductive Event (D : Type) where
  | call (s : String) (d : D)
  | ret (s : String) (d : D) (text : String)

/-- A goroutine that makes descriptions. -/
inductive Prog (D : Type) where
  | stop
  | describe (s : String) (d : D) (k : String → Prog D)

/-- `(*Template).AddParseTree`: an empty tree does not replace another one. -/
def assoc (en : Engine T D) (e : String × T) (l : List (String × T)) : List (String × T) :=
  match List.lookup e.1 l with
  | none => e :: l
  | some _ => if en.empty e.2 then l else e :: l.filter (fun x => !(x.1 == e.1))

/-- `tpl.Execute` -/
def execute (en : Engine T D) (s : String) (d : D) : Option T → String
  | none => "template: " ++ s ++ ": \"" ++ s ++ "\" is an incomplete or empty template"
  | some t => match en.exec t d with
    | .ok text => text
    | .error e => e

/-- What the Go runtime says when a map is used while it is written. The process ends; here the
description is this text. -/
def fatal : String := "fatal error: concurrent map read and map write"

/-- The call returns. -/
def returns (s : String) (d : D) (k : String → Code (Cache T) (Event D)) (text : String) : Code (Cache T) (Event D) :=
  .emit (.ret s d text) (k text)

/-- `/repo/errors.go` 342-356: a new template, parsed and registered under the write lock. -/
def create (en : Engine T D) (s : String) (d : D) (k : String → Code (Cache T) (Event D)) : Code (Cache T) (Event D) :=
  .lock <| .get fun m =>
    if m.writing then .unlock (returns s d k fatal)
    else match en.parse s with
      | .error e => .unlock (returns s d k e)
      | .ok trees =>
        .put (fun m => { m with writing := true }) <|
        .put (fun m => { trees := trees.foldl (fun l e => assoc en e l) m.trees, writing := false }) <|
        .unlock (returns s d k (execute en s d (List.lookup s trees)))

/-- `formatErrorDescription`, `/repo/errors.go` 332-364. -/
def body (en : Engine T D) (s : String) (d : D) (k : String → Code (Cache T) (Event D)) : Code (Cache T) (Event D) :=
  .rlock <| .get fun m =>
    if m.writing then .runlock (returns s d k fatal)
    else match List.lookup s m.trees with
      | some t => .runlock (returns s d k (execute en s d (some t)))
      | none => .runlock (create en s d k)

/-- The program of a goroutine. -/
def code (en : Engine T D) : Prog D → Code (Cache T) (Event D)
  | .stop => .done
  | .describe s d k => .emit (.call s d) (body en s d fun r => code en (k r))

/-- Goroutines with these programs, started together. -/
def start (en : Engine T D) (m : Cache T) (ps : List (Prog D)) : Conf (Cache T) (Event D) :=
  Conc.start m (ps.map (code en))

end GJS.Tpl

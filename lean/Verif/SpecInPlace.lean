import Verif.InPlace
/-
What it means that memory holds a document, and that a pool in memory agrees with a pool of immutable
documents.
-/
namespace GJS.Mem
open GJS

/-- A document together with the addresses of its maps. -/
inductive Tree where
  | null
  | bool (b : Bool)
  | num (n : NumLit)
  | str (s : String)
  | arr (xs : List Tree)
  | obj (a : Nat) (m : List (String × Tree))
deriving Inhabited

mutual
/-- The document. -/
def Tree.json : Tree → Json
  | .null => .null
  | .bool b => .bool b
  | .num n => .num n
  | .str s => .str s
  | .arr xs => .arr (jsonL xs)
  | .obj _ m => .obj (jsonM m)
/-- ... of a list -/
def Tree.jsonL : List Tree → List Json
  | [] => []
  | x :: xs => x.json :: jsonL xs
/-- ... of members -/
def Tree.jsonM : List (String × Tree) → List (String × Json)
  | [] => []
  | (k, x) :: m => (k, x.json) :: jsonM m
end

mutual
/-- The Go value. -/
def Tree.val : Tree → Val
  | .null => .null
  | .bool b => .bool b
  | .num n => .num n
  | .str s => .str s
  | .arr xs => .arr (valL xs)
  | .obj a _ => .map a
/-- ... of a list -/
def Tree.valL : List Tree → List Val
  | [] => []
  | x :: xs => x.val :: valL xs
end

mutual
/-- The addresses of its maps, with repetitions if maps are shared. -/
def Tree.labels : Tree → List Nat
  | .arr xs => labelsL xs
  | .obj a m => a :: labelsM m
  | _ => []
/-- ... of a list -/
def Tree.labelsL : List Tree → List Nat
  | [] => []
  | x :: xs => x.labels ++ labelsL xs
/-- ... of members -/
def Tree.labelsM : List (String × Tree) → List Nat
  | [] => []
  | (_, x) :: m => x.labels ++ labelsM m
end

/-- `t` contains the map `m` at address `a`. -/
inductive Node : Tree → Nat → List (String × Tree) → Prop
  | here (a m) : Node (.obj a m) a m
  | elem (xs x a m) : x ∈ xs → Node x a m → Node (.arr xs) a m
  | member (b ms k x a m) : (k, x) ∈ ms → Node x a m → Node (.obj b ms) a m

/-- The maps of the document are in memory at their addresses. -/
def Holds (h : Cells) (t : Tree) : Prop := ∀ a m, Node t a m → h a = m.map fun e => (e.1, e.2.val)

/-- In memory the value `v` is the document `D`, built from maps at addresses that `ok` allows. -/
def Stored (h : Cells) (ok : Nat → Prop) (v : Val) (D : Json) : Prop :=
  ∃ t : Tree, t.val = v ∧ t.json = D ∧ Holds h t ∧ ∀ a ∈ t.labels, ok a

/-- The pool in memory is that of the immutable model, read through memory, built from maps at addresses
that `ok` allows. -/
structure Agree (ok : Nat → Prop) (s : State) (l : LState) : Prop where
  auto : s.autoDetect = l.autoDetect
  factory : s.factory = l.factory
  log : s.log = l.log
  own : s.own = l.own
  none : ∀ k, getKey k s.pool = none ↔ getKey k l.pool = none
  some : ∀ k e, getKey k l.pool = some e → ∃ v, getKey k s.pool = some ⟨v, e.draft⟩ ∧ Stored s.mem ok v e.doc

/-- The maps at the addresses of `t` have been changed, in place, to be the document `t'`; memory is the same
elsewhere. -/
structure Becomes (t t' : Tree) (s s' : State) : Prop where
  val : t'.val = t.val
  labels : t'.labels = t.labels
  holds : Holds s'.mem t'
  frame : ∀ a, a ∉ t.labels → s'.mem a = s.mem a
  next : s'.next = s.next

/-- Both end in the same way: with results and states related by `R`, or with the same error and states
related by `E`, or otherwise. -/
def Outcome (E : State → LState → Prop) (x : Except Fail α × State) (y : Except Fail β × LState)
    (R : α → State → β → LState → Prop) : Prop :=
  match x, y with
  | (.ok a, s), (.ok b, l) => R a s b l
  | (.error f, s), (.error g, l) => f = g ∧ ∀ e, f = .err e → E s l
  | _, _ => False

/-- Looking up JSON pointers in memory finds the values that looking them up in the document finds. -/
def Looks (w : World) (look : String → Cells → Val → Option Val) : Prop :=
  ∀ r h ok v D, Stored h ok v D →
    match look r h v, w.pointer r D with
    | some v', some D' => Stored h ok v' D'
    | none, none => True
    | _, _ => False

/-- The state after a call agrees with that of the immutable model, and nothing that was in memory before
has changed. -/
def After (s s' : State) (l' : LState) : Prop :=
  Agree (fun a => a < s'.next) s' l' ∧ s.next ≤ s'.next ∧ ∀ a, a < s.next → s'.mem a = s.mem a

/-- The order in which a map is gone through is a choice of positions: it does not depend on the values. -/
def Natural (σ : Sched) : Prop := ∀ {α β : Type} (f : α → β) (p : Path) (l : List α), σ.order p (l.map f) = (σ.order p l).map f

/-- Schedulers made from positions. -/
def ofPositions (pos : Path → Nat → List Nat) (h : ∀ p n, (pos p n).Perm (List.range n)) : Sched where
  order p l := (pos p l.length).filterMap fun i => l[i]?
  perm p l := by
    refine ((h p l.length).filterMap _).trans (.of_eq ?_)
    induction l with
    | nil => rfl
    | cons x xs ih =>
      rw [List.length_cons, List.range_succ_eq_map, List.filterMap_cons]
      simp only [List.getElem?_cons_zero, List.filterMap_map, Function.comp_def, List.getElem?_cons_succ]
      rw [ih]

end GJS.Mem

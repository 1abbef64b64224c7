import Verif.Shared
import Verif.LemMon
/-
Helper lemmas: blocks of one call.
-/
namespace GJS.Shared
open GJS

variable {w : World} {σ : Sched} {fuel : Fuel}

/-- Blocks of one call, nothing in between. -/
def blocks (w : World) (σ : Sched) (fuel : Fuel) : Nat → Call × LState → Call × LState
  | 0, x => x
  | n + 1, x => blocks w σ fuel n (x.1.next w σ fuel x.2)

theorem next_done {c : Call} {r ref l} (h : c.stage = .done r) (hr : c.arg.ref w = some ref) : c.next w σ fuel l = (c, l) := by
  unfold Call.next
  rw [hr, h]

theorem blocks_done {c : Call} {r ref} (h : c.stage = .done r) (hr : c.arg.ref w = some ref) :
    ∀ n l, blocks w σ fuel n (c, l) = (c, l)
  | 0, _ => rfl
  | n + 1, l => by
    rw [blocks, next_done h hr]
    exact blocks_done h hr n l

theorem blocks_over {p a r ref n l} (hr : a.ref w = some ref) :
    blocks w σ fuel n (⟨p, a, .done r⟩, l) = (⟨p, a, .done r⟩, l) := blocks_done (c := ⟨p, a, .done r⟩) rfl hr n l

/-- What is left of `Compile` when the file system is set. -/
def rest (w : World) (σ : Sched) (fuel : Fuel) (p : Path) (a : LoaderArg) (ref : String) : M LState Schema := do
  let doc ← rootDocument w σ p a ref
  whenValidate (validateMetaschema w σ fuel p doc)
  finish w σ fuel p ref doc

theorem compile_rest {p a ref l} (h : a.ref w = some ref) :
    compile w σ fuel p a l = rest w σ fuel p a ref { l with factory := a.factory } := by
  unfold compile compileG
  rw [h]
  rfl

theorem blocks_checked {c : Call} {ref doc l n} (h : c.stage = .checked doc) (hr : c.arg.ref w = some ref) :
    blocks w σ fuel (n + 1) (c, l) =
      ({ c with stage := .done (finish w σ fuel c.path ref doc l).1 }, (finish w σ fuel c.path ref doc l).2) := by
  rw [blocks]
  have e : c.next w σ fuel l = c.after (fun s => .done (.ok s)) (finish w σ fuel c.path ref doc l) := by
    unfold Call.next
    rw [hr, h]
  simp only
  rw [e]
  rcases hx : finish w σ fuel c.path ref doc l with ⟨r, l'⟩
  cases r with
  | ok s => exact blocks_over hr
  | error e => exact blocks_over hr

theorem whenValidate_on {x : M LState Unit} {l : LState} (h : l.validate = true) : whenValidate x l = x l := by
  show (if l.validate = true then x else _) l = _
  rw [if_pos h]

theorem whenValidate_off {x : M LState Unit} {l : LState} (h : ¬ l.validate = true) : whenValidate x l = (.ok (), l) := by
  show (if l.validate = true then x else _) l = _
  rw [if_neg h]
  rfl

theorem validateMetaschema_some {p doc l u l'} (h : metaSchemaURL w doc l = (.ok (some u), l')) :
    validateMetaschema w σ fuel p doc l = check w σ fuel p doc u { l' with validate := false } := by
  unfold validateMetaschema
  rw [M.bind_def, h]
  rfl

theorem validateMetaschema_none {p doc l l'} (h : metaSchemaURL w doc l = (.ok none, l')) :
    validateMetaschema w σ fuel p doc l = (.ok (), l') := by
  unfold validateMetaschema
  rw [M.bind_def, h]
  rfl

theorem validateMetaschema_error {p doc l e l'} (h : metaSchemaURL w doc l = (.error e, l')) :
    validateMetaschema w σ fuel p doc l = (.error e, l') := by
  unfold validateMetaschema
  rw [M.bind_def, h]

/-- Four blocks are the rest of a call that has set the file system. -/
theorem blocks_started {c : Call} {ref l n} (h : c.stage = .started) (hr : c.arg.ref w = some ref) :
    blocks w σ fuel (n + 4) (c, l) =
      ({ c with stage := .done (rest w σ fuel c.path c.arg ref l).1 }, (rest w σ fuel c.path c.arg ref l).2) := by
  rw [blocks]
  have e : c.next w σ fuel l = c.after .loaded (rootDocument w σ c.path c.arg ref l) := by
    unfold Call.next
    rw [hr, h]
  simp only
  rw [e]
  unfold rest
  rw [M.bind_def]
  rcases hx : rootDocument w σ c.path c.arg ref l with ⟨r, l1⟩
  cases r with
  | error e => exact blocks_over hr
  | ok doc =>
    simp only [Call.after]
    rw [M.bind_def, blocks]
    simp only
    by_cases hv : l1.validate = true
    · rw [whenValidate_on hv]
      rcases hm : metaSchemaURL w doc l1 with ⟨u, l2⟩
      cases u with
      | error e =>
        have e : Call.next w σ fuel { c with stage := .loaded doc } l1 = ({ c with stage := .done (.error e) }, l2) := by
          unfold Call.next
          simp only [hr, hv, hm, if_true]
        rw [e, validateMetaschema_error hm]
        exact blocks_over hr
      | ok u =>
        cases u with
        | none =>
          have e : Call.next w σ fuel { c with stage := .loaded doc } l1 = ({ c with stage := .checked doc }, l2) := by
            unfold Call.next
            simp only [hr, hv, hm, if_true]
          rw [e, validateMetaschema_none hm]
          exact blocks_checked (c := { c with stage := .checked doc }) rfl hr
        | some u =>
          have e : Call.next w σ fuel { c with stage := .loaded doc } l1 =
              ({ c with stage := .checking doc u }, { l2 with validate := false }) := by
            unfold Call.next
            simp only [hr, hv, hm, if_true]
          rw [e]
          rw [validateMetaschema_some hm]
          rw [blocks]
          have e : Call.next w σ fuel { c with stage := .checking doc u } { l2 with validate := false } =
              Call.after { c with stage := .checking doc u } (fun _ => .checked doc)
                (check w σ fuel c.path doc u { l2 with validate := false }) := by
            unfold Call.next
            simp only [hr]
          simp only
          rw [e]
          rcases hc : check w σ fuel c.path doc u { l2 with validate := false } with ⟨r, l3⟩
          cases r with
          | error e => exact blocks_over hr
          | ok _ => exact blocks_checked (c := { c with stage := .checked doc }) rfl hr
    · rw [whenValidate_off hv]
      have e : Call.next w σ fuel { c with stage := .loaded doc } l1 = ({ c with stage := .checked doc }, l1) := by
        unfold Call.next
        simp only [hr, hv, if_false, Bool.false_eq_true]
      rw [e]
      exact blocks_checked (c := { c with stage := .checked doc }) rfl hr

theorem run_append {is js x} : run w σ fuel (is ++ js) x = run w σ fuel js (run w σ fuel is x) := by
  induction is generalizing x with
  | nil => rfl
  | cons i is ih => exact ih

theorem run_blocks {i : Nat} : ∀ {n c} {cs : List Call} {l}, cs[i]? = some c →
    run w σ fuel (List.replicate n i) (cs, l) = (cs.set i (blocks w σ fuel n (c, l)).1, (blocks w σ fuel n (c, l)).2)
  | 0, c, cs, l, h => by
    have : cs.set i c = cs := by
      obtain ⟨hi, e⟩ := List.getElem?_eq_some_iff.1 h
      rw [← e, List.set_getElem_self]
    show (cs, l) = _
    rw [blocks, this]
  | n + 1, c, cs, l, h => by
    rw [List.replicate_succ, run]
    have e : step w σ fuel i (cs, l) = (cs.set i (c.next w σ fuel l).1, (c.next w σ fuel l).2) := by
      unfold step
      simp only [h]
    obtain ⟨hi, _⟩ := List.getElem?_eq_some_iff.1 h
    rw [e, run_blocks (c := (c.next w σ fuel l).1) (by rw [List.getElem?_set_self hi])]
    rw [List.set_set]
    rfl

end GJS.Shared

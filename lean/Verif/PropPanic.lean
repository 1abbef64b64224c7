import Verif.LemPanic
import Verif.DemoCheck
/-
C16: `Compile` does not panic on tame documents, and does on others.
-/
namespace GJS
open Spec

/-- Well-formed and tame. -/
abbrev Spec.Harmless (env : Env) (D : Json) : Prop := D.WF ∧ Tame env D

/-- Well-formed, tame, and all numbers fit a float64. -/
abbrev Spec.HarmlessF64 (env : Env) (D : Json) : Prop := D.WF ∧ Tame env D ∧ NumsF64 D

theorem fine_false {env : Env} {D} : Fine env False D ↔ Harmless env D :=
  ⟨fun h => ⟨h.1, h.2.1⟩, fun h => ⟨h.1, h.2, False.elim⟩⟩
theorem fine_true {env : Env} {D} : Fine env True D ↔ HarmlessF64 env D :=
  ⟨fun h => ⟨h.1, h.2.1, h.2.2 trivial⟩, fun h => ⟨h.1, h.2.1, fun _ => h.2.2⟩⟩

theorem argOK_of {w : World} {N : Json → Prop} (hb : Brings w N) {a : LoaderArg} (ha : ∀ D, a = .direct (some D) → N D) :
    ArgOK w N a := by
  cases a with
  | direct o => intro d hd; subst hd; exact ha d rfl
  | reference s f => intro n d hd; exact loadReference_brings hb hd

/-- C16.  With `Validate` off, `Compile` does not panic if the document, every document in the pool
and every document that can be loaded is tame: no number `big.Rat` rejects, no boolean `definitions`,
no number in a `type` array. -/
theorem C16_compile (w : World) (hw : Standard w) (hb : Brings w (Harmless w.env)) (σ : Sched) (fuel : Fuel) (p : Path)
    (a : LoaderArg) (l : LState) (hv : l.validate = false) (hl : PoolAll (Harmless w.env) l)
    (ha : ∀ D, a = .direct (some D) → Harmless w.env D) :
    (compile w σ fuel p a l).1 ≠ .error .panic := by
  have e : Fine w.env False = Harmless w.env := funext fun D => propext fine_false
  exact compile_off_noPanic (V := False) hw (by rw [e]; exact hb) hv (by rw [e]; exact argOK_of hb ha) (by rw [e]; exact hl)

/-- C16 for `NewSchema`. -/
theorem C16_newSchema (w : World) (hw : Standard w) (hb : Brings w (Harmless w.env)) (σ : Sched) (fuel : Fuel)
    (a : LoaderArg) (ha : ∀ D, a = .direct (some D) → Harmless w.env D) : newSchema w σ fuel a ≠ .error .panic :=
  C16_compile w hw hb σ fuel [] a newSchemaLoader rfl (by intro k e h; cases h) ha

/-- The documents an operation is given. -/
def Spec.Given : Op → Json → Prop
  | .addSchema _ a, D => a = .direct (some D)
  | .addSchemas as, D => .direct (some D) ∈ as
  | .compile a, D => a = .direct (some D)
  | _, _ => False

/-- C16 for every history of a loader, with `Validate` on or off: no operation panics, if in
addition all numbers fit a float64. -/
theorem C16_history (w : World) (hw : Standard w) (hb : Brings w (HarmlessF64 w.env)) (σ : Sched) (fuel : Fuel)
    (os : List Op) (ho : ∀ o ∈ os, ∀ D, Given o D → HarmlessF64 w.env D) :
    ∀ r ∈ (runOps w σ fuel 0 os newSchemaLoader).1, r ≠ .error .panic := by
  have e : Fine w.env True = HarmlessF64 w.env := funext fun D => propext fine_true
  refine runOps_noPanic (V := True) hw (by rw [e]; exact hb) trivial ?_ (by intro k e h; cases h)
  intro o hoo
  have ho := ho o hoo
  rw [e]
  cases o with
  | addSchema url a => exact argOK_of hb ho
  | addSchemas as => exact fun a ha => argOK_of hb fun D hD => ho D (show _ ∈ as by rw [← hD]; exact ha)
  | compile a => exact fun _ => argOK_of hb ho
  | _ => trivial

/-! ### Without tameness -/

/-- Whether the call panics. -/
def Spec.panics : Except Fail Schema → Bool
  | .error .panic => true
  | _ => false

/-- C16, negative part: each of the three conditions is needed.  `{"definitions":true}` panics. -/
theorem C16_definitions_panics :
    panics (newSchema (Demo.world []) .id ⟨9, 9⟩ (.direct (some (.obj [("definitions", .bool true)])))) = true := by
  decide +kernel

/-- `{"type":[1]}` panics. -/
theorem C16_type_panics :
    panics (newSchema (Demo.world []) .id ⟨9, 9⟩ (.direct (some (.obj [("type", .arr [Demo.int 1])])))) = true := by
  decide +kernel

/-- `{"title":n}` panics if `big.Rat` rejects the literal `n`. -/
theorem C16_number_panics :
    panics (newSchema { Demo.world [] with env := { Demo.env with ratOk := fun _ => false } } .id ⟨9, 9⟩
      (.direct (some (.obj [("title", Demo.int 1)])))) = true := by
  decide +kernel

/-! ### Examples -/

namespace Demo

mutual
/-- Executable test of tameness. -/
def tameB (env : Env) : Json → Bool
  | .num n => env.ratOk n
  | .arr xs => tameListB env xs
  | .obj m =>
    (match getKey "definitions" m with
      | some (.bool _) => false
      | _ => true) &&
    (match getKey "type" m with
      | some (.arr xs) => xs.all (fun x => match x with | .num _ => false | _ => true)
      | _ => true) && tameMembersB env m
  | _ => true
def tameListB (env : Env) : List Json → Bool
  | [] => true
  | x :: xs => tameB env x && tameListB env xs
def tameMembersB (env : Env) : List (String × Json) → Bool
  | [] => true
  | (_, x) :: m => tameB env x && tameMembersB env m
end

theorem tameListB_mem {env : Env} {xs x} (h : tameListB env xs = true) (hx : x ∈ xs) : tameB env x = true := by
  induction xs with
  | nil => cases hx
  | cons y ys ih =>
    simp only [tameListB, Bool.and_eq_true] at h
    cases hx with
    | head => exact h.1
    | tail _ hx => exact ih h.2 hx

theorem tameMembersB_mem {env : Env} {m : List (String × Json)} {k x} (h : tameMembersB env m = true) (hx : (k, x) ∈ m) :
    tameB env x = true := by
  induction m with
  | nil => cases hx
  | cons y ys ih =>
    obtain ⟨k', y⟩ := y
    simp only [tameMembersB, Bool.and_eq_true] at h
    cases hx with
    | head => exact h.1
    | tail _ hx => exact ih h.2 hx

theorem tameB_within {env : Env} {D x} (hx : Within D x) (h : tameB env D = true) : tameB env x = true := by
  induction hx with
  | self => exact h
  | elem xs y x hy _ ih => exact ih (tameListB_mem (by simpa [tameB] using h) hy)
  | member m k y x hy _ ih =>
    simp only [tameB, Bool.and_eq_true] at h
    exact ih (tameMembersB_mem h.2 hy)

theorem tame_of {env : Env} {D} (h : tameB env D = true) : Tame env D where
  nums := fun n hn => by have := tameB_within hn h; simpa [tameB] using this
  definitions := by
    intro m b hm hk
    have := tameB_within hm h
    simp [tameB, hk] at this
  types := by
    intro m xs n hm hk hn
    have := tameB_within hm h
    simp only [tameB, hk, Bool.and_eq_true, List.all_eq_true] at this
    exact absurd (this.1.2 _ hn) (by simp)

theorem walk_within {ts D d} (h : walk ts D = some d) : Within D d := by
  induction ts generalizing D with
  | nil => cases h; exact .self _
  | cons t ts ih =>
    cases D with
    | obj m =>
      simp only [walk] at h
      cases hk : getKey (String.ofList t) m with
      | none => rw [hk] at h; cases h
      | some x => rw [hk] at h; exact within_trans (within_get hk) (ih h)
    | _ => cases h

theorem world_standard (docs) : Standard (world docs) where
  inherits := fun _ _ h => by cases h
  decode := fun _ _ h => by cases h
  pointer := by
    intro r D d hd
    change pointerOf r D = some d at hd
    unfold pointerOf at hd
    split at hd
    · cases hd; exact .self _
    · cases hd; exact .self _
    · exact walk_within hd
    · cases hd

theorem world_brings {docs} {N : Json → Prop} (h : ∀ k d, getKey k docs = some d → N d) : Brings (world docs) N :=
  ⟨fun _ _ _ _ hd => h _ _ hd, fun _ _ _ hd => h _ _ hd, fun _ _ hd => by cases hd⟩

/-- A schema with references into itself and into another document. -/
def refs : Json :=
  .obj [("definitions", .obj [("n", .obj [("type", .arr [.str "integer", .str "null"]), ("minimum", int 1)])]),
    ("properties", .obj [("a", .obj [("$ref", .str "#/definitions/n")]), ("b", .obj [("$ref", .str "other#/definitions/x")])])]

/-- The other document. -/
def other : Json := .obj [("definitions", .obj [("x", .obj [("$ref", .str "#")])])]

end Demo

example : Standard (Demo.world [("other", Demo.other)]) ∧ Brings (Demo.world [("other", Demo.other)]) (Harmless Demo.env) ∧
    Harmless Demo.env Demo.refs := by
  refine ⟨Demo.world_standard _, Demo.world_brings ?_, Demo.wf_of _ (by decide +kernel), Demo.tame_of (by decide +kernel)⟩
  intro k d h
  simp only [getKey, List.lookup_cons, List.lookup_nil] at h
  split at h
  · cases h; exact ⟨Demo.wf_of _ (by decide +kernel), Demo.tame_of (by decide +kernel)⟩
  · cases h

example : (newSchema (Demo.world [("other", Demo.other)]) .id ⟨20, 20⟩ (.direct (some Demo.refs))).isOk = true := by
  decide +kernel

end GJS

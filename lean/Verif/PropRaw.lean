import Verif.LemRaw
import Verif.PropCompile
/-
C53: instances given as Go values.
-/
namespace GJS
open Spec

/-- C53.  A Go value that stands for a JSON value gives the result of that JSON value (verdict, errors and
score), or a panic. -/
theorem C53_same_or_panic (env : RawEnv) (hf : FormatsAlike env) (σ : Sched) (hσ : σ.Natural) (h : Heap) (n : Nat)
    (root : Id) (g : GoVal) (v : Json) (hg : g.json = some v) :
    rawDocument env σ h n root g = validateDocument env.toEnv σ h n root v ∨
    rawDocument env σ h n root g = .error .panic := by
  obtain ⟨hj, rfl⟩ := GoVal.view_of hg
  rcases raw_agree (C := False) (h := h) hσ hf n [] root g rootCtx hj False.elim with h | h
  · exact .inl h
  · exact .inr h.1

/-- C53.  It gives that result and nothing else if it is as `encoding/json` decodes, or a map as YAML decoders
make it, or if the schema compares no values (`const`, `enum`, `uniqueItems`). -/
theorem C53_same (env : RawEnv) (hf : FormatsAlike env) (σ : Sched) (hσ : σ.Natural) (h : Heap) (n : Nat)
    (root : Id) (g : GoVal) (v : Json) (hg : g.json = some v) (ht : NoCompare h ∨ TidyGo g) :
    rawDocument env σ h n root g = validateDocument env.toEnv σ h n root v := by
  obtain ⟨hj, rfl⟩ := GoVal.view_of hg
  rcases raw_agree (C := True) (h := h) hσ hf n [] root g rootCtx hj (fun _ => ht) with h | h
  · exact h
  · exact absurd trivial h.2

/-- The root node of a document that is an object without `$ref`. -/
theorem root_plain {w : World} {s : Schema} {l d m} (hg : Good w l s d (.obj m)) (hm : getKey "$ref" m = none) :
    ∃ n, s.heap[s.root]? = some n ∧ n.pass = none ∧ n.refSchema = none ∧ FieldsOK w s.heap n.draft m n := by
  obtain ⟨n, h1, _, h3⟩ := hg.root
  refine ⟨n, h1, ?_⟩
  cases hg.nodes _ n h1 with
  | bool b hb _ => rw [hb] at h3; simp at h3
  | ref m' r u j hd hr _ _ _ _ _ =>
    rw [h3] at hd
    cases hd
    rw [hm] at hr; cases hr
  | plain m' hd _ h4 h5 h6 =>
    rw [h3] at hd
    cases hd
    exact ⟨h5, h4, h6⟩

/-- C53, what is missed.  A Go value of another kind (integers, floats, structs, pointers) is accepted by every
compiled schema object without `$ref`, whatever its keywords, `type` and `not` included. -/
theorem C53_other_kind (w : World) (hw : Lawful w) (σ : Sched) (fuel : Fuel) (p : Path) (a : LoaderArg)
    (l l' : LState) (s : Schema) (hl : PoolWF l) (ha : ∀ D, a = .direct (some D) → D.WF)
    (hc : compile w σ fuel p a l = (.ok s, l')) :
    ∃ D, RootDoc w l' a D ∧ ∀ m, D = .obj m → getKey "$ref" m = none →
      ∀ (env : RawEnv) (σ' : Sched) (n i : Nat), rawDocument env σ' s.heap (n + 1) s.root (.opaque .other i) = .ok tick := by
  obtain ⟨D, hr, _, hg⟩ := compile_good hw hl ha hc
  refine ⟨D, hr, ?_⟩
  rintro m rfl hm env σ' n i
  obtain ⟨nd, h1, h2, h3, _⟩ := root_plain hg hm
  show rawStep env σ' s.heap _ [] s.root _ _ = _
  unfold rawStep
  rw [h1]
  simp only [h2, h3]
  rfl

/-- C53, panics.  A slice other than `[]interface{}`, a map other than the two supported ones, and values of named
string and boolean types make every compiled schema object without `$ref` and `type` panic; so does a
`map[interface{}]interface{}` with a key that is not a string. -/
theorem C53_panics (w : World) (hw : Lawful w) (σ : Sched) (fuel : Fuel) (p : Path) (a : LoaderArg)
    (l l' : LState) (s : Schema) (hl : PoolWF l) (ha : ∀ D, a = .direct (some D) → D.WF)
    (hc : compile w σ fuel p a l = (.ok s, l')) :
    ∃ D, RootDoc w l' a D ∧ ∀ m, D = .obj m → getKey "$ref" m = none → getKey "type" m = none →
      ∀ (env : RawEnv) (σ' : Sched) (n : Nat),
        (∀ k i, k ≠ .other → rawDocument env σ' s.heap (n + 1) s.root (.opaque k i) = .error .panic) ∧
        (∀ kvs x, (none, x) ∈ kvs → rawDocument env σ' s.heap (n + 1) s.root (.imap kvs) = .error .panic) := by
  obtain ⟨D, hr, _, hg⟩ := compile_good hw hl ha hc
  refine ⟨D, hr, ?_⟩
  rintro m rfl hm ht env σ' n
  obtain ⟨nd, h1, h2, h3, h4⟩ := root_plain hg hm
  have hty : nd.types = [] := by
    rcases h4.types with ⟨_, h⟩ | ⟨t, h, _⟩ | h
    · exact h
    · rw [ht] at h; cases h
    · rw [ht] at h; cases h
  have hte : ∀ g, (∀ n, g ≠ .num n) → rawTypeError env nd.types g = none := by
    intro g hg
    rw [hty]
    cases g with
    | num n => exact absurd rfl (hg n)
    | «opaque» k i => cases k <;> rfl
    | _ => rfl
  constructor
  · intro k i hk
    show rawStep env σ' s.heap _ [] s.root _ _ = _
    unfold rawStep
    rw [h1]
    simp only [h2, h3]
    rw [hte _ (by simp)]
    cases k with
    | other => exact absurd rfl hk
    | _ => rfl
  · intro kvs x hx
    have conv : ∀ kvs : List (Option String × GoVal), (none, x) ∈ kvs → convertIV kvs = .error .panic := by
      intro kvs
      induction kvs with
      | nil => intro h; simp at h
      | cons y ys ih =>
        intro h
        obtain ⟨k, z⟩ := y
        cases k with
        | none => rfl
        | some k =>
          have hm : (none, x) ∈ ys := by
            rcases List.mem_cons.1 h with h | h
            · cases h
            · exact h
          rw [convertIV, ih hm]
          have nf : ∀ e, convertDocumentNode z = .error e → e = .panic := convert_panic z
          cases hz : convertDocumentNode z with
          | error e => rw [nf e hz]; rfl
          | ok z' => rfl
    show rawStep env σ' s.heap _ [] s.root _ _ = _
    unfold rawStep
    rw [h1]
    simp only [h2, h3]
    rw [hte _ (by simp)]
    rw [rawCast, convertDocumentNode, conv kvs hx]
    rfl

/-- C53, end to end: on a Go value that stands for a JSON value, what `Validate` returns follows the keyword rules
for that JSON value. -/
theorem C53_verdict (w : World) (hw : Lawful w) (σ : Sched) (fuel : Fuel) (p : Path) (a : LoaderArg)
    (l l' : LState) (s : Schema) (hl : PoolWF l) (ha : ∀ D, a = .direct (some D) → D.WF)
    (hc : compile w σ fuel p a l = (.ok s, l')) :
    ∃ (D : Json) (resolve : String → Option (Draft × Json)),
      RootDoc w l' a D ∧
      ∀ (env : RawEnv), env.toEnv = w.env → FormatsAlike env →
      ∀ (σ' : Sched), σ'.Natural → ∀ (n : Nat) (g : GoVal) (v : Json) (r : Result), g.json = some v →
        rawDocument env σ' s.heap n s.root g = .ok r →
          (∀ Sat, IsDocMeaning w.env resolve Sat → (r.valid = true ↔ Sat (draftFor w l D) D v)) ∧
          (∀ P, r.valid = true ↔ docUnfold w.env resolve P n (draftFor w l D) D v) := by
  obtain ⟨D, res, h1, _, _, h4⟩ := C01_verdict w hw σ fuel p a l l' s hl ha hc
  refine ⟨D, res, h1, ?_⟩
  intro env he hf σ' hσ n g v r hg hr
  rcases C53_same_or_panic env hf σ' hσ s.heap n s.root g v hg with h | h
  · rw [hr, he] at h
    exact h4 σ' n v r h.symm
  · rw [hr] at h; cases h

namespace Demo

/-- The environment of the examples, on Go values. -/
def rawEnv : RawEnv := { env with goCanon := fun _ => none, goFormat := fun _ _ => true }

example : FormatsAlike rawEnv := fun _ _ _ _ => rfl
example : (Sched.id).Natural := fun _ _ _ => rfl
example : (Sched.rev).Natural := fun _ _ _ => (List.map_reverse ..).symm

/-- `map[interface{}]interface{}{"a": []interface{}{map[interface{}]interface{}{"b": nil}}}` -/
def yamlVal : GoVal := .imap [(some "a", .arr [.imap [(some "b", .nil)]])]

example : TidyGo yamlVal := by
  refine .yaml _ (.imap _ (by simp) ?_)
  simp only [List.mem_singleton, forall_eq]
  refine .arr _ ?_
  simp only [List.mem_singleton, forall_eq]
  refine .imap _ (by simp) ?_
  simp only [List.mem_singleton, forall_eq]
  exact .nil

/-- What the schema `D` says of the Go value `g`: `none` if it does not compile, else the verdict or the way
validation ends. -/
def rawVerdict (D : Json) (g : GoVal) : Option (Except Abort Bool) :=
  match newSchema (world []) Sched.id ⟨20, 20⟩ (.direct (some D)) with
  | .ok s => some ((rawDocument rawEnv Sched.id s.heap 20 s.root g).map (·.valid))
  | .error _ => none

/-- An object whose `a` is an array of objects with a `b`. -/
def yamlDoc : Json := .obj [("properties", .obj [("a", .obj [("type", .str "array"),
  ("items", .obj [("required", .arr [.str "b"])])])])]

example : yamlVal.json = some (.obj [("a", .arr [.obj [("b", .null)]])]) := rfl
example : rawVerdict yamlDoc yamlVal matches some (.ok true) := by decide +kernel
example : rawVerdict yamlDoc (.imap [(some "a", .arr [.imap []])]) matches some (.ok false) := by decide +kernel
/-- A Go integer is not a number, and passes both a schema that demands a string and one that admits nothing. -/
example : rawVerdict (.obj [("type", .str "string")]) (.opaque .other 0) matches some (.ok true) := by decide +kernel
example : rawVerdict (.obj [("not", .obj [])]) (.opaque .other 0) matches some (.ok true) := by decide +kernel
example : rawVerdict (.obj [("not", .obj [])]) (.num ⟨false, 1, [], none⟩) matches some (.ok false) := by decide +kernel
/-- `[]string` panics, unless `type` rules it out before. -/
example : rawVerdict (.obj []) (.opaque .slice 0) matches some (.error .panic) := by decide +kernel
example : rawVerdict (.obj [("type", .str "string")]) (.opaque .slice 0) matches some (.ok false) := by decide +kernel
/-- The condition of `C53_same` is needed: an array of maps as YAML decoders make them panics under `uniqueItems`,
and the JSON value it stands for is valid. -/
example : rawVerdict (.obj [("uniqueItems", .bool true)]) (.arr [.imap []]) matches some (.error .panic) := by
  decide +kernel
example : verdict (world []) Sched.id (.obj [("uniqueItems", .bool true)]) (.arr [.obj []]) = some true := by
  decide +kernel

end Demo
end GJS

import Verif.LemShared
import Verif.LemSharedOff
import Verif.PropLoader
/-
C78: `Compile` on one loader from several goroutines.
-/
namespace GJS
open Shared Spec

/-- A call whose blocks follow each other is a call of `Compile`, whatever other calls are in progress. -/
theorem C78_serial (w : World) (σ : Sched) (fuel : Fuel) (cs : List Call) (i : Nat) (c : Call) (l : LState) (hc : cs[i]? = some c)
    (hs : c.stage = .ready) :
    run w σ fuel (List.replicate 5 i) (cs, l) =
      (cs.set i { c with stage := .done (compile w σ fuel c.path c.arg l).1 }, (compile w σ fuel c.path c.arg l).2) := by
  rw [run_blocks hc]
  cases hr : c.arg.ref w with
  | none =>
    have e : blocks w σ fuel 5 (c, l) = ({ c with stage := .done (.error (.err (.badReference "#"))) }, l) := by
      simp only [blocks, Call.next, hr]
    rw [e]
    have e : compile w σ fuel c.path c.arg l = (.error (.err (.badReference "#")), l) := by
      unfold compile compileG
      rw [hr]
      rfl
    rw [e]
  | some ref =>
    have e : blocks w σ fuel 5 (c, l) = blocks w σ fuel (0 + 4) ({ c with stage := .started }, { l with factory := c.arg.factory }) := by
      rw [blocks]
      unfold Call.next
      simp only [hr, hs]
    rw [e, blocks_started (c := { c with stage := .started }) rfl hr, compile_rest hr]

/-- The loader after whole calls of `Compile` in this order. -/
def Spec.afterCalls (w : World) (σ : Sched) (fuel : Fuel) (cs : List Call) (is : List Nat) (l : LState) : LState :=
  is.foldl (fun l i => match cs[i]? with
    | none => l
    | some c => (compile w σ fuel c.path c.arg l).2) l

/-- Calls that do not overlap, in any order: each has the outcome `Compile` has after the calls before it, and the loader is left
as by these calls of `Compile`. -/
theorem C78_sequence (w : World) (σ : Sched) (fuel : Fuel) (cs : List Call) (is : List Nat) (l : LState) (hn : is.Nodup)
    (hr : ∀ i ∈ is, ∃ c, cs[i]? = some c ∧ c.stage = .ready) :
    (run w σ fuel (is.flatMap (List.replicate 5)) (cs, l)).2 = afterCalls w σ fuel cs is l ∧
    (∀ before i c after, is = before ++ i :: after → cs[i]? = some c →
      (run w σ fuel (is.flatMap (List.replicate 5)) (cs, l)).1[i]?.bind Call.result =
        some (compile w σ fuel c.path c.arg (afterCalls w σ fuel cs before l)).1) ∧
    ∀ i, i ∉ is → (run w σ fuel (is.flatMap (List.replicate 5)) (cs, l)).1[i]? = cs[i]? := by
  induction is generalizing cs l with
  | nil => exact ⟨rfl, fun b i c a h => (by cases b <;> cases h), fun _ _ => rfl⟩
  | cons k is ih =>
    obtain ⟨c, hc, hs⟩ := hr k List.mem_cons_self
    obtain ⟨hk, _⟩ := List.getElem?_eq_some_iff.1 hc
    obtain ⟨hk', hn'⟩ := List.nodup_cons.1 hn
    have e : run w σ fuel ((k :: is).flatMap (List.replicate 5)) (cs, l) = run w σ fuel (is.flatMap (List.replicate 5))
        (cs.set k { c with stage := .done (compile w σ fuel c.path c.arg l).1 }, (compile w σ fuel c.path c.arg l).2) := by
      rw [List.flatMap_cons, run_append, C78_serial w σ fuel cs k c l hc hs]
    have same : ∀ (d : Call) i, i ≠ k → (cs.set k d)[i]? = cs[i]? := fun d i h => List.getElem?_set_ne (Ne.symm h)
    have other : ∀ (d : Call) (js : List Nat) l, k ∉ js → afterCalls w σ fuel (cs.set k d) js l = afterCalls w σ fuel cs js l := by
      intro d js
      induction js with
      | nil => intro l _; rfl
      | cons j js ihj =>
        intro l h
        obtain ⟨h1, h2⟩ := not_or.1 (mt List.mem_cons.2 h)
        show afterCalls w σ fuel (cs.set k d) js _ = afterCalls w σ fuel cs js _
        beta_reduce
        rw [same d j (Ne.symm h1), ihj _ h2]
    have first : ∀ js, afterCalls w σ fuel cs (k :: js) l = afterCalls w σ fuel cs js (compile w σ fuel c.path c.arg l).2 := by
      intro js
      show List.foldl _ _ js = _
      beta_reduce
      rw [hc]
      rfl
    obtain ⟨h1, h2, h3⟩ := ih (cs.set k { c with stage := .done (compile w σ fuel c.path c.arg l).1 }) (compile w σ fuel c.path c.arg l).2 hn'
      fun i hi => by
        rw [same _ i fun h => hk' (h ▸ hi)]
        exact hr i (List.mem_cons_of_mem _ hi)
    rw [e, first]
    refine ⟨h1.trans (other _ _ _ hk'), ?_, ?_⟩
    · intro before i d after hi hd
      cases before with
      | nil =>
        cases hi
        rw [h3 k hk', List.getElem?_set_self hk]
        cases hc.symm.trans hd
        rfl
      | cons b before =>
        cases hi
        have hne : i ≠ k := fun h => hk' (h ▸ by simp)
        rw [h2 before i d after rfl ((same _ i hne).trans hd), first, other _ _ _ fun h => hk' (by simp [h])]
    · intro i hi
      obtain ⟨g1, g2⟩ := not_or.1 (mt List.mem_cons.2 hi)
      rw [h3 i g2, same _ i g1]

/-- If another call starts after a call has set its file system and before it reads its document, the call behaves in every
respect as if it had been given the file system of the other call. -/
theorem C78_overtaken (w : World) (σ : Sched) (fuel : Fuel) (cs : List Call) (i j : Nat) (c c' : Call) (l : LState) (source ref : String)
    (fs : Factory) (hc : cs[i]? = some c) (hs : c.stage = .ready) (hc' : cs[j]? = some c') (hs' : c'.stage = .ready) (hij : i ≠ j)
    (ha : c.arg = .reference source fs) (hr : w.norm source = some ref) (hne : ref ≠ "") (hr' : c'.arg.ref w ≠ none) :
    ∃ cs', run w σ fuel (i :: j :: List.replicate 4 i) (cs, l) =
        (cs', (compile w σ fuel c.path (.reference source c'.arg.factory) l).2) ∧
      cs'[i]?.bind Call.result = some (compile w σ fuel c.path (.reference source c'.arg.factory) l).1 := by
  obtain ⟨cs', h1, h2⟩ := overtaken (w := w) (σ := σ) (fuel := fuel) l hc hs hc' hs' hij (ref := ref) (by rw [ha]; exact hr) hr'
  have e : ∀ f l, rest w σ fuel c.path (.reference source f) ref l = rest w σ fuel c.path c.arg ref l := by
    intro f l
    have : ∀ a, rootDocument w σ c.path a ref = rootDocument w σ c.path c.arg ref := by
      intro a
      unfold rootDocument
      rw [if_pos (by simpa using hne), if_pos (by simpa using hne)]
    unfold rest
    rw [this]
  have e' : compile w σ fuel c.path (.reference source c'.arg.factory) l =
      rest w σ fuel c.path c.arg ref { l with factory := c'.arg.factory } := by
    rw [compile_rest (a := .reference source c'.arg.factory) (ref := ref) hr, e]
    rfl
  rw [e']
  refine ⟨cs', h1, ?_⟩
  rw [h2]
  rfl

/-- With `Validate` off, whatever is compiled, everything it fetches comes through the other call's file system. -/
theorem C78_fetches (w : World) (σ : Sched) (fuel : Fuel) (cs : List Call) (i j : Nat) (c c' : Call) (l : LState)
    (hc : cs[i]? = some c) (hs : c.stage = .ready) (hc' : cs[j]? = some c') (hs' : c'.stage = .ready) (hij : i ≠ j)
    (hr : c.arg.ref w ≠ none) (hr' : c'.arg.ref w ≠ none) (hv : l.validate = false) :
    ∃ new, (run w σ fuel (i :: j :: List.replicate 4 i) (cs, l)).2.log = l.log ++ new ∧ ∀ f r, (f, r) ∈ new → f = c'.arg.factory := by
  cases hre : c.arg.ref w with
  | none => exact absurd hre hr
  | some ref =>
    obtain ⟨cs', h1, _⟩ := overtaken (w := w) (σ := σ) (fuel := fuel) l hc hs hc' hs' hij hre hr'
    rw [h1]
    have inv : FacInv c'.arg.factory l { l with factory := c'.arg.factory } ∧
        ({ l with factory := c'.arg.factory } : LState).validate = false := ⟨⟨rfl, [], by simp, by simp⟩, hv⟩
    have T : Tri (fun l1 : LState => FacInv c'.arg.factory l l1 ∧ l1.validate = false) (rest w σ fuel c.path c.arg ref)
        (fun _ => True) := by
      refine .bind (Q := fun _ => True) ?_ fun doc _ => .bind (Q := fun _ => True) ?_ fun _ _ =>
        .bind (Q := fun _ => True) rootDraft_still.tri fun d _ => ?_
      · intro l1 h1
        exact ⟨⟨(rootDocument_fac l1 h1.1).1, (rootDocument_keep l1).trans h1.2⟩, fun _ _ _ => trivial⟩
      · intro l1 h1
        refine ⟨?_, fun _ _ _ => trivial⟩
        rw [whenValidate_off (by rw [h1.2]; simp)]
        exact h1
      · intro l1 h1
        exact ⟨⟨(runParse_fac l1 h1.1).1, (runParse_keep l1).trans h1.2⟩, fun _ _ _ => trivial⟩
    obtain ⟨new, h2, h3⟩ := (T _ inv).1.1.log
    exact ⟨new, h2, fun f r hm => h3 (f, r) hm⟩

/-- However the blocks of calls are interleaved, with `Validate` off it stays off, and everything fetched is fetched through the file
system of one of the calls. -/
theorem C78_systems (w : World) (σ : Sched) (fuel : Fuel) (cs : List Call) (l : LState) (hs : ∀ c ∈ cs, c.stage = .ready)
    (hv : l.validate = false) (order : List Nat) :
    (run w σ fuel order (cs, l)).2.validate = false ∧
    ∃ new, (run w σ fuel order (cs, l)).2.log = l.log ++ new ∧ ∀ f r, (f, r) ∈ new → ∃ c ∈ cs, f = c.arg.factory := by
  have key : ∀ order x, OffInv (fun f => ∃ c ∈ cs, f = c.arg.factory) l x →
      OffInv (fun f => ∃ c ∈ cs, f = c.arg.factory) l (run w σ fuel order x) := by
    intro order
    induction order with
    | nil => exact fun _ h => h
    | cons i is ih => exact fun x h => ih _ (h.step i)
  obtain ⟨_, _, h1, new, h2, h3⟩ := key order (cs, l) ⟨fun c hc => ⟨⟨c, hc, rfl⟩, fun _ _ h => by rw [hs c hc] at h; cases h⟩,
    .inl fun c hc => .inl (hs c hc), hv, [], by simp, by simp⟩
  exact ⟨h1, new, h2, fun f r hm => h3 (f, r) hm⟩

/-- A call that comes to its check while another one has `Validate` switched off for its meta-schema is not checked: what
happens is what happens with `Validate` off. -/
theorem C78_unchecked (w : World) (σ : Sched) (fuel : Fuel) (cs : List Call) (i j : Nat) (c c' : Call) (l : LState) (ref u : String)
    (D D' : Json) (hc : cs[i]? = some c) (hs : c.stage = .loaded D) (hc' : cs[j]? = some c') (hs' : c'.stage = .loaded D') (hij : i ≠ j)
    (hr : c.arg.ref w = some ref) (hr' : c'.arg.ref w ≠ none) (hv : l.validate = true) (l' : LState)
    (hu : metaSchemaURL w D' l = (.ok (some u), l')) :
    (run w σ fuel [j, i, i] (cs, l)).1[i]?.bind Call.result =
      some ((do let draft ← rootDraft w D; runParse w σ fuel (62 :: c.path) ref D draft : M LState Schema) { l' with validate := false }).1 := by
  obtain ⟨hi, _⟩ := List.getElem?_eq_some_iff.1 hc
  have e1 : step w σ fuel j (cs, l) = (cs.set j { c' with stage := .checking D' u }, { l' with validate := false }) := by
    unfold step Call.next
    simp only [hc', hs', hv, if_true, hu]
    cases h : c'.arg.ref w with
    | none => exact absurd h hr'
    | some r => rfl
  have hg : (cs.set j { c' with stage := .checking D' u })[i]? = some c := by rw [List.getElem?_set_ne (Ne.symm hij)]; exact hc
  rw [run, e1]
  show (run w σ fuel (List.replicate 2 i) _).1[i]?.bind Call.result = _
  rw [run_blocks hg]
  have e2 : blocks w σ fuel 2 (c, { l' with validate := false }) =
      blocks w σ fuel (0 + 1) ({ c with stage := .checked D }, { l' with validate := false }) := by
    rw [blocks]
    unfold Call.next
    simp only [hr, hs, Bool.false_eq_true, if_false]
  rw [e2, blocks_checked (c := { c with stage := .checked D }) rfl hr, List.getElem?_set_self (by simpa using hi)]
  rfl

namespace Demo

/-- Two file systems with different documents under one name. -/
def contents (f : Factory) : List (String × Json) :=
  [("root", .obj [("type", .str (if f == 7 then "string" else "null"))]), ("other", .obj [])]

@[inherit_doc contents] def twoSystems : World := { world [] with readFile := fun _ f name => getKey name (contents f) }

/-- The verdict of what call `i` returned. -/
def callVerdict (w : World) (v : Json) (x : List Call × LState) (i : Nat) : Option Bool :=
  match x.1[i]?.bind Call.result with
  | some (.ok S) =>
    match validateDocument w.env Sched.id S.heap 9 S.root v with
    | .ok r => some r.valid
    | .error _ => none
  | _ => none

/-- `Compile` of `root` from file system 7 and of `other` from file system 8. -/
def twoCalls : List Call := [⟨[0], .reference "root" 7, .ready⟩, ⟨[1], .reference "other" 8, .ready⟩]

/-- A meta-schema that asks for a member `x`; one document that has it, one that does not. -/
def askX : World := world [("meta", .obj [("required", .arr [.str "x"])]), ("a", .obj [("$schema", .str "meta"), ("x", .null)]),
  ("b", .obj [("$schema", .str "meta")])]

@[inherit_doc askX] def twoChecks : List Call := [⟨[0], .reference "a" 0, .ready⟩, ⟨[1], .reference "b" 0, .ready⟩]

/-- Whether call `i` returned a schema. -/
def callOk (x : List Call × LState) (i : Nat) : Option Bool :=
  (x.1[i]?.bind Call.result).map fun r => r.isOk

end Demo

/-- 'Calls from several goroutines have the outcome they have one after the other' is false: another goroutine's file system
may be read, which changes verdicts. -/
theorem C78_wrong_system : ∃ (w : World) (cs : List Call) (v : Json) (order : List Nat),
    Demo.callVerdict w v (run w Sched.id ⟨9, 9⟩ ([0, 0, 0, 0, 0] ++ [1, 1, 1, 1, 1]) (cs, newSchemaLoader)) 0 = some true ∧
    Demo.callVerdict w v (run w Sched.id ⟨9, 9⟩ ([1, 1, 1, 1, 1] ++ [0, 0, 0, 0, 0]) (cs, newSchemaLoader)) 0 = some true ∧
    Demo.callVerdict w v (run w Sched.id ⟨9, 9⟩ order (cs, newSchemaLoader)) 0 = some false :=
  ⟨Demo.twoSystems, Demo.twoCalls, .str "a", [0, 1, 0, 0, 0, 0, 1, 1, 1, 1], by decide +kernel, by decide +kernel, by decide +kernel⟩

/-- With `Validate` on, a schema that its meta-schema refuses may be accepted. -/
theorem C78_not_checked : ∃ (w : World) (cs : List Call) (order : List Nat),
    Demo.callOk (run w Sched.id ⟨9, 9⟩ ([0, 0, 0, 0, 0] ++ [1, 1, 1, 1, 1]) (cs, { newSchemaLoader with validate := true })) 1 = some false ∧
    Demo.callOk (run w Sched.id ⟨9, 9⟩ ([1, 1, 1, 1, 1] ++ [0, 0, 0, 0, 0]) (cs, { newSchemaLoader with validate := true })) 1 = some false ∧
    Demo.callOk (run w Sched.id ⟨9, 9⟩ order (cs, { newSchemaLoader with validate := true })) 1 = some true :=
  ⟨Demo.askX, Demo.twoChecks, [0, 0, 0, 1, 1, 1, 1, 0, 0], by decide +kernel, by decide +kernel, by decide +kernel⟩

/-- Both file systems are read, by whichever call. -/
example : (run Demo.twoSystems Sched.id ⟨9, 9⟩ [0, 0, 1, 1, 0, 0, 0, 1, 1, 1] (Demo.twoCalls, newSchemaLoader)).2.log = [(7, "root"), (8, "other")] := by
  decide +kernel
example : ∀ c ∈ Demo.twoCalls, c.stage matches .ready := by decide +kernel
example (l : LState) : (run Demo.twoSystems Sched.id ⟨9, 9⟩ ([1, 0].flatMap (List.replicate 5)) (Demo.twoCalls, l)).1[0]?.bind Call.result =
    some (compile Demo.twoSystems Sched.id ⟨9, 9⟩ [0] (.reference "root" 7)
      (compile Demo.twoSystems Sched.id ⟨9, 9⟩ [1] (.reference "other" 8) l).2).1 :=
  (C78_sequence Demo.twoSystems Sched.id ⟨9, 9⟩ Demo.twoCalls [1, 0] l (by decide) fun i hi => by
    have h : i = 1 ∨ i = 0 := by simpa using hi
    rcases h with rfl | rfl
    · exact ⟨_, rfl, rfl⟩
    · exact ⟨_, rfl, rfl⟩).2.1 [1] 0 _ [] rfl rfl

example (l : LState) : ∃ cs', run Demo.twoSystems Sched.id ⟨9, 9⟩ [0, 1, 0, 0, 0, 0] (Demo.twoCalls, l) =
      (cs', (compile Demo.twoSystems Sched.id ⟨9, 9⟩ [0] (.reference "root" 8) l).2) ∧
    cs'[0]?.bind Call.result = some (compile Demo.twoSystems Sched.id ⟨9, 9⟩ [0] (.reference "root" 8) l).1 :=
  C78_overtaken Demo.twoSystems Sched.id ⟨9, 9⟩ Demo.twoCalls 0 1 ⟨[0], .reference "root" 7, .ready⟩ ⟨[1], .reference "other" 8, .ready⟩ l
    "root" "root" 7 rfl rfl rfl rfl (by decide) rfl (by decide +kernel) (by decide) (by simp [LoaderArg.ref]; decide +kernel)
example : Demo.twoSystems.norm "root" = some "root" := by decide +kernel
example : (metaSchemaURL Demo.askX (.obj [("$schema", .str "meta"), ("x", .null)]) { newSchemaLoader with validate := true }).1 matches
    .ok (some "meta") := by decide +kernel

end GJS

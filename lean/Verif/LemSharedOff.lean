import Verif.LemShared
import Verif.LemHistory
/-
Interleaved calls of `Compile`: a call overtaken by another, and calls with `Validate` off.
-/
namespace GJS
open Shared

/-- What happens if another call starts after call `i` has set its file system and before it reads its document. -/
theorem overtaken {w : World} {σ : Sched} {fuel : Fuel} {cs : List Call} {i j : Nat} {c c' : Call} {ref} (l : LState)
    (hc : cs[i]? = some c) (hs : c.stage = .ready) (hc' : cs[j]? = some c') (hs' : c'.stage = .ready) (hij : i ≠ j)
    (hr : c.arg.ref w = some ref) (hr' : c'.arg.ref w ≠ none) :
    ∃ cs', run w σ fuel (i :: j :: List.replicate 4 i) (cs, l) = (cs', (rest w σ fuel c.path c.arg ref { l with factory := c'.arg.factory }).2) ∧
      cs'[i]? = some { c with stage := .done (rest w σ fuel c.path c.arg ref { l with factory := c'.arg.factory }).1 } := by
  obtain ⟨hi, _⟩ := List.getElem?_eq_some_iff.1 hc
  have e1 : step w σ fuel i (cs, l) = (cs.set i { c with stage := .started }, { l with factory := c.arg.factory }) := by
    unfold step Call.next
    simp only [hc, hr, hs]
  have e2 : step w σ fuel j (cs.set i { c with stage := .started }, { l with factory := c.arg.factory }) =
      ((cs.set i { c with stage := .started }).set j { c' with stage := .started }, { l with factory := c'.arg.factory }) := by
    have hg : (cs.set i { c with stage := .started })[j]? = some c' := by rw [List.getElem?_set_ne hij]; exact hc'
    unfold step Call.next
    simp only [hg]
    cases h : c'.arg.ref w with
    | none => exact absurd h hr'
    | some r => simp only [hs']
  rw [run, run, e1, e2]
  have hg : ((cs.set i { c with stage := .started }).set j { c' with stage := .started })[i]? = some { c with stage := .started } := by
    rw [List.getElem?_set_ne (Ne.symm hij), List.getElem?_set_self hi]
  rw [run_blocks hg, blocks_started (n := 0) (c := { c with stage := .started }) rfl hr]
  refine ⟨_, rfl, ?_⟩
  rw [List.getElem?_set_self (by simpa using hi)]

/-- Calls in progress with `Validate` off: `P` holds of their file systems, and of the one in force if a call has started. -/
structure OffInv (P : Factory → Prop) (l0 : LState) (x : List Call × LState) : Prop where
  calls : ∀ c ∈ x.1, P c.arg.factory ∧ ∀ doc u, c.stage ≠ .checking doc u
  force : (∀ c ∈ x.1, c.stage = .ready ∨ ∃ r, c.stage = .done r) ∨ P x.2.factory
  off : x.2.validate = false
  log : ∃ new, x.2.log = l0.log ++ new ∧ ∀ e ∈ new, P e.1

/-- A block that fetches through the file system in force keeps this. -/
theorem OffInv.block {P l0 cs l i} {c c' : Call} {l' : LState} (h : OffInv P l0 (cs, l)) (hc : c ∈ cs) (hf : P l.factory)
    (ha : c'.arg = c.arg) (hs : ∀ doc u, c'.stage ≠ .checking doc u) (hl : FacInv l.factory l l') (hv : l'.validate = false) :
    OffInv P l0 (cs.set i c', l') := by
  refine ⟨fun d hd => ?_, .inr (hl.factory ▸ hf), hv, ?_⟩
  · rcases List.mem_or_eq_of_mem_set hd with h1 | rfl
    · exact h.calls d h1
    · exact ⟨ha ▸ (h.calls c hc).1, hs⟩
  · obtain ⟨new, h1, h2⟩ := h.log
    obtain ⟨new', h3, h4⟩ := hl.log
    refine ⟨new ++ new', by rw [h3, h1, List.append_assoc], fun e he => ?_⟩
    rcases List.mem_append.1 he with h5 | h5
    · exact h2 e h5
    · exact h4 e h5 ▸ hf

theorem after_stage {c : Call} {f : α → Stage} {x : Except Fail α × LState} (h : ∀ a doc u, f a ≠ .checking doc u) :
    (c.after f x).1.arg = c.arg ∧ (∀ doc u, (c.after f x).1.stage ≠ .checking doc u) ∧ (c.after f x).2 = x.2 := by
  unfold Call.after
  split
  · exact ⟨rfl, h _, rfl⟩
  · exact ⟨rfl, fun _ _ => nofun, rfl⟩

theorem OffInv.step {w : World} {σ : Sched} {fuel : Fuel} {P l0 x} (i : Nat) (h : OffInv P l0 x) : OffInv P l0 (Shared.step w σ fuel i x) := by
  obtain ⟨cs, l⟩ := x
  unfold Shared.step
  cases hg : cs[i]? with
  | none => simpa only using h
  | some c =>
    simp only [hg]
    have hc : c ∈ cs := List.mem_of_getElem? hg
    have same : FacInv l.factory l l := ⟨rfl, [], by simp, by simp⟩
    have started : ∀ {s}, c.stage = s → s ≠ .ready → (∀ r, s ≠ .done r) → P l.factory := by
      intro s hs h1 h2
      rcases h.force with h3 | h3
      · rcases h3 c hc with h4 | ⟨r, h4⟩
        · exact absurd (hs.symm.trans h4) h1
        · exact absurd (hs.symm.trans h4) (h2 r)
      · exact h3
    unfold Call.next
    cases hr : c.arg.ref w with
    | none =>
      simp only
      refine ⟨fun d hd => ?_, ?_, h.off, h.log⟩
      · rcases List.mem_or_eq_of_mem_set hd with h1 | rfl
        · exact h.calls d h1
        · exact ⟨(h.calls c hc).1, fun _ _ => nofun⟩
      · refine h.force.imp_left fun h1 d hd => ?_
        rcases List.mem_or_eq_of_mem_set hd with h2 | rfl
        · exact h1 d h2
        · exact .inr ⟨_, rfl⟩
    | some ref =>
      cases hs : c.stage with
      | ready =>
        simp only
        refine ⟨fun d hd => ?_, .inr (h.calls c hc).1, h.off, h.log⟩
        rcases List.mem_or_eq_of_mem_set hd with h1 | rfl
        · exact h.calls d h1
        · exact ⟨(h.calls c hc).1, fun _ _ => nofun⟩
      | started =>
        simp only
        obtain ⟨h1, h2, h3⟩ := after_stage (c := c) (f := Stage.loaded) (x := rootDocument w σ c.path c.arg ref l) fun _ _ _ => nofun
        rw [h3]
        exact h.block hc (started hs nofun fun _ => nofun) h1 h2 (rootDocument_fac l same).1 ((rootDocument_keep l).trans h.off)
      | loaded doc =>
        have hv : l.validate = false := h.off
        simp only [hv, Bool.false_eq_true, if_false]
        exact h.block hc (started hs nofun fun _ => nofun) rfl (fun _ _ => nofun) same hv
      | checking doc u => exact absurd hs ((h.calls c hc).2 doc u)
      | checked doc =>
        simp only
        obtain ⟨h1, h2, h3⟩ := after_stage (c := c) (f := fun s => Stage.done (.ok s)) (x := Shared.finish w σ fuel c.path ref doc l) fun _ _ _ => nofun
        rw [h3]
        have T : Tri (fun l1 : LState => FacInv l.factory l l1 ∧ l1.validate = false) (Shared.finish w σ fuel c.path ref doc) (fun _ => True) :=
          .bind (Q := fun _ => True) rootDraft_still.tri fun d _ l1 h1 =>
            ⟨⟨(runParse_fac l1 h1.1).1, (runParse_keep l1).trans h1.2⟩, fun _ _ _ => trivial⟩
        obtain ⟨h4, h5⟩ := (T l ⟨same, h.off⟩).1
        exact h.block hc (started hs nofun fun _ => nofun) h1 h2 h4 h5
      | done r =>
        simp only
        have e : cs.set i c = cs := by
          obtain ⟨hi, rfl⟩ := List.getElem?_eq_some_iff.1 hg
          exact List.set_getElem_self hi
        rw [e]
        exact h

end GJS

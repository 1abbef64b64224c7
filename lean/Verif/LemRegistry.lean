import Verif.SpecRegistry
import Verif.LemConc
/-
The registry of format checkers under concurrency: lemmas for C30.
-/
namespace GJS.Reg
open GJS Conc Spec

/-- The registry in a memory. -/
def view (s : Mem C) : Registry C := fun ch name => List.lookup name (s ch).entries

/-- No map is being written. -/
def Quiet (s : Mem C) : Prop := ∀ ch, (s ch).writing = false

/-- The code that corresponds to a status. -/
def codeOf (run : C → Json → Bool) : Status C → Code (Mem C) (Event C)
  | .ready p => code run p
  | .pending op k => body run op fun r => code run (k r)
  | .served op res k => returns op (fun r => code run (k r)) res

theorem lookup_filter_self (name : String) (l : List (String × C)) :
    List.lookup name (l.filter (fun e => !(e.1 == name))) = none := by
  induction l with
  | nil => rfl
  | cons a l ih =>
    obtain ⟨a1, a2⟩ := a
    by_cases h : a1 = name
    · rw [List.filter_cons_of_neg (by simp [h])]; exact ih
    · rw [List.filter_cons_of_pos (by simp [h])]
      have : (name == a1) = false := by simpa using Ne.symm h
      simp only [List.lookup_cons, this]; exact ih

theorem lookup_filter_ne {name n : String} (hn : n ≠ name) (l : List (String × C)) :
    List.lookup n (l.filter (fun e => !(e.1 == name))) = List.lookup n l := by
  induction l with
  | nil => rfl
  | cons a l ih =>
    obtain ⟨a1, a2⟩ := a
    by_cases h : a1 = name
    · rw [List.filter_cons_of_neg (by simp [h])]
      have : (n == a1) = false := by rw [h]; simpa using hn
      simp only [List.lookup_cons, this]; exact ih
    · rw [List.filter_cons_of_pos (by simp [h])]
      simp only [List.lookup_cons, ih]

/-- A section executed at once is the call on the sequential registry. -/
theorem section_serves (run : C → Json → Bool) (s : Mem C) (hs : Quiet s) (op : Op C) (k : Res → Prog C) (c : Code (Mem C) (Event C))
    (h : codeOf run (.pending op k) = .rlock c ∨ codeOf run (.pending op k) = .lock c) :
    Quiet (runSection s c).1 ∧ view (runSection s c).1 = (Spec.apply run (view s) op).1 ∧
      (runSection s c).2 = codeOf run (.served op (Spec.apply run (view s) op).2 k) := by
  cases op with
  | add ch name f =>
    rcases h with h | h <;> simp only [codeOf, body, reduceCtorEq, Code.lock.injEq] at h
    subst h
    simp only [writeMap, runSection, hs ch, Bool.false_eq_true, if_false]
    refine ⟨?_, ?_, rfl⟩
    · intro c; simp only [update]; split
      · rfl
      · exact hs c
    · funext c n
      simp only [view, update, Spec.apply, if_true]
      by_cases e : c = ch
      · subst e
        simp only [if_true, true_and]
        by_cases e' : n = name
        · subst e'; simp [insert]
        · have : (n == name) = false := by simpa using e'
          simp only [insert, List.lookup_cons, this, e', if_false, lookup_filter_ne e']
      · simp [e]
  | remove ch name =>
    rcases h with h | h <;> simp only [codeOf, body, reduceCtorEq, Code.lock.injEq] at h
    subst h
    simp only [writeMap, runSection, hs ch, Bool.false_eq_true, if_false]
    refine ⟨?_, ?_, rfl⟩
    · intro c; simp only [update]; split
      · rfl
      · exact hs c
    · funext c n
      simp only [view, update, Spec.apply, if_true]
      by_cases e : c = ch
      · subst e
        simp only [if_true, true_and]
        by_cases e' : n = name
        · subst e'; simp only [erase, if_true, lookup_filter_self]
        · simp only [erase, e', if_false, lookup_filter_ne e']
      · simp [e]
  | has ch name =>
    rcases h with h | h <;> simp only [codeOf, body, reduceCtorEq, Code.rlock.injEq] at h
    subst h
    simp only [readMap, runSection, hs ch, Bool.false_eq_true, if_false]
    exact ⟨hs, rfl, rfl⟩
  | isFormat ch name input =>
    rcases h with h | h <;> simp only [codeOf, body, reduceCtorEq, Code.rlock.injEq] at h
    subst h
    simp only [readMap, runSection, hs ch, Bool.false_eq_true, if_false]
    exact ⟨hs, rfl, rfl⟩

theorem step_serves (run : C → Json → Bool) {a a' : Mem C × List (Code (Mem C) (Event C))} {l} {sts : List (Status C)}
    (hq : Quiet a.1) (hc : a.2 = sts.map (codeOf run)) (h : AStep a l a') :
    ∃ sts', Spec.Step run (view a.1, sts) l (view a'.1, sts') ∧ Quiet a'.1 ∧ a'.2 = sts'.map (codeOf run) := by
  have find : ∀ {cs : List (Code (Mem C) (Event C))} {i : Nat} {c}, cs = sts.map (codeOf run) → cs[i]? = some c →
      ∃ st, sts[i]? = some st ∧ codeOf run st = c := by
    rintro cs i c rfl h
    rw [List.getElem?_map] at h
    cases h' : sts[i]? with
    | none => rw [h'] at h; cases h
    | some st => rw [h'] at h; simp at h; exact ⟨st, rfl, h⟩
  have sect : ∀ (s : Mem C) (cs : List (Code (Mem C) (Event C))) (i : Nat) (k c : Code (Mem C) (Event C)), Quiet s →
      cs = sts.map (codeOf run) → cs[i]? = some c → (c = .rlock k ∨ c = .lock k) →
      ∃ sts', Spec.Step run (view s, sts) none (view (runSection s k).1, sts') ∧ Quiet (runSection s k).1 ∧
        cs.set i (runSection s k).2 = sts'.map (codeOf run) := by
    intro s cs i k c hq hc hk hcases
    obtain ⟨st, h1, h2⟩ := find hc hk
    cases st with
    | ready p => cases p <;> rcases hcases with rfl | rfl <;> cases h2
    | served op res k => rcases hcases with rfl | rfl <;> cases h2
    | pending op k' =>
      obtain ⟨e1, e2, e3⟩ := section_serves run s hq op k' k (by rcases hcases with rfl | rfl; exact .inl h2; exact .inr h2)
      refine ⟨_, (by rw [e2]; exact .serve _ _ i op k' h1), e1, ?_⟩
      rw [e3, hc, List.map_set]
  cases h with
  | emit s cs i e k hk =>
    obtain ⟨st, h1, h2⟩ := find hc hk
    cases st with
    | ready p =>
      cases p with
      | stop => cases h2
      | call op k' =>
        cases h2
        refine ⟨_, .call _ _ i op k' h1, hq, ?_⟩
        simp only at hc
        simp only [hc, List.map_set, codeOf]
    | pending op k' => cases op <;> cases h2
    | served op res k' =>
      cases h2
      refine ⟨_, .ret _ _ i op res k' h1, hq, ?_⟩
      simp only at hc
      simp only [hc, List.map_set, codeOf]
  | rsection s cs i k hk => exact sect s cs i k _ hq hc hk (.inl rfl)
  | wsection s cs i k hk => exact sect s cs i k _ hq hc hk (.inr rfl)

theorem run_serves (run : C → Json → Bool) {a a' : Mem C × List (Code (Mem C) (Event C))} {tr} {sts : List (Status C)}
    (hq : Quiet a.1) (hc : a.2 = sts.map (codeOf run)) (h : ARun a tr a') :
    ∃ sts', Spec.Run run (view a.1, sts) tr (view a'.1, sts') ∧ Quiet a'.1 ∧ a'.2 = sts'.map (codeOf run) := by
  induction h generalizing sts with
  | nil a => exact ⟨sts, .nil _, hq, hc⟩
  | step a a' a'' l tr h _ ih =>
    obtain ⟨s1, r1, q1, c1⟩ := step_serves run hq hc h
    obtain ⟨s2, r2, q2, c2⟩ := ih q1 c1
    exact ⟨s2, .step _ _ _ _ _ r1 r2, q2, c2⟩

theorem code_ok (run : C → Json → Bool) : ∀ p : Prog C, Ok (code run p) .idle
  | .stop => rfl
  | .call op k => by
    have ih := fun r => code_ok run (k r)
    refine ⟨rfl, ?_⟩
    cases op with
    | add ch name f =>
      refine ⟨.inl rfl, .inr rfl, fun s => ?_⟩
      dsimp only
      split
      · exact ⟨rfl, rfl, ih _⟩
      · exact ⟨rfl, rfl, rfl, rfl, ih _⟩
    | remove ch name =>
      refine ⟨.inl rfl, .inr rfl, fun s => ?_⟩
      dsimp only
      split
      · exact ⟨rfl, rfl, ih _⟩
      · exact ⟨rfl, rfl, rfl, rfl, ih _⟩
    | has ch name =>
      refine ⟨rfl, .inl rfl, fun s => ?_⟩
      dsimp only
      split
      · exact ⟨rfl, rfl, ih _⟩
      · exact ⟨rfl, rfl, ih _⟩
    | isFormat ch name input =>
      refine ⟨rfl, .inl rfl, fun s => ?_⟩
      dsimp only
      split
      · exact ⟨rfl, rfl, ih _⟩
      · exact ⟨rfl, rfl, ih _⟩

theorem start_inv (run : C → Json → Bool) (s : Mem C) (ps : List (Prog C)) : Inv (start run s ps) := by
  refine Inv.start fun k hk => ?_
  obtain ⟨p, -, rfl⟩ := List.mem_map.1 hk
  exact code_ok run p

/-- The answers a sequential registry can give. -/
theorem answers (run : C → Json → Bool) {a a' : Registry C × List (Status C)} {tr} (h : Spec.Run run a tr a')
    (ha : ∀ st ∈ a.2, ∀ op res k, st = .served op res k → ∃ r, res = (Spec.apply run r op).2) :
    ∀ i op res, (i, Event.ret op res) ∈ tr → ∃ r, res = (Spec.apply run r op).2 := by
  induction h with
  | nil a => intro i op res h; simp at h
  | step a a' a'' l tr h _ ih =>
    have key : ∀ st ∈ a'.2, ∀ op res k, st = .served op res k → ∃ r, res = (Spec.apply run r op).2 := by
      cases h with
      | call r sts i op k hk =>
        intro st hst
        rcases List.mem_or_eq_of_mem_set hst with hst | rfl
        · exact ha st hst
        · intro _ _ _ e; cases e
      | serve r sts i op k hk =>
        intro st hst
        rcases List.mem_or_eq_of_mem_set hst with hst | rfl
        · exact ha st hst
        · intro _ _ _ e; cases e; exact ⟨r, rfl⟩
      | ret r sts i op res k hk =>
        intro st hst
        rcases List.mem_or_eq_of_mem_set hst with hst | rfl
        · exact ha st hst
        · intro _ _ _ e; cases e
    intro i op res hm
    rcases List.mem_append.1 hm with hm | hm
    · cases h with
      | call r sts j op' k hk => simp at hm
      | serve r sts j op' k hk => simp at hm
      | ret r sts j op' res' k hk =>
        simp only [Option.toList_some, List.mem_singleton, Prod.mk.injEq, Event.ret.injEq] at hm
        obtain ⟨rfl, rfl, rfl⟩ := hm
        exact ha _ (mem_of_get hk) _ _ _ rfl
    · exact ih key i op res hm

end GJS.Reg

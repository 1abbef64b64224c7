import Verif.LemLiveMono
import Verif.Registry
import Verif.SpecRegistry
import Verif.PropReturn
/-
Validation while formats are being registered: C76.
-/
namespace GJS
open Spec

/-- C76: the answer of the format chain is that of a sequential registry (C30 says that concurrent calls get answers of
sequential registries). -/
theorem C76_answer (run : C → Json → Bool) (r : Reg.Spec.Registry C) (ch : Nat) (name : String) (v : Json) :
    Reg.Spec.apply run r (.isFormat ch name v) = (r, .bool (askFormat run (r ch) name v)) := rfl

/-- C76: if the formats a compiled schema names are not changed while the validation runs, it does exactly what it does on
the registry as it was at any moment `a`; other formats may come and go. -/
theorem C76_steady (env : Env) (run : C → Json → Bool) (reg : Nat → String → Option C) (time : Path → Nat) (σ : Sched) (h : Heap)
    (n : Nat) (root : Id) (v : Json) (a : Nat) (hs : ∀ s ∈ h, s.format ≠ "" → ∀ p, reg (time p) s.format = reg a s.format) :
    liveDocument env run reg time σ h n root v =
      validateDocument { env with isFormat := askFormat run (reg a) } σ h n root v := by
  unfold liveDocument validateDocument
  rw [← validateLive_const, validateLive_congr]
  intro i s hi hf p v
  unfold askFormat
  rw [hs s (List.mem_of_getElem? hi) hf p]

/-- C76: whatever happens to the registry, validation returns if in-place references do not go round in circles, and there is
no panic on numbers in range. -/
theorem C76_returns (env : Env) (run : C → Json → Bool) (reg : Nat → String → Option C) (time : Path → Nat) (σ : Sched) (h : Heap)
    (hh : HeapOK h) (hac : Acyclic h) (root : Id) (hroot : root < h.length) (v : Json) (hv : InRange env v) (n : Nat)
    (hn : v.size * (h.length + 1) + h.length + 1 ≤ n) : ∃ r, liveDocument env run reg time σ h n root v = .ok r := by
  have h1 : liveDocument env run reg time σ h n root v ≠ .error .fuel :=
    live_no_fuel (R := h.length) (fun i => reachRank_le h i) (fun _ _ => reachRank_lt hac) n root v _ _ (by
      have := reachRank_le h root; omega)
  have h2 : liveDocument env run reg time σ h n root v ≠ .error .panic := live_no_panic hh n root v _ _ hroot hv
  cases hx : liveDocument env run reg time σ h n root v with
  | ok r => exact ⟨r, rfl⟩
  | error e => cases e <;> simp_all

/-- C76: whatever happens to the registry, errors are reported at places of the instance, as in C07. -/
theorem C76_places (env : Env) (run : C → Json → Bool) (reg : Nat → String → Option C) (time : Path → Nat) (σ : Sched) (h : Heap)
    (n : Nat) (root : Id) (v : Json) (hv : v.WF) (r : Result) (hr : liveDocument env run reg time σ h n root v = .ok r)
    (e : Err) (he : e ∈ r.errors) :
    ∃ path w, e.ctx = path.reverse ++ ["(root)"] ∧ Spec.At v path w ∧ (∀ w', Spec.At v path w' → w' = w) ∧
      (e.value = w ∨
       (∃ kvs k, w = .obj kvs ∧ e.kind = .additionalPropertyNotAllowed k ∧ (k, e.value) ∈ kvs) ∨
       (∃ kvs k, w = .obj kvs ∧ k ∈ kvs.map Prod.fst ∧ e.value = .str k)) := by
  obtain ⟨steps, w, h1, h2, h3⟩ := live_loc n _ _ _ _ _ hr e he
  exact ⟨steps.reverse, w, by simpa [rootCtx] using h1, h2, fun w' h' => At_unique hv h2 h', h3⟩

/-- C76: where `not`, `oneOf` and `if` are not used, the verdict lies between those on two registries if all the answers do:
what a registry that accepts less accepts is accepted, and what is accepted a registry that accepts more accepts. -/
theorem C76_between (env : Env) (run : C → Json → Bool) (reg : Nat → String → Option C) (time : Path → Nat) (σ : Sched) (h : Heap)
    (hp : ∀ s ∈ h, s.oneOf = [] ∧ s.not = none ∧ s.if_ = none) (less more : String → Option C)
    (hl : ∀ s ∈ h, s.format ≠ "" → ∀ p v, askFormat run less s.format v = true → askFormat run (reg (time p)) s.format v = true)
    (hm : ∀ s ∈ h, s.format ≠ "" → ∀ p v, askFormat run (reg (time p)) s.format v = true → askFormat run more s.format v = true)
    (n : Nat) (root : Id) (v : Json) (r r₁ r₂ : Result) (hr : liveDocument env run reg time σ h n root v = .ok r)
    (h₁ : validateDocument { env with isFormat := askFormat run less } σ h n root v = .ok r₁)
    (h₂ : validateDocument { env with isFormat := askFormat run more } σ h n root v = .ok r₂) :
    (r₁.valid = true → r.valid = true) ∧ (r.valid = true → r₂.valid = true) := by
  unfold validateDocument at h₁ h₂
  rw [← validateLive_const] at h₁ h₂
  exact ⟨validateLive_mono hp (fun s hs hf p v => hl s hs hf p v) n _ _ _ _ _ _ h₁ hr,
    validateLive_mono hp (fun s hs hf p v => hm s hs hf p v) n _ _ _ _ _ _ hr h₂⟩

namespace Demo
/-- The format `f`, and not. -/
def bothWays : Json := .obj [("allOf", .arr [.obj [("format", .str "f")], .obj [("not", .obj [("format", .str "f")])]])]

theorem bothWays_compiles : okB (compile (world []) Sched.id ⟨20, 20⟩ [] (.direct (some bothWays)) (fixed Draft7)) = true := by
  decide +kernel

/-- The schema as compiled. -/
def bothHeap : Heap := (outOf _ bothWays_compiles).heap

theorem bothHeap_eq : bothHeap = [
  { doc := bothWays, draft := Draft7, allOf := [1, 2] }, { doc := .obj [("format", .str "f")], draft := Draft7, format := "f" },
  { doc := .obj [("not", .obj [("format", .str "f")])], draft := Draft7, not := some 3 },
  { doc := .obj [("format", .str "f")], draft := Draft7, format := "f" }] := rfl

theorem bothHeap_ok : HeapOK bothHeap := by
  rw [bothHeap_eq]
  intro s hs
  simp at hs
  rcases hs with rfl | rfl | rfl | rfl <;> simp [inPlace, nested, extraId]

/-- The keywords of a node that has a format only. -/
theorem format_rules {env : Env} {Sat : Id → Json → Prop} {doc draft f} {v : Json} (h : env.isFormat f v = true) :
    Keywords env Sat { doc := doc, draft := draft, format := f } v := by
  refine ⟨.inl rfl, .inl rfl, .inl rfl, by simp [AllOfRule], by simp [NotRule], by simp [DependenciesRule, getKey], by simp [IfRule],
    by simp [ConstRule], .inl rfl, .inr h, ?_, ?_, by simp [StringRules, SizeRule], by simp [NumberRules]⟩
  · simp [ArrayRules, ItemsRule, SizeRule, UniqueRule, ContainsRule]
  · simp [ObjectRules, SizeRule, RequiredRule, PropertiesRule, PatternRule, AdditionalRule, ExtraRule, PropertyNamesRule]
end Demo
open Demo

/-- C76: a validation can meet two registries.  No registry that stays as it is makes
`{"allOf": [{"format": "f"}, {"not": {"format": "f"}}]}` accept anything; a validation of a string accepts it if the checker
`f`, which rejects it, is added between the two questions. -/
theorem C76_mixed (run : C → Json → Bool) (f : C) (t : String) (hf : run f (.str t) = false) (σ : Sched) :
    (∀ (isFormat : String → Json → Bool) (n : Nat) (v : Json) (r : Result),
      validateDocument { (world []).env with isFormat := isFormat } σ bothHeap n 0 v = .ok r → r.valid = false) ∧
    ∃ (reg : Nat → String → Option C) (time : Path → Nat) (r : Result),
      reg 0 = (fun _ => none) ∧ reg 1 = (fun name => if name = "f" then some f else none) ∧ (∀ p, time p ≤ 1) ∧
      liveDocument (world []).env run reg time σ bothHeap 4 0 (.str t) = .ok r ∧ r.valid = true := by
  constructor
  · intro isFormat n v r hr
    cases hv : r.valid with
    | false => rfl
    | true =>
      exfalso
      have hu := (C02_verdict_unfold _ σ _ n 0 v r hr (fun i _ => i = 3)).1 hv
      rw [bothHeap_eq] at hu
      match n, hu with
      | 1, hu =>
        obtain ⟨s, hs, hk⟩ := hu
        cases hs
        exact absurd (hk.2.2.2.1 1 (by simp)) (show ¬ (1 : Nat) = 3 by decide)
      | 2, hu =>
        obtain ⟨s, hs, hk⟩ := hu
        cases hs
        obtain ⟨s, hs, h2⟩ := hk.2.2.2.1 2 (by simp)
        cases hs
        exact h2.2.2.2.2.1 3 rfl rfl
      | n + 3, hu =>
        obtain ⟨s, hs, hk⟩ := hu
        cases hs
        obtain ⟨s, hs, h1⟩ := hk.2.2.2.1 1 (by simp)
        cases hs
        obtain ⟨s, hs, h2⟩ := hk.2.2.2.1 2 (by simp)
        cases hs
        refine h2.2.2.2.2.1 3 rfl ⟨_, rfl, format_rules ?_⟩
        rcases h1.2.2.2.2.2.2.2.2.2.1 with h | h
        · exact absurd h (by decide)
        · exact h
  · refine ⟨fun m name => if m = 0 then none else if name = "f" then some f else none, fun p => if p = [0, 3] then 0 else 1, ?_⟩
    rw [bothHeap_eq]
    suffices h : ∃ r, liveDocument (world []).env run (fun m name => if m = 0 then none else if name = "f" then some f else none)
        (fun p => if p = [0, 3] then 0 else 1) σ [{ doc := bothWays, draft := Draft7, allOf := [1, 2] },
          { doc := .obj [("format", .str "f")], draft := Draft7, format := "f" },
          { doc := .obj [("not", .obj [("format", .str "f")])], draft := Draft7, not := some 3 },
          { doc := .obj [("format", .str "f")], draft := Draft7, format := "f" }] 4 0 (.str t) = .ok r ∧ r.valid = true by
      obtain ⟨r, h1, h2⟩ := h
      exact ⟨r, rfl, by funext name; simp, fun p => by dsimp only; split <;> omega, h1, h2⟩
    refine ⟨?_, ?_, ?_⟩
    rotate_left
    · simp [liveDocument, validateLive, validateStep, typeError, isTyped, validateNode, validateSchema, checkAnyOf, checkOneOf, checkAllOf,
        allOfLoop, checkNot, checkDependencies, checkIf, validateNumber, validateCommon, checkConst, checkEnum, checkFormat, validateString,
        askFormat, sizeCheck, checkPattern, hf]
      rfl
    · rfl

/-! ### Cases -/

namespace Demo

theorem bothHeap_acyclic : Acyclic bothHeap := by
  have key : ∀ i j, InPlaceEdge bothHeap i j → i < j := by
    rw [bothHeap_eq]
    rintro i j ⟨s, hs, hj⟩
    match i, hs with
    | 0, hs => cases hs; simp [inPlace] at hj; rcases hj with rfl | rfl <;> decide
    | 1, hs => cases hs; simp [inPlace] at hj
    | 2, hs => cases hs; simp [inPlace] at hj; subst hj; decide
    | 3, hs => cases hs; simp [inPlace] at hj
    | n + 4, hs => simp at hs
  intro i hi
  have h0 : ∀ k, Relation.TransGen (InPlaceEdge bothHeap) i k → i < k := by
    intro k hk
    induction hk with
    | single h => exact key _ _ h
    | tail _ h ih => exact Nat.lt_trans ih (key _ _ h)
  exact absurd (h0 i hi) (Nat.lt_irrefl i)

/-- Checkers that accept everything or nothing; `g` changes all the time, `f` does not. -/
def coming (t : Nat) (name : String) : Option Bool :=
  if name = "f" then some false else if name = "g" ∧ t % 2 = 0 then some true else none

example := C76_steady (world []).env (fun b _ => b) coming List.length Sched.id bothHeap 9 0 (.str "x") 7 (by
  rw [bothHeap_eq]
  intro s hs hf p
  simp at hs
  rcases hs with rfl | rfl | rfl | rfl <;> first | exact absurd rfl hf | rfl)

example : ∃ r, liveDocument (world []).env (fun b _ => b) coming List.length Sched.id bothHeap 30 0 (.str "x") = .ok r :=
  C76_returns (world []).env (fun b _ => b) coming List.length Sched.id bothHeap bothHeap_ok bothHeap_acyclic 0 (by rw [bothHeap_eq]; decide)
    (.str "x") (.str _) 30 (by rw [bothHeap_eq]; decide)

example := fun r hr e he => C76_places (world []).env (fun b _ => b) coming List.length Sched.id bothHeap 30 0 (.str "x") (wf_of _ (by decide)) r hr e he

/-- A string and all its members in the format `g`. -/
def gHeap : Heap := [{ doc := .null, draft := Draft7, format := "g", itemsChildren := [1], itemsChildrenIsSingleSchema := true },
  { doc := .null, draft := Draft7, format := "g" }]

/-- A checker that rejects strings comes and goes. -/
def going (t : Nat) (name : String) : Option Bool := if name = "g" ∧ t % 2 = 0 then some false else none
def noStrings (b : Bool) (v : Json) : Bool := b || match v with | .str _ => false | _ => true

example : ∃ r r₁ r₂, liveDocument (world []).env noStrings going List.length Sched.id gHeap 9 0 (.arr [.str "x"]) = .ok r ∧
    validateDocument { (world []).env with isFormat := askFormat noStrings (going 0) } Sched.id gHeap 9 0 (.arr [.str "x"]) = .ok r₁ ∧
    validateDocument { (world []).env with isFormat := askFormat noStrings (going 1) } Sched.id gHeap 9 0 (.arr [.str "x"]) = .ok r₂ ∧
    r₁.valid = false ∧ r₂.valid = true ∧ (r₁.valid = true → r.valid = true) ∧ (r.valid = true → r₂.valid = true) := by
  refine ⟨_, _, _, rfl, rfl, rfl, by decide +kernel, by decide +kernel, ?_⟩
  refine C76_between (world []).env noStrings going List.length Sched.id gHeap ?_ (going 0) (going 1) ?_ ?_ 9 0 (.arr [.str "x"]) _ _ _ rfl rfl rfl
  · intro s hs
    simp [gHeap] at hs
    rcases hs with rfl | rfl <;> exact ⟨rfl, rfl, rfl⟩
  · intro s hs _ p v h
    simp [gHeap] at hs
    rcases hs with rfl | rfl <;> (simp only [askFormat, going] at h ⊢; split <;> simp_all)
  · intro s hs _ p v h
    simp [gHeap] at hs
    rcases hs with rfl | rfl <;> simp [askFormat, going]

example := C76_mixed noStrings false "x" rfl Sched.rev
example := C76_answer noStrings (fun _ => going 0) 0 "g" (.str "x")

end Demo
end GJS

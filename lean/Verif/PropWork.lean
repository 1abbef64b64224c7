import Verif.LemWorkDoc
import Verif.PropLoader
import Verif.PropClosed
import Verif.DemoCheck
/-
How much work a validation is (C71).
-/
namespace GJS
open Spec

/-! ### C71: at most schema size times instance size, unless there are references -/

/-- C71: whenever the nodes can be weighed such that every node outweighs what it makes use of, validation makes at
most (weight of the root) · (size of the instance) calls. -/
theorem C71_bound (env : Env) (σ : Sched) (h : Heap) (W : Id → Nat) (hW : Weight h W) (n : Nat) (root : Id) (v : Json)
    (hv : v.WF) : CallsAtMost env σ h n root v (W root * v.size) := fun L hL hm =>
  Nat.le_trans (callsAtMost_points L hL hm) (points_length hW hv)

/-- C71: the compiled form of a document without references makes at most (size of the document) · (size of the
instance) calls of `validateRecursive`. -/
theorem C71_noRef (w : World) (l l' : LState) (hw : Setting w l) (D : Json) (hD : D.WF) (hn : NoRef D) (σ : Sched) (fuel : Fuel)
    (p : Path) (s : Schema) (hc : compile w σ fuel p (.direct (some D)) l = (.ok s, l')) (σ' : Sched) (n : Nat) (v : Json)
    (hv : v.WF) : CallsAtMost w.env σ' s.heap n s.root v (D.size * v.size) := by
  obtain ⟨D', ⟨ref, e, hroot⟩, _, g⟩ := compile_good hw.lawful hw.pool (fun D h => by cases h; exact hD) hc
  simp only [LoaderArg.ref, hw.root] at e
  cases e
  rcases hroot with ⟨h, _⟩ | ⟨_, D0, h2, h3⟩
  · exact absurd rfl h
  cases h2
  cases rw_noRef h3 hn
  have := C71_bound w.env σ' s.heap _ (good_weight hn g) n s.root v hv
  rwa [docSize_stat g.root] at this

/-! ### C71: with references there is no such bound -/

namespace Work

/-- The list `[[[…]]]`, `n` deep. -/
def deep : Nat → Json
  | 0 => .arr []
  | n + 1 => .arr [deep n]

theorem deep_size : ∀ n, (deep n).size = n + 1
  | 0 => rfl
  | n + 1 => by simp [deep, Json.size, Json.sizeL, deep_size n]; omega

theorem deep_wf : ∀ n, (deep n).WF
  | 0 => .arr _ (by simp)
  | n + 1 => .arr _ (by simpa using deep_wf n)

/-- A node that is nothing but `items`, `allOf` or a reference. -/
def bare (s : Sub) (is al : List Id) (r : Option Id) : Prop :=
  s = { doc := s.doc, draft := s.draft, itemsChildren := is, itemsChildrenIsSingleSchema := !is.isEmpty, allOf := al, refSchema := r }

/-- Nodes of `R` have an `items` that is an `allOf` of two references to nodes of `R`. -/
def Doubles (h : Heap) (R : Id → Prop) : Prop :=
  ∀ i, R i → ∃ s x t y u z w j k, h[i]? = some s ∧ bare s [x] [] none ∧ h[x]? = some t ∧ bare t [] [y, z] none ∧
    h[y]? = some u ∧ bare u [] [] (some j) ∧ h[z]? = some w ∧ bare w [] [] (some k) ∧ R j ∧ R k

variable {env : Env} {σ : Sched} {h : Heap} {rec : Rec} {p : Path} {c : Ctx}

theorem step_ref {i : Nat} {s : Sub} {j : Id} {v : Json} (hi : h[i]? = some s) (b : bare s [] [] (some j)) :
    validateStep env σ h rec p i v c = rec (20 :: p) j v c := by
  unfold bare at b
  simp only [validateStep, hi]
  rw [b]

/-- Both fail the same way, or neither fails. -/
def Follows (a b : Exec Result) : Prop := (∀ e, a = .error e → b = .error e) ∧ ∀ r, a = .ok r → ∃ r', b = .ok r'

theorem step_items {i : Nat} {s : Sub} {x : Id} {xs : List Json} (hi : h[i]? = some s) (b : bare s [x] [] none) :
    Follows (forEach (fun k y => rec (k :: 10 :: p) x y (toString k :: c)) 0 xs) (validateStep env σ h rec p i (.arr xs) c) := by
  unfold bare at b
  simp only [validateStep, hi]
  rw [b]
  simp only [typeError, isTyped, validateNode, validateSchema, checkAnyOf, checkOneOf, checkAllOf, checkNot, checkDependencies,
    checkIf, validateArray, checkItems, checkUnique, checkContains, validateCommon, checkConst, checkEnum, checkFormat]
  constructor
  · intro e he
    simp at he
    simp [he, bind, Except.bind, pure, Except.pure]
  · intro r he
    simp at he
    simp [he, bind, Except.bind, pure, Except.pure]

theorem step_allOf {i : Nat} {s : Sub} {y z : Id} {xs : List Json} (hi : h[i]? = some s) (b : bare s [] [y, z] none) :
    Follows (do let _ ← rec (0 :: 3 :: p) y (.arr xs) c; rec (1 :: 3 :: p) z (.arr xs) c) (validateStep env σ h rec p i (.arr xs) c) := by
  unfold bare at b
  simp only [validateStep, hi]
  rw [b]
  simp only [typeError, isTyped, validateNode, validateSchema, checkAnyOf, checkOneOf, checkAllOf, checkNot, checkDependencies,
    checkIf, validateArray, checkItems, checkUnique, checkContains, validateCommon, checkConst, checkEnum, checkFormat, allOfLoop]
  cases h1 : rec (0 :: 3 :: p) y (.arr xs) c with
  | error e1 =>
    exact ⟨fun e he => by cases he; simp [bind, Except.bind, pure, Except.pure], fun r he => by simp [bind, Except.bind] at he⟩
  | ok r1 =>
    cases h2 : rec (1 :: 3 :: p) z (.arr xs) c with
    | error e2 =>
      exact ⟨fun e he => by cases he; simp [bind, Except.bind, pure, Except.pure], fun r he => by simp [bind, Except.bind] at he⟩
    | ok r2 =>
      refine ⟨fun e he => by simp [bind, Except.bind] at he, fun r he => ?_⟩
      cases b1 : r1.valid <;> cases b2 : r2.valid <;> simp [bind, Except.bind, pure, Except.pure, b1, b2]

/-- The calls made at the bottom of `deep m`. -/
def bottom : Nat → Path → List Path
  | 0, p => [p]
  | m + 1, p => bottom m (20 :: 0 :: 3 :: 0 :: 10 :: p) ++ bottom m (20 :: 1 :: 3 :: 0 :: 10 :: p)

theorem bottom_length : ∀ m p, (bottom m p).length = 2 ^ m
  | 0, _ => rfl
  | m + 1, p => by rw [bottom, List.length_append, bottom_length m, bottom_length m]; omega

theorem bottom_suffix : ∀ {m p q}, q ∈ bottom m p → p <:+ q
  | 0, p, q, hq => by simp only [bottom, List.mem_singleton] at hq; exact hq ▸ List.suffix_refl _
  | m + 1, p, q, hq => by
    simp only [bottom, List.mem_append] at hq
    rcases hq with hq | hq <;> exact List.IsSuffix.trans ⟨[20, _, 3, 0, 10], rfl⟩ (bottom_suffix hq)

theorem bottom_nodup : ∀ m p, (bottom m p).Nodup
  | 0, _ => by simp [bottom]
  | m + 1, p => by
    refine List.nodup_append.mpr ⟨bottom_nodup m _, bottom_nodup m _, fun a ha b hb e => ?_⟩
    obtain ⟨s, hs⟩ := bottom_suffix ha
    obtain ⟨t, ht⟩ := bottom_suffix hb
    rw [e, ← ht] at hs
    have := List.append_inj_right' hs rfl
    simp at this

theorem deep_arr (m : Nat) : ∃ xs, deep m = .arr xs := by cases m <;> exact ⟨_, rfl⟩

/-- Where nothing stops it, the validation of `deep m` succeeds. -/
theorem runs {R : Id → Prop} (hh : Doubles h R) {G : Nat → Rec} {P : Path → Prop} (hP : ∀ k p, P p → P (k :: p))
    (hG : ∀ n p i v c, P p → G (n + 1) p i v c = validateStep env σ h (G n) p i v c) :
    ∀ {m i}, R i → ∀ {p c}, P p → ∃ r, G (3 * m + 1) p i (deep m) c = .ok r
  | 0, i, hi, p, c, hp => by
    obtain ⟨s, x, t, y, u, z, w, j, k, h1, b1, -⟩ := hh i hi
    rw [hG _ _ _ _ _ hp]
    exact (step_items h1 b1).2 _ rfl
  | m + 1, i, hi, p, c, hp => by
    obtain ⟨s, x, t, y, u, z, w, j, k, h1, b1, h2, b2, h3, b3, h4, b4, hj, hk⟩ := hh i hi
    have q := hP 0 _ (hP 10 _ hp)
    have q0 := hP 0 _ (hP 3 _ q)
    have q1 := hP 1 _ (hP 3 _ q)
    obtain ⟨r1, e1⟩ := runs hh hP hG (m := m) hj (c := toString 0 :: c) (hP 20 _ q0)
    obtain ⟨r2, e2⟩ := runs hh hP hG (m := m) hk (c := toString 0 :: c) (hP 20 _ q1)
    have f1 : G (3 * m + 2) (0 :: 3 :: 0 :: 10 :: p) y (deep m) (toString 0 :: c) = .ok r1 := by
      rw [hG _ _ _ _ _ q0]
      exact (step_ref h3 b3).trans e1
    have f2 : G (3 * m + 2) (1 :: 3 :: 0 :: 10 :: p) z (deep m) (toString 0 :: c) = .ok r2 := by
      rw [hG _ _ _ _ _ q1]
      exact (step_ref h4 b4).trans e2
    have ⟨xs, hd⟩ := deep_arr m
    rw [hd] at f1 f2
    obtain ⟨r3, e3⟩ : ∃ r3, G (3 * m + 3) (0 :: 10 :: p) x (deep m) (toString 0 :: c) = .ok r3 := by
      rw [hd, hG _ _ _ _ _ q]
      exact (step_allOf h2 b2).2 r2 (by rw [f1, f2]; rfl)
    rw [hG _ _ _ _ _ hp]
    exact (step_items h1 b1).2 (r3 ++ {}) (by simp only [forEach]; exact (congrArg (· >>= _) e3))

theorem stop_next {q p : Path} (hp : p ≠ q) {n i v} : stopAt env σ h q (n + 1) p i v c = validateStep env σ h (stopAt env σ h q n) p i v c := by
  show (if p = q then _ else _) = _
  rw [if_neg hp]

theorem shorter {a q : Path} {x : Nat} (ha : x :: a <:+ q) : a ≠ q := fun e => by
  have := ha.length_le
  rw [e] at this
  exact absurd this (by simp)

theorem longer {a q : Path} {x : Nat} (ha : x :: a <:+ q) : a <:+ q := (List.suffix_cons x a).trans ha

/-- Each of the calls at the bottom is made. -/
theorem stops {R : Id → Prop} (hh : Doubles h R) {q : Path} :
    ∀ {m i}, R i → ∀ {p c}, q ∈ bottom m p → stopAt env σ h q (3 * m + 1) p i (deep m) c = .error .panic
  | 0, i, hi, p, c, hq => by
    simp only [bottom, List.mem_singleton] at hq
    show (if p = q then _ else _) = _
    rw [if_pos hq.symm]
    rfl
  | m + 1, i, hi, p, c, hq => by
    obtain ⟨s, x, t, y, u, z, w, j, k, h1, b1, h2, b2, h3, b3, h4, b4, hj, hk⟩ := hh i hi
    have ⟨xs, hd⟩ := deep_arr m
    have key : (0 :: 10 :: p <:+ q) ∧ stopAt env σ h q (3 * m + 3) (0 :: 10 :: p) x (deep m) (toString 0 :: c) = .error .panic := by
      simp only [bottom, List.mem_append] at hq
      rcases hq with hq | hq
      · have e := bottom_suffix hq
        have e0 := longer e
        have e1 := longer (longer e0)
        refine ⟨e1, ?_⟩
        have f1 : stopAt env σ h q (3 * m + 2) (0 :: 3 :: 0 :: 10 :: p) y (deep m) (toString 0 :: c) = .error .panic := by
          rw [stop_next (shorter e), step_ref h3 b3]
          exact stops hh hj hq
        rw [hd] at f1 ⊢
        rw [stop_next (shorter (longer e0))]
        exact (step_allOf h2 b2).1 _ (by rw [f1]; rfl)
      · have e := bottom_suffix hq
        have e0 := longer e
        have e1 := longer (longer e0)
        refine ⟨e1, ?_⟩
        have f2 : stopAt env σ h q (3 * m + 2) (1 :: 3 :: 0 :: 10 :: p) z (deep m) (toString 0 :: c) = .error .panic := by
          rw [stop_next (shorter e), step_ref h4 b4]
          exact stops hh hk hq
        have far : ¬ 0 :: 3 :: 0 :: 10 :: p <:+ q := fun e' => by
          obtain ⟨a, ha⟩ := e0
          obtain ⟨b, hb⟩ := e'
          rw [← ha] at hb
          have := List.append_inj_right' hb rfl
          simp at this
        have ⟨r, e2⟩ := runs hh (G := stopAt env σ h q) (P := fun p => ¬ p <:+ q) (fun k p hp e => hp (longer e))
          (fun n p i v c hp => stop_next fun (e : p = q) => hp (e ▸ List.suffix_refl _)) (m := m) hj (c := toString 0 :: c)
          (p := 20 :: 0 :: 3 :: 0 :: 10 :: p) (fun e => far (longer e))
        have f1 : stopAt env σ h q (3 * m + 2) (0 :: 3 :: 0 :: 10 :: p) y (deep m) (toString 0 :: c) = .ok r := by
          rw [stop_next fun (e : _ = q) => far (e ▸ List.suffix_refl _), step_ref h3 b3]
          exact e2
        rw [hd] at f1 f2 ⊢
        rw [stop_next (shorter (longer e0))]
        exact (step_allOf h2 b2).1 _ (by rw [f1, f2]; rfl)
    obtain ⟨e, e3⟩ := key
    rw [stop_next (shorter (longer e))]
    exact (step_items h1 b1).1 _ (by simp only [forEach]; exact (congrArg (· >>= _) e3))

theorem many {R : Id → Prop} (hh : Doubles h R) {i} (hi : R i) (m : Nat) : CallsAtLeast env σ h (3 * m + 1) i (deep m) (2 ^ m) :=
  ⟨bottom m [], bottom_nodup m _, fun _ hq => ⟨runs hh (P := fun _ => True) (fun _ _ _ => trivial) (fun _ _ _ _ _ _ => rfl) hi trivial,
    stops hh hi hq⟩, (bottom_length m _).ge⟩

/-! The schema -/

/-- `{"items": {"allOf": [{"$ref": "#"}, {"$ref": "#"}]}}` -/
def twice : Json :=
  .obj [("items", .obj [("allOf", .arr [.obj [("$ref", .str "#")], .obj [("$ref", .str "#")]])])]

def bareB (s : Sub) (is al : List Id) (r : Option Id) : Bool :=
  s.pass == none && s.types.isEmpty && s.refSchema == r && s.itemsChildren == is && s.itemsChildrenIsSingleSchema == !is.isEmpty &&
  s.propertiesChildren.isEmpty && s.multipleOf == none && s.maximum == none && s.exclusiveMaximum == none &&
  s.minimum == none && s.exclusiveMinimum == none && s.minLength == none && s.maxLength == none && s.pattern == none &&
  s.format == "" && s.minProperties == none && s.maxProperties == none && s.required.isEmpty && s.dependencies.isEmpty &&
  (match s.additionalProperties with | .absent => true | _ => false) && s.patternProperties.isEmpty && s.propertyNames == none &&
  s.minItems == none && s.maxItems == none && s.uniqueItems == false && s.contains == none &&
  (match s.additionalItems with | .absent => true | _ => false) && s.const == none && s.enum.isEmpty && s.oneOf.isEmpty &&
  s.anyOf.isEmpty && s.allOf == al && s.not == none && s.if_ == none && s.then_ == none && s.else_ == none

theorem bare_of {s is al r} (h : bareB s is al r = true) : bare s is al r := by
  obtain ⟨⟩ := s
  simp only [bareB, Bool.and_eq_true, beq_iff_eq, List.isEmpty_iff] at h
  obtain ⟨⟨⟨⟨⟨⟨⟨⟨⟨⟨⟨⟨⟨⟨⟨⟨⟨⟨⟨⟨⟨⟨⟨⟨⟨⟨⟨⟨⟨⟨⟨⟨⟨⟨⟨_, _⟩, _⟩, _⟩, _⟩, _⟩, _⟩, _⟩, _⟩, _⟩, _⟩, _⟩, _⟩, _⟩, _⟩, _⟩, _⟩, _⟩, _⟩, h1⟩, _⟩, _⟩, _⟩, _⟩, _⟩, _⟩, h2⟩, _⟩, _⟩, _⟩, _⟩, _⟩, _⟩, _⟩, _⟩, _⟩ := h
  split at h1 <;> [skip; cases h1]
  split at h2 <;> [skip; cases h2]
  subst_vars
  rfl

/-- What `NewSchema` makes of it. -/
def compiled : Schema :=
  match newSchema (Demo.world []) Sched.id ⟨20, 20⟩ (.direct (some twice)) with
  | .ok s => s
  | .error _ => { heap := [], root := 0, refs := [] }

theorem compiled_ok : newSchema (Demo.world []) Sched.id ⟨20, 20⟩ (.direct (some twice)) = .ok compiled := by
  have : (match newSchema (Demo.world []) Sched.id ⟨20, 20⟩ (.direct (some twice)) with | .ok _ => true | .error _ => false) = true := by
    decide +kernel
  unfold compiled
  split at this
  · rename_i h; rw [h]
  · cases this

theorem node_of {h : Heap} {i : Nat} {is al r} (hb : (match h[i]? with | some s => bareB s is al r | none => false) = true) :
    ∃ s, h[i]? = some s ∧ bare s is al r := by
  split at hb
  · exact ⟨_, by assumption, bare_of hb⟩
  · cases hb

theorem compiled_doubles : Doubles compiled.heap fun i => i = 0 ∨ i = 3 := by
  obtain ⟨s0, a0, b0⟩ := node_of (h := compiled.heap) (i := 0) (is := [1]) (al := []) (r := none) (by decide +kernel)
  obtain ⟨s1, a1, b1⟩ := node_of (h := compiled.heap) (i := 1) (is := []) (al := [2, 7]) (r := none) (by decide +kernel)
  obtain ⟨s2, a2, b2⟩ := node_of (h := compiled.heap) (i := 2) (is := []) (al := []) (r := some 3) (by decide +kernel)
  obtain ⟨s3, a3, b3⟩ := node_of (h := compiled.heap) (i := 3) (is := [4]) (al := []) (r := none) (by decide +kernel)
  obtain ⟨s4, a4, b4⟩ := node_of (h := compiled.heap) (i := 4) (is := []) (al := [5, 6]) (r := none) (by decide +kernel)
  obtain ⟨s5, a5, b5⟩ := node_of (h := compiled.heap) (i := 5) (is := []) (al := []) (r := some 3) (by decide +kernel)
  obtain ⟨s6, a6, b6⟩ := node_of (h := compiled.heap) (i := 6) (is := []) (al := []) (r := some 3) (by decide +kernel)
  obtain ⟨s7, a7, b7⟩ := node_of (h := compiled.heap) (i := 7) (is := []) (al := []) (r := some 3) (by decide +kernel)
  rintro i (rfl | rfl)
  · exact ⟨_, _, _, _, _, _, _, _, _, a0, b0, a1, b1, a2, b2, a7, b7, .inr rfl, .inr rfl⟩
  · exact ⟨_, _, _, _, _, _, _, _, _, a3, b3, a4, b4, a5, b5, a6, b6, .inr rfl, .inr rfl⟩

end Work

/-- C71, the negation for schemas with references: for `{"items": {"allOf": [{"$ref": "#"}, {"$ref": "#"}]}}`, validating
`[[[…]]]` of size `n + 1` makes at least `2^n` calls, in whatever order the maps are read; hence no constant `K` bounds
the calls by `K` times the size of the instance. -/
theorem C71_exponential :
    newSchema (Demo.world []) Sched.id ⟨20, 20⟩ (.direct (some Work.twice)) = .ok Work.compiled ∧
    (∀ σ n, (Work.deep n).WF ∧ (Work.deep n).size = n + 1 ∧ ∃ fuel,
      CallsAtLeast (Demo.world []).env σ Work.compiled.heap fuel Work.compiled.root (Work.deep n) (2 ^ n)) ∧
    ∀ σ K, ∃ fuel v, v.WF ∧ ¬ CallsAtMost (Demo.world []).env σ Work.compiled.heap fuel Work.compiled.root v (K * v.size) := by
  have hr : Work.compiled.root = 0 := by decide +kernel
  have main : ∀ σ n, CallsAtLeast (Demo.world []).env σ Work.compiled.heap (3 * n + 1) Work.compiled.root (Work.deep n) (2 ^ n) :=
    fun σ n => Work.many Work.compiled_doubles (.inl hr) n
  refine ⟨Work.compiled_ok, fun σ n => ⟨Work.deep_wf n, Work.deep_size n, _, main σ n⟩, fun σ K => ?_⟩
  refine ⟨3 * (3 * (K + 2)) + 1, Work.deep (3 * (K + 2)), Work.deep_wf _, fun hm => ?_⟩
  obtain ⟨L, h1, h2, h3⟩ := main σ (3 * (K + 2))
  have := hm L h1 h2
  rw [Work.deep_size] at this
  have h4 : K + 2 < 2 ^ (K + 2) := Nat.lt_two_pow_self
  rw [Nat.mul_comm 3, Nat.pow_mul] at h3
  have h5 := Nat.le_trans (Nat.pow_le_pow_left h4 3) (Nat.le_trans h3 this)
  have h6 : (K + 3) * (3 * (K + 3)) ≤ (K + 2).succ ^ 3 := by
    show _ ≤ (K + 3) ^ 3
    rw [Nat.pow_succ, Nat.pow_succ, Nat.pow_succ, Nat.pow_zero, Nat.one_mul, Nat.mul_assoc]
    exact Nat.mul_le_mul_left _ (Nat.mul_le_mul_right _ (by omega))
  have h7 : K * ((K + 2) * 3 + 1) < (K + 3) * (3 * (K + 3)) := Nat.mul_lt_mul_of_lt_of_le (by omega) (by omega) (by omega)
  rw [Nat.mul_comm (K + 2) 3] at h7
  omega

/-- The same schema without the references. -/
def Work.once : Json := .obj [("items", .obj [("allOf", .arr [.obj [], .obj []])])]

/-- The document has size 7, `[[]]` has size 2: there are at most 14 calls (and there are four: the root, the element, and
the element under either branch). -/
example : Work.once.size = 7 ∧ ∃ s l', compile (Demo.world []) Sched.id ⟨20, 20⟩ [] (.direct (some Work.once)) newSchemaLoader = (.ok s, l') ∧
    (∀ σ' n, CallsAtMost (Demo.world []).env σ' s.heap n s.root (Work.deep 1) 14) ∧
    (∃ r, validateDocument (Demo.world []).env Sched.id s.heap 5 s.root (Work.deep 1) = .ok r) ∧
    ∀ q ∈ [[], [0, 10], [0, 3, 0, 10], [1, 3, 0, 10]],
      (match stopAt (Demo.world []).env Sched.id s.heap q 5 [] s.root (Work.deep 1) rootCtx with | .error .panic => true | _ => false) = true := by
  refine ⟨rfl, ?_⟩
  have hc : (match compile (Demo.world []) Sched.id ⟨20, 20⟩ [] (.direct (some Work.once)) newSchemaLoader with
      | (.ok s, _) => (validateDocument (Demo.world []).env Sched.id s.heap 5 s.root (Work.deep 1)).toOption.isSome &&
          ([[], [0, 10], [0, 3, 0, 10], [1, 3, 0, 10]] : List Path).all fun q =>
            match stopAt (Demo.world []).env Sched.id s.heap q 5 [] s.root (Work.deep 1) rootCtx with | .error .panic => true | _ => false
      | _ => false) = true := by decide +kernel
  split at hc
  · rename_i s l' h
    rw [Bool.and_eq_true] at hc
    refine ⟨s, l', h, fun σ' n => ?_, ?_, fun q hq => List.all_eq_true.mp hc.2 q hq⟩
    · exact C71_noRef _ _ _ Demo.new_setting Work.once (Demo.wf_of _ (by decide +kernel)) (Demo.noRef_of _ (by decide +kernel)) _ _ _ _ h
        σ' n _ (Work.deep_wf 1)
    · cases hr : validateDocument (Demo.world []).env Sched.id s.heap 5 s.root (Work.deep 1) with
      | ok r => exact ⟨r, rfl⟩
      | error e => rw [hr] at hc; cases hc.1
  · cases hc

end GJS

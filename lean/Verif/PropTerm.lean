import Verif.LemFuel
import Verif.LemMono
import Verif.PropPanic
/-
C17: `Compile` returns, whatever the references, if they lead into a finite set of documents.
-/
namespace GJS
open Spec

/-- JSON pointers select a part of the document. -/
def Spec.PointersInside (w : World) : Prop := ∀ r D d, w.pointer r D = some d → Within D d

/-- Every document in the pool is part of a document of the set. -/
def Spec.PoolFrom (w : World) (L : List (String × Json)) (l : LState) : Prop :=
  ∀ k e, getKey k l.pool = some e → ∃ b D D', (b, D) ∈ L ∧ Version w b D D' ∧ Within D' e.doc

theorem closed_bounded {w : World} (hp : PointersInside w) {L} (hL : ClosedSet w L) : ∃ S rs, Bounded w L S rs := by
  obtain ⟨S, rs, h⟩ := closed_fine hL
  exact ⟨S, rs, h, hp⟩

theorem poolFrom_fine {w : World} {L S rs} (h : Bounded w L S rs) {l} (hl : PoolFrom w L l) :
    PoolAll (PoolFine w S (Refs w L rs)) l := by
  intro k e he
  obtain ⟨b, D, D', h1, h2, h3⟩ := hl k e he
  exact ((h.fine _ _ h1).2 _ h2).within h3

/-- C17.  For every finite set of documents closed under references there is a bound on the nesting
of calls that no `Compile` exceeds: it returns, with a schema, an error or a panic, whatever the
reference graph, the iteration order of maps and the answers of the outside world. -/
theorem C17_compile (w : World) (hp : PointersInside w) (L : List (String × Json)) (hL : ClosedSet w L) :
    ∃ n, ∀ (σ : Sched) (fuel : Fuel) (p : Path) (a : LoaderArg) (l : LState), n ≤ fuel.parse →
      l.validate = false → PoolFrom w L l → Covered w L (.compile a) → (compile w σ fuel p a l).1 ≠ .error .fuel := by
  obtain ⟨S, rs, h⟩ := closed_bounded hp hL
  refine ⟨rs.length * (S + 1) + S, ?_⟩
  intro σ fuel p a l hn hv hl ha he
  exact (compileG_fuel h hn ha l ⟨hv, poolFrom_fine h hl⟩).2.2 .fuel
    (compileG w σ fuel (validateMetaschema w σ fuel) p a l).2 (by rw [← he]; rfl) rfl

/-- C17 for histories: one bound holds for every operation of every history. -/
theorem C17_history (w : World) (hp : PointersInside w) (L : List (String × Json)) (hL : ClosedSet w L) :
    ∃ n, ∀ (σ : Sched) (fuel : Fuel) (os : List Op), n ≤ fuel.parse → (∀ o ∈ os, Covered w L o) →
      ∀ r ∈ (runOps w σ fuel 0 os newSchemaLoader).1, r ≠ .error .fuel := by
  obtain ⟨S, rs, h⟩ := closed_bounded hp hL
  exact ⟨rs.length * (S + 1) + S, fun σ fuel os hn ho => runOps_fuel h hn ho ⟨rfl, fun k e he => by cases he⟩⟩

theorem compileG_below {w : World} {σ : Sched} {n k v p a} : Below (compileG w σ ⟨n, v⟩ (fun _ _ => return ()) p a)
    (compileG w σ ⟨n + k, v⟩ (fun _ _ => return ()) p a) := by
  unfold compileG
  split
  · exact .refl _
  · exact .bind (.refl _) fun _ => .bind (.refl _) fun _ => .bind (.refl _) fun _ => .bind (.refl _) fun _ => runParse_below

/-- The bound on the nesting of calls is not part of the outcome: above `n`, every bound gives the
same one. -/
theorem C17_outcome (w : World) (hp : PointersInside w) (L : List (String × Json)) (hL : ClosedSet w L) :
    ∃ n, ∀ (σ : Sched) (p : Path) (a : LoaderArg) (l : LState), l.validate = false → PoolFrom w L l →
      Covered w L (.compile a) → ∃ out, out.1 ≠ .error .fuel ∧ ∀ fuel : Fuel, n ≤ fuel.parse → compile w σ fuel p a l = out := by
  obtain ⟨n, hn⟩ := C17_compile w hp L hL
  refine ⟨n, fun σ p a l hv hl ha => ⟨compile w σ ⟨n, 0⟩ p a l, hn σ ⟨n, 0⟩ p a l (Nat.le_refl _) hv hl ha, ?_⟩⟩
  intro fuel hf
  obtain ⟨m, v⟩ := fuel
  obtain ⟨k, rfl⟩ := Nat.exists_eq_add_of_le hf
  have h0 := hn σ ⟨n, 0⟩ p a l (Nat.le_refl _) hv hl ha
  unfold compile at h0 ⊢
  rw [compileG_off (hook' := fun _ _ => return ()) hv] at h0
  rw [compileG_off (hook' := fun _ _ => return ()) hv, compileG_off (hook := validateMetaschema w σ ⟨n, 0⟩) (hook' := fun _ _ => return ()) hv]
  have e : compileG w σ ⟨n + k, v⟩ (fun _ _ => return ()) p a = compileG w σ ⟨n + k, 0⟩ (fun _ _ => return ()) p a := rfl
  rw [e]
  rcases (compileG_below (w := w) (σ := σ) (n := n) (k := k) (v := 0) (p := p) (a := a)).run l with h | h
  · exact absurd h h0
  · exact h.symm

/-- Everything that can be loaded is in the table. -/
def Spec.FiniteWorld (w : World) (L : List (String × Json)) : Prop :=
  (∀ b D, (b, D) ∈ L → D.WF) ∧ ∀ n f r d, loadReference w n f r = some d → (w.base r, d) ∈ L

/-- C17: in a world with finitely many documents every schema compiles or is refused. -/
theorem C17_finite_world (w : World) (hp : PointersInside w) (L : List (String × Json)) (hw : FiniteWorld w L)
    (a : LoaderArg) (ha : ∀ D, a = .direct (some D) → D.WF) :
    ∃ n, ∀ (σ : Sched) (fuel : Fuel), n ≤ fuel.parse → newSchema w σ fuel a ≠ .error .fuel := by
  obtain ⟨own, ho⟩ : ∃ own : List (String × Json), ∀ b D, (b, D) ∈ own ↔ b = "" ∧ a = .direct (some D) := by
    cases a with
    | direct o =>
      cases o with
      | none => exact ⟨[], by simp⟩
      | some D => exact ⟨[("", D)], by simp [eq_comm]⟩
    | reference s f => exact ⟨[], by simp⟩
  have hL : ClosedSet w (L ++ L.map (fun e => ("", e.2)) ++ own) := by
    constructor
    · intro b D h
      simp only [List.mem_append, List.mem_map, Prod.mk.injEq] at h
      rcases h with (h | ⟨e, he, -, rfl⟩) | h
      · exact hw.1 _ _ h
      · exact hw.1 e.1 e.2 he
      · exact ha _ ((ho _ _).1 h).2
    · intro _ _ _ r _ _ _ n f d hd
      exact List.mem_append_left _ (List.mem_append_left _ (hw.2 n f r d hd))
  obtain ⟨n, hn⟩ := C17_compile w hp _ hL
  refine ⟨n, fun σ fuel hf => ?_⟩
  refine hn σ fuel [] a newSchemaLoader hf rfl (fun k e he => by cases he) ?_
  intro ref hr
  refine ⟨fun _ D hD => ?_, fun _ n f d hd => ?_⟩
  · cases a with
    | direct o =>
      cases (show o = some D from hD)
      exact List.mem_append_right _ ((ho _ _).2 ⟨rfl, rfl⟩)
    | reference s f =>
      obtain ⟨n, h⟩ := hD
      exact List.mem_append_left _ (List.mem_append_right _ (List.mem_map.2 ⟨_, hw.2 _ _ _ _ h, rfl⟩))
  · exact List.mem_append_left _ (List.mem_append_left _ (hw.2 n f ref d hd))

namespace Demo
/-- The document found at `r`: a reference to the next one. -/
def next (r : String) : Json := .obj [("$ref", .str (r ++ "x"))]
/-- A world, such as a web server that makes up documents, in which every document refers to a
new one. -/
def endless : World where
  env := env
  norm := some
  inherits := fun _ c => some c
  base := fun r => r
  canonical := fun _ => true
  pointer := fun _ D => some D
  isFile := fun _ => true
  fileName := some
  readFile := fun _ _ r => some (next r)
  http := fun _ _ => none
  decode := fun _ => none

theorem order_one (σ : Sched) (p : Path) (x : String × α) : σ.order p [x] = [x] :=
  List.perm_singleton.1 (σ.perm p [x])

theorem run_ok {x : M σ α} {f : α → M σ β} {s : σ} {t} (s' : σ) (a : α) (h : x s = (.ok a, s')) (h' : f a s' = t) : (x >>= f) s = t := by
  rw [M.bind_def, h]; exact h'
theorem fst_ok {x : M σ α} {f : α → M σ β} {s : σ} {t} (s' : σ) (a : α) (h : x s = (.ok a, s')) (h' : (f a s').1 = t) :
    ((x >>= f) s).1 = t := by rw [M.bind_def, h]; exact h'
theorem fst_error {x : M σ α} {f : α → M σ β} {s : σ} {e} (h : (x s).1 = .error e) : ((x >>= f) s).1 = .error e := by
  rw [M.bind_def]
  split
  · next he => rw [he] at h; cases h
  · next he => rw [he] at h; cases h; rfl

theorem endless_rewrite {σ p r} {l : LState} : rewrite endless σ none (next r).size p r (next r) l = (.ok (next r, none), l) := by
  show rewriteObj endless σ _ p r none [("$ref", .str (r ++ "x"))] l = _
  unfold rewriteObj
  refine run_ok l none rfl (run_ok l (r, none) rfl (run_ok l false rfl ?_))
  show (register none _ >>= _) l = _
  refine run_ok l () rfl (run_ok l [("$ref", .str (r ++ "x"))] ?_ (run_ok l [("$ref", .str (r ++ "x"))] ?_ rfl))
  · rfl
  · rw [order_one]
    rfl

theorem endless_get {σ p r} {l : LState} (h : getKey r l.pool = none) :
    ∃ l', getDocument endless σ p r l = (.ok ⟨next r, none⟩, l') ∧
      ∀ k, k ≠ r → getKey k l.pool = none → getKey k l'.pool = none := by
  have he : existsMapKey l.pool r = false := by simp [existsMapKey, h]
  have hp : ∀ l : LState, existsMapKey l.pool r = false → parseReferences endless σ p (next r) r true l =
      (.ok (next r, none), { l with pool := putKey r ⟨next r, none⟩ l.pool }) := by
    intro l he
    unfold parseReferences
    refine run_ok l false ?_ ?_
    · show (Except.ok (existsMapKey l.pool r), _) = _
      rw [he]
    · show (detectDraft endless (next r) >>= _) _ = _
      refine run_ok l none ?_ (run_ok l _ endless_rewrite rfl)
      refine run_ok l l rfl ?_
      cases l.autoDetect <;> rfl
  refine ⟨{ l with log := l.log ++ [(l.factory, r)], pool := putKey r ⟨next r, none⟩ l.pool }, ?_, ?_⟩
  · unfold getDocument
    refine run_ok l none ?_ ?_
    · show (Except.ok (getKey r l.pool), l) = _
      rw [h]
    refine run_ok l none ?_ ?_
    · show (Except.ok (getKey r l.pool), l) = _
      rw [h]
    show (fetch endless r >>= _) l = _
    refine run_ok { l with log := l.log ++ [(l.factory, r)] } (next r) rfl ?_
    refine run_ok _ (next r) ?_ rfl
    show parseReferencesIgnore endless σ p (next r) r _ = _
    unfold parseReferencesIgnore
    rw [hp { l with log := l.log ++ [(l.factory, r)] } he]
  · intro k hk h
    rw [← h]
    exact getKey_putKey_ne hk

theorem endless_step (σ : Sched) {rec : PRec} {b p pid id0} {r : String} {draft c} {s : PState}
    (hs : ∀ k : String, r.length ≤ k.length → getKey k s.refs = none ∧ getKey k s.l.pool = none)
    (hrec : ∀ p pid id0 draft c (s : PState), (∀ k : String, r.length + 1 ≤ k.length → getKey k s.refs = none ∧ getKey k s.l.pool = none) →
      (rec p pid id0 (next r) draft c s).1 = .error .fuel) :
    (parseStep endless σ rec b p pid id0 (.obj [("$ref", .str r)]) draft c s).1 = .error .fuel := by
  obtain ⟨l', h1, h2⟩ := endless_get (σ := σ) (p := 42 :: p) (hs r (Nat.le_refl _)).2
  have hr := (hs r (Nat.le_refl _)).1
  have hi : kwId endless b pid id0 draft [("$ref", Json.str r)] s = (.ok id0, s) := by
    unfold kwId keyID
    repeat' split
    all_goals rfl
  unfold parseStep
  refine fst_ok s false rfl ?_
  rw [Bool.and_false]
  show (parseObject endless σ rec b p pid id0 _ draft c s).1 = _
  unfold parseObject
  refine fst_ok s _ hi (fst_ok s () rfl (fst_ok s () rfl (fst_ok s () rfl (fst_ok s (some r) rfl ?_))))
  show ((refGet r >>= _) s).1 = _
  refine fst_ok s none ?_ ?_
  · show (Except.ok (getKey r s.refs), s) = _
    rw [hr]
  refine fst_error ?_
  unfold parseReference
  refine fst_ok { s with l := l' } ⟨next r, none⟩ ?_ ?_
  · unfold liftL; rw [h1]
  refine fst_ok { s with l := l', heap := s.heap ++ [{ doc := next r, draft := draft }] } s.heap.length rfl ?_
  refine fst_ok { s with l := l', heap := s.heap ++ [{ doc := next r, draft := draft }], refs := s.refs ++ [(r, s.heap.length)] } () ?_ ?_
  · show (Except.ok (), if existsMapKey s.refs r then _ else _) = _
    simp [existsMapKey, hr]
  refine fst_ok _ true rfl (fst_error ?_)
  refine hrec _ _ _ _ _ _ fun k hk => ?_
  have hn : k ≠ r := by rintro rfl; omega
  refine ⟨?_, h2 k hn (hs k (by omega)).2⟩
  have := (hs k (by omega)).1
  simp only [getKey] at this ⊢
  rw [List.lookup_append, this]
  simp [List.lookup_cons, beq_eq_false_iff_ne.2 hn]

theorem endless_parse (σ : Sched) : ∀ (n : Nat) p pid id0 (r : String) draft c (s : PState),
    (∀ k : String, r.length ≤ k.length → getKey k s.refs = none ∧ getKey k s.l.pool = none) →
    (parseSchema endless σ n p pid id0 (.obj [("$ref", .str r)]) draft c s).1 = .error .fuel := by
  intro n
  induction n with
  | zero => intros; rfl
  | succ n ih =>
    intro p pid id0 r draft c s hs
    exact endless_step σ hs fun p pid id0 draft c s h => ih _ _ _ _ _ _ _ (by
      intro k hk
      refine h k ?_
      rw [String.length_append] at hk
      exact hk)

end Demo

/-- The closure is needed: where every document refers to a new one, no bound suffices, so that
`Compile` does not return. -/
theorem C17_endless (σ : Sched) (fuel : Fuel) : newSchema Demo.endless σ fuel (.reference "a" 0) = .error .fuel := by
  obtain ⟨l', h1, h2⟩ := Demo.endless_get (σ := σ) (p := [60]) (r := "a") (l := newSchemaLoader) rfl
  unfold newSchema compile compileG
  show ((M.modify _ >>= _) _).1 = _
  refine Demo.fst_ok newSchemaLoader () rfl (Demo.fst_ok l' (Demo.next "a") ?_ ?_)
  · exact Demo.run_ok l' _ h1 rfl
  have hv : l'.validate = false := by
    have := getDocument_keep (w := Demo.endless) (σ := σ) (p := [60]) (ref := "a") newSchemaLoader
    rw [h1] at this
    exact this
  refine Demo.fst_ok l' () ?_ ?_
  · refine Demo.run_ok l' l' rfl ?_
    simp only [hv]
    rfl
  refine Demo.fst_ok l' l'.draft ?_ ?_
  · refine Demo.run_ok l' l' rfl ?_
    cases l'.autoDetect <;> rfl
  have key := Demo.endless_step σ (rec := parseSchema Demo.endless σ fuel.parse) (b := true) (p := [62]) (pid := "a") (id0 := "a")
    (r := "ax") (draft := l'.draft) (c := 0) (s := { l := l', heap := [{ doc := Demo.next "a", draft := l'.draft }] })
    (fun k hk => ⟨rfl, h2 k (by rintro rfl; revert hk; decide) rfl⟩)
    (fun p pid id0 draft c s h => Demo.endless_parse σ _ _ _ _ _ _ _ _ (by
      intro k hk
      refine h k ?_
      rw [String.length_append] at hk
      exact hk))
  show (runParse _ _ _ _ _ _ _ _).1 = _
  unfold runParse
  have : (parseRoot Demo.endless σ fuel.parse [62] "a" (Demo.next "a") l'.draft { l := l' }).1 = .error .fuel := by
    refine Demo.fst_ok { l := l', heap := [{ doc := Demo.next "a", draft := l'.draft }] } 0 rfl (Demo.fst_error key)
  split
  · next he => rw [he] at this; cases this
  · next he => rw [he] at this; cases this; rfl

theorem Demo.base_norm (r : String) : Demo.baseOf (Demo.normOf r) = Demo.baseOf r := by
  unfold Demo.normOf
  split
  · unfold Demo.baseOf
    rw [String.toList_ofList]
    congr 1
    generalize r.toList = cs
    induction cs with
    | nil => rfl
    | cons c cs ih =>
      rw [List.takeWhile_cons]
      split
      · next h => rw [List.takeWhile_cons, if_pos h, ih]
      · rfl
  · rfl

theorem Demo.load (docs n f r) : loadReference (Demo.world docs) n f r = getKey (Demo.baseOf (Demo.normOf r)) docs := rfl

theorem Demo.finite : FiniteWorld (Demo.world [("other", Demo.other)]) [("other", Demo.other)] := by
  constructor
  · intro b D h
    simp only [List.mem_singleton, Prod.mk.injEq] at h
    rw [h.2]
    exact Demo.wf_of _ (by decide +kernel)
  · intro n f r d h
    rw [Demo.load, Demo.base_norm] at h
    show (Demo.baseOf r, d) ∈ _
    simp only [getKey, List.lookup_cons, List.lookup_nil] at h
    split at h
    · next e => cases h; rw [List.mem_singleton]; exact Prod.ext (eq_of_beq e) rfl
    · cases h

example : ∃ n, ∀ (σ : Sched) (fuel : Fuel), n ≤ fuel.parse →
    newSchema (Demo.world [("other", Demo.other)]) σ fuel (.direct (some Demo.refs)) ≠ .error .fuel :=
  C17_finite_world _ (Demo.world_standard _).pointer _ Demo.finite _ (by rintro D ⟨⟩; exact Demo.wf_of _ (by decide +kernel))

example : (newSchema (Demo.world [("other", Demo.other)]) .id ⟨20, 20⟩ (.direct (some Demo.refs))).isOk = true := by
  decide +kernel

end GJS

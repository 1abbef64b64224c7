import Verif.LemSizeDoc
import Verif.PropClosed
import Verif.PropWork
/-
How big a compiled schema is (C72).
-/
namespace GJS
open Spec

/-- C72: a compiled schema has at most as many nodes as its document has parts, plus the parts of the documents its
references stand for, where every reference met counts once. -/
theorem C72_nodes (w : World) (hw : Lawful w) (l l' : LState) (hl : PoolWF l) (a : LoaderArg) (ha : ∀ D, a = .direct (some D) → D.WF)
    (σ : Sched) (fuel : Fuel) (p : Path) (s : Schema) (h : compile w σ fuel p a l = (.ok s, l')) :
    ∃ D, RootDoc w l' a D ∧ ∃ refs : List (String × Json), (refs.map Prod.fst).Nodup ∧ refs.length = s.refs.length ∧
      (∀ r ∈ refs, Resolved w l' r.1 r.2 ∧ ∃ d' m t, Compiled w l' (draftFor w l D) D d' (.obj m) ∧ Kw m "$ref" (.str t) ∧ w.norm t = some r.1) ∧
      s.heap.length ≤ D.size + (refs.map fun r => r.2.size).sum := by
  obtain ⟨D, hD, _, g⟩ := compile_good hw hl ha h
  obtain ⟨h1, h2, h3⟩ := compile_size h
  let doc (i : Nat) : Json := match s.heap[i]? with | some n => n.doc | none => .null
  have hdoc : ∀ i, i < s.heap.length → docSize s.heap i = (doc i).size := by
    intro i hi
    simp only [doc, docSize, List.getElem?_eq_getElem hi]
  refine ⟨D, hD, s.refs.map fun r => (r.1, doc r.2), ?_, by simp, ?_, ?_⟩
  · rw [List.map_map]; exact h2
  · intro r hr
    obtain ⟨x, hx, rfl⟩ := List.mem_map.mp hr
    obtain ⟨hlt, m, t, hm, hk, hn⟩ := h3 x hx
    refine ⟨?_, ?_⟩
    · obtain ⟨d, X, ⟨n, e1, e2, e3⟩, hr⟩ := g.refs x.1 x.2 (lookup_eq_some_of_mem h2 hx)
      have : doc x.2 = X := by simp only [doc, e1]; exact e3
      rw [this]
      exact hr.resolved
    · obtain ⟨n, hn', e⟩ := List.mem_map.mp hm
      obtain ⟨i, hi⟩ := List.mem_iff_getElem?.mp hn'
      have := g.made i n hi
      rw [e] at this
      exact ⟨_, m, t, this, hk, hn⟩
  · rw [docSize_stat g.root] at h1
    rw [List.map_map]
    refine Nat.le_trans h1 (Nat.add_le_add_left ?_ _)
    exact sum_le fun r hr => by simp only [Function.comp]; exact (hdoc _ (h3 r hr).1).le

/-- C72 for documents without references: at most as many nodes as the document has parts. -/
theorem C72_noRef (w : World) (l l' : LState) (hw : Setting w l) (D : Json) (hD : D.WF) (hn : NoRef D) (σ : Sched) (fuel : Fuel)
    (p : Path) (s : Schema) (hc : compile w σ fuel p (.direct (some D)) l = (.ok s, l')) : s.heap.length ≤ D.size ∧ s.refs = [] := by
  obtain ⟨D', ⟨ref, e, hroot⟩, refs, h1, h2, h3, h4⟩ := C72_nodes w hw.lawful l l' hw.pool _ (fun D h => by cases h; exact hD) σ fuel p s hc
  simp only [LoaderArg.ref, hw.root] at e
  cases e
  rcases hroot with ⟨h, _⟩ | ⟨_, D0, g2, g3⟩
  · exact absurd rfl h
  cases g2
  cases rw_noRef g3 hn
  cases refs with
  | nil => exact ⟨by simpa using h4, List.length_eq_zero_iff.mp h2.symm⟩
  | cons r refs =>
    obtain ⟨_, d', m, t, g1, g2, _⟩ := h3 r (by simp)
    exact absurd g2 (by unfold Kw; rw [noRef_get (compiled_noRef hn g1) rfl]; simp)

/-- C72 for self-contained documents: at most as many nodes as the square of the size of the document. -/
theorem C72_self (w : World) (hb : ∀ r, w.base (w.base r) = w.base r) (hp : ∀ r D d, w.pointer r D = some d → Within D d)
    (D0 : Json) (hD : D0.WF) (hs : SelfContained w D0) (l l' : LState) (hw : Setting w l) (hq : Idling l) (he : Elsewhere w l D0)
    (σ : Sched) (fuel : Fuel) (p : Path) (s : Schema) (hc : compile w σ fuel p (.direct (some D0)) l = (.ok s, l')) :
    s.refs.length < D0.size ∧ s.heap.length ≤ D0.size * (s.refs.length + 1) ∧ s.heap.length ≤ D0.size * D0.size := by
  have cl := hs.closed hp he
  obtain ⟨D, hst, H, g⟩ := closed_compile hw hq hD cl hc
  have hsz := rw_size hst
  obtain ⟨h1, h2, h3⟩ := compile_size hc
  have within : ∀ (i : Nat) (n : Sub), s.heap[i]? = some n → Within D n.doc := fun i n hi =>
    reach_within hp hs he hst (compiled_reach hb H cl hst (g.made i n hi)).2
  have small : ∀ i, i < s.heap.length → docSize s.heap i ≤ D0.size := by
    intro i hi
    have := within_size (within i _ (List.getElem?_eq_getElem hi))
    simp only [docSize, List.getElem?_eq_getElem hi]
    omega
  have few : s.refs.length < D0.size := by
    have : (s.refs.map Prod.fst).length ≤ ((refTexts D).filterMap w.norm).length := by
      refine (List.subperm_of_subset h2 fun r hr => ?_).length_le
      obtain ⟨x, hx, rfl⟩ := List.mem_map.mp hr
      obtain ⟨_, m, t, hm, hk, hn⟩ := h3 x hx
      obtain ⟨n, hn', e⟩ := List.mem_map.mp hm
      obtain ⟨i, hi⟩ := List.mem_iff_getElem?.mp hn'
      have := within i n hi
      rw [e] at this
      exact List.mem_filterMap.mpr ⟨t, refTexts_within this hk, hn⟩
    have h5 := refTexts_size D
    have h6 := List.length_filterMap_le w.norm (refTexts D)
    rw [List.length_map] at this
    omega
  have h4 : (s.refs.map fun r => docSize s.heap r.2).sum ≤ D0.size * s.refs.length := by
    refine Nat.le_trans (sum_le fun r hr => small _ (h3 r hr).1) ?_
    simp [List.map_const', List.sum_replicate, Nat.mul_comm]
  rw [docSize_stat g.root, hsz] at h1
  have h5 : s.heap.length ≤ D0.size * (s.refs.length + 1) := by rw [Nat.mul_add, Nat.mul_one]; omega
  exact ⟨few, h5, Nat.le_trans h5 (Nat.mul_le_mul_left _ few)⟩

/-! The recursive document `Demo.family` has size 36 and three references: at most 144 nodes (there are 14). -/
example : Demo.family.size = 36 ∧ ∃ s l', compile (Demo.world []) Sched.id ⟨20, 20⟩ [] (.direct (some Demo.family)) newSchemaLoader = (.ok s, l') ∧
    s.refs.length = 3 ∧ s.heap.length = 14 ∧ s.heap.length ≤ 36 * (3 + 1) := by
  refine ⟨by decide +kernel, ?_⟩
  have hc : (match compile (Demo.world []) Sched.id ⟨20, 20⟩ [] (.direct (some Demo.family)) newSchemaLoader with
      | (.ok s, _) => s.refs.length == 3 && s.heap.length == 14
      | _ => false) = true := by decide +kernel
  split at hc
  · rename_i s l' h
    simp only [Bool.and_eq_true, beq_iff_eq] at hc
    have := C72_self (Demo.world []) Demo.baseOf_idem (Demo.world_standard []).pointer Demo.family Demo.family_wf Demo.family_self
      newSchemaLoader l' Demo.new_setting ⟨rfl, rfl⟩ (by intro k e h; simp [newSchemaLoader, getKey] at h) _ _ _ s h
    have e : Demo.family.size = 36 := by decide +kernel
    rw [e, hc.1] at this
    exact ⟨s, l', h, hc.1, hc.2, this.2.1⟩
  · cases hc

/-- The hypotheses of `C72_noRef`. -/
example (σ : Sched) (fuel : Fuel) (p : Path) (s : Schema) (l' : LState)
    (h : compile (Demo.world []) σ fuel p (.direct (some Work.once)) newSchemaLoader = (.ok s, l')) : s.heap.length ≤ 7 ∧ s.refs = [] :=
  C72_noRef _ _ _ Demo.new_setting Work.once (Demo.wf_of _ (by decide +kernel)) (Demo.noRef_of _ (by decide +kernel)) _ _ _ _ h

end GJS

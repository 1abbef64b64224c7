import Verif.LemTerm
import Verif.LemHistory
import Verif.LemCompile
import Verif.LemAcceptRoot
/-
Helper lemmas: neither rewriting nor compiling runs out of fuel.
-/
namespace GJS
open Spec

/-- The failure is lack of fuel. -/
def IsFuel (f : Fail) : Prop := f = .fuel

theorem errFine_fuel : ErrAll IsFuel := fun _ h => by cases h
theorem panicFine_fuel : ¬ IsFuel .panic := fun h => by cases h

/-! ### Rewriting -/

section
variable {w : World} {σ : Sched}

theorem isKind_noFuel {v ks} : Avoid IsFuel (isKind w.env v ks : M τ Bool) := by
  unfold isKind
  split
  · split
    · exact .pure
    · exact .fail panicFine_fuel
  · exact .pure

theorem parseSchemaURL_noFuel {doc} : Avoid IsFuel (parseSchemaURL w doc : M τ _) := by
  unfold parseSchemaURL
  refine .bind isKind_noFuel fun b => ?_
  split
  · exact .pure
  · refine .bind isKind_noFuel fun b => ?_
    split
    · exact .err (errFine_fuel _)
    · split
      · split
        · exact .pure
        · refine .bind isKind_noFuel fun b => ?_
          split
          · exact .err (errFine_fuel _)
          · split
            · split
              · exact .err (errFine_fuel _)
              · exact .pure
            · exact .fail panicFine_fuel
      · exact .fail panicFine_fuel

theorem idText_noFuel {m} : Avoid IsFuel (idText w m : M τ _) := by
  unfold idText
  simp only
  split
  · exact .pure
  · refine .bind isKind_noFuel fun b => ?_
    split <;> exact .pure

theorem idScope_noFuel {ref id} : Avoid IsFuel (idScope w ref id : M τ _) := by
  unfold idScope
  split
  · exact .pure
  · split
    · exact .pure
    · split
      · exact .fail panicFine_fuel
      · exact .pure

theorem rewriteRef_noFuel {ref m} : Avoid IsFuel (rewriteRef w ref m : M τ _) := by
  unfold rewriteRef
  split
  · exact .pure
  · refine .bind isKind_noFuel fun b => ?_
    split
    · split <;> exact .pure
    · exact .pure

theorem rewriteMember_noFuel {rec : Path → String → Json → M LState Json} {p r k v}
    (h1 : Avoid IsFuel (rec p r v)) (h2 : ∀ c kv p, v = .obj c → kv ∈ c → Avoid IsFuel (rec p r kv.2)) :
    Avoid IsFuel (rewriteMember σ rec p r k v) := by
  unfold rewriteMember
  split
  · exact .pure
  · split
    · split
      · rename_i c
        exact .bind (rangeKV_avoid fun i k x hx => h2 c (k, x) _ rfl ((σ.perm _ _).mem_iff.1 hx)) fun _ => .pure
      · exact .pure
    · exact h1

/-- A bound on the results of a computation that is known to have them. -/
theorem Avoid.bindQ {B : Fail → Prop} {x : M τ α} {f : α → M τ β} {Q : α → Prop} (h1 : Avoid B x)
    (hq : ∀ s a s', x s = (.ok a, s') → Q a) (h2 : ∀ a, Q a → Avoid B (f a)) : Avoid B (x >>= f) := by
  intro l e l' h
  rcases M.bind_error.1 h with h | ⟨a, s1, hx, h⟩
  · exact h1 l e l' h
  · exact h2 a (hq _ _ _ hx) s1 e l' h

theorem rewrite_noFuel {draft} : ∀ n p ref doc, doc.size ≤ n → Avoid IsFuel (rewrite w σ draft n p ref doc) := by
  intro n
  induction n with
  | zero => intro p ref doc h; have := doc.size_pos; omega
  | succ n ih =>
    intro p ref doc hn
    unfold rewrite
    cases doc with
    | arr xs =>
      refine .bind (.mapL fun k x hx => .bind (ih _ _ _ ?_) fun _ => .pure) fun _ => .pure
      have := Json.size_lt_of_mem hx
      omega
    | obj m =>
      show Avoid _ (rewriteObj _ _ _ _ _ _ _)
      unfold rewriteObj
      refine .bind idText_noFuel fun id => .bind idScope_noFuel fun sc => .bind taken_total.avoid fun t => ?_
      split
      · exact .pure
      · refine .bind register_total.avoid fun _ => .bindQ rewriteRef_noFuel (fun _ _ _ => rewriteRef_mem) fun m1 hm1 =>
          .bind (rangeKV_avoid fun i k v hkv => ?_) fun _ => .bind register_total.avoid fun _ => .pure
        have hkv' := hm1 _ ((σ.perm _ _).mem_iff.1 hkv)
        have hsz : v.size ≤ n := by
          rcases hkv' with h | ⟨hne, t, h⟩
          · have := Json.size_lt_of_mem_kv h
            omega
          · have h : v = .str t := h
            subst h
            cases m with
            | nil => exact absurd rfl hne
            | cons a m =>
              simp only [Json.size, Json.sizeKV] at hn ⊢
              omega
        refine rewriteMember_noFuel (.bind (ih _ _ _ hsz) fun _ => .pure) fun c kv p hc hkv2 => ?_
        subst hc
        have := Json.size_lt_of_mem_kv (k := kv.1) (x := kv.2) hkv2
        exact .bind (ih _ _ _ (by omega)) fun _ => .pure
    | _ => exact .pure

theorem detectDraft_noFuel {doc} : Avoid IsFuel (detectDraft w doc) := by
  unfold detectDraft
  refine .bind .get fun l => ?_
  split
  · exact .bind parseSchemaURL_noFuel fun _ => .pure
  · exact .pure

theorem parseReferences_noFuel {p doc ref pooled} : Avoid IsFuel (parseReferences w σ p doc ref pooled) := by
  unfold parseReferences
  refine .bind inPool_total.avoid fun there => ?_
  split
  · exact .pure
  · refine .bind detectDraft_noFuel fun o => .bind (rewrite_noFuel _ _ _ _ (Nat.le_refl _)) fun x => .bind ?_ fun _ => .pure
    unfold putIf
    split
    · exact .modify
    · exact .pure

theorem getDocument_noFuel {p ref} : Avoid IsFuel (getDocument w σ p ref) := by
  have hptr : ∀ D, Avoid IsFuel (pointerGet w ref D) := by
    intro D
    unfold pointerGet
    split
    · exact .pure
    · exact .err (errFine_fuel _)
  have hget : ∀ k, Avoid IsFuel (poolGet k) := fun k => .bind .get fun _ => .pure
  unfold getDocument
  refine .bind (hget _) fun e1 => ?_
  split
  · exact .pure
  · refine .bind (hget _) fun e2 => ?_
    split
    · unfold getCached
      exact .bind (hptr _) fun d => .bind .modify fun _ => .pure
    · unfold getRemote
      split
      · exact .err (errFine_fuel _)
      · refine .bind ?_ fun doc => .bind ?_ fun doc' => .bind ?_ fun dr => .bind (hptr _) fun d => .pure
        · intro l e l' h
          unfold fetch at h
          simp only at h
          cases hlr : loadReference w l.clock l.factory ref with
          | none => rw [hlr] at h; simp at h; rw [← h.1]; exact errFine_fuel _
          | some d => rw [hlr] at h; simp at h
        · intro l e l' h
          unfold parseReferencesIgnore at h
          cases hx : parseReferences w σ p doc (w.base ref) true l with
          | mk r l1 =>
            rw [hx] at h
            cases r with
            | ok x => simp at h
            | error e1 =>
              cases e1 with
              | err e => simp at h
              | panic => simp at h; rw [← h.1]; exact panicFine_fuel
              | fuel => exact absurd rfl (parseReferences_noFuel _ _ _ hx)
        · intro l e l' h
          unfold schemaDraftIgnore at h
          cases hx : parseSchemaURL w doc' l with
          | mk r l1 =>
            rw [hx] at h
            cases r with
            | ok x => simp at h
            | error e1 =>
              cases e1 with
              | err e => simp at h
              | panic => simp at h; rw [← h.1]; exact panicFine_fuel
              | fuel => exact absurd rfl (parseSchemaURL_noFuel _ _ _ hx)

end

/-! ### Compiling -/

/-- The number of references still to be met. -/
def left : List String → List String → Nat
  | [], _ => 0
  | a :: rs, K => (if a ∈ K then 0 else 1) + left rs K

theorem left_le {rs K : List String} {r} : left rs (r :: K) ≤ left rs K := by
  induction rs with
  | nil => exact Nat.le_refl _
  | cons a rs ih =>
    simp only [left, List.mem_cons]
    by_cases ha : a ∈ K
    · simp only [ha, or_true, if_true]; omega
    · simp only [ha, or_false, if_false]; split <;> omega

theorem left_lt {rs K : List String} {r} (h : r ∈ rs) (hK : r ∉ K) : left rs (r :: K) < left rs K := by
  induction rs with
  | nil => cases h
  | cons a rs ih =>
    have hle := left_le (rs := rs) (K := K) (r := r)
    simp only [left, List.mem_cons]
    rcases List.mem_cons.1 h with rfl | h
    · simp only [hK, true_or, if_true, if_false]; omega
    · have := ih h
      by_cases ha : a ∈ K
      · simp only [ha, or_true, if_true]; omega
      · simp only [ha, or_false, if_false]; split <;> omega

theorem left_length {rs K : List String} : left rs K ≤ rs.length := by
  induction rs with
  | nil => exact Nat.le_refl _
  | cons a rs ih => simp only [left, List.length_cons]; split <;> omega

/-- Invariant of a compilation: the references `K` have been met, and the loader is as expected. -/
def Seen (P : LState → Prop) (K : List String) (st : PState) : Prop :=
  (∀ r ∈ K, (getKey r st.refs).isSome) ∧ P st.l

theorem met_heapless {P K} : Heapless (Seen P K) := fun _ _ h => h

section
variable {w : World} {σ : Sched} {S : Nat} {R : String → Prop} {P : LState → Prop}

theorem met_liftL {K} {x : M LState α} {Q : α → Prop} (h : Safe P IsFuel x Q) :
    Safe (Seen P K) IsFuel (liftL x) Q := by
  intro st hst
  have h1 := liftL_safe h st hst.2
  refine ⟨⟨?_, h1.1⟩, h1.2⟩
  intro r hr
  exact hst.1 r hr

theorem topFine_fuel {m} : TopFine IsFuel w m where
  num := fun _ _ _ _ _ => .inr panicFine_fuel
  definitions := fun _ _ => panicFine_fuel
  types := fun _ _ _ _ => panicFine_fuel
  elems := fun _ _ _ _ _ _ _ => .inr panicFine_fuel
  members := fun _ _ _ _ _ _ _ => .inr panicFine_fuel
  deps := fun _ _ _ _ _ _ _ _ _ => .inr panicFine_fuel

theorem numFine_fuel {v} : NumFine IsFuel w v := fun _ _ => .inr panicFine_fuel

/-- References lead to documents of bounded size. -/
def Leads (P : LState → Prop) (w : World) (σ : Sched) (S : Nat) (R : String → Prop) : Prop :=
  ∀ r, R r → ∀ p, Safe P IsFuel (getDocument w σ p r) (fun e => PoolFine w S R e.doc)

theorem parseReference_fuel (hg : Leads P w σ S R) {K rec p id d r} (hr : R r)
    (hrec : RecSafe (Seen P (r :: K)) IsFuel (PoolFine w S R) rec) :
    Safe (Seen P K) IsFuel (parseReference w σ rec p id d r) (fun _ => True) := by
  unfold parseReference
  refine .bind (met_liftL (hg r hr _)) fun dsp hdsp => .bind (alloc_safe met_heapless) fun c _ => ?_
  intro st hst
  rw [M.bind_def]
  have hs : Seen P (r :: K)
      (if existsMapKey st.refs r then st else { st with refs := st.refs ++ [(r, c)] }) := by
    split
    · rename_i h
      refine ⟨List.forall_mem_cons.2 ⟨?_, hst.1⟩, hst.2⟩
      simpa [existsMapKey] using h
    · refine ⟨List.forall_mem_cons.2 ⟨?_, fun a ha => ?_⟩, hst.2⟩
      · simp only [getKey, List.lookup_append]
        cases List.lookup r st.refs <;> simp
      · have := hst.1 a ha
        simp only [getKey, List.lookup_append] at this ⊢
        cases hx : List.lookup a st.refs with
        | none => rw [hx] at this; cases this
        | some j => simp
  have key : Safe (Seen P (r :: K)) IsFuel (do
      let b ← isKind w.env dsp.doc [.map, .bool]
      if !b then M.err (.mustBeOfType "valid schema" "object") else do
      rec (41 :: p) id r dsp.doc (dsp.draft.getD d) c
      return c) (fun _ => True) := by
    refine .bind (isKind_safe numFine_fuel) fun b _ => ?_
    split
    · exact .err (errFine_fuel _)
    · exact .bind (hrec.run _ _ _ _ _ _ hdsp) fun _ _ => .pure trivial
  obtain ⟨k1, k2, k3⟩ := key _ hs
  exact ⟨⟨fun a ha => k1.1 a (by simp [ha]), k1.2⟩, k2, k3⟩

/-- One level, given enough for what is nested in the document and for one more reference. -/
theorem parseStep_fuel (hg : Leads P w σ S R) {K rec isRoot p pid id0 doc d c s}
    (hD : PoolFine w S R doc) (hs : doc.size ≤ s + 1)
    (hrec : RecSafe (Seen P K) IsFuel (fun D => PoolFine w S R D ∧ D.size ≤ s) rec)
    (hnew : ∀ r, R r → r ∉ K → RecSafe (Seen P (r :: K)) IsFuel (PoolFine w S R) rec) :
    Safe (Seen P K) IsFuel (parseStep w σ rec isRoot p pid id0 doc d c) (fun _ => True) := by
  refine parseStep_safe (N := fun D => PoolFine w S R D ∧ D.size ≤ s) errFine_fuel.fine met_heapless numFine_fuel ?_
  rintro m rfl
  refine ⟨topFine_fuel, ⟨?_, ?_, ?_⟩, hrec, ?_⟩
  · intro k v hv
    have := Json.size_lt_of_mem_kv (lookup_some_mem hv)
    exact ⟨hD.within (within_get hv), by omega⟩
  · intro k xs x hv hx
    have h1 := Json.size_lt_of_mem_kv (lookup_some_mem hv)
    have h2 := Json.size_lt_of_mem hx
    exact ⟨hD.within (within_trans (within_get hv) (within_elem hx)), by omega⟩
  · intro k kvs kv hv hx
    have h1 := Json.size_lt_of_mem_kv (lookup_some_mem hv)
    have h2 := Json.size_lt_of_mem_kv (k := kv.1) (x := kv.2) hx
    exact ⟨hD.within (within_trans (within_get hv) (within_member hx)), by omega⟩
  · rintro r ⟨t, h1, h2⟩
    have hr : R r := hD.2 r ⟨m, t, .self _, h1, h2⟩
    by_cases hK : r ∈ K
    · intro st hst
      refine ⟨hst, ?_, ?_⟩
      · rintro o st' ho rfl
        have := hst.1 r hK
        simp only [refGet, M.bind_ok, M.get_ok, M.pure_ok] at ho
        obtain ⟨_, _, ⟨rfl, rfl⟩, h, _⟩ := ho
        rw [h] at this
        cases this
      · intro e l' h; cases h
    · exact refGet_safe.mono fun _ _ _ _ _ _ => parseReference_fuel hg hr (hnew r hr hK)

/-- `parseSchema` with enough fuel for all references not yet met and the document. -/
theorem parseSchema_fuel {rs : List String} (hR : ∀ r, R r → r ∈ rs) (hg : Leads P w σ S R) :
    ∀ n K s, left rs K * (S + 1) + s ≤ n →
      RecSafe (Seen P K) IsFuel (fun D => PoolFine w S R D ∧ D.size ≤ s) (parseSchema w σ n) := by
  intro n
  induction n with
  | zero =>
    intro K s h
    refine ⟨met_heapless, fun p pid id0 doc d c hD => ?_⟩
    have := doc.size_pos
    have := hD.2
    omega
  | succ n ih =>
    intro K s h
    refine ⟨met_heapless, fun p pid id0 doc d c hD => ?_⟩
    have h1 := doc.size_pos
    have h2 := hD.2
    refine parseStep_fuel (s := s - 1) hg hD.1 (by omega) (ih K (s - 1) (by omega)) fun r hr hK => ?_
    have h3 := left_lt (hR r hr) hK
    have h4 : (left rs (r :: K) + 1) * (S + 1) ≤ left rs K * (S + 1) := Nat.mul_le_mul_right _ h3
    have h5 := ih (r :: K) S (by rw [Nat.add_mul] at h4; omega)
    exact ⟨h5.heap, fun p pid id0 doc d c hD => h5.run p pid id0 doc d c ⟨hD, hD.1⟩⟩

theorem parseRoot_fuel {rs : List String} (hR : ∀ r, R r → r ∈ rs) (hg : Leads P w σ S R) {n p ref doc d}
    (hn : rs.length * (S + 1) + S ≤ n) (hD : PoolFine w S R doc) :
    Safe (Seen P []) IsFuel (parseRoot w σ n p ref doc d) (fun _ => True) := by
  unfold parseRoot
  have h0 : left rs [] ≤ rs.length := left_length
  have h1 : left rs [] * (S + 1) ≤ rs.length * (S + 1) := Nat.mul_le_mul_right _ h0
  refine .bind (alloc_safe met_heapless) fun c _ => .bind
    (parseStep_fuel (s := S) hg hD (by have := hD.1; omega) (parseSchema_fuel hR hg n [] S (by omega)) fun r hr hK => ?_)
    fun _ _ => .pure trivial
  have h3 := left_lt (hR r hr) hK
  have h4 : (left rs [r] + 1) * (S + 1) ≤ left rs [] * (S + 1) := Nat.mul_le_mul_right _ h3
  have h5 := parseSchema_fuel hR hg n [r] S (by rw [Nat.add_mul] at h4; omega)
  exact ⟨h5.heap, fun p pid id0 doc d c hD => h5.run p pid id0 doc d c ⟨hD, hD.1⟩⟩

theorem runParse_fuel {rs : List String} (hR : ∀ r, R r → r ∈ rs) (hg : Leads P w σ S R) {fuel : Fuel} {p ref doc d}
    (hn : rs.length * (S + 1) + S ≤ fuel.parse) (hD : PoolFine w S R doc) :
    Safe P IsFuel (runParse w σ fuel p ref doc d) (fun _ => True) := by
  intro l hl
  obtain ⟨h1, _, h3⟩ := parseRoot_fuel (p := p) (ref := ref) (d := d) hR hg hn hD { l := l } ⟨by simp, hl⟩
  unfold runParse
  cases hx : parseRoot w σ fuel.parse p ref doc d { l := l } with
  | mk r s =>
    rw [hx] at h1
    cases r with
    | ok c => exact ⟨h1.2, fun _ _ _ => trivial, by intro e l' h; simp at h⟩
    | error e =>
      refine ⟨h1.2, fun _ _ _ => trivial, ?_⟩
      intro e' l' h
      simp only [Prod.mk.injEq, Except.error.injEq] at h
      rw [← h.1]; exact h3 _ _ hx
end

/-! ### Operations on a loader that does not validate -/

/-- Validation is off, and the pool holds nothing unexpected. -/
def Off (N : Json → Prop) (l : LState) : Prop := l.validate = false ∧ PoolAll N l

theorem Safe.off {N : Json → Prop} {B : Fail → Prop} {x : M LState α} {Q : α → Prop} (h : Safe (PoolAll N) B x Q)
    (hk : ∀ l, (x l).2.validate = l.validate) : Safe (Off N) B x Q :=
  fun l hl => ⟨⟨(hk l).trans hl.1, (h l hl.2).1⟩, (h l hl.2).2⟩

theorem whenValidate_offSafe {N : Json → Prop} {B : Fail → Prop} {hook} : Safe (Off N) B (whenValidate hook) (fun _ => True) := by
  intro l hl
  rw [whenValidate_off hl.1]
  exact ⟨hl, fun _ _ _ => trivial, by intro e l' h; cases h⟩

/-- A closed set of documents, with the bounds derived from it. -/
structure Bounded (w : World) (L : List (String × Json)) (S : Nat) (rs : List String) : Prop where
  fine : ∀ b D, (b, D) ∈ L → RwFine w S (fun r => r ∈ rs ∧ LeadsInto w L r) b D
  pointer : ∀ r D d, w.pointer r D = some d → Within D d

section
variable {w : World} {σ : Sched} {L : List (String × Json)} {S : Nat} {rs : List String}

/-- The references met. -/
abbrev Refs (w : World) (L : List (String × Json)) (rs : List String) (r : String) : Prop := r ∈ rs ∧ LeadsInto w L r

theorem getDocument_fuel (h : Bounded w L S rs) {p r} (hr : LeadsInto w L r) :
    Safe (PoolAll (PoolFine w S (Refs w L rs))) IsFuel (getDocument w σ p r) (fun e => PoolFine w S (Refs w L rs) e.doc) :=
  .of (getDocument_all rwFine_closed (fun _ _ hD hd => hD.within (h.pointer _ _ _ hd)) fun n f d hd => h.fine _ _ (hr n f d hd))
    getDocument_noFuel

theorem leads (h : Bounded w L S rs) : Leads (PoolAll (PoolFine w S (Refs w L rs))) w σ S (Refs w L rs) := fun _ hr _ => getDocument_fuel h hr.2

theorem loadJSON_fuel {N : Json → Prop} {Q : Json → Prop} {a} (ha : ∀ D, Loads w a D → Q D) :
    Safe (PoolAll N) IsFuel (loadJSON w a) Q := by
  intro l hl
  refine ⟨?_, fun D l' h => ha D (loadJSON_ok h).1, ?_⟩
  · unfold loadJSON
    split
    · exact hl
    · exact hl
    · simp only; split <;> exact hl
  · intro e l' h
    unfold loadJSON at h
    split at h
    · cases h
    · cases h; exact errFine_fuel _
    · simp only at h
      split at h
      · cases h
      · cases h; exact errFine_fuel _

theorem parseReferences_fuel (h : Bounded w L S rs) {p doc ref pooled} (hd : (ref, doc) ∈ L) :
    Safe (PoolAll (PoolFine w S (Refs w L rs))) IsFuel (parseReferences w σ p doc ref pooled)
      (fun x => PoolFine w S (Refs w L rs) x.1) :=
  .of (parseReferences_all rwFine_closed (h.fine _ _ hd)) parseReferences_noFuel

theorem rootDocument_fuel (h : Bounded w L S rs) {p a ref} (h1 : ref = "" → ∀ D, Loads w a D → ("", D) ∈ L)
    (h2 : ref ≠ "" → LeadsInto w L ref) :
    Safe (PoolAll (PoolFine w S (Refs w L rs))) IsFuel (rootDocument w σ p a ref) (PoolFine w S (Refs w L rs)) := by
  unfold rootDocument
  split
  · rename_i hr
    exact .bind (getDocument_fuel h (h2 (by simpa using hr))) fun e he => .pure he
  · rename_i hr
    have hr : ref = "" := by simpa using hr
    subst hr
    exact .bind (loadJSON_fuel (h1 rfl)) fun D hD => .bind (parseReferences_fuel h hD) fun x hx => failIf_safe errFine_fuel hx

theorem rootDraft_fuel {P : LState → Prop} {doc} : Safe P IsFuel (rootDraft w doc) (fun _ => True) := by
  refine .of rootDraft_still.tri ?_
  unfold rootDraft
  refine .bind .get fun l => ?_
  split
  · exact .bind parseSchemaURL_noFuel fun _ => .pure
  · exact .pure

theorem compileG_fuel (h : Bounded w L S rs) {fuel : Fuel} (hn : rs.length * (S + 1) + S ≤ fuel.parse) {hook p a}
    (ha : Covered w L (.compile a)) :
    Safe (Off (PoolFine w S (Refs w L rs))) IsFuel (compileG w σ fuel hook p a) (fun _ => True) := by
  unfold compileG
  split
  · exact .err (errFine_fuel _)
  · rename_i ref hr
    obtain ⟨h1, h2⟩ := ha ref hr
    exact .bind (.modify fun l hl => hl) fun _ _ => .bind (.off (rootDocument_fuel h h1 h2) rootDocument_keep) fun doc hd =>
      .bind whenValidate_offSafe fun _ _ => .bind rootDraft_fuel fun d _ =>
      .off (runParse_fuel (fun r hr => hr.1) (leads h) hn hd) runParse_keep

theorem addSchema_fuel (h : Bounded w L S rs) {fuel : Fuel} {p url a} (ha : Covered w L (.addSchema url a)) :
    Safe (Off (PoolFine w S (Refs w L rs))) IsFuel (addSchema w σ fuel p url a) (fun _ => True) := by
  unfold addSchema
  split
  · exact .err (errFine_fuel _)
  · rename_i ref hr
    exact .bind (.off (loadJSON_fuel (ha ref · hr)) loadJSON_keep) fun doc hd => .bind whenValidate_offSafe fun _ _ =>
      .bind (.off (parseReferences_fuel h hd) parseReferences_keep) fun x hx =>
      .bind (failIf_safe errFine_fuel (N := PoolFine w S (Refs w L rs)) hx) fun _ _ => .pure trivial

theorem addSchemas_fuel (h : Bounded w L S rs) {fuel : Fuel} {p as} (ha : Covered w L (.addSchemas as)) :
    Safe (Off (PoolFine w S (Refs w L rs))) IsFuel (addSchemas w σ fuel p as) (fun _ => True) := by
  unfold addSchemas
  refine .bind (.mapL' fun k a hm => ?_) fun _ _ => .pure trivial
  unfold addSchemaById
  exact .bind (.off (loadJSON_fuel (ha a hm)) loadJSON_keep) fun doc hd => .bind whenValidate_offSafe fun _ _ =>
      .bind (.off (parseReferences_fuel h hd) parseReferences_keep) fun x hx =>
      .bind (failIf_safe errFine_fuel (N := PoolFine w S (Refs w L rs)) hx) fun _ _ => .pure trivial

theorem op_fuel (h : Bounded w L S rs) {fuel : Fuel} (hn : rs.length * (S + 1) + S ≤ fuel.parse) {p o} (ho : Covered w L o) :
    Safe (Off (PoolFine w S (Refs w L rs))) IsFuel (o.run w σ fuel p) (fun _ => True) := by
  cases o with
  | addSchema url a => exact .bind (addSchema_fuel h ho) fun _ _ => .pure trivial
  | addSchemas as => exact .bind (addSchemas_fuel h ho) fun _ _ => .pure trivial
  | compile a => exact .bind (compileG_fuel h hn ho) fun _ _ => .pure trivial
  | setAutoDetect b => exact .bind (.modify fun l hl => hl) fun _ _ => .pure trivial
  | setValidate b => exact .bind (.modify fun l hl => ⟨ho, hl.2⟩) fun _ _ => .pure trivial
  | setDraft d => exact .bind (.modify fun l hl => hl) fun _ _ => .pure trivial

theorem runOps_fuel (h : Bounded w L S rs) {fuel : Fuel} (hn : rs.length * (S + 1) + S ≤ fuel.parse) :
    ∀ {os k l}, (∀ o ∈ os, Covered w L o) → Off (PoolFine w S (Refs w L rs)) l →
      ∀ r ∈ (runOps w σ fuel k os l).1, r ≠ .error .fuel := by
  intro os
  induction os with
  | nil => intro k l _ _; simp [runOps]
  | cons o os ih =>
    intro k l ho hl
    obtain ⟨h1, _, h3⟩ := op_fuel (σ := σ) (p := [k]) h hn (ho o (by simp)) l hl
    simp only [runOps]
    refine List.forall_mem_cons.2 ⟨?_, ih (fun o h => ho o (by simp [h])) h1⟩
    intro he
    exact h3 .fuel (o.run w σ fuel [k] l).2 (by rw [← he]) rfl

end
end GJS

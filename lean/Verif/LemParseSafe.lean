import Verif.LemPool
import Verif.LemParse
/-
Helper lemmas: a compilation touches the loader only through `GetDocument`, and fails only in
ways its parts do.
-/
namespace GJS
open Spec

/-- The invariant of the loader, for a compilation. -/
def OnL (P : LState → Prop) (st : PState) : Prop := P st.l

section
variable {P : LState → Prop} {B : Fail → Prop} {w : World} {σ : Sched}

theorem liftL_safe {x : M LState α} {Q : α → Prop} (h : Safe P B x Q) : Safe (OnL P) B (liftL x) Q := by
  intro st hst
  obtain ⟨h1, h2, h3⟩ := h st.l hst
  unfold liftL
  cases hx : x st.l with
  | mk r l' =>
    rw [hx] at h1
    refine ⟨h1, ?_, ?_⟩
    · intro a l'' h
      simp only [Prod.mk.injEq] at h
      exact h2 a l' (by rw [hx, h.1])
    · intro e l'' h
      simp only [Prod.mk.injEq] at h
      exact h3 e l' (by rw [hx, h.1])

/-- No number in the value is rejected by `big.Rat`, or panics do not matter. -/
def NumFine (B : Fail → Prop) (w : World) (v : Json) : Prop :=
  ∀ n, v = .num n → w.env.ratOk n = true ∨ ¬ B .panic

theorem isKind_safe {P : τ → Prop} {v ks} (h : NumFine B w v) :
    Safe P B (isKind w.env v ks) (fun b => b = kindIn v ks) := by
  refine .of_still isKind_still ?_ fun _ _ _ => isKind_ok
  unfold isKind
  split
  · rename_i n
    split
    · exact .pure
    · rename_i hr
      exact .fail ((h n rfl).resolve_left hr)
  · exact .pure

/-- Errors are allowed, other than those of the check by a meta-schema. -/
def ErrFine (B : Fail → Prop) : Prop := ∀ e, (∀ es, e ≠ .metaSchema es) → ¬ B (.err e)

/-- All errors are allowed. -/
def ErrAll (B : Fail → Prop) : Prop := ∀ e, ¬ B (.err e)

theorem ErrAll.fine {B : Fail → Prop} (h : ErrAll B) : ErrFine B := fun e _ => h e

/-- What a schema object must satisfy at the top for the keywords not to panic. -/
structure TopFine (B : Fail → Prop) (w : World) (m : List (String × Json)) : Prop where
  num : ∀ k v, getKey k m = some v → NumFine B w v
  definitions : ∀ b, getKey "definitions" m = some (.bool b) → ¬ B .panic
  types : ∀ vs n, getKey "type" m = some (.arr vs) → .num n ∈ vs → ¬ B .panic
  elems : ∀ k vs v, getKey k m = some (.arr vs) → v ∈ vs → NumFine B w v
  members : ∀ k kvs kv, getKey k m = some (.obj kvs) → kv ∈ kvs → NumFine B w kv.2
  deps : ∀ kvs k vs v, getKey "dependencies" m = some (.obj kvs) → (k, .arr vs) ∈ kvs → v ∈ vs → NumFine B w v

end

/-- Documents met inside `m`. -/
structure Inner (N : Json → Prop) (m : List (String × Json)) : Prop where
  value : ∀ k v, getKey k m = some v → N v
  elem : ∀ k xs x, getKey k m = some (.arr xs) → x ∈ xs → N x
  entry : ∀ k kvs kv, getKey k m = some (.obj kvs) → kv ∈ kvs → N kv.2

/-- An invariant of a compilation that does not look at the nodes. -/
def Heapless (P : PState → Prop) : Prop := ∀ st h, P st → P { st with heap := h }

/-- What is assumed of the recursive call. -/
structure RecSafe (P : PState → Prop) (B : Fail → Prop) (N : Json → Prop) (rec : PRec) : Prop where
  heap : Heapless P
  run : ∀ p pid id0 doc d c, N doc → Safe P B (rec p pid id0 doc d c) (fun _ => True)

section
variable {P : PState → Prop} {B : Fail → Prop} {w : World} {σ : Sched}
variable {N : Json → Prop} {rec : PRec} {p : Path} {id : String} {d : Draft} {m : List (String × Json)}

theorem alloc_safe {D d} (h : Heapless P) : Safe P B (alloc D d) (fun _ => True) :=
  fun st hst => ⟨h st _ hst, fun _ _ _ => trivial, by intro e l' h; simp [alloc] at h⟩

theorem setNode_safe {c n} (h : Heapless P) : Safe P B (setNode c n) (fun _ => True) := .modify fun _ hs => h _ _ hs

theorem child_safe {D} (hrec : RecSafe P B N rec) (hD : N D) :
    Safe P B (child rec p id d D) (fun _ => True) :=
  .bind (alloc_safe hrec.heap) fun _ _ => .bind (hrec.run _ _ _ _ _ _ hD) fun _ _ => .pure trivial

theorem kwId_safe {r pid id0} (hB : ErrFine B) (hm : TopFine B w m) :
    Safe P B (kwId w r pid id0 d m) (fun _ => True) := by
  unfold kwId
  split
  · exact .pure trivial
  · rename_i v hv
    refine .bind (isKind_safe (hm.num _ _ hv)) fun b _ => ?_
    split
    · exact .err (hB _ (by intro _ h; cases h))
    · split
      · split
        · exact .err (hB _ (by intro _ h; cases h))
        · split
          · exact .pure trivial
          · split
            · exact .err (hB _ (by intro _ h; cases h))
            · exact .pure trivial
      · exact .pure trivial

theorem kwDefinitions_safe (hB : ErrFine B) (ht : TopFine B w m) (hm : Inner N m) (hrec : RecSafe P B N rec) :
    Safe P B (kwDefinitions w σ rec p id d m) (fun _ => True) := by
  unfold kwDefinitions
  split
  · exact .pure trivial
  · rename_i v hv
    refine .bind (isKind_safe (ht.num _ _ hv)) fun b hb => ?_
    split
    · rename_i hb'
      subst hb
      split
      · rename_i kvs
        refine .bind (.mapL' fun k kv hkv => ?_) fun _ _ => .pure trivial
        have hkv := (σ.perm _ _).mem_iff.1 hkv
        unfold kwDefinition
        refine .bind (isKind_safe (ht.members _ _ _ hv hkv)) fun b _ => ?_
        split
        · exact .bind (child_safe hrec (hm.entry _ _ _ hv hkv)) fun _ _ => .pure trivial
        · exact .err (hB _ (by intro _ h; cases h))
      · rename_i hne
        cases v with
        | bool b => exact .fail (ht.definitions b hv)
        | obj kvs => exact absurd rfl (hne kvs)
        | _ => revert hb'; simp [kindIn, rawKind]
    · exact .err (hB _ (by intro _ h; cases h))

theorem kwText_safe {k} (hB : ErrFine B) (hm : TopFine B w m) : Safe P B (kwText w k m) (fun _ => True) := by
  unfold kwText
  split
  · exact .pure trivial
  · rename_i v hv
    refine .bind (isKind_safe (hm.num _ _ hv)) fun b _ => ?_
    split
    · exact .err (hB _ (by intro _ h; cases h))
    · exact .pure trivial

theorem kwRefText_safe (hB : ErrFine B) (hm : TopFine B w m) : Safe P B (kwRefText w m) (fun _ => True) := by
  unfold kwRefText
  split
  · exact .pure trivial
  · rename_i v hv
    refine .bind (isKind_safe (hm.num _ _ hv)) fun b _ => ?_
    split
    · exact .err (hB _ (by intro _ h; cases h))
    · split
      · split
        · exact .err (hB _ (by intro _ h; cases h))
        · exact .pure trivial
      · exact .pure trivial

theorem addType_safe {P : τ → Prop} {ts t} (hB : ErrFine B) : Safe P B (addType ts t) (fun _ => True) := by
  unfold addType
  split
  · exact .err (hB _ (by intro _ h; cases h))
  · split
    · exact .err (hB _ (by intro _ h; cases h))
    · exact .pure trivial

theorem typeLoop_safe (hB : ErrFine B) : ∀ {vs ts}, (∀ n, Json.num n ∈ vs → ¬ B .panic) →
    Safe P B (typeLoop ts vs) (fun _ => True) := by
  intro vs
  induction vs with
  | nil => intro ts _; exact .pure trivial
  | cons v vs ih =>
    intro ts h
    unfold typeLoop
    split
    · exact .err (hB _ (by intro _ h; cases h))
    · rename_i hk
      split
      · exact .bind (addType_safe hB) fun _ _ => ih fun n hn => h n (by simp [hn])
      · rename_i hne
        cases v with
        | str t => exact absurd rfl (hne t)
        | num n => exact .fail (h n (by simp))
        | _ => revert hk; simp [rawKind]

theorem kwType_safe (hB : ErrFine B) (hm : TopFine B w m) : Safe P B (kwType w m) (fun _ => True) := by
  unfold kwType
  split
  · exact .pure trivial
  · rename_i v hv
    refine .bind (isKind_safe (hm.num _ _ hv)) fun b _ => ?_
    split
    · split
      · exact addType_safe hB
      · exact .pure trivial
    · refine .bind (isKind_safe (hm.num _ _ hv)) fun b hb => ?_
      subst hb
      split
      · rename_i hk
        obtain ⟨vs, rfl⟩ := kind_slice hk
        exact typeLoop_safe hB fun n hn => hm.types vs n hv hn
      · exact .err (hB _ (by intro _ h; cases h))

theorem kwProperties_safe (hB : ErrFine B) (ht : TopFine B w m) (hm : Inner N m) (hrec : RecSafe P B N rec) :
    Safe P B (kwProperties w σ rec p id d m) (fun _ => True) := by
  unfold kwProperties
  split
  · exact .pure trivial
  · rename_i v hv
    refine .bind (isKind_safe (ht.num _ _ hv)) fun b hb => ?_
    subst hb
    split
    · exact .err (hB _ (by intro _ h; cases h))
    · rename_i hk
      simp only [Bool.not_eq_true', Bool.not_eq_false] at hk
      obtain ⟨kvs, rfl⟩ := kind_map hk
      refine .mapL' fun k kv hkv => .bind (child_safe hrec (hm.entry _ _ _ hv ((σ.perm _ _).mem_iff.1 hkv)))
        fun _ _ => .pure trivial

theorem kwExtra_safe {key} (hB : ErrFine B) (ht : TopFine B w m) (hm : Inner N m) (hrec : RecSafe P B N rec) :
    Safe P B (kwExtra w rec p id d key m) (fun _ => True) := by
  unfold kwExtra
  split
  · exact .pure trivial
  · rename_i v hv
    refine .bind (isKind_safe (ht.num _ _ hv)) fun b hb => ?_
    subst hb
    split
    · rename_i hk
      obtain ⟨x, rfl⟩ := kind_bool hk
      exact .pure trivial
    · refine .bind (isKind_safe (ht.num _ _ hv)) fun b hb => ?_
      split
      · exact .bind (child_safe hrec (hm.value _ _ hv)) fun _ _ => .pure trivial
      · exact .err (hB _ (by intro _ h; cases h))

theorem kwPatternProperties_safe (hB : ErrFine B) (ht : TopFine B w m) (hm : Inner N m) (hrec : RecSafe P B N rec) :
    Safe P B (kwPatternProperties w σ rec p id d m) (fun _ => True) := by
  unfold kwPatternProperties
  split
  · exact .pure trivial
  · rename_i v hv
    refine .bind (isKind_safe (ht.num _ _ hv)) fun b hb => ?_
    subst hb
    split
    · rename_i hk
      obtain ⟨kvs, rfl⟩ := kind_map hk
      refine .mapL' fun k kv hkv => ?_
      unfold kwPattern1
      split
      · exact .err (hB _ (by intro _ h; cases h))
      · exact .bind (child_safe hrec (hm.entry _ _ _ hv ((σ.perm _ _).mem_iff.1 hkv)))
          fun _ _ => .pure trivial
    · exact .err (hB _ (by intro _ h; cases h))

theorem kwSchema_safe {act key e} (hB : ErrFine B) (ht : TopFine B w m) (hm : Inner N m) (hrec : RecSafe P B N rec)
    (he : ∀ es, e ≠ .metaSchema es := by intro _ h; cases h) :
    Safe P B (kwSchema w rec p id d act key e m) (fun _ => True) := by
  unfold kwSchema
  split
  · exact .pure trivial
  · rename_i v hv
    split
    · refine .bind (isKind_safe (ht.num _ _ hv)) fun b hb => ?_
      split
      · exact .bind (child_safe hrec (hm.value _ _ hv)) fun _ _ => .pure trivial
      · exact .err (hB _ he)
    · exact .pure trivial

theorem depKeys_safe (hB : ErrFine B) : ∀ {vs}, (∀ v ∈ vs, NumFine B w v) →
    Safe P B (depKeys w vs) (fun _ => True) := by
  intro vs
  induction vs with
  | nil => intro _; exact .pure trivial
  | cons v vs ih =>
    intro h
    unfold depKeys
    refine .bind (isKind_safe (h v (by simp))) fun b hb => ?_
    subst hb
    split
    · exact .err (hB _ (by intro _ h; cases h))
    · rename_i hk
      simp only [Bool.not_eq_true', Bool.not_eq_false] at hk
      obtain ⟨t, rfl⟩ := kind_string hk
      exact .bind (ih fun v hv => h v (by simp [hv])) fun _ _ => .pure trivial

theorem kwDependencies_safe (hB : ErrFine B) (ht : TopFine B w m) (hm : Inner N m) (hrec : RecSafe P B N rec) :
    Safe P B (kwDependencies w σ rec p id d m) (fun _ => True) := by
  unfold kwDependencies
  split
  · exact .pure trivial
  · rename_i v hv
    refine .bind (isKind_safe (ht.num _ _ hv)) fun b hb => ?_
    subst hb
    split
    · exact .err (hB _ (by intro _ h; cases h))
    · rename_i hk
      simp only [Bool.not_eq_true', Bool.not_eq_false] at hk
      obtain ⟨kvs, rfl⟩ := kind_map hk
      refine .bind (.mapL' fun k kv hkv => ?_) fun _ _ => .pure trivial
      have hkv := (σ.perm _ _).mem_iff.1 hkv
      have hx := hm.entry _ _ _ hv hkv
      obtain ⟨key, D⟩ := kv
      unfold kwDependency
      simp only
      split
      · exact .bind (depKeys_safe hB fun v hv' => ht.deps _ _ _ _ hv hkv hv') fun _ _ => .pure trivial
      · exact .err (hB _ (by intro _ h; cases h))
      · exact .err (hB _ (by intro _ h; cases h))
      · exact .err (hB _ (by intro _ h; cases h))
      · exact .bind (child_safe hrec hx) fun _ _ => .pure trivial

theorem kwItems_safe (hB : ErrFine B) (ht : TopFine B w m) (hm : Inner N m) (hrec : RecSafe P B N rec) :
    Safe P B (kwItems w rec p id d m) (fun _ => True) := by
  unfold kwItems
  split
  · exact .pure trivial
  · rename_i v hv
    refine .bind (isKind_safe (ht.num _ _ hv)) fun b hb => ?_
    subst hb
    split
    · rename_i hk
      obtain ⟨vs, rfl⟩ := kind_slice hk
      refine .bind (.mapL' fun k x hx => ?_) fun _ _ => .pure trivial
      unfold kwItem
      refine .bind (isKind_safe (ht.elems _ _ _ hv hx)) fun b hb => ?_
      split
      · exact child_safe hrec (hm.elem _ _ _ hv hx)
      · exact .err (hB _ (by intro _ h; cases h))
    · refine .bind (isKind_safe (ht.num _ _ hv)) fun b hb => ?_
      split
      · exact .bind (child_safe hrec (hm.value _ _ hv)) fun _ _ => .pure trivial
      · exact .err (hB _ (by intro _ h; cases h))

theorem kwMultipleOf_safe (hB : ErrFine B) : Safe P B (kwMultipleOf w m) (fun _ => True) := by
  unfold kwMultipleOf
  split
  · exact .pure trivial
  · split
    · exact .err (hB _ (by intro _ h; cases h))
    · split
      · exact .err (hB _ (by intro _ h; cases h))
      · exact .pure trivial

theorem kwBound_safe {key} (hB : ErrFine B) : Safe P B (kwBound w key m) (fun _ => True) := by
  unfold kwBound
  split
  · exact .pure trivial
  · split
    · exact .err (hB _ (by intro _ h; cases h))
    · exact .pure trivial

theorem exclusiveBool_safe {xkey key x b} (hB : ErrFine B) : Safe P B (exclusiveBool xkey key x b) (fun _ => True) := by
  unfold exclusiveBool
  split
  · exact .err (hB _ (by intro _ h; cases h))
  · split <;> exact .pure trivial

theorem kwExclusive_safe {xkey key b} (hB : ErrFine B) (hm : TopFine B w m) :
    Safe P B (kwExclusive w d xkey key b m) (fun _ => True) := by
  unfold kwExclusive
  split
  · exact .pure trivial
  · rename_i v hv
    split
    · refine .bind (isKind_safe (hm.num _ _ hv)) fun b hb => ?_
      subst hb
      split
      · exact .err (hB _ (by intro _ h; cases h))
      · rename_i hk
        simp only [Bool.not_eq_true', Bool.not_eq_false] at hk
        obtain ⟨t, rfl⟩ := kind_bool hk
        exact exclusiveBool_safe hB
    · split
      · refine .bind (isKind_safe (hm.num _ _ hv)) fun b hb => ?_
        split
        · exact exclusiveBool_safe hB
        · exact .pure trivial
        · exact .err (hB _ (by intro _ h; cases h))
      · split
        · exact .pure trivial
        · exact .err (hB _ (by intro _ h; cases h))

theorem kwSize_safe {key} (hB : ErrFine B) : Safe P B (kwSize w key m) (fun _ => True) := by
  unfold kwSize
  split
  · exact .pure trivial
  · split
    · exact .err (hB _ (by intro _ h; cases h))
    · split
      · exact .err (hB _ (by intro _ h; cases h))
      · exact .pure trivial

theorem checkOrder_safe {a b e} (hB : ErrFine B) (he : ∀ es, e ≠ .metaSchema es := by intro _ h; cases h) :
    Safe P B (checkOrder a b e) (fun _ => True) := by
  unfold checkOrder
  split
  · split
    · exact .err (hB _ he)
    · exact .pure trivial
  · exact .pure trivial

theorem kwPattern_safe (hB : ErrFine B) (hm : TopFine B w m) : Safe P B (kwPattern w m) (fun _ => True) := by
  unfold kwPattern
  split
  · exact .pure trivial
  · rename_i v hv
    refine .bind (isKind_safe (hm.num _ _ hv)) fun b hb => ?_
    subst hb
    split
    · rename_i hk
      obtain ⟨t, rfl⟩ := kind_string hk
      simp only
      split
      · exact .pure trivial
      · exact .err (hB _ (by intro _ h; cases h))
    · exact .err (hB _ (by intro _ h; cases h))

theorem kwFormat_safe (hB : ErrFine B) : Safe P B (kwFormat m) (fun _ => True) := by
  unfold kwFormat
  split
  · exact .pure trivial
  · split
    · exact .pure trivial
    · exact .err (hB _ (by intro _ h; cases h))

theorem requiredLoop_safe (hB : ErrFine B) : ∀ {vs qs}, (∀ v ∈ vs, NumFine B w v) →
    Safe P B (requiredLoop w qs vs) (fun _ => True) := by
  intro vs
  induction vs with
  | nil => intro qs _; exact .pure trivial
  | cons v vs ih =>
    intro qs h
    unfold requiredLoop
    refine .bind (isKind_safe (h v (by simp))) fun b hb => ?_
    subst hb
    split
    · rename_i hk
      obtain ⟨t, rfl⟩ := kind_string hk
      simp only
      split
      · exact .err (hB _ (by intro _ h; cases h))
      · exact ih fun v hv => h v (by simp [hv])
    · exact .err (hB _ (by intro _ h; cases h))

theorem kwRequired_safe (hB : ErrFine B) (hm : TopFine B w m) : Safe P B (kwRequired w m) (fun _ => True) := by
  unfold kwRequired
  split
  · exact .pure trivial
  · rename_i v hv
    refine .bind (isKind_safe (hm.num _ _ hv)) fun b hb => ?_
    subst hb
    split
    · rename_i hk
      obtain ⟨vs, rfl⟩ := kind_slice hk
      exact requiredLoop_safe hB fun v hv' => hm.elems _ _ _ hv hv'
    · exact .err (hB _ (by intro _ h; cases h))

theorem kwUnique_safe (hB : ErrFine B) (hm : TopFine B w m) : Safe P B (kwUnique w m) (fun _ => True) := by
  unfold kwUnique
  split
  · exact .pure trivial
  · rename_i v hv
    refine .bind (isKind_safe (hm.num _ _ hv)) fun b hb => ?_
    subst hb
    split
    · rename_i hk
      obtain ⟨t, rfl⟩ := kind_bool hk
      exact .pure trivial
    · exact .err (hB _ (by intro _ h; cases h))

theorem kwContains_safe (hm : Inner N m) (hrec : RecSafe P B N rec) :
    Safe P B (kwContains rec p id d m) (fun _ => True) := by
  unfold kwContains
  split
  · exact .pure trivial
  · rename_i v hv
    split
    · exact .bind (child_safe hrec (hm.value _ _ hv)) fun _ _ => .pure trivial
    · exact .pure trivial

theorem kwConst_safe (hB : ErrFine B) : Safe P B (kwConst w d m) (fun _ => True) := by
  unfold kwConst
  split
  · exact .pure trivial
  · split
    · split
      · exact .err (hB _ (by intro _ h; cases h))
      · exact .pure trivial
    · exact .pure trivial

theorem enumLoop_safe (hB : ErrFine B) : ∀ {vs es}, Safe P B (enumLoop w es vs) (fun _ => True) := by
  intro vs
  induction vs with
  | nil => intro qs; exact .pure trivial
  | cons v vs ih =>
    intro es
    unfold enumLoop
    split
    · exact .err (hB _ (by intro _ h; cases h))
    · split
      · exact .err (hB _ (by intro _ h; cases h))
      · exact ih

theorem kwEnum_safe (hB : ErrFine B) (hm : TopFine B w m) : Safe P B (kwEnum w m) (fun _ => True) := by
  unfold kwEnum
  split
  · exact .pure trivial
  · rename_i v hv
    refine .bind (isKind_safe (hm.num _ _ hv)) fun b hb => ?_
    subst hb
    split
    · rename_i hk
      obtain ⟨vs, rfl⟩ := kind_slice hk
      exact enumLoop_safe hB
    · exact .err (hB _ (by intro _ h; cases h))

theorem kwSchemas_safe {key e} (hB : ErrFine B) (ht : TopFine B w m) (hm : Inner N m) (hrec : RecSafe P B N rec)
    (he : ∀ es, e ≠ .metaSchema es := by intro _ h; cases h) :
    Safe P B (kwSchemas w rec p id d key e m) (fun _ => True) := by
  unfold kwSchemas
  split
  · exact .pure trivial
  · rename_i v hv
    refine .bind (isKind_safe (ht.num _ _ hv)) fun b hb => ?_
    subst hb
    split
    · rename_i hk
      obtain ⟨vs, rfl⟩ := kind_slice hk
      exact .mapL' fun k x hx => child_safe hrec (hm.elem _ _ _ hv hx)
    · exact .err (hB _ he)

theorem parseKeywords_safe {c rs} (hB : ErrFine B) (ht : TopFine B w m) (hm : Inner N m) (hrec : RecSafe P B N rec) :
    Safe P B (parseKeywords w σ rec p id d c rs m) (fun _ => True) := by
  unfold parseKeywords
  refine .bind (kwType_safe hB ht) fun _ _ => ?_
  refine .bind (kwProperties_safe hB ht hm hrec) fun _ _ => ?_
  refine .bind (kwExtra_safe hB ht hm hrec) fun _ _ => ?_
  refine .bind (kwPatternProperties_safe hB ht hm hrec) fun _ _ => ?_
  refine .bind (kwSchema_safe hB ht hm hrec) fun _ _ => ?_
  refine .bind (kwDependencies_safe hB ht hm hrec) fun _ _ => ?_
  refine .bind (kwItems_safe hB ht hm hrec) fun _ _ => ?_
  refine .bind (kwExtra_safe hB ht hm hrec) fun _ _ => ?_
  refine .bind (kwMultipleOf_safe hB) fun _ _ => ?_
  refine .bind (kwBound_safe hB) fun _ _ => ?_
  refine .bind (kwExclusive_safe hB ht) fun _ _ => ?_
  refine .bind (kwBound_safe hB) fun _ _ => ?_
  refine .bind (kwExclusive_safe hB ht) fun _ _ => ?_
  refine .bind (kwSize_safe hB) fun _ _ => ?_
  refine .bind (kwSize_safe hB) fun _ _ => ?_
  refine .bind (checkOrder_safe hB) fun _ _ => ?_
  refine .bind (kwPattern_safe hB ht) fun _ _ => ?_
  refine .bind (kwFormat_safe hB) fun _ _ => ?_
  refine .bind (kwSize_safe hB) fun _ _ => ?_
  refine .bind (kwSize_safe hB) fun _ _ => ?_
  refine .bind (checkOrder_safe hB) fun _ _ => ?_
  refine .bind (kwRequired_safe hB ht) fun _ _ => ?_
  refine .bind (kwSize_safe hB) fun _ _ => ?_
  refine .bind (kwSize_safe hB) fun _ _ => ?_
  refine .bind (kwUnique_safe hB ht) fun _ _ => ?_
  refine .bind (kwContains_safe hm hrec) fun _ _ => ?_
  refine .bind (kwConst_safe hB) fun _ _ => ?_
  refine .bind (kwEnum_safe hB ht) fun _ _ => ?_
  refine .bind (kwSchemas_safe hB ht hm hrec) fun _ _ => ?_
  refine .bind (kwSchemas_safe hB ht hm hrec) fun _ _ => ?_
  refine .bind (kwSchemas_safe hB ht hm hrec) fun _ _ => ?_
  refine .bind (kwSchema_safe hB ht hm hrec) fun _ _ => ?_
  refine .bind (kwSchema_safe hB ht hm hrec) fun _ _ => ?_
  refine .bind (kwSchema_safe hB ht hm hrec) fun _ _ => ?_
  refine .bind (kwSchema_safe hB ht hm hrec) fun _ _ => ?_
  exact setNode_safe hrec.heap

/-- The reference a schema object makes. -/
def RefOf (w : World) (m : List (String × Json)) (r : String) : Prop :=
  ∃ t, getKey "$ref" m = some (.str t) ∧ w.norm t = some r

theorem kwRefText_refOf (hB : ErrFine B) (hm : TopFine B w m) :
    Safe P B (kwRefText w m) (fun o => ∀ r, o = some r → RefOf w m r) := by
  unfold kwRefText
  split
  · exact .pure (by simp)
  · rename_i v hv
    refine .bind (isKind_safe (hm.num _ _ hv)) fun b _ => ?_
    split
    · exact .err (hB _ (by intro _ h; cases h))
    · cases v with
      | str k =>
        simp only
        cases hr : w.norm k with
        | none => exact .err (hB _ (by intro _ h; cases h))
        | some r => exact .pure (by rintro _ h; cases h; exact ⟨k, hv, hr⟩)
      | _ => exact .pure (by simp)

/-- What is assumed of references: unless it was met before, parsing a reference is safe. -/
def RefSafe (w : World) (σ : Sched) (P : PState → Prop) (B : Fail → Prop) (rec : PRec) (r : String) : Prop :=
  Safe P B (refGet r) (fun o => o = none → ∀ p id d, Safe P B (parseReference w σ rec p id d r) (fun _ => True))

theorem parseAfterRef_safe {c ref} (hB : ErrFine B) (ht : TopFine B w m) (hm : Inner N m) (hrec : RecSafe P B N rec)
    (href : ∀ r, ref = some r → RefSafe w σ P B rec r) :
    Safe P B (parseAfterRef w σ rec p id d c ref m) (fun _ => True) := by
  unfold parseAfterRef
  split
  · exact parseKeywords_safe hB ht hm hrec
  · rename_i r
    refine .bind (href r rfl) fun o ho => ?_
    split
    · exact parseKeywords_safe hB ht hm hrec
    · exact .bind (ho rfl _ _ _) fun _ _ => setNode_safe hrec.heap

theorem parseObject_safe {c isRoot pid id0} (hB : ErrFine B) (ht : TopFine B w m) (hm : Inner N m) (hrec : RecSafe P B N rec)
    (href : ∀ r, RefOf w m r → RefSafe w σ P B rec r) :
    Safe P B (parseObject w σ rec isRoot p pid id0 m d c) (fun _ => True) := by
  unfold parseObject
  refine .bind (kwId_safe hB ht) fun _ _ => .bind (kwDefinitions_safe hB ht hm hrec) fun _ _ =>
    .bind (kwText_safe hB ht) fun _ _ => .bind (kwText_safe hB ht) fun _ _ => .bind (kwRefText_refOf hB ht) fun _ h =>
    parseAfterRef_safe hB ht hm hrec fun r hr => href r (h r hr)

theorem parseStep_safe {c isRoot pid id0 doc} (hB : ErrFine B) (hH : Heapless P) (hself : NumFine B w doc)
    (hD : ∀ m, doc = .obj m → TopFine B w m ∧ Inner N m ∧ RecSafe P B N rec ∧ ∀ r, RefOf w m r → RefSafe w σ P B rec r) :
    Safe P B (parseStep w σ rec isRoot p pid id0 doc d c) (fun _ => True) := by
  unfold parseStep
  refine .bind (isKind_safe hself) fun b _ => ?_
  have key : Safe P B (isKind w.env doc [.map] >>= fun b =>
      if !b then M.err .parseError else
      match doc with
      | .obj m => parseObject w σ rec isRoot p pid id0 m d c
      | _ => M.fail .panic) (fun _ => True) := by
    refine .bind (isKind_safe hself) fun b hb => ?_
    subst hb
    split
    · exact .err (hB _ (by intro _ h; cases h))
    · rename_i hk
      simp only [Bool.not_eq_true', Bool.not_eq_false] at hk
      obtain ⟨kvs, rfl⟩ := kind_map hk
      obtain ⟨ht, hm, hrec, href⟩ := hD kvs rfl
      exact parseObject_safe hB ht hm hrec href
  cases (decide (d ≥ Draft6) && b) with
  | false => exact key
  | true =>
    cases doc with
    | bool x => exact setNode_safe hH
    | _ => exact key

theorem refGet_safe {r} : Safe P B (refGet r) (fun _ => True) :=
  .bind (.get fun _ _ => trivial) fun _ _ => .pure trivial

end

/-! ### Invariants of the loader -/

section
variable {P : LState → Prop} {B : Fail → Prop} {w : World} {σ : Sched}
variable {N : Json → Prop} {rec : PRec} {p : Path} {id : String} {d : Draft} {m : List (String × Json)}

/-- The documents `N` that may be met. -/
structure DocsFine (B : Fail → Prop) (w : World) (N : Json → Prop) : Prop where
  top : ∀ m, N (.obj m) → TopFine B w m
  self : ∀ v, N v → NumFine B w v
  member : ∀ m k v, N (.obj m) → getKey k m = some v → N v
  entry : ∀ m kv, N (.obj m) → kv ∈ m → N kv.2
  elem : ∀ xs x, N (.arr xs) → x ∈ xs → N x

theorem DocsFine.inner (hN : DocsFine B w N) (hm : N (.obj m)) : Inner N m where
  value := fun _ _ h => hN.member _ _ _ hm h
  elem := fun _ _ _ h hx => hN.elem _ _ (hN.member _ _ _ hm h) hx
  entry := fun _ _ _ h hx => hN.entry _ _ (hN.member _ _ _ hm h) hx

theorem onL_heapless : Heapless (OnL P) := fun _ _ h => h

theorem refAdd_safe {r c} : Safe (OnL P) B (refAdd r c) (fun _ => True) :=
  .modify fun st h => by unfold OnL; split <;> exact h

theorem parseReference_safe {ref} (hB : ErrFine B) (hN : DocsFine B w N) (hrec : RecSafe (OnL P) B N rec)
    (hget : ∀ p ref, Safe P B (getDocument w σ p ref) (fun e => N e.doc)) :
    Safe (OnL P) B (parseReference w σ rec p id d ref) (fun _ => True) := by
  unfold parseReference
  refine .bind (liftL_safe (hget _ _)) fun dsp hdsp => .bind (alloc_safe onL_heapless) fun _ _ => .bind refAdd_safe fun _ _ =>
    .bind (isKind_safe (hN.self _ hdsp)) fun b _ => ?_
  split
  · exact .err (hB _ (by intro _ h; cases h))
  · exact .bind (hrec.run _ _ _ _ _ _ hdsp) fun _ _ => .pure trivial

theorem parseStep_onL {c isRoot pid id0 doc} (hB : ErrFine B) (hN : DocsFine B w N) (hD : N doc)
    (hrec : RecSafe (OnL P) B N rec) (hget : ∀ p ref, Safe P B (getDocument w σ p ref) (fun e => N e.doc)) :
    Safe (OnL P) B (parseStep w σ rec isRoot p pid id0 doc d c) (fun _ => True) := by
  refine parseStep_safe (N := N) hB onL_heapless (hN.self _ hD) ?_
  rintro m rfl
  exact ⟨hN.top _ hD, hN.inner hD, hrec, fun r _ => refGet_safe.mono fun _ _ _ _ _ _ => parseReference_safe hB hN hrec hget⟩

/-- `parseSchema`, provided running out of fuel is allowed. -/
theorem parseSchema_safe (hB : ErrFine B) (hF : ¬ B .fuel) (hN : DocsFine B w N)
    (hget : ∀ p ref, Safe P B (getDocument w σ p ref) (fun e => N e.doc)) :
    ∀ n, RecSafe (OnL P) B N (parseSchema w σ n) := by
  intro n
  induction n with
  | zero => exact ⟨onL_heapless, fun p pid id0 doc d c _ => .fail hF⟩
  | succ n ih => exact ⟨onL_heapless, fun p pid id0 doc d c hD => parseStep_onL hB hN hD ih hget⟩

theorem parseRoot_safe {n docRef doc} (hB : ErrFine B) (hF : ¬ B .fuel) (hN : DocsFine B w N) (hD : N doc)
    (hget : ∀ p ref, Safe P B (getDocument w σ p ref) (fun e => N e.doc)) :
    Safe (OnL P) B (parseRoot w σ n p docRef doc d) (fun _ => True) :=
  .bind (alloc_safe onL_heapless) fun _ _ => .bind (parseStep_onL hB hN hD (parseSchema_safe hB hF hN hget n) hget) fun _ _ =>
    .pure trivial

/-- Nothing to avoid. -/
theorem docsFine_trivial : DocsFine (fun _ => False) w (fun _ => True) where
  top := fun _ _ => ⟨fun _ _ _ _ _ => .inr id, fun _ _ h => h, fun _ _ _ _ h => h, fun _ _ _ _ _ _ _ => .inr id,
    fun _ _ _ _ _ _ _ => .inr id, fun _ _ _ _ _ _ _ _ _ => .inr id⟩
  self := fun _ _ _ _ => .inr id
  member := fun _ _ _ _ _ => trivial
  entry := fun _ _ _ _ => trivial
  elem := fun _ _ _ _ => trivial

/-- A property of the loader that `GetDocument` respects is respected by a compilation. -/
theorem parseRoot_tri {n docRef doc} (hget : ∀ p ref, Tri P (getDocument w σ p ref) (fun _ => True)) :
    Tri (OnL P) (parseRoot w σ n p docRef doc d) (fun _ => True) :=
  (parseRoot_safe (B := fun _ => False) (N := fun _ => True) (fun _ _ h => h) id docsFine_trivial trivial
    fun p ref => .of_tri (hget p ref)).tri

end
end GJS

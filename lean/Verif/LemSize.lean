import Verif.LemWorkDoc
import Verif.LemBlame
/-
Helper lemmas: how many nodes a compilation makes.
-/
namespace GJS
open Spec

/-- The documents of the nodes. -/
def docsOf (st : PState) : List Json := st.heap.map Sub.doc

theorem docsOf_length (st : PState) : (docsOf st).length = st.heap.length := by simp [docsOf]

/-- The size of the document at a place. -/
def sizeAt (ds : List Json) (i : Nat) : Nat := sizeOf? ds[i]?

/-- A document among `ds` asks for the reference `r`. -/
def Asked (w : World) (ds : List Json) (r : String) : Prop :=
  ∃ m t, Json.obj m ∈ ds ∧ Kw m "$ref" (.str t) ∧ w.norm t = some r

structure Sound (w : World) (st : PState) : Prop where
  ids : ∀ r ∈ st.refs, r.2 < (docsOf st).length
  keys : (st.refs.map Prod.fst).Nodup
  asked : ∀ r ∈ st.refs, Asked w (docsOf st) r.1

/-- The sizes of the documents references stand for. -/
def refSizes (st : PState) : Nat := (st.refs.map fun r => sizeAt (docsOf st) r.2).sum

/-- From `st` to `st'` there are at most `k` new nodes, apart from those that belong to new references. -/
structure Grow (w : World) (k : Nat) (st st' : PState) : Prop where
  pre : docsOf st <+: docsOf st'
  sound : Sound w st'
  sum : st'.heap.length + refSizes st ≤ st.heap.length + k + refSizes st'

theorem Grow.trans {w : World} {k k' a b c} (h : Grow w k a b) (h' : Grow w k' b c) : Grow w (k + k') a c :=
  ⟨h.pre.trans h'.pre, h'.sound, by have := h.sum; have := h'.sum; omega⟩

theorem Grow.refl {w : World} {a} (h : Sound w a) : Grow w 0 a a := ⟨List.prefix_refl _, h, by omega⟩

theorem Grow.mono {w : World} {k k' a b} (h : Grow w k a b) (hk : k ≤ k') : Grow w k' a b :=
  ⟨h.pre, h.sound, by have := h.sum; omega⟩

theorem get_prefix {α} {l l' : List α} {i : Nat} {x : α} (h : l <+: l') (hi : l[i]? = some x) : l'[i]? = some x := by
  obtain ⟨t, rfl⟩ := h
  obtain ⟨hlt, _⟩ := List.getElem?_eq_some_iff.mp hi
  rw [List.getElem?_append_left hlt, hi]

theorem Asked.mono {w : World} {ds ds' r} (h : ds <+: ds') (x : Asked w ds r) : Asked w ds' r := by
  obtain ⟨m, t, h1, h2⟩ := x
  exact ⟨m, t, h.subset h1, h2⟩

def GTr (w : World) (c : Nat) (D : Json) (x : M PState α) (k : Nat) : Prop :=
  ∀ st a st', Sound w st → (docsOf st)[c]? = some D → x st = (.ok a, st') → Grow w k st st'

namespace GTr
variable {w : World} {c : Nat} {D : Json}

theorem still {x : M PState α} (h : Still x) : GTr w c D x 0 := fun st a st' hs _ hx => by
  rw [h.ok hx]; exact .refl hs

theorem mono {x : M PState α} {k k'} (h : GTr w c D x k) (hk : k ≤ k') : GTr w c D x k' := fun st a st' hs hc hx =>
  (h st a st' hs hc hx).mono hk

theorem bindQ {x : M PState α} {f : α → M PState β} {k k'} {Q : α → Prop} (h : GTr w c D x k)
    (hq : ∀ st a st', x st = (.ok a, st') → Q a) (h' : ∀ a, Q a → GTr w c D (f a) k') : GTr w c D (x >>= f) (k + k') := by
  intro st b st' hs hc hx
  obtain ⟨a, s1, h1, h2⟩ := M.bind_ok.mp hx
  have g := h st a s1 hs hc h1
  exact g.trans (h' a (hq _ _ _ h1) s1 b st' g.sound (get_prefix g.pre hc) h2)

theorem bind {x : M PState α} {f : α → M PState β} {k k'} (h : GTr w c D x k) (h' : ∀ a, GTr w c D (f a) k') :
    GTr w c D (x >>= f) (k + k') := bindQ (Q := fun _ => True) h (fun _ _ _ _ => trivial) fun a _ => h' a

theorem pure {a : α} : GTr w c D (Pure.pure a : M PState α) 0 := still .pure
theorem fail {e k} : GTr w c D (M.fail e : M PState α) k := (still .fail).mono (Nat.zero_le _)
theorem err {e k} : GTr w c D (M.err e : M PState α) k := fail

theorem then_ {x : M PState α} {f : α → M PState β} {k} (h : Still x) (h' : ∀ a, GTr w c D (f a) k) :
    GTr w c D (x >>= f) k := (bind (still h) h').mono (by omega)

theorem map {x : M PState α} {f : α → β} {k} (h : GTr w c D x k) : GTr w c D (x >>= fun a => Pure.pure (f a)) k :=
  (bind h fun _ => pure).mono (by omega)

theorem mapL {f : Nat → α → M PState β} {g : α → Nat} (h : ∀ k x, GTr w c D (f k x) (g x)) : ∀ {xs : List α} {k},
    GTr w c D (GJS.mapL f k xs) (xs.map g).sum
  | [], _ => pure
  | x :: xs, k => (bind (h k x) fun _ => map (mapL h)).mono (by simp)

end GTr

def RecG (w : World) (rec : PRec) : Prop := ∀ p pid id0 D d c, GTr w c D (rec p pid id0 D d c) (D.size - 1)

section
variable {w : World} {σ : Sched} {rec : PRec} {p : Path} {id : String} {d : Draft} {c : Nat} {D : Json} {m : List (String × Json)}

theorem sizeAt_prefix {ds ds' : List Json} (h : ds <+: ds') {i : Nat} (hi : i < ds.length) : sizeAt ds' i = sizeAt ds i := by
  unfold sizeAt
  rw [get_prefix h (List.getElem?_eq_getElem hi), List.getElem?_eq_getElem hi]

/-- The state after a new node. -/
theorem alloc_grow {st : PState} {l : LState} (hs : Sound w st) (X : Json) (d : Draft) :
    Grow w 1 st { st with heap := st.heap ++ [{ doc := X, draft := d }], l := l } := by
  have pre : docsOf st <+: docsOf { st with heap := st.heap ++ [{ doc := X, draft := d }], l := l } := by simp [docsOf]
  refine ⟨pre, ⟨fun r hr => Nat.lt_of_lt_of_le (hs.ids r hr) pre.length_le, hs.keys, fun r hr => (hs.asked r hr).mono pre⟩, ?_⟩
  have : refSizes { st with heap := st.heap ++ [{ doc := X, draft := d }], l := l } = refSizes st := by
    unfold refSizes
    exact congrArg List.sum (List.map_congr_left fun r hr => sizeAt_prefix pre (hs.ids r hr))
  simp only [this, List.length_append, List.length_singleton]
  omega

theorem child_grow (hrec : RecG w rec) {X : Json} : GTr w c D (child rec p id d X) X.size := by
  intro st a st' hs hc hx
  unfold child at hx
  obtain ⟨i, s1, h1, hx⟩ := M.bind_ok.mp hx
  obtain ⟨_, s2, h2, hx⟩ := M.bind_ok.mp hx
  obtain ⟨rfl, rfl⟩ := M.pure_ok.mp hx
  simp only [alloc, Prod.mk.injEq, Except.ok.injEq] at h1
  obtain ⟨rfl, rfl⟩ := h1
  have g := alloc_grow (l := st.l) hs X d
  exact (g.trans (hrec _ _ _ _ _ _ _ _ _ g.sound (by simp [docsOf]) h2)).mono (by have := X.size_pos; omega)

theorem setNode_grow {n : Sub} (hn : n.doc = D) : GTr w c D (setNode c n) 0 := by
  intro st a st' hs hc hx
  simp only [setNode, M.modify, Prod.mk.injEq, Except.ok.injEq] at hx
  obtain ⟨_, rfl⟩ := hx
  have e : docsOf { st with heap := st.heap.set c n } = docsOf st := by
    unfold docsOf at hc ⊢
    apply List.ext_getElem?
    intro i
    simp only [List.map_set, hn]
    by_cases hi : c = i
    · subst hi
      rw [hc, List.getElem?_set_self]
      exact (List.getElem?_eq_some_iff.mp hc).1
    · rw [List.getElem?_set_ne hi]
  refine ⟨by rw [e], ⟨fun r hr => by rw [e]; exact hs.ids r hr, hs.keys, fun r hr => by rw [e]; exact hs.asked r hr⟩, ?_⟩
  simp only [refSizes, e, List.length_set]
  omega

theorem perm_sizes {kvs kvs' : List (String × Json)} (h : kvs'.Perm kvs) :
    (kvs'.map fun kv => kv.2.size).sum ≤ (Json.obj kvs).size := by
  rw [sum_perm (f := fun kv : String × Json => kv.2.size) h]
  have := members_size (kvs := kvs)
  simp only [Json.size]
  omega

/-- Leave the state alone: the keywords without sub-schemas. -/
macro "still_tac" : tactic => `(tactic| (repeat' (first
  | exact Still.pure | exact Still.fail | exact Still.err | exact isKind_still | exact addType_still
  | exact typeLoop_still | exact requiredLoop_still | exact enumLoop_still
  | refine Still.bind ?_ fun _ => ?_ | split | assumption)))

theorem kwId_still {r pid id0} : Still (kwId w r pid id0 d m) := by unfold kwId; still_tac
theorem kwText_still {k} : Still (kwText w k m) := by unfold kwText; still_tac
theorem kwRefText_still : Still (kwRefText w m) := by unfold kwRefText; still_tac
theorem kwType_still : Still (kwType w m) := by unfold kwType; still_tac
theorem depKeys_still : ∀ {vs}, Still (depKeys w vs)
  | [] => .pure
  | v :: vs => by
    have := depKeys_still (vs := vs)
    unfold depKeys; still_tac
theorem kwMultipleOf_still : Still (kwMultipleOf w m) := by unfold kwMultipleOf; still_tac
theorem kwBound_still {k} : Still (kwBound w k m) := by unfold kwBound; still_tac
theorem exclusiveBool_still {x k b o} : Still (exclusiveBool x k b o) := by unfold exclusiveBool; still_tac
theorem kwExclusive_still {x k o} : Still (kwExclusive w d x k o m) := by
  unfold kwExclusive
  have h : ∀ b, Still (exclusiveBool x k b o) := fun _ => exclusiveBool_still
  repeat' (first
    | exact h _ | exact Still.pure | exact Still.fail | exact Still.err | exact isKind_still
    | refine Still.bind ?_ fun _ => ?_
    | split)
theorem kwSize_still {k} : Still (kwSize w k m) := by unfold kwSize; still_tac
theorem checkOrder_still {a b e} : Still (checkOrder a b e) := by unfold checkOrder; still_tac
theorem kwPattern_still : Still (kwPattern w m) := by unfold kwPattern; still_tac
theorem kwFormat_still : Still (kwFormat m) := by unfold kwFormat; still_tac
theorem kwRequired_still : Still (kwRequired w m) := by unfold kwRequired; still_tac
theorem kwUnique_still : Still (kwUnique w m) := by unfold kwUnique; still_tac
theorem kwConst_still : Still (kwConst w d m) := by unfold kwConst; still_tac
theorem kwEnum_still : Still (kwEnum w m) := by unfold kwEnum; still_tac

/-- The keywords with sub-schemas. -/
theorem kwDefinitions_grow (hrec : RecG w rec) : GTr w c D (kwDefinitions w σ rec p id d m) (sizeOf? (getKey "definitions" m)) := by
  unfold kwDefinitions
  split
  · exact GTr.pure.mono (Nat.zero_le _)
  · rename_i v hv
    rw [hv]
    refine .then_ isKind_still fun b => ?_
    split
    · split
      · rename_i kvs
        refine (GTr.map (GTr.mapL (g := fun kv => kv.2.size) fun k kv => ?_)).mono (perm_sizes (σ.perm _ _))
        unfold kwDefinition
        refine .then_ isKind_still fun b => ?_
        split
        · exact .map (child_grow hrec)
        · exact .err
      · exact .fail
    · exact .err

theorem kwProperties_grow (hrec : RecG w rec) : GTr w c D (kwProperties w σ rec p id d m) (sizeOf? (getKey "properties" m)) := by
  unfold kwProperties
  split
  · exact GTr.pure.mono (Nat.zero_le _)
  · rename_i v hv
    rw [hv]
    refine .then_ isKind_still fun b => ?_
    split
    · exact .err
    · split
      · exact (GTr.mapL (g := fun kv : String × Json => kv.2.size) fun k kv => .map (child_grow hrec)).mono (perm_sizes (σ.perm _ _))
      · exact .fail

theorem kwPatternProperties_grow (hrec : RecG w rec) :
    GTr w c D (kwPatternProperties w σ rec p id d m) (sizeOf? (getKey "patternProperties" m)) := by
  unfold kwPatternProperties
  split
  · exact GTr.pure.mono (Nat.zero_le _)
  · rename_i v hv
    rw [hv]
    refine .then_ isKind_still fun b => ?_
    split
    · split
      · refine (GTr.mapL (g := fun kv : String × Json => kv.2.size) fun k kv => ?_).mono (perm_sizes (σ.perm _ _))
        unfold kwPattern1
        split
        · exact .err
        · exact .map (child_grow hrec)
      · exact .fail
    · exact .err

theorem kwExtra_grow {k} (hrec : RecG w rec) : GTr w c D (kwExtra w rec p id d k m) (sizeOf? (getKey k m)) := by
  unfold kwExtra
  split
  · exact GTr.pure.mono (Nat.zero_le _)
  · rename_i v hv
    rw [hv]
    refine .then_ isKind_still fun b => ?_
    split
    · split
      · exact GTr.pure.mono (Nat.zero_le _)
      · exact .fail
    · refine .then_ isKind_still fun b => ?_
      split
      · exact .map (child_grow hrec)
      · exact .err

theorem kwSchema_grow {a k e} (hrec : RecG w rec) : GTr w c D (kwSchema w rec p id d a k e m) (sizeOf? (getKey k m)) := by
  unfold kwSchema
  split
  · exact GTr.pure.mono (Nat.zero_le _)
  · rename_i v hv
    rw [hv]
    split
    · refine .then_ isKind_still fun b => ?_
      split
      · exact .map (child_grow hrec)
      · exact .err
    · exact GTr.pure.mono (Nat.zero_le _)

theorem kwContains_grow (hrec : RecG w rec) : GTr w c D (kwContains rec p id d m) (sizeOf? (getKey "contains" m)) := by
  unfold kwContains
  split
  · exact GTr.pure.mono (Nat.zero_le _)
  · rename_i v hv
    rw [hv]
    split
    · exact .map (child_grow hrec)
    · exact GTr.pure.mono (Nat.zero_le _)

theorem kwDependencies_grow (hrec : RecG w rec) : GTr w c D (kwDependencies w σ rec p id d m) (sizeOf? (getKey "dependencies" m)) := by
  unfold kwDependencies
  split
  · exact GTr.pure.mono (Nat.zero_le _)
  · rename_i v hv
    rw [hv]
    refine .then_ isKind_still fun b => ?_
    split
    · exact .err
    · split
      · refine (GTr.map (GTr.mapL (g := fun kv : String × Json => kv.2.size) fun k kv => ?_)).mono (perm_sizes (σ.perm _ _))
        unfold kwDependency
        split
        · exact .then_ depKeys_still fun _ => GTr.pure.mono (Nat.zero_le _)
        · exact .err
        · exact .err
        · exact .err
        · exact .map (child_grow hrec)
      · exact .fail

theorem kwItems_grow (hrec : RecG w rec) : GTr w c D (kwItems w rec p id d m) (sizeOf? (getKey "items" m)) := by
  unfold kwItems
  split
  · exact GTr.pure.mono (Nat.zero_le _)
  · rename_i v hv
    rw [hv]
    refine .then_ isKind_still fun b => ?_
    split
    · split
      · refine (GTr.map (GTr.mapL (g := Json.size) fun k x => ?_)).mono (by rw [sizeL_sum]; simp only [sizeOf?, Json.size]; omega)
        unfold kwItem
        refine .then_ isKind_still fun b => ?_
        split
        · exact child_grow hrec
        · exact .err
      · exact .fail
    · refine .then_ isKind_still fun b => ?_
      split
      · exact .map (child_grow hrec)
      · exact .err

theorem kwSchemas_grow {k e} (hrec : RecG w rec) : GTr w c D (kwSchemas w rec p id d k e m) (sizeOf? (getKey k m)) := by
  unfold kwSchemas
  split
  · exact GTr.pure.mono (Nat.zero_le _)
  · rename_i v hv
    rw [hv]
    refine .then_ isKind_still fun b => ?_
    split
    · split
      · exact (GTr.mapL (g := Json.size) fun k x => child_grow hrec).mono (by rw [sizeL_sum]; simp only [sizeOf?, Json.size]; omega)
      · exact .fail
    · exact .err

theorem all_keywords : sizeOf? (getKey "definitions" m) + (schemaKeys.map fun k => sizeOf? (getKey k m)).sum ≤ Json.sizeKV m := by
  have : (("definitions" :: schemaKeys).map fun k => sizeOf? (getKey k m)).sum ≤ Json.sizeKV m := by
    refine Nat.le_trans (lookups_sum (F := sizeOf?) rfl (by decide)) ?_
    rw [← sizeKV_sum]
    exact sum_le fun kv _ => by simp [sizeOf?]
  simpa using this

theorem parseKeywords_grow (hrec : RecG w rec) {j} :
    GTr w c (.obj m) (parseKeywords w σ rec p id d c j m) (schemaKeys.map fun k => sizeOf? (getKey k m)).sum := by
  unfold parseKeywords
  let z := fun k => sizeOf? (getKey k m)
  refine GTr.mono (k := z "properties" + (z "additionalProperties" + (z "patternProperties" + (z "propertyNames" + (z "dependencies" + (z "items" + (z "additionalItems" + (z "contains" + (z "oneOf" + (z "anyOf" + (z "allOf" + (z "not" + (z "if" + (z "then" + (z "else" + (0)))))))))))))))) ?_ ?_
  · show GTr w c (.obj m) _ _
    refine GTr.then_ kwType_still fun _ => ?_
    refine GTr.bind (kwProperties_grow hrec) fun _ => ?_
    refine GTr.bind (kwExtra_grow hrec) fun _ => ?_
    refine GTr.bind (kwPatternProperties_grow hrec) fun _ => ?_
    refine GTr.bind (kwSchema_grow hrec) fun _ => ?_
    refine GTr.bind (kwDependencies_grow hrec) fun _ => ?_
    refine GTr.bind (kwItems_grow hrec) fun _ => ?_
    refine GTr.bind (kwExtra_grow hrec) fun _ => ?_
    refine GTr.then_ kwMultipleOf_still fun _ => ?_
    refine GTr.then_ kwBound_still fun _ => ?_
    refine GTr.then_ kwExclusive_still fun _ => ?_
    refine GTr.then_ kwBound_still fun _ => ?_
    refine GTr.then_ kwExclusive_still fun _ => ?_
    refine GTr.then_ kwSize_still fun _ => ?_
    refine GTr.then_ kwSize_still fun _ => ?_
    refine GTr.then_ checkOrder_still fun _ => ?_
    refine GTr.then_ kwPattern_still fun _ => ?_
    refine GTr.then_ kwFormat_still fun _ => ?_
    refine GTr.then_ kwSize_still fun _ => ?_
    refine GTr.then_ kwSize_still fun _ => ?_
    refine GTr.then_ checkOrder_still fun _ => ?_
    refine GTr.then_ kwRequired_still fun _ => ?_
    refine GTr.then_ kwSize_still fun _ => ?_
    refine GTr.then_ kwSize_still fun _ => ?_
    refine GTr.then_ kwUnique_still fun _ => ?_
    refine GTr.bind (kwContains_grow hrec) fun _ => ?_
    refine GTr.then_ kwConst_still fun _ => ?_
    refine GTr.then_ kwEnum_still fun _ => ?_
    refine GTr.bind (kwSchemas_grow hrec) fun _ => ?_
    refine GTr.bind (kwSchemas_grow hrec) fun _ => ?_
    refine GTr.bind (kwSchemas_grow hrec) fun _ => ?_
    refine GTr.bind (kwSchema_grow hrec) fun _ => ?_
    refine GTr.bind (kwSchema_grow hrec) fun _ => ?_
    refine GTr.bind (kwSchema_grow hrec) fun _ => ?_
    refine GTr.bind (kwSchema_grow hrec) fun _ => ?_
    exact setNode_grow rfl
  · simp only [schemaKeys, List.map_cons, List.map_nil, List.sum_cons, List.sum_nil, z]
    omega

theorem kwRefText_some {st r st'} (h : kwRefText w m st = (.ok (some r), st')) : ∃ t, Kw m "$ref" (.str t) ∧ w.norm t = some r := by
  unfold kwRefText at h
  cases hv : getKey "$ref" m with
  | none => rw [hv] at h; simp [M.pure_ok] at h
  | some v =>
    rw [hv] at h
    obtain ⟨b, s1, h1, h⟩ := M.bind_ok.mp h
    cases b with
    | false => simp [M.err, M.fail] at h
    | true =>
      cases v with
      | str t =>
        simp only [Bool.not_true, Bool.false_eq_true, if_false] at h
        cases hu : w.norm t with
        | none => rw [hu] at h; simp [M.err, M.fail] at h
        | some u =>
          rw [hu] at h
          simp only [M.pure_ok, Option.some.injEq] at h
          exact ⟨t, hv, h.1 ▸ hu⟩
      | _ => simp [M.pure_ok] at h

theorem parseReference_grow (hrec : RecG w rec) {r : String} {t : String} (hk : Kw m "$ref" (.str t)) (ht : w.norm t = some r)
    {st a st'} (hs : Sound w st) (hc : (docsOf st)[c]? = some (.obj m)) (hr : getKey r st.refs = none)
    (hx : parseReference w σ rec p id d r st = (.ok a, st')) : Grow w 0 st st' := by
  unfold parseReference at hx
  obtain ⟨dsp, s1, h1, hx⟩ := M.bind_ok.mp hx
  obtain ⟨l', h1, rfl⟩ := liftL_ok.mp h1
  obtain ⟨i, s2, h2, hx⟩ := M.bind_ok.mp hx
  simp only [alloc, Prod.mk.injEq, Except.ok.injEq] at h2
  obtain ⟨rfl, rfl⟩ := h2
  obtain ⟨_, s3, h3, hx⟩ := M.bind_ok.mp hx
  have hn : existsMapKey st.refs r = false := by
    unfold existsMapKey
    rw [hr]; rfl
  simp only [refAdd, M.modify, hn, Prod.mk.injEq, true_and, Bool.false_eq_true, if_false] at h3
  subst h3
  obtain ⟨b, s4, h4, hx⟩ := M.bind_ok.mp hx
  obtain rfl := isKind_still.ok h4
  split at hx
  · simp [M.err, M.fail] at hx
  · obtain ⟨_, s5, h5, hx⟩ := M.bind_ok.mp hx
    obtain ⟨rfl, rfl⟩ := M.pure_ok.mp hx
    set s3 : PState := { heap := st.heap ++ [{ doc := dsp.doc, draft := dsp.draft.getD d }], refs := st.refs ++ [(r, st.heap.length)], l := l' } with hs3
    have g := alloc_grow (l := l') hs dsp.doc (dsp.draft.getD d)
    have e : docsOf s3 = docsOf st ++ [dsp.doc] := by simp [docsOf, hs3]
    have pre : docsOf st <+: docsOf s3 := by rw [e]; exact List.prefix_append _ _
    have hget : (docsOf s3)[st.heap.length]? = some dsp.doc := by
      rw [e, ← docsOf_length]; simp
    have snd : Sound w s3 := by
      refine ⟨?_, ?_, ?_⟩
      · intro x hx
        rw [e, List.length_append, docsOf_length]
        rcases List.mem_append.mp hx with hx | hx
        · have := hs.ids x hx
          rw [docsOf_length] at this
          exact Nat.lt_of_lt_of_le this (Nat.le_add_right _ _)
        · rw [List.mem_singleton.mp hx]; simp
      · show ((st.refs ++ [(r, st.heap.length)]).map Prod.fst).Nodup
        rw [List.map_append, List.nodup_append]
        refine ⟨hs.keys, by simp, fun a ha b hb => ?_⟩
        simp only [List.map_cons, List.map_nil, List.mem_singleton] at hb
        rintro rfl
        obtain ⟨x, hx, rfl⟩ := List.mem_map.mp ha
        exact lookup_none_iff.mp hr (hb ▸ List.mem_map_of_mem hx)
      · intro x hx
        rcases List.mem_append.mp hx with hx | hx
        · exact (hs.asked x hx).mono pre
        · rw [List.mem_singleton.mp hx]
          exact ⟨m, t, List.mem_of_getElem? (get_prefix pre hc), hk, ht⟩
    have g5 := hrec _ _ _ _ _ _ s3 _ s5 snd hget h5
    refine ⟨pre.trans g5.pre, g5.sound, ?_⟩
    have e1 : refSizes s3 = refSizes st + dsp.doc.size := by
      unfold refSizes
      rw [show s3.refs = st.refs ++ [(r, st.heap.length)] from rfl, List.map_append, List.sum_append]
      refine congrArg₂ (· + ·) (congrArg List.sum (List.map_congr_left fun x hx => sizeAt_prefix pre (hs.ids x hx))) ?_
      simp [sizeAt, hget, sizeOf?]
    have e2 : s3.heap.length = st.heap.length + 1 := by simp [hs3]
    have := g5.sum
    have := dsp.doc.size_pos
    omega

theorem parseAfterRef_grow (hrec : RecG w rec) {o : Option String} (ho : ∀ r, o = some r → ∃ t, Kw m "$ref" (.str t) ∧ w.norm t = some r) :
    GTr w c (.obj m) (parseAfterRef w σ rec p id d c o m) (schemaKeys.map fun k => sizeOf? (getKey k m)).sum := by
  unfold parseAfterRef
  split
  · exact parseKeywords_grow hrec
  · rename_i r
    obtain ⟨t, hk, ht⟩ := ho r rfl
    intro st a st' hs hc hx
    obtain ⟨known, s1, h1, hx⟩ := M.bind_ok.mp hx
    obtain ⟨rfl, rfl⟩ := refGet_ok.mp h1
    cases hn : getKey r st.refs with
    | some j =>
      rw [hn] at hx
      exact parseKeywords_grow hrec _ _ _ hs hc hx
    | none =>
      rw [hn] at hx
      obtain ⟨j, s2, h2, hx⟩ := M.bind_ok.mp hx
      have g := parseReference_grow hrec hk ht hs hc hn h2
      exact (g.trans (setNode_grow rfl _ _ _ g.sound (get_prefix g.pre hc) hx)).mono (Nat.zero_le _)

theorem parseObject_grow (hrec : RecG w rec) {isRoot pid id0} :
    GTr w c (.obj m) (parseObject w σ rec isRoot p pid id0 m d c) ((Json.obj m).size - 1) := by
  unfold parseObject
  refine GTr.then_ kwId_still fun _ => ?_
  refine (GTr.bind (kwDefinitions_grow hrec) (k' := (schemaKeys.map fun k => sizeOf? (getKey k m)).sum) fun _ => ?_).mono ?_
  · refine GTr.then_ kwText_still fun _ => GTr.then_ kwText_still fun _ => ?_
    refine (GTr.bindQ (Q := fun o => ∀ r, o = some r → ∃ t, Kw m "$ref" (.str t) ∧ w.norm t = some r) (.still kwRefText_still) ?_
      fun o ho => parseAfterRef_grow hrec ho).mono (by omega)
    rintro st a st' h r rfl
    exact kwRefText_some h
  · have := all_keywords (m := m)
    simp only [Json.size]
    omega

theorem parseStep_grow (hrec : RecG w rec) {isRoot pid id0} :
    GTr w c D (parseStep w σ rec isRoot p pid id0 D d c) (D.size - 1) := by
  unfold parseStep
  refine GTr.then_ isKind_still fun b => ?_
  split
  · exact (setNode_grow (D := .bool _) rfl).mono (Nat.zero_le _)
  · refine GTr.then_ isKind_still fun b => ?_
    split
    · exact .err
    · split
      · exact parseObject_grow hrec
      · exact .fail

theorem parseSchema_grow : ∀ n, RecG w (parseSchema w σ n)
  | 0 => fun _ _ _ _ _ _ => .fail
  | n + 1 => fun _ _ _ _ _ _ => parseStep_grow (parseSchema_grow n)

/-- What a compilation makes. -/
theorem runParse_size {fuel ref doc l s l'} (h : runParse w σ fuel p ref doc d l = (.ok s, l')) :
    s.heap.length ≤ docSize s.heap s.root + (s.refs.map fun r => docSize s.heap r.2).sum ∧ (s.refs.map Prod.fst).Nodup ∧
      ∀ r ∈ s.refs, r.2 < s.heap.length ∧ Asked w (s.heap.map Sub.doc) r.1 := by
  unfold runParse at h
  cases hx : parseRoot w σ fuel.parse p ref doc d { l := l } with
  | mk r s2 =>
    rw [hx] at h
    cases r with
    | error e => simp at h
    | ok c =>
      simp only [Prod.mk.injEq, Except.ok.injEq] at h
      obtain ⟨rfl, rfl⟩ := h
      unfold parseRoot at hx
      obtain ⟨i, s1, h1, hx⟩ := M.bind_ok.mp hx
      obtain ⟨_, s2, h2, hx⟩ := M.bind_ok.mp hx
      obtain ⟨rfl, rfl⟩ := M.pure_ok.mp hx
      simp only [alloc, Prod.mk.injEq, Except.ok.injEq] at h1
      obtain ⟨rfl, rfl⟩ := h1
      have g := parseStep_grow (parseSchema_grow (σ := σ) fuel.parse) _ _ _ (w := w)
        ⟨by simp, by simp, by simp⟩ (by simp [docsOf]) h2
      have hsum := g.sum
      have := doc.size_pos
      refine ⟨?_, g.sound.keys, fun r hr => ⟨by have := g.sound.ids r hr; rwa [docsOf_length] at this, g.sound.asked r hr⟩⟩
      have e : refSizes s2 = (s2.refs.map fun r => docSize s2.heap r.2).sum := by
        unfold refSizes
        refine congrArg List.sum (List.map_congr_left fun r hr => ?_)
        have hlt := g.sound.ids r hr
        rw [docsOf_length] at hlt
        simp only [sizeAt, docsOf, docSize, List.getElem?_map, List.getElem?_eq_getElem hlt, Option.map_some, sizeOf?]
      have e0 : docSize s2.heap 0 = doc.size := by
        have h0 : (docsOf s2)[0]? = some doc := get_prefix g.pre (by simp [docsOf])
        unfold docsOf at h0
        rw [List.getElem?_map] at h0
        unfold docSize
        cases hh : s2.heap[0]? with
        | none => rw [hh] at h0; cases h0
        | some n => rw [hh] at h0; cases h0; rfl
      simp only [List.nil_append, List.length_singleton] at hsum
      show s2.heap.length ≤ docSize s2.heap 0 + _
      rw [← e, e0]
      omega

theorem compile_size {fuel a l s l'} (h : compile w σ fuel p a l = (.ok s, l')) :
    s.heap.length ≤ docSize s.heap s.root + (s.refs.map fun r => docSize s.heap r.2).sum ∧ (s.refs.map Prod.fst).Nodup ∧
      ∀ r ∈ s.refs, r.2 < s.heap.length ∧ Asked w (s.heap.map Sub.doc) r.1 := by
  unfold compile compileG at h
  cases hr : a.ref w with
  | none => rw [hr] at h; simp at h
  | some ref =>
    rw [hr] at h
    simp only at h
    obtain ⟨_, l1, h1, h⟩ := M.bind_ok.1 h
    obtain ⟨D, l2, h2, h⟩ := M.bind_ok.1 h
    obtain ⟨_, l3, h3, h⟩ := M.bind_ok.1 h
    obtain ⟨d, l4, h4, h5⟩ := M.bind_ok.1 h
    exact runParse_size h5

end

end GJS

import Verif.LemResult
/-
Results as objects: C38.
-/
namespace GJS.Api
open GJS

/-- The memory after a program that started with nothing. -/
def after (lib : Lib) (cs : List Call) : Mem := runCalls lib cs {}

theorem runCalls_append (lib : Lib) : ∀ (cs cs' : List Call) (st : Mem), runCalls lib (cs ++ cs') st = runCalls lib cs' (runCalls lib cs st)
  | [], _, _ => rfl
  | _ :: cs, cs', _ => runCalls_append lib cs cs' _

theorem after_append (lib : Lib) (cs cs' : List Call) : after lib (cs ++ cs') = runCalls lib cs' (after lib cs) :=
  runCalls_append lib cs cs' {}

theorem after_inv (lib cs) : Inv (after lib cs) := (runCalls_grows lib cs inv_empty).inv

/-- C38: whatever a program goes on to do, the errors a result has stay where they are. -/
theorem C38_prefix (lib : Lib) (cs cs' : List Call) (v : Nat) :
    listOf (after lib cs) v <+: listOf (after lib (cs ++ cs')) v := by
  rw [after_append]
  exact (runCalls_grows lib cs' (after_inv lib cs)).lists v

/-- C38: the list returned by `Errors` at some moment has the same contents at all later moments. -/
theorem C38_snapshot (lib : Lib) (cs cs' : List Call) (v : Nat) (r : ResObj) (hr : (after lib cs).results[v]? = some r) :
    read (after lib (cs ++ cs')).arrays (errorsOf r) = listOf (after lib cs) v := by
  have hl : listOf (after lib cs) v = read (after lib cs).arrays r.errors := by unfold listOf; rw [hr]
  rw [hl, after_append]
  exact ((runCalls_grows lib cs' (after_inv lib cs)).frozen _ ((after_inv lib cs).frozen hr)).2

/-- C38: `Valid` means that there is no error. -/
theorem C38_valid (lib : Lib) (cs : List Call) (v : Nat) (r : ResObj) (hr : (after lib cs).results[v]? = some r) :
    valid r = true ↔ listOf (after lib cs) v = [] := by
  have hb := ((after_inv lib cs).bound v r hr).2
  unfold listOf valid
  rw [hr]
  simp only [decide_eq_true_eq, read]
  constructor
  · intro h; rw [h]; simp
  · intro h
    have := congrArg List.length h
    simp only [List.length_take, List.length_nil] at this
    unfold cells at hb
    omega

/-- C38: a result that is not valid stays so. -/
theorem C38_invalid (lib : Lib) (cs cs' : List Call) (v : Nat) (r r' : ResObj) (hr : (after lib cs).results[v]? = some r)
    (hr' : (after lib (cs ++ cs')).results[v]? = some r') (h : valid r = false) : valid r' = false := by
  rw [Bool.eq_false_iff] at h ⊢
  rw [Ne, C38_valid lib _ v _ hr] at h
  rw [Ne, C38_valid lib _ v _ hr']
  intro e
  have := C38_prefix lib cs cs' v
  rw [e, List.prefix_nil] at this
  exact h this

theorem addContext_eq (err : ErrObj) (d : Option Nat) (st : Mem) : addContext err d st = M.seq (detailsOf d) (fun m =>
    if (getKey "context" m).isNone then
      match err.context with
      | none => return ()
      | some c =>
        match ctxString [] c with
        | .error _ => M.fail .panic
        | .ok text =>
          match d with
          | none => M.fail .panic
          | some i => M.modify fun st => { st with maps := st.maps.set i (mapSet m "context" (.str text)) }
    else return ()) st := by cases d <;> rfl

theorem quiet_ok {x : M Mem α} {f : α → M Mem β} {st st' b} (hq : Quiet x) (h : M.seq x f st = (.ok b, st')) :
    ∃ a st1, x st = (.ok a, st1) ∧ Same st st1 ∧ f a st1 = (.ok b, st') := by
  have hs := hq st
  cases hx : x st with
  | mk r st1 =>
    rw [hx] at hs
    cases r with
    | error e => rw [seq_stop hx] at h; cases h
    | ok a => rw [seq_run hx] at h; exact ⟨a, st1, rfl, hs, h⟩

/-- C38: `AddError` puts the error at the end of the errors of the result, and leaves all other
results alone. -/
theorem C38_add (lib : Lib) (cs : List Call) (v e : Nat) (d : Option Nat) (st' : Mem)
    (h : call lib (.addError v e d) (after lib cs) = (.ok (), st')) :
    listOf st' v = listOf (after lib cs) v ++ [some e] ∧ (∀ v', v' ≠ v → listOf st' v' = listOf (after lib cs) v') ∧
      ∀ r, st'.results[v]? = some r → valid r = false := by
  have hi := after_inv lib cs
  generalize hst : after lib cs = st at h hi ⊢
  change M.seq (deref st.errs e) _ st = _ at h
  obtain ⟨err, s1, -, m1, h⟩ := quiet_ok .deref h
  change M.seq _ _ s1 = _ at h
  obtain ⟨_, s2, -, m2, h⟩ := quiet_ok addContext_quiet h
  change M.seq _ _ s2 = _ at h
  obtain ⟨_, s3, -, m3, h⟩ := quiet_ok describe_quiet h
  have m := (m1.trans m2).trans m3
  have hi3 := m.inv hi
  cases hr : s3.results[v]? with
  | none => rw [appendTo_stop lib hr] at h; cases h
  | some r =>
    rw [appendTo_run lib hr] at h
    simp only [Prod.mk.injEq, true_and] at h
    obtain ⟨g, a1, a2⟩ := appended lib hi3 hr [some e] (st' := st') (k := r.score) (by rw [← h]) (by rw [← h])
    refine ⟨by rw [a1, m.listOf], fun v' hv => by rw [a2 v' hv, m.listOf], ?_⟩
    intro r' hr'
    have hb := (g.inv.bound v r' hr').2
    unfold listOf at a1
    rw [hr'] at a1
    unfold valid
    simp only [decide_eq_false_iff_not]
    intro e0
    have := congrArg List.length a1
    simp [read, e0] at this

/-- The score of a result. -/
def scoreOf (st : Mem) (v : Nat) : Int :=
  match st.results[v]? with
  | some r => r.score
  | none => 0

/-- C38: `mergeErrors` puts all errors of the other result, in order, behind those of the result, adds the
scores, and leaves all other results alone. A result can be merged with itself. -/
theorem C38_merge (lib : Lib) (cs : List Call) (v o : Nat) (hv : v < (after lib cs).results.length)
    (ho : o < (after lib cs).results.length) :
    ∃ st', call lib (.mergeErrors v o) (after lib cs) = (.ok (), st') ∧
      listOf st' v = listOf (after lib cs) v ++ listOf (after lib cs) o ∧
      scoreOf st' v = scoreOf (after lib cs) v + scoreOf (after lib cs) o ∧
      (∀ v', v' ≠ v → listOf st' v' = listOf (after lib cs) v' ∧ scoreOf st' v' = scoreOf (after lib cs) v') ∧
      st'.errs = (after lib cs).errs ∧ st'.maps = (after lib cs).maps := by
  have hi := after_inv lib cs
  generalize after lib cs = st at hv ho hi ⊢
  obtain ⟨r, hr⟩ : ∃ r, st.results[v]? = some r := ⟨_, List.getElem?_eq_getElem hv⟩
  obtain ⟨q, hq⟩ : ∃ q, st.results[o]? = some q := ⟨_, List.getElem?_eq_getElem ho⟩
  generalize hxs : read st.arrays (errorsOf q) = xs
  generalize hg : goAppend lib st.arrays r.errors xs = g
  have hlo : listOf st o = xs := by unfold listOf; rw [hq]; exact hxs
  -- after the append
  have hq1 : ∃ q1, (st.results.set v { r with errors := g.2 })[o]? = some q1 ∧ q1.score = q.score := by
    by_cases hvo : v = o
    · subst hvo
      rw [hr] at hq
      cases hq
      exact ⟨_, List.getElem?_set_self hv, rfl⟩
    · exact ⟨q, by rw [List.getElem?_set_ne hvo]; exact hq, rfl⟩
  obtain ⟨q1, hq1, hsc⟩ := hq1
  have hr1 : (st.results.set v { r with errors := g.2 })[v]? = some { r with errors := g.2 } := List.getElem?_set_self hv
  refine ⟨{ st with arrays := g.1, results := st.results.set v { r with errors := g.2, score := r.score + q.score } }, ?_, ?_⟩
  · show M.seq (deref st.results o) _ st = _
    rw [seq_run (deref_some hq st)]
    show M.seq (appendTo lib v (read st.arrays (errorsOf q))) _ st = _
    rw [seq_run (appendTo_run lib hr _), hxs, hg]
    show M.seq (deref (st.results.set v { r with errors := g.2 }) v) _ _ = _
    rw [seq_run (deref_some hr1 _)]
    show M.seq (deref (st.results.set v { r with errors := g.2 }) o) _ _ = _
    rw [seq_run (deref_some hq1 _)]
    simp [M.modify, hsc]
  · obtain ⟨-, a1, a2⟩ := appended lib hi hr xs
      (st' := { st with arrays := g.1, results := st.results.set v { r with errors := g.2, score := r.score + q.score } })
      (k := r.score + q.score) (by rw [hg]) (by rw [hg])
    refine ⟨by rw [a1, hlo], ?_, ?_, rfl, rfl⟩
    · unfold scoreOf
      rw [hr, hq]
      simp only [List.getElem?_set_self hv]
    · intro v' hne
      refine ⟨a2 v' hne, ?_⟩
      unfold scoreOf
      simp only [List.getElem?_set_ne (Ne.symm hne)]

/-- C38: `incrementScore` adds one to the score of its result; nothing else changes. -/
theorem C38_increment (lib : Lib) (cs : List Call) (v : Nat) (hv : v < (after lib cs).results.length) :
    ∃ st', call lib (.incrementScore v) (after lib cs) = (.ok (), st') ∧
      scoreOf st' v = scoreOf (after lib cs) v + 1 ∧
      (∀ v', v' ≠ v → scoreOf st' v' = scoreOf (after lib cs) v') ∧ (∀ v', listOf st' v' = listOf (after lib cs) v') ∧
      st'.errs = (after lib cs).errs ∧ st'.maps = (after lib cs).maps := by
  generalize after lib cs = st at hv ⊢
  obtain ⟨r, hr⟩ : ∃ r, st.results[v]? = some r := ⟨_, List.getElem?_eq_getElem hv⟩
  refine ⟨{ st with results := st.results.set v { r with score := r.score + 1 } }, ?_, ?_, ?_, ?_, rfl, rfl⟩
  · simp [call, incrementScore, M.bind_def, M.get, deref, hr, M.pure_def, M.modify]
  · simp [scoreOf, hr, List.getElem?_set_self hv]
  · intro v' hv'
    simp [scoreOf, List.getElem?_set_ne (Ne.symm hv')]
  · intro v'
    by_cases e : v' = v
    · subst e; simp [listOf, hr, List.getElem?_set_self hv]
    · simp [listOf, List.getElem?_set_ne (Ne.symm e)]

/-- C38: `AddError` panics in one case: the error has a context and the details are a nil map. It does
nothing then. Otherwise it sets the description of this error only, to the rendering of its format with
the details, to which the context has been added unless there was one. -/
theorem C38_outcome (lib : Lib) (cs : List Call) (v e : Nat) (d : Option Nat) (err : ErrObj)
    (he : (after lib cs).errs[e]? = some err) (hv : v < (after lib cs).results.length) (hc : err.context ≠ some [])
    (hd : ∀ i, d = some i → i < (after lib cs).maps.length) :
    (d = none ∧ err.context ≠ none ∧ call lib (.addError v e d) (after lib cs) = (.error .panic, after lib cs)) ∨
    ((d = none → err.context = none) ∧ ∃ (st' : Mem) (shown : Details),
      call lib (.addError v e d) (after lib cs) = (.ok (), st') ∧
      st'.errs = (after lib cs).errs.set e { err with description := lib.render err.descriptionFormat shown } ∧
      (d = none → shown = [] ∧ st'.maps = (after lib cs).maps) ∧
      ∀ i, d = some i → st'.maps[i]? = some shown ∧ (∀ j, j ≠ i → st'.maps[j]? = (after lib cs).maps[j]?) ∧
        ∀ old, (after lib cs).maps[i]? = some old →
          (∀ k, k ≠ "context" → getKey k shown = getKey k old) ∧
          (∀ x, getKey "context" old = some x → shown = old) ∧
          (getKey "context" old = none → ∀ c, err.context = some c →
            ∃ t, ctxString [] c = .ok t ∧ getKey "context" shown = some (.str t)) ∧
          (err.context = none → shown = old)) := by
  generalize after lib cs = st at he hv hd ⊢
  have mapSet_self : ∀ (m : Details) x, getKey "context" (mapSet m "context" x) = some x := by
    intro m x; simp [mapSet, getKey]
  have mapSet_other : ∀ (m : Details) x k, k ≠ "context" → getKey k (mapSet m "context" x) = getKey k m := by
    intro m x k hk
    have hk' : (k == "context") = false := by simpa using hk
    simp only [getKey, mapSet, List.lookup_cons, hk']
    induction m with
    | nil => rfl
    | cons a m ih =>
      by_cases h : a.1 = "context"
      · have hka : (k == a.1) = false := by rw [h]; exact hk'
        rw [List.filter_cons_of_neg (by simp [h])]
        obtain ⟨a1, a2⟩ := a
        simp only [List.lookup_cons, hka]
        exact ih
      · rw [List.filter_cons_of_pos (by simp [h])]
        obtain ⟨a1, a2⟩ := a
        simp only [List.lookup_cons]
        split
        · rfl
        · exact ih
  obtain ⟨r, hr⟩ : ∃ r, st.results[v]? = some r := ⟨_, List.getElem?_eq_getElem hv⟩
  -- what is left to do once the details are settled
  have rest : ∀ (st1 : Mem) (shown : Details), st1.errs = st.errs → st1.results = st.results →
      (detailsOf d st1 = (.ok shown, st1)) →
      ∃ st', M.seq (describe lib e d) (fun _ => appendTo lib v [some e]) st1 = (.ok (), st') ∧
        st'.errs = st.errs.set e { err with description := lib.render err.descriptionFormat shown } ∧ st'.maps = st1.maps := by
    intro st1 shown h1 h2 h3
    have hdes : describe lib e d st1 = (.ok (), { st1 with errs := st1.errs.set e { err with description := lib.render err.descriptionFormat shown } }) := by
      show M.seq (deref st1.errs e) _ st1 = _
      rw [seq_run (deref_some (by rw [h1]; exact he) st1)]
      show M.seq (detailsOf d) _ st1 = _
      rw [seq_run h3]
      rfl
    rw [seq_run hdes, appendTo_run lib (by rw [← h2] at hr; exact hr)]
    exact ⟨_, rfl, by rw [h1], rfl⟩
  have start : ∀ (res : Except Fail Unit × Mem), M.seq (addContext err d) (fun _ => M.seq (describe lib e d) (fun _ => appendTo lib v [some e])) st = res →
      call lib (.addError v e d) st = res := by
    intro res h
    show M.seq (deref st.errs e) _ st = _
    rw [seq_run (deref_some he st)]
    exact h
  have ctxOk : ∀ c, err.context = some c → ∃ t, ctxString [] c = .ok t := by
    intro c h
    cases c with
    | nil => exact absurd h hc
    | cons a b => exact ⟨_, rfl⟩
  cases d with
  | none =>
    have hdet : ∀ s1, detailsOf none s1 = (.ok [], s1) := fun _ => rfl
    rcases Option.eq_none_or_eq_some err.context with hx | ⟨c, hx⟩
    rotate_left
    · left
      refine ⟨rfl, by simp [hx], start _ (seq_stop ?_)⟩
      obtain ⟨t, ht⟩ := ctxOk c hx
      rw [addContext_eq]
      rw [seq_run (hdet st)]
      simp only [hx, ht]
      rfl
    · right
      obtain ⟨st', a1, a2, a3⟩ := rest st [] rfl rfl (hdet st)
      refine ⟨fun _ => hx, st', [], start _ ?_, a2, fun _ => ⟨rfl, a3⟩, fun i h => by cases h⟩
      rw [seq_run (s1 := st) (a := ())]
      · exact a1
      · rw [addContext_eq]
        rw [seq_run (hdet st)]
        simp only [hx]
        rfl
  | some i =>
    right
    have hil := hd i rfl
    obtain ⟨old, hold⟩ : ∃ old, st.maps[i]? = some old := ⟨_, List.getElem?_eq_getElem hil⟩
    have hdet : detailsOf (some i) st = (.ok old, st) := by
      show deref st.maps i st = _
      exact deref_some hold st
    refine ⟨fun h => (by cases h), ?_⟩
    cases hk : getKey "context" old with
    | some x =>
      obtain ⟨st', a1, a2, a3⟩ := rest st old rfl rfl hdet
      refine ⟨st', old, start _ ?_, a2, fun h => (by cases h), ?_⟩
      · rw [seq_run (s1 := st) (a := ())]
        · exact a1
        · rw [addContext_eq]
          rw [seq_run hdet]
          simp only [hk]
          rfl
      · rintro j ⟨⟩
        refine ⟨by rw [a3]; exact hold, fun j _ => by rw [a3], fun old' h => ?_⟩
        rw [hold] at h; cases h
        exact ⟨fun _ _ => rfl, fun _ _ => rfl, fun h => (by rw [hk] at h; cases h), fun _ => rfl⟩
    | none =>
      rcases Option.eq_none_or_eq_some err.context with hx | ⟨c, hx⟩
      · obtain ⟨st', a1, a2, a3⟩ := rest st old rfl rfl hdet
        refine ⟨st', old, start _ ?_, a2, fun h => (by cases h), ?_⟩
        · rw [seq_run (s1 := st) (a := ())]
          · exact a1
          · rw [addContext_eq]
            rw [seq_run hdet]
            simp only [hk, hx]
            rfl
        · rintro j ⟨⟩
          refine ⟨by rw [a3]; exact hold, fun j _ => by rw [a3], fun old' h => ?_⟩
          rw [hold] at h; cases h
          exact ⟨fun _ _ => rfl, fun _ _ => rfl, fun _ c h => (by rw [hx] at h; cases h), fun _ => rfl⟩
      · obtain ⟨t, ht⟩ := ctxOk c hx
        let st1 : Mem := { st with maps := st.maps.set i (mapSet old "context" (.str t)) }
        have hm : st1.maps[i]? = some (mapSet old "context" (.str t)) := List.getElem?_set_self hil
        obtain ⟨st', a1, a2, a3⟩ := rest st1 (mapSet old "context" (.str t)) rfl rfl (deref_some hm st1)
        refine ⟨st', mapSet old "context" (.str t), start _ ?_, a2, fun h => (by cases h), ?_⟩
        · rw [seq_run (s1 := st1) (a := ())]
          · exact a1
          · rw [addContext_eq]
            rw [seq_run hdet]
            simp only [hk, hx, ht]
            rfl
        · rintro j ⟨⟩
          refine ⟨by rw [a3]; exact hm, fun j hj => by rw [a3]; exact List.getElem?_set_ne (Ne.symm hj), fun old' h => ?_⟩
          rw [hold] at h; cases h
          refine ⟨fun k hne => mapSet_other _ _ k hne, fun x h => (by rw [hk] at h; cases h), ?_, fun h => (by rw [hx] at h; cases h)⟩
          intro _ c' hc'
          rw [hx] at hc'; cases hc'
          exact ⟨t, ht, mapSet_self _ _⟩

/-- Rendering that shows the context; arrays get one spare cell. -/
def demoLib : Lib :=
  { spare := fun _ => 1,
    render := fun f d => f ++ (match getKey "context" d with | some (.str t) => t | _ => "?") }

/-- Two errors at different places. -/
def demoErrors : List Call :=
  [.newResult, .newError { context := some ["a", "(root)"], descriptionFormat := "at " },
    .newError { context := some ["b", "(root)"], descriptionFormat := "at " }, .newDetails [], .newDetails []]

/-- Two additions, a list of errors taken in between. -/
example : (after demoLib (demoErrors ++ [.addError 0 0 (some 0)])).results.map (fun r => (r.errors, valid r)) = [(⟨1, 1⟩, false)] ∧
    listOf (after demoLib (demoErrors ++ [.addError 0 0 (some 0), .addError 0 1 (some 1)])) 0 = [some 0, some 1] ∧
    read (after demoLib (demoErrors ++ [.addError 0 0 (some 0), .addError 0 1 (some 1)])).arrays ⟨1, 1⟩ = [some 0] ∧
    (after demoLib (demoErrors ++ [.addError 0 0 (some 0), .addError 0 1 (some 1)])).errs.map (·.description) =
      ["at (root).a", "at (root).b"] := by decide

-- two results, the second merged into the first, then the first with itself
example :
    let st := after demoLib (demoErrors ++ [.newResult, .addError 1 0 (some 0), .addError 1 1 (some 1), .incrementScore 1,
      .mergeErrors 0 1, .mergeErrors 0 0])
    listOf st 0 = [some 0, some 1, some 0, some 1] ∧ scoreOf st 0 = 2 ∧ listOf st 1 = [some 0, some 1] := by decide

/-- C38 (finding): `AddError` writes the context into the details of its caller. A program that uses the
same details for two errors finds the place of the first in the description of the second. -/
theorem C38_shared_details :
    (after demoLib (demoErrors ++ [.addError 0 0 (some 0), .addError 0 1 (some 0)])).errs.map (·.description) =
      ["at (root).a", "at (root).a"] := by decide

/-- C38 (finding): an error without details panics, if it has a context. -/
theorem C38_nil_details :
    ((call demoLib (.addError 0 0 none) (after demoLib demoErrors)).1 matches .error .panic) = true := by decide

/-- `r2 := *r`: a copy of a result shares the backing array of its errors. -/
def copyResult (v : Nat) (st : Mem) : Mem :=
  match st.results[v]? with
  | some r => { st with results := st.results ++ [r] }
  | none => st

/-- C38 (finding): this is about results used through their pointer. Errors added to a copy of a result
can replace errors of the result. -/
theorem C38_copy :
    let st := copyResult 0 (after demoLib (demoErrors ++ [.addError 0 0 (some 0)]))
    let st1 := runCalls demoLib [.addError 0 0 (some 0)] st
    let st2 := runCalls demoLib [.addError 1 1 (some 1)] st1
    listOf st1 0 = [some 0, some 0] ∧ listOf st2 0 = [some 0, some 1] := by decide

end GJS.Api

import Verif.Conc
/-
Helper lemmas: goroutines with a `sync.RWMutex`.
-/
namespace GJS.Conc

/-- Readers, writers, active writers. -/
def Thread.isR (t : Thread S E) : Bool := decide (t.mode = .reading)
def Thread.isW (t : Thread S E) : Bool := decide (t.mode = .waiting ∨ t.mode = .writing)
def Thread.isH (t : Thread S E) : Bool := decide (t.mode = .writing)

/-- One or none. -/
def one (b : Bool) : Nat := if b then 1 else 0

theorem count_set (p : α → Bool) : ∀ (l : List α) (i : Nat) (t t' : α), l[i]? = some t →
    (l.set i t').countP p + one (p t) = l.countP p + one (p t')
  | [], i, t, t', h => by simp at h
  | x :: l, 0, t, t', h => by
    simp only [List.getElem?_cons_zero, Option.some.injEq] at h
    subst h
    simp only [List.set_cons_zero, List.countP_cons, one]
    omega
  | x :: l, i + 1, t, t', h => by
    simp only [List.getElem?_cons_succ] at h
    have := count_set p l i t t' h
    simp only [List.set_cons_succ, List.countP_cons]
    omega

/-- What always holds. -/
structure Inv (c : Conf S E) : Prop where
  ok : ∀ t ∈ c.threads, Ok t.code t.mode
  readers : c.shared.readers = c.threads.countP Thread.isR
  writer : c.threads.countP Thread.isW = one c.shared.writer
  excl : 0 < c.threads.countP Thread.isH → c.shared.readers = 0

theorem isH_isW (l : List (Thread S E)) : l.countP Thread.isH ≤ l.countP Thread.isW := by
  refine List.countP_mono_left fun t _ h => ?_
  simp only [Thread.isH, decide_eq_true_eq] at h
  simp [Thread.isW, h]

theorem Inv.start {s : S} {codes : List (Code S E)} (h : ∀ k ∈ codes, Ok k .idle) : Inv (start s codes) := by
  have z : ∀ p : Thread S E → Bool, (∀ k, p ⟨k, .idle⟩ = false) → (codes.map fun k => (⟨k, .idle⟩ : Thread S E)).countP p = 0 := by
    intro p hp
    rw [List.countP_eq_zero]
    intro t ht
    obtain ⟨k, -, rfl⟩ := List.mem_map.1 ht
    simp [hp]
  refine ⟨?_, ?_, ?_, ?_⟩
  · intro t ht
    obtain ⟨k, hk, rfl⟩ := List.mem_map.1 ht
    exact h k hk
  · exact (z _ fun _ => rfl).symm
  · exact z _ fun _ => rfl
  · intro hp
    rw [Conc.start] at hp
    simp only at hp
    rw [z _ fun _ => rfl] at hp
    omega

theorem mem_of_get {l : List α} {i : Nat} {t : α} (h : l[i]? = some t) : t ∈ l := List.mem_of_getElem? h

theorem Inv.step {c c' : Conf S E} {l} (hi : Inv c) (h : Step c l c') : Inv c' := by
  obtain ⟨i, t, t', a, ht, hs, he, hc, -⟩ := h
  obtain ⟨sh', ths'⟩ := c'
  obtain ⟨sh, ths⟩ := c
  simp only at ht he hc
  subst hc
  have okt := hi.ok t (mem_of_get ht)
  have cR := count_set Thread.isR ths i t t' ht
  have cW := count_set Thread.isW ths i t t' ht
  have cH := count_set Thread.isH ths i t t' ht
  have hR := hi.readers
  have hW := hi.writer
  have hE := hi.excl
  have hHW := isH_isW ths
  simp only at hR hW hE
  have okall : Ok t'.code t'.mode → ∀ x ∈ ths.set i t', Ok x.code x.mode := by
    intro h' x hx
    rcases List.mem_or_eq_of_mem_set hx with hx | rfl
    · exact hi.ok x hx
    · exact h'
  have same : t'.mode = t.mode → (ths.set i t').countP Thread.isR = ths.countP Thread.isR ∧
      (ths.set i t').countP Thread.isW = ths.countP Thread.isW ∧ (ths.set i t').countP Thread.isH = ths.countP Thread.isH := by
    intro e
    simp only [Thread.isR, Thread.isW, Thread.isH, e] at cR cW cH ⊢
    omega
  cases hs with
  | emit e k m =>
    cases he
    obtain ⟨s1, s2, s3⟩ := same rfl
    exact ⟨okall (by obtain ⟨rfl, h⟩ := okt; exact h), hR.trans s1.symm, s2.trans hW, fun h => hE (s3 ▸ h)⟩
  | rlock k =>
    cases he
    change _ + 0 = _ + 1 at cR
    change _ + 0 = _ + 0 at cW
    change _ + 0 = _ + 0 at cH
    change _ = 0 at hW
    refine ⟨okall okt.2, by simp only at hR ⊢; omega, ?_, fun h => ?_⟩
    · show _ = 0
      simp only; omega
    · simp only at h ⊢; omega
  | runlock k m =>
    cases he
    obtain ⟨rfl, h'⟩ := okt
    change _ + 1 = _ + 0 at cR
    change _ + 0 = _ + 0 at cW
    change _ + 0 = _ + 0 at cH
    refine ⟨okall h', by simp only at hR ⊢; omega, cW.trans hW, fun h => ?_⟩
    have := hE (by simp only at h; omega)
    exact absurd this (Nat.succ_ne_zero _)
  | announce k =>
    cases he
    change _ + 0 = _ + 0 at cR
    change _ + 0 = _ + 1 at cW
    change _ + 0 = _ + 0 at cH
    change _ = 0 at hW
    refine ⟨okall ⟨.inr rfl, okt.2⟩, hR.trans cR.symm, ?_, fun h => hE (by simp only at h; omega)⟩
    show _ = 1
    simp only; omega
  | acquire k =>
    cases he
    change _ + 0 = _ + 0 at cR
    change _ + 1 = _ + 1 at cW
    exact ⟨okall okt.2, hR.trans cR.symm, by simp only at hW ⊢; omega, fun _ => rfl⟩
  | unlock k m =>
    cases he
    obtain ⟨rfl, h'⟩ := okt
    change _ + 0 = _ + 0 at cR
    change _ + 1 = _ + 0 at cW
    change _ + 1 = _ + 0 at cH
    change _ = 1 at hW
    refine ⟨okall h', hR.trans cR.symm, ?_, fun h => hE (by simp only at h; omega)⟩
    show _ = 0
    simp only; omega
  | get k m s =>
    cases he
    obtain ⟨s1, s2, s3⟩ := same rfl
    exact ⟨okall (okt.2 s), hR.trans s1.symm, s2.trans hW, fun h => hE (s3 ▸ h)⟩
  | put f k m =>
    cases he
    obtain ⟨s1, s2, s3⟩ := same rfl
    obtain ⟨rfl, h'⟩ := okt
    exact ⟨okall h', hR.trans s1.symm, s2.trans hW, fun h => hE (s3 ▸ h)⟩

theorem Inv.run {c c' : Conf S E} {tr} (hi : Inv c) (h : Run c tr c') : Inv c' := by
  induction h with
  | nil c => exact hi
  | step c c' c'' l tr h _ ih => exact ih (hi.step h)

/-- Two different goroutines with a property count twice. -/
theorem count_two {p : α → Bool} : ∀ {l : List α} {i j : Nat} {x y : α}, l[i]? = some x → l[j]? = some y → i ≠ j →
    p x = true → p y = true → 2 ≤ l.countP p
  | [], i, j, x, y, hx, _, _, _, _ => by simp at hx
  | a :: l, i, j, x, y, hx, hy, hne, px, py => by
    rw [List.countP_cons]
    cases i with
    | zero =>
      cases j with
      | zero => exact absurd rfl hne
      | succ j =>
        simp only [List.getElem?_cons_zero, Option.some.injEq] at hx
        simp only [List.getElem?_cons_succ] at hy
        subst hx
        have : 0 < l.countP p := List.countP_pos_iff.2 ⟨y, mem_of_get hy, py⟩
        simp only [px, if_true]; omega
    | succ i =>
      simp only [List.getElem?_cons_succ] at hx
      cases j with
      | zero =>
        simp only [List.getElem?_cons_zero, Option.some.injEq] at hy
        subst hy
        have : 0 < l.countP p := List.countP_pos_iff.2 ⟨x, mem_of_get hx, px⟩
        simp only [py, if_true]; omega
      | succ j =>
        simp only [List.getElem?_cons_succ] at hy
        have := count_two hx hy (fun e => hne (by rw [e])) px py
        omega

/-- A writer is alone. -/
theorem Inv.alone {c : Conf S E} (hi : Inv c) {i j : Nat} {x y : Thread S E} (hx : c.threads[i]? = some x)
    (hy : c.threads[j]? = some y) (hne : i ≠ j) (h : x.mode = .writing) : y.mode = .idle := by
  have hH : 0 < c.threads.countP Thread.isH := List.countP_pos_iff.2 ⟨x, mem_of_get hx, by simp [Thread.isH, h]⟩
  have hr := hi.excl hH
  rw [hi.readers] at hr
  have hW := hi.writer
  have hle : c.threads.countP Thread.isW ≤ 1 := by rw [hW]; unfold one; split <;> omega
  cases hm : y.mode with
  | idle => rfl
  | reading =>
    have : 0 < c.threads.countP Thread.isR := List.countP_pos_iff.2 ⟨y, mem_of_get hy, by simp [Thread.isR, hm]⟩
    omega
  | waiting =>
    have := count_two (p := Thread.isW) hx hy hne (by simp [Thread.isW, h]) (by simp [Thread.isW, hm])
    omega
  | writing =>
    have := count_two (p := Thread.isW) hx hy hne (by simp [Thread.isW, h]) (by simp [Thread.isW, hm])
    omega

theorem runSection_reading {s : S} : ∀ {k : Code S E}, Ok k .reading → (runSection s k).1 = s
  | .get k, h => by rw [runSection]; exact runSection_reading (h.2 s)
  | .put f k, h => by cases h.1
  | .runlock k, _ => rfl
  | .unlock k, _ => rfl
  | .done, _ => rfl
  | .emit e k, _ => rfl
  | .rlock k, _ => rfl
  | .lock k, _ => rfl

/-- The program of a goroutine once its section is over. -/
def view (s : S) (t : Thread S E) : Code S E :=
  match t.mode with
  | .idle => t.code
  | .waiting => t.code
  | .reading => (runSection s t.code).2
  | .writing => (runSection s t.code).2

/-- The atomic state a configuration stands for: sections that have begun count as finished. -/
structure Sim (c : Conf S E) (a : S × List (Code S E)) : Prop where
  codes : a.2 = c.threads.map (view c.shared.mem)
  busy : ∀ t ∈ c.threads, t.mode = .writing → (runSection c.shared.mem t.code).1 = a.1
  free : (∀ t ∈ c.threads, t.mode ≠ .writing) → c.shared.mem = a.1

theorem Sim.start (s : S) (codes : List (Code S E)) : Sim (start s codes) (s, codes) := by
  refine ⟨?_, ?_, fun _ => rfl⟩
  · show codes = (codes.map _).map _
    rw [List.map_map]
    exact (List.map_id codes).symm
  · intro t ht h
    obtain ⟨k, -, rfl⟩ := List.mem_map.1 ht
    cases h

theorem set_same {l : List α} {i : Nat} {x : α} (h : l[i]? = some x) : l.set i x = l := by
  apply List.ext_getElem?
  intro j
  by_cases e : i = j
  · subst e
    rw [List.getElem?_set_self (by
      rcases Nat.lt_or_ge i l.length with h' | h'
      · exact h'
      · rw [List.getElem?_eq_none h'] at h; cases h), h]
  · rw [List.getElem?_set_ne e]

theorem get_map {f : α → β} {l : List α} {i : Nat} {x : α} (h : l[i]? = some x) : (l.map f)[i]? = some (f x) := by
  simp [h]

theorem Sim.step {c c' : Conf S E} {a l} (hi : Inv c) (hs : Sim c a) (h : Step c l c') :
    ∃ a', Sim c' a' ∧ (AStep a l a' ∨ (l = none ∧ a' = a)) := by
  have hi' := hi.step h
  obtain ⟨i, t, t', act, ht, hst, he, hc, rfl⟩ := h
  obtain ⟨sh', ths'⟩ := c'
  obtain ⟨sh, ths⟩ := c
  obtain ⟨s, cs⟩ := a
  simp only at ht he hc
  subst hc
  have okt := hi.ok t (mem_of_get ht)
  have hil : i < ths.length := by
    rcases Nat.lt_or_ge i ths.length with h | h
    · exact h
    · rw [List.getElem?_eq_none h] at ht; cases ht
  have ht' : (ths.set i t')[i]? = some t' := List.getElem?_set_self hil
  have hcs := hs.codes
  have hbusy := hs.busy
  have hfree := hs.free
  simp only at hcs hbusy hfree
  have others : ∀ x ∈ ths.set i t', x = t' ∨ ∃ j, j ≠ i ∧ ths[j]? = some x := by
    intro x hx
    obtain ⟨j, hj⟩ := List.getElem?_of_mem hx
    by_cases e : j = i
    · subst e; rw [ht'] at hj; cases hj; exact .inl rfl
    · rw [List.getElem?_set_ne (Ne.symm e)] at hj; exact .inr ⟨j, e, hj⟩
  -- steps within a section and steps that only move the lock
  have stay : sh'.mem = sh.mem → view sh.mem t' = view sh.mem t →
      (t'.mode = .writing → (runSection sh.mem t'.code).1 = s) →
      ((∀ x ∈ ths.set i t', x.mode ≠ .writing) → sh.mem = s) → Sim ⟨sh', ths.set i t'⟩ (s, cs) := by
    intro hm hv hb hf
    refine ⟨?_, ?_, ?_⟩
    · simp only [hm, List.map_set, hv]
      rw [set_same (get_map ht), hcs]
    · intro x hx hw
      simp only [hm]
      rcases others x hx with rfl | ⟨j, -, hj⟩
      · exact hb hw
      · exact hbusy x (mem_of_get hj) hw
    · intro h; simp only [hm]; exact hf h
  have free_of : (t'.mode = .writing ↔ t.mode = .writing) → (∀ x ∈ ths.set i t', x.mode ≠ .writing) → sh.mem = s := by
    intro e h
    refine hfree fun x hx => ?_
    obtain ⟨j, hj⟩ := List.getElem?_of_mem hx
    by_cases e' : j = i
    · subst e'; rw [ht] at hj; cases hj
      intro hw
      exact h t' (mem_of_get ht') (e.2 hw)
    · exact h x (mem_of_get (by rw [List.getElem?_set_ne (Ne.symm e')]; exact hj))
  cases hst with
  | emit e k m =>
    cases he
    obtain ⟨rfl, h'⟩ := okt
    refine ⟨(s, cs.set i k), ⟨?_, ?_, ?_⟩, .inl (.emit s cs i e k ?_)⟩
    · simp only [List.map_set, view, hcs]
    · intro x hx hw
      rcases others x hx with rfl | ⟨j, -, hj⟩
      · cases hw
      · exact hbusy x (mem_of_get hj) hw
    · exact free_of (by simp)
    · rw [hcs]; exact get_map ht
  | rlock k =>
    cases he
    rename_i s0 n0
    have nw : ∀ x ∈ ths, x.mode ≠ .writing := by
      intro x hx hw
      have := List.countP_pos_iff.2 ⟨x, hx, (by simp [Thread.isW, hw] : Thread.isW x = true)⟩
      have hW := hi.writer
      change _ = 0 at hW
      simp only at hW
      omega
    have e0 := hfree nw
    subst e0
    have r1 := runSection_reading (s := s0) okt.2
    refine ⟨(s0, cs.set i (runSection s0 k).2), ⟨?_, ?_, fun _ => rfl⟩, .inl ?_⟩
    · simp only [List.map_set, view, hcs]
    · intro x hx hw
      rcases others x hx with rfl | ⟨j, -, hj⟩
      · cases hw
      · exact absurd hw (nw x (mem_of_get hj))
    · have := AStep.rsection s0 cs i k (by rw [hcs]; simpa [view] using get_map (f := view s0) ht)
      rw [r1] at this
      exact this
  | runlock k m =>
    cases he
    obtain ⟨rfl, h'⟩ := okt
    exact ⟨(s, cs), stay rfl rfl (fun h => by cases h) (free_of (by simp)), .inr ⟨rfl, rfl⟩⟩
  | announce k =>
    cases he
    exact ⟨(s, cs), stay rfl rfl (fun h => by cases h) (free_of (by simp)), .inr ⟨rfl, rfl⟩⟩
  | acquire k =>
    cases he
    rename_i s0 b0
    have nw : ∀ x ∈ ths, x.mode ≠ .writing := by
      intro x hx hw
      obtain ⟨j, hj⟩ := List.getElem?_of_mem hx
      by_cases e : j = i
      · subst e; rw [ht] at hj; cases hj; cases hw
      · have := hi.alone hj ht e hw; cases this
    have e0 := hfree nw
    subst e0
    refine ⟨((runSection s0 k).1, cs.set i (runSection s0 k).2), ⟨?_, ?_, ?_⟩, .inl ?_⟩
    · simp only [List.map_set, view, hcs]
    · intro x hx hw
      rcases others x hx with rfl | ⟨j, -, hj⟩
      · rfl
      · exact absurd hw (nw x (mem_of_get hj))
    · intro h; exact absurd rfl (h _ (mem_of_get ht'))
    · exact AStep.wsection s0 cs i k (by rw [hcs]; simpa [view] using get_map (f := view s0) ht)
  | unlock k m =>
    cases he
    obtain ⟨rfl, h'⟩ := okt
    exact ⟨(s, cs), stay rfl rfl (fun h => by cases h) (fun _ => hbusy _ (mem_of_get ht) rfl), .inr ⟨rfl, rfl⟩⟩
  | get k m s0 =>
    cases he
    obtain ⟨hm, h'⟩ := okt
    refine ⟨(s, cs), stay rfl ?_ ?_ (free_of (by simp)), .inr ⟨rfl, rfl⟩⟩
    · rcases hm with rfl | rfl <;> rfl
    · intro hw
      have := hbusy _ (mem_of_get ht) hw
      exact this
  | put f k m =>
    cases he
    rename_i s0 n0 b0
    obtain ⟨rfl, h'⟩ := okt
    have al : ∀ j x, j ≠ i → ths[j]? = some x → x.mode = .idle := fun j x hne hj => hi.alone ht hj (Ne.symm hne) rfl
    refine ⟨(s, cs), ⟨?_, ?_, ?_⟩, .inr ⟨rfl, rfl⟩⟩
    · rw [hcs]
      apply List.ext_getElem?
      intro j
      by_cases e : j = i
      · subst e
        rw [get_map ht, get_map ht']
        rfl
      · simp only [List.getElem?_map, List.getElem?_set_ne (Ne.symm e)]
        cases hj : ths[j]? with
        | none => rfl
        | some x =>
          have := al j x e hj
          simp [view, this]
    · intro x hx hw
      rcases others x hx with rfl | ⟨j, hne, hj⟩
      · exact hbusy _ (mem_of_get ht) rfl
      · rw [al j x hne hj] at hw; cases hw
    · intro h; exact absurd rfl (h _ (mem_of_get ht'))

/-- What can be seen of an execution can be seen of one with atomic sections. -/
theorem Sim.run {c c' : Conf S E} {a tr} (hi : Inv c) (hs : Sim c a) (h : Run c tr c') : ∃ a', ARun a tr a' ∧ Sim c' a' := by
  induction h generalizing a with
  | nil c => exact ⟨a, .nil a, hs⟩
  | step c c' c'' l tr h _ ih =>
    obtain ⟨a1, s1, h1⟩ := hs.step hi h
    obtain ⟨a2, r2, s2⟩ := ih (hi.step h) s1
    rcases h1 with h1 | ⟨rfl, rfl⟩
    · exact ⟨a2, .step _ _ _ _ _ h1 r2, s2⟩
    · exact ⟨a2, r2, s2⟩

/-- As long as someone has something to do, someone can make a step. -/
theorem Inv.progress {c : Conf S E} (hi : Inv c) (h : ∃ t ∈ c.threads, t.code ≠ .done) : ∃ l c', Step c l c' := by
  obtain ⟨sh, ths⟩ := c
  obtain ⟨s, n, b⟩ := sh
  have mk : ∀ {i t t'} {act : Act S E} {sh' : Shared S}, ths[i]? = some t → TStep t act t' → Effect act ⟨s, n, b⟩ sh' →
      ∃ l c', Step ⟨⟨s, n, b⟩, ths⟩ l c' :=
    fun {i t t' act sh'} h1 h2 h3 => ⟨_, ⟨sh', ths.set i t'⟩, i, t, t', act, h1, h2, h3, rfl, rfl⟩
  have hR := hi.readers
  have hW := hi.writer
  simp only at hR hW
  by_cases hw : ∃ t ∈ ths, t.mode = .writing
  · obtain ⟨t, htm, hm⟩ := hw
    obtain ⟨i, hti⟩ := List.getElem?_of_mem htm
    have ok := hi.ok t htm
    have hb : b = true := by
      have := List.countP_pos_iff.2 ⟨t, htm, (by simp [Thread.isW, hm] : Thread.isW t = true)⟩
      cases b with
      | true => rfl
      | false => change _ = 0 at hW; omega
    subst hb
    obtain ⟨k, m⟩ := t
    simp only at hm
    subst hm
    cases k with
    | unlock k => exact mk hti (.unlock k _) (.unlock s n)
    | get k => exact mk hti (.get k _ s) (.get s n _)
    | put f k => exact mk hti (.put f k _) (.put f s n _)
    | done => cases ok
    | emit e k => cases ok.1
    | rlock k => cases ok.1
    | runlock k => cases ok.1
    | lock k => rcases ok.1 with h | h <;> cases h
  by_cases hr : ∃ t ∈ ths, t.mode = .reading
  · obtain ⟨t, htm, hm⟩ := hr
    obtain ⟨i, hti⟩ := List.getElem?_of_mem htm
    have ok := hi.ok t htm
    have hn := List.countP_pos_iff.2 ⟨t, htm, (by simp [Thread.isR, hm] : Thread.isR t = true)⟩
    obtain ⟨n', rfl⟩ : ∃ n', n = n' + 1 := ⟨n - 1, by omega⟩
    obtain ⟨k, m⟩ := t
    simp only at hm
    subst hm
    cases k with
    | runlock k => exact mk hti (.runlock k _) (.runlock s n' b)
    | get k => exact mk hti (.get k _ s) (.get s _ _)
    | unlock k => cases ok.1
    | put f k => cases ok.1
    | done => cases ok
    | emit e k => cases ok.1
    | rlock k => cases ok.1
    | lock k => rcases ok.1 with h | h <;> cases h
  have n0 : n = 0 := by
    rw [hR, List.countP_eq_zero]
    intro t ht
    simp only [Thread.isR, decide_eq_true_eq]
    exact fun e => hr ⟨t, ht, e⟩
  subst n0
  by_cases hq : ∃ t ∈ ths, t.mode = .waiting
  · obtain ⟨t, htm, hm⟩ := hq
    obtain ⟨i, hti⟩ := List.getElem?_of_mem htm
    have ok := hi.ok t htm
    obtain ⟨k, m⟩ := t
    simp only at hm
    subst hm
    cases k with
    | lock k => exact mk hti (.acquire k) (.acquire s b)
    | runlock k => cases ok.1
    | get k => rcases ok.1 with h | h <;> cases h
    | unlock k => cases ok.1
    | put f k => cases ok.1
    | done => cases ok
    | emit e k => cases ok.1
    | rlock k => cases ok.1
  have hb : b = false := by
    have z : ths.countP Thread.isW = 0 := by
      rw [List.countP_eq_zero]
      intro t ht
      simp only [Thread.isW, decide_eq_true_eq]
      rintro (e | e)
      · exact hq ⟨t, ht, e⟩
      · exact hw ⟨t, ht, e⟩
    rw [z] at hW
    cases b with
    | false => rfl
    | true => change 0 = 1 at hW; omega
  subst hb
  obtain ⟨t, htm, hd⟩ := h
  obtain ⟨i, hti⟩ := List.getElem?_of_mem htm
  have ok := hi.ok t htm
  have hm : t.mode = .idle := by
    cases hm : t.mode with
    | idle => rfl
    | reading => exact absurd ⟨t, htm, hm⟩ hr
    | waiting => exact absurd ⟨t, htm, hm⟩ hq
    | writing => exact absurd ⟨t, htm, hm⟩ hw
  obtain ⟨k, m⟩ := t
  simp only at hm
  subst hm
  cases k with
  | done => exact absurd rfl hd
  | emit e k => exact mk hti (.emit e k _) (.emit e _)
  | rlock k => exact mk hti (.rlock k) (.rlock s 0)
  | lock k => exact mk hti (.announce k) (.announce s 0)
  | runlock k => cases ok.1
  | get k => rcases ok.1 with h | h <;> cases h
  | unlock k => cases ok.1
  | put f k => cases ok.1

/-- Steps of a goroutine, backwards. -/
def TLess (t' t : Thread S E) : Prop := ∃ a, TStep t a t'

theorem tless_acc : ∀ (k : Code S E) (m : Mode), Acc TLess (⟨k, m⟩ : Thread S E)
  | .done, m => ⟨_, by rintro t' ⟨a, h⟩; cases h⟩
  | .emit e k, m => ⟨_, by rintro t' ⟨a, h⟩; cases h; exact tless_acc k _⟩
  | .rlock k, m => ⟨_, by rintro t' ⟨a, h⟩; cases h; exact tless_acc k _⟩
  | .runlock k, m => ⟨_, by rintro t' ⟨a, h⟩; cases h; exact tless_acc k _⟩
  | .lock k, m => ⟨_, by
      rintro t' ⟨a, h⟩
      cases h
      · exact ⟨_, by rintro t' ⟨a, h⟩; cases h; exact tless_acc k _⟩
      · exact tless_acc k _⟩
  | .unlock k, m => ⟨_, by rintro t' ⟨a, h⟩; cases h; exact tless_acc k _⟩
  | .get k, m => ⟨_, by rintro t' ⟨a, h⟩; cases h; exact tless_acc (k _) _⟩
  | .put f k, m => ⟨_, by rintro t' ⟨a, h⟩; cases h; exact tless_acc k _⟩

/-- One element of the list goes down. -/
def LLess (r : α → α → Prop) (l' l : List α) : Prop := ∃ i x y, l[i]? = some x ∧ r y x ∧ l' = l.set i y

theorem lless_acc {r : α → α → Prop} : ∀ {l : List α}, (∀ x ∈ l, Acc r x) → Acc (LLess r) l
  | [], _ => ⟨_, by rintro l' ⟨i, x, y, h, -⟩; simp at h⟩
  | x :: l, h => by
    have hx := h x (by simp)
    have hl := lless_acc (l := l) fun y hy => h y (List.mem_cons_of_mem _ hy)
    clear h
    induction hx generalizing l with
    | intro x _ ihx =>
      induction hl with
      | intro l hl ihl =>
        refine ⟨_, ?_⟩
        rintro l' ⟨i, a, b, h, hr, rfl⟩
        cases i with
        | zero =>
          simp only [List.getElem?_cons_zero, Option.some.injEq] at h
          subst h
          exact ihx b hr l (.intro l hl)
        | succ i =>
          simp only [List.getElem?_cons_succ] at h
          exact ihl _ ⟨i, a, b, h, hr, rfl⟩

theorem step_less {c c' : Conf S E} {l} (h : Step c l c') : LLess TLess c'.threads c.threads := by
  obtain ⟨i, t, t', a, ht, hs, -, hc, -⟩ := h
  exact ⟨i, t, t', ht, ⟨a, hs⟩, hc⟩

theorem step_acc (c : Conf S E) : Acc (fun c' c : Conf S E => ∃ l, Step c l c') c := by
  have := lless_acc (l := c.threads) fun t _ => tless_acc t.code t.mode
  generalize hl : c.threads = l at this
  induction this generalizing c with
  | intro l _ ih =>
    refine ⟨_, ?_⟩
    rintro c' ⟨lb, h⟩
    exact ih _ (hl ▸ step_less h) c' rfl

/-- One step of goroutine `i`, computed. -/
def exec1 (c : Conf S E) (i : Nat) : Option (Option (Nat × E) × Conf S E) :=
  match c.threads[i]? with
  | none => none
  | some t =>
    let go (a : Act S E) (sh : Shared S) (t' : Thread S E) := some (seen i a, (⟨sh, c.threads.set i t'⟩ : Conf S E))
    match t, c.shared with
    | ⟨.emit e k, m⟩, sh => go (.emit e) sh ⟨k, m⟩
    | ⟨.rlock k, .idle⟩, ⟨s, n, false⟩ => go .rlock ⟨s, n + 1, false⟩ ⟨k, .reading⟩
    | ⟨.runlock k, _⟩, ⟨s, n + 1, b⟩ => go .runlock ⟨s, n, b⟩ ⟨k, .idle⟩
    | ⟨.lock k, .idle⟩, ⟨s, n, false⟩ => go .announce ⟨s, n, true⟩ ⟨.lock k, .waiting⟩
    | ⟨.lock k, .waiting⟩, ⟨s, 0, b⟩ => go .acquire ⟨s, 0, b⟩ ⟨k, .writing⟩
    | ⟨.unlock k, _⟩, ⟨s, n, true⟩ => go .unlock ⟨s, n, false⟩ ⟨k, .idle⟩
    | ⟨.get k, m⟩, ⟨s, n, b⟩ => go (.get s) ⟨s, n, b⟩ ⟨k s, m⟩
    | ⟨.put f k, m⟩, ⟨s, n, b⟩ => go (.put f) ⟨f s, n, b⟩ ⟨k, m⟩
    | _, _ => none

/-- The execution in which the goroutines make steps in a given order. -/
def execAll (c : Conf S E) : List Nat → Option (List (Nat × E) × Conf S E)
  | [] => some ([], c)
  | i :: is =>
    match exec1 c i with
    | none => none
    | some (l, c') =>
      match execAll c' is with
      | none => none
      | some (tr, c'') => some (l.toList ++ tr, c'')

theorem exec1_step {c c' : Conf S E} {i : Nat} {l : Option (Nat × E)} (h : exec1 c i = some (l, c')) : Step c l c' := by
  unfold exec1 at h
  split at h
  · cases h
  · next t ht =>
    obtain ⟨sh, ths⟩ := c
    simp only at ht h
    split at h <;> cases h <;> refine ⟨i, _, _, _, ht, ?_, ?_, rfl, rfl⟩ <;> constructor

theorem execAll_run {c c' : Conf S E} {is : List Nat} {tr : List (Nat × E)} (h : execAll c is = some (tr, c')) : Run c tr c' := by
  induction is generalizing c tr with
  | nil => cases h; exact .nil _
  | cons i is ih =>
    simp only [execAll] at h
    split at h
    · cases h
    · next l c1 h1 =>
      split at h
      · cases h
      · next tr' c2 h2 => cases h; exact .step _ _ _ _ _ (exec1_step h1) (ih h2)

theorem step_exec1 {c c' : Conf S E} {l : Option (Nat × E)} (h : Step c l c') : ∃ i, i < c.threads.length ∧ exec1 c i = some (l, c') := by
  obtain ⟨i, t, t', a, ht, h1, h2, h3, rfl⟩ := h
  refine ⟨i, (List.getElem?_eq_some_iff.1 ht).1, ?_⟩
  obtain ⟨sh, ths⟩ := c
  obtain ⟨sh', ths'⟩ := c'
  simp only at ht h2 h3
  subst h3
  unfold exec1
  cases h1 <;> cases h2 <;> simp only [ht]

/-- A state that cannot go on is one in which all programs have ended and the lock is free; there is no
infinite execution. -/
theorem Inv.completes {c : Conf S E} (hi : Inv c) :
    ((¬ ∃ l c', Step c l c') → (∀ t ∈ c.threads, t.code = .done) ∧ c.shared.readers = 0 ∧ c.shared.writer = false) ∧
      ¬ ∃ f : Nat → Conf S E, f 0 = c ∧ ∀ n, ∃ l, Step (f n) l (f (n + 1)) := by
  refine ⟨fun hstop => ?_, ?_⟩
  · have hd : ∀ t ∈ c.threads, t.code = .done := by
      intro t ht
      by_cases e : t.code = .done
      · exact e
      · exact absurd (hi.progress ⟨t, ht, e⟩) hstop
    have hm : ∀ t ∈ c.threads, t.mode = .idle := by
      intro t ht
      have := hi.ok t ht
      rw [hd t ht] at this
      exact this
    refine ⟨hd, ?_, ?_⟩
    · rw [hi.readers, List.countP_eq_zero]
      intro t ht; simp [Thread.isR, hm t ht]
    · have hw := hi.writer
      have : c.threads.countP Thread.isW = 0 := by
        rw [List.countP_eq_zero]
        intro t ht; simp [Thread.isW, hm t ht]
      rw [this] at hw
      cases hb : c.shared.writer with
      | false => rfl
      | true => rw [hb] at hw; cases hw
  · rintro ⟨f, rfl, hf⟩
    have acc := step_acc (f 0)
    generalize hc : f 0 = c0 at acc
    clear hi
    induction acc generalizing f with
    | intro c0 _ ih =>
      subst hc
      exact ih (f 1) (hf 0) (fun n => f (n + 1)) (fun n => hf (n + 1)) rfl

/-- Whoever is about to change the memory is alone in it. -/
theorem Inv.race_free {c : Conf S E} (hi : Inv c) {i j : Nat} {x y : Thread S E} (hx : c.threads[i]? = some x)
    (hy : c.threads[j]? = some y) (hne : i ≠ j) {f k} (hp : x.code = .put f k) :
    y.mode = .idle ∧ (∀ g, y.code ≠ .get g) ∧ ∀ g k', y.code ≠ .put g k' := by
  have okx := hi.ok x (mem_of_get hx)
  have oky := hi.ok y (mem_of_get hy)
  rw [hp] at okx
  have hm := hi.alone hx hy hne okx.1
  refine ⟨hm, ?_, ?_⟩
  · intro g e; rw [e, hm] at oky; rcases oky.1 with h | h <;> cases h
  · intro g k' e; rw [e, hm] at oky; cases oky.1

end GJS.Conc

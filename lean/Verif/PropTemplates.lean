import Verif.LemTemplates
/-
Error descriptions under concurrency: C35.
-/
namespace GJS.Tpl
open Conc Spec

/-- C35: any number of goroutines that make error descriptions from plain formats behave, in every
interleaving, as if they shared nothing: each description is the rendering of its own format with its own
details. -/
theorem C35_as_if_alone (en : Engine T D) (m : Cache T) (hm : Sound en m) (ps : List (Prog D)) (hp : ∀ p ∈ ps, AllPlain en p)
    (tr : List (Nat × Event D)) (c : Conf (Cache T) (Event D)) (h : Conc.Run (start en m ps) tr c) :
    ∃ sts, Spec.Run en (ps.map .ready) tr sts := by
  obtain ⟨a, h1, -⟩ := (Sim.start m (ps.map (code en))).run (start_inv en m ps) h
  obtain ⟨sts, h2, -⟩ := run_renders en (sts := ps.map .ready) hm (by
    refine ⟨by simp, fun i c hi => ?_⟩
    rw [List.getElem?_map] at hi ⊢
    cases hq : ps[i]? with
    | none => rw [hq] at hi; cases hi
    | some p =>
      rw [hq] at hi; cases hi
      exact ⟨_, rfl, .ready p (hp p (mem_of_get hq))⟩) h1
  exact ⟨sts, h2⟩

/-- C35: in particular no description is a rendering of another format, whatever the cache contains. -/
theorem C35_own_format (en : Engine T D) (m : Cache T) (hm : Sound en m) (ps : List (Prog D)) (hp : ∀ p ∈ ps, AllPlain en p)
    (tr : List (Nat × Event D)) (c : Conf (Cache T) (Event D)) (h : Conc.Run (start en m ps) tr c) (i : Nat) (s : String) (d : D) (text : String)
    (hr : (i, Event.ret s d text) ∈ tr) : text = render en s d := by
  obtain ⟨sts, h1⟩ := C35_as_if_alone en m hm ps hp tr c h
  exact spec_rets en h1 i s d text hr

/-- C35: whenever nobody is changing the cache, every tree in it is the one its name parses to. -/
theorem C35_cache_sound (en : Engine T D) (m : Cache T) (hm : Sound en m) (ps : List (Prog D)) (hp : ∀ p ∈ ps, AllPlain en p)
    (tr : List (Nat × Event D)) (c : Conf (Cache T) (Event D)) (h : Conc.Run (start en m ps) tr c)
    (hend : ∀ t ∈ c.threads, t.mode ≠ .writing) : Sound en c.shared.mem := by
  obtain ⟨a, h1, h2⟩ := (Sim.start m (ps.map (code en))).run (start_inv en m ps) h
  obtain ⟨sts, -, h3, -⟩ := run_renders en (sts := ps.map .ready) hm (by
    refine ⟨by simp, fun i c hi => ?_⟩
    rw [List.getElem?_map] at hi ⊢
    cases hq : ps[i]? with
    | none => rw [hq] at hi; cases hi
    | some p =>
      rw [hq] at hi; cases hi
      exact ⟨_, rfl, .ready p (hp p (mem_of_get hq))⟩) h1
  rw [h2.free hend]
  exact h3

/-- C35: for any formats, also ones that define other templates: no goroutine is blocked for good, the lock is free
when all have ended, and there is no infinite execution. -/
theorem C35_completes (en : Engine T D) (m : Cache T) (ps : List (Prog D)) (tr : List (Nat × Event D))
    (c : Conf (Cache T) (Event D)) (h : Conc.Run (start en m ps) tr c) :
    ((¬ ∃ l c', Conc.Step c l c') → (∀ t ∈ c.threads, t.code = .done) ∧ c.shared.readers = 0 ∧ c.shared.writer = false) ∧
      ¬ ∃ f : Nat → Conf (Cache T) (Event D), f 0 = c ∧ ∀ n, ∃ l, Conc.Step (f n) l (f (n + 1)) :=
  ((start_inv en m ps).run h).completes

/-- C35: whoever changes the cache is alone in it. -/
theorem C35_race_free (en : Engine T D) (m : Cache T) (ps : List (Prog D)) (tr : List (Nat × Event D))
    (c : Conf (Cache T) (Event D)) (h : Conc.Run (start en m ps) tr c) (i j : Nat) (x y : Thread (Cache T) (Event D))
    (hx : c.threads[i]? = some x) (hy : c.threads[j]? = some y) (hne : i ≠ j) (f k) (hp : x.code = .put f k) :
    y.mode = .idle ∧ (∀ g, y.code ≠ .get g) ∧ ∀ g k', y.code ≠ .put g k' :=
  ((start_inv en m ps).run h).race_free hx hy hne hp

namespace Demo

/-- A small engine: trees are texts, details are put in front, one format defines another template. -/
def en : Engine String String where
  parse s :=
    if s = "{{" then .error "unclosed action"
    else if s = "{{define \"Invalid\"}}oops{{end}}Failed" then .ok [(s, "Failed"), ("Invalid", "oops")]
    else .ok [(s, s)]
  exec t d := .ok (d ++ t)
  empty t := t = ""

def rets (tr : List (Nat × Event String)) : List (Nat × String) :=
  tr.filterMap fun e => match e.2 with | .call _ _ => none | .ret _ _ text => some (e.1, text)

/-- Two goroutines that both miss the cache and create the same template. -/
def p : Prog String := .describe " is missing" "a" fun _ => .stop
def q : Prog String := .describe " is missing" "b" fun _ => .describe "{{" "c" fun _ => .stop

/-- `C35_as_if_alone` is not empty. -/
example : Sound en {} ∧ AllPlain en p ∧ AllPlain en q ∧
    ∃ tr c, Conc.Run (start en {} [p, q]) tr c ∧ rets tr = [(1, "b is missing"), (0, "a is missing"), (1, "unclosed action")] := by
  refine ⟨⟨rfl, fun s t h => by cases h⟩, .describe _ _ _ (.inr ⟨_, rfl⟩) fun _ => .stop,
    .describe _ _ _ (.inr ⟨_, rfl⟩) fun _ => .describe _ _ _ (.inl ⟨_, rfl⟩) fun _ => .stop, _, _,
    execAll_run (is := [0, 1, 0, 1, 0, 1, 0, 1, 0, 0, 0, 0, 0, 0, 1, 1, 1, 1, 1, 1, 1, 0, 1, 1, 1, 1, 1, 1, 1, 1, 1]) rfl, rfl⟩

end Demo

/-- C35 needs plain formats: a format that defines a template under the text of another format changes what
that format renders to afterwards. One goroutine is enough. -/
theorem C35_define_interferes : ∃ tr c, Conc.Run (start Demo.en {}
      [.describe "{{define \"Invalid\"}}oops{{end}}Failed" "" fun _ => .describe "Invalid" "" fun _ => .stop]) tr c ∧
    (0, Event.ret "Invalid" "" "oops") ∈ tr ∧ render Demo.en "Invalid" "" = "Invalid" := by
  refine ⟨_, _, execAll_run (is := List.replicate 16 0) rfl, ?_, rfl⟩
  exact List.mem_cons_of_mem _ (List.mem_cons_of_mem _ (List.mem_cons_of_mem _ (List.mem_cons_self ..)))

/-- C35, the same for a format already in the cache: its tree is replaced, and what it renders to changes from one
call to the next. -/
theorem C35_define_overwrites : ∃ tr c, Conc.Run (start Demo.en {}
      [.describe "Invalid" "" fun _ => .describe "{{define \"Invalid\"}}oops{{end}}Failed" "" fun _ =>
        .describe "Invalid" "" fun _ => .stop]) tr c ∧
    Demo.rets tr = [(0, "Invalid"), (0, "Failed"), (0, "oops")] := by
  exact ⟨_, _, execAll_run (is := List.replicate 27 0) rfl, rfl⟩

end GJS.Tpl

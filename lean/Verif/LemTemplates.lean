import Verif.SpecTemplates
import Verif.LemConc
/-
The cache of error templates: lemmas for C35.
-/
namespace GJS.Tpl
open Conc Spec

/-- What is left of a goroutine, and where it stands. -/
inductive Rel (en : Engine T D) : Code (Cache T) (Event D) → Status D → Prop
  | ready (p) : AllPlain en p → Rel en (code en p) (.ready p)
  | begun (s d k) : Plain en s → (∀ r, AllPlain en (k r)) → Rel en (body en s d fun r => code en (k r)) (.pending s d k)
  | missed (s d k) : Plain en s → (∀ r, AllPlain en (k r)) → Rel en (create en s d fun r => code en (k r)) (.pending s d k)
  | done (s d k) : (∀ r, AllPlain en (k r)) → Rel en (returns s d (fun r => code en (k r)) (render en s d)) (.pending s d k)

theorem lookup_assoc (en : Engine T D) (s n : String) (t : T) (l : List (String × T)) (v : T)
    (h : List.lookup n (assoc en (s, t) l) = some v) : (n = s ∧ v = t) ∨ List.lookup n l = some v := by
  unfold assoc at h
  split at h
  · by_cases e : n = s
    · subst e; simp at h; exact .inl ⟨rfl, h.symm⟩
    · have : (n == s) = false := by simpa using e
      simp only [List.lookup_cons, this] at h; exact .inr h
  · split at h
    · exact .inr h
    · by_cases e : n = s
      · subst e; simp at h; exact .inl ⟨rfl, h.symm⟩
      · have : (n == s) = false := by simpa using e
        simp only [List.lookup_cons, this] at h
        right
        rw [← h]
        clear h
        rename_i hx _
        clear hx
        induction l with
        | nil => rfl
        | cons a l ih =>
          obtain ⟨a1, a2⟩ := a
          by_cases ha : a1 = s
          · rw [List.filter_cons_of_neg (by simp [ha])]
            have : (n == a1) = false := by rw [ha]; simpa using e
            simp only [List.lookup_cons, this]; exact ih
          · rw [List.filter_cons_of_pos (by simp [ha])]
            simp only [List.lookup_cons, ih]

theorem body_section (en : Engine T D) {m : Cache T} (hm : Sound en m) (s : String) (d : D) (k : String → Prog D)
    (hp : Plain en s) (hk : ∀ r, AllPlain en (k r)) (c) (h : body en s d (fun r => code en (k r)) = .rlock c) :
    Sound en (runSection m c).1 ∧ Rel en (runSection m c).2 (.pending s d k) := by
  cases h
  simp only [runSection, hm.quiet, Bool.false_eq_true, if_false]
  cases hl : List.lookup s m.trees with
  | none => exact ⟨hm, .missed s d k hp hk⟩
  | some t =>
    refine ⟨hm, ?_⟩
    have : execute en s d (some t) = render en s d := by
      simp [render, hm.trees s t hl, execute]
      cases en.exec t d <;> rfl
    simp only [runSection, this]
    exact .done s d k hk

theorem create_section (en : Engine T D) {m : Cache T} (hm : Sound en m) (s : String) (d : D) (k : String → Prog D)
    (hp : Plain en s) (hk : ∀ r, AllPlain en (k r)) (c) (h : create en s d (fun r => code en (k r)) = .lock c) :
    Sound en (runSection m c).1 ∧ Rel en (runSection m c).2 (.pending s d k) := by
  cases h
  simp only [runSection, hm.quiet, Bool.false_eq_true, if_false]
  rcases hp with ⟨e, he⟩ | ⟨t, ht⟩
  · simp only [he, runSection]
    have : e = render en s d := by simp [render, he]
    subst this
    exact ⟨hm, .done s d k hk⟩
  · simp only [ht, runSection]
    have : execute en s d (List.lookup s [(s, t)]) = render en s d := by
      simp [render, ht, execute]
      cases en.exec t d <;> rfl
    rw [this]
    refine ⟨⟨rfl, ?_⟩, .done s d k hk⟩
    intro n v hv
    rcases lookup_assoc en s n t m.trees v hv with ⟨rfl, rfl⟩ | h
    · exact ht
    · exact hm.trees n v h

/-- All goroutines stand where they should. -/
def Rels (en : Engine T D) (cs : List (Code (Cache T) (Event D))) (sts : List (Status D)) : Prop :=
  cs.length = sts.length ∧ ∀ (i : Nat) c, cs[i]? = some c → ∃ st, sts[i]? = some st ∧ Rel en c st

theorem Rels.set {en : Engine T D} {cs : List (Code (Cache T) (Event D))} {sts : List (Status D)} (h : Rels en cs sts) {c st}
    (hr : Rel en c st) (i : Nat) : Rels en (cs.set i c) (sts.set i st) := by
  refine ⟨by simp [h.1], fun j c' hj => ?_⟩
  rw [List.getElem?_set] at hj ⊢
  by_cases e : i = j
  · subst e
    simp only [if_true] at hj ⊢
    split at hj
    · next hlt =>
      cases hj
      rw [if_pos (h.1 ▸ hlt)]
      exact ⟨st, rfl, hr⟩
    · cases hj
  · rw [if_neg e] at hj ⊢
    exact h.2 j c' hj

theorem Rels.stutter {en : Engine T D} {cs : List (Code (Cache T) (Event D))} {sts : List (Status D)} (h : Rels en cs sts) {c st} {i : Nat}
    (hst : sts[i]? = some st) (hr : Rel en c st) : Rels en (cs.set i c) sts := by
  have := h.set hr i
  rwa [set_same hst] at this

theorem step_renders (en : Engine T D) {a a' : Cache T × List (Code (Cache T) (Event D))} {l} {sts : List (Status D)}
    (hm : Sound en a.1) (hr : Rels en a.2 sts) (h : AStep a l a') :
    ∃ sts', Spec.Run en sts l.toList sts' ∧ Sound en a'.1 ∧ Rels en a'.2 sts' := by
  cases h with
  | emit m cs i e k hk =>
    obtain ⟨st, h1, h2⟩ := hr.2 i _ hk
    cases st with
    | ready p =>
      cases p with
      | stop =>
        generalize hc : Code.emit e k = c at h2
        cases h2; cases hc
      | describe s d k' =>
        generalize hc : Code.emit e k = c at h2
        cases h2 with
        | ready _ hp =>
          cases hc
          cases hp with
          | describe _ _ _ hp hk' =>
            exact ⟨_, .step _ _ _ _ _ (.call _ i s d k' h1) (.nil _), hm, hr.set (.begun s d k' hp hk') i⟩
    | pending s d k' =>
      generalize hc : Code.emit e k = c at h2
      cases h2 with
      | begun => cases hc
      | missed => cases hc
      | done _ _ _ hk' =>
        cases hc
        exact ⟨_, .step _ _ _ _ _ (.ret _ i s d k' h1) (.nil _), hm, hr.set (.ready _ (hk' _)) i⟩
  | rsection m cs i k hk =>
    obtain ⟨st, h1, h2⟩ := hr.2 i _ hk
    generalize hc : Code.rlock k = c at h2
    cases h2 with
    | ready p _ => cases p <;> cases hc
    | begun s d k' hp hk' =>
      obtain ⟨s1, r1⟩ := body_section en hm s d k' hp hk' k hc.symm
      exact ⟨sts, .nil _, s1, hr.stutter h1 r1⟩
    | missed => cases hc
    | done => cases hc
  | wsection m cs i k hk =>
    obtain ⟨st, h1, h2⟩ := hr.2 i _ hk
    generalize hc : Code.lock k = c at h2
    cases h2 with
    | ready p _ => cases p <;> cases hc
    | begun => cases hc
    | missed s d k' hp hk' =>
      obtain ⟨s1, r1⟩ := create_section en hm s d k' hp hk' k hc.symm
      exact ⟨sts, .nil _, s1, hr.stutter h1 r1⟩
    | done => cases hc

theorem spec_append {en : Engine T D} {a b c : List (Status D)} {tr tr'} (h : Spec.Run en a tr b) (h' : Spec.Run en b tr' c) :
    Spec.Run en a (tr ++ tr') c := by
  induction h with
  | nil => exact h'
  | step _ _ _ _ _ s _ ih => exact .step _ _ _ _ _ s (ih h')

theorem run_renders (en : Engine T D) {a a' : Cache T × List (Code (Cache T) (Event D))} {tr} {sts : List (Status D)}
    (hm : Sound en a.1) (hr : Rels en a.2 sts) (h : ARun a tr a') :
    ∃ sts', Spec.Run en sts tr sts' ∧ Sound en a'.1 ∧ Rels en a'.2 sts' := by
  induction h generalizing sts with
  | nil a => exact ⟨sts, .nil _, hm, hr⟩
  | step a a' a'' l tr h _ ih =>
    obtain ⟨s1, r1, q1, c1⟩ := step_renders en hm hr h
    obtain ⟨s2, r2, q2, c2⟩ := ih q1 c1
    exact ⟨s2, spec_append r1 r2, q2, c2⟩

theorem body_ok (en : Engine T D) (s : String) (d : D) (k : String → Code (Cache T) (Event D)) (hk : ∀ r, Ok (k r) .idle) :
    Ok (body en s d k) .idle := by
  refine ⟨rfl, .inl rfl, fun m => ?_⟩
  dsimp only
  split
  · exact ⟨rfl, rfl, hk _⟩
  · split
    · exact ⟨rfl, rfl, hk _⟩
    · refine ⟨rfl, .inl rfl, .inr rfl, fun m => ?_⟩
      dsimp only
      split
      · exact ⟨rfl, rfl, hk _⟩
      · split
        · exact ⟨rfl, rfl, hk _⟩
        · exact ⟨rfl, rfl, rfl, rfl, hk _⟩

theorem code_ok (en : Engine T D) : ∀ p : Prog D, Ok (code en p) .idle
  | .stop => rfl
  | .describe s d k => ⟨rfl, body_ok en s d _ fun r => code_ok en (k r)⟩

theorem start_inv (en : Engine T D) (m : Cache T) (ps : List (Prog D)) : Inv (start en m ps) := by
  refine Inv.start fun k hk => ?_
  obtain ⟨p, -, rfl⟩ := List.mem_map.1 hk
  exact code_ok en p

theorem spec_rets (en : Engine T D) {a a' : List (Status D)} {tr} (h : Spec.Run en a tr a') :
    ∀ i s d text, (i, Event.ret s d text) ∈ tr → text = render en s d := by
  induction h with
  | nil => intro _ _ _ _ h; simp at h
  | step _ _ _ l _ h _ ih =>
    intro i s d text hm
    rcases List.mem_cons.1 hm with rfl | hm
    · cases h; rfl
    · exact ih i s d text hm

end GJS.Tpl

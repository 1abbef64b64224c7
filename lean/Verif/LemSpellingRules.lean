import Verif.LemSpelling
/-
Helper lemmas: the rules applied to documents that differ in spelling only.
-/
namespace GJS
open Spec

variable {env : Env}

theorem docUnfold_alike2 (hf : FormatBlind env) (P : Draft → Json → Json → Prop) (hP : ∀ d, SatAlike env (P d) (P d)) :
    ∀ (res res' : String → Option (Draft × Json)), (∀ t, (res t = none ∧ res' t = none) ∨
      ∃ d X X', res t = some (d, X) ∧ res' t = some (d, X') ∧ Alike env X X') →
    ∀ n d, SatAlike env (docUnfold env res P n d) (docUnfold env res' P n d) := by
  have sat : ∀ {S S' : SatD}, SatAlike env S S' → SatAlike env S' S :=
    fun h D D' v v' hD hv => (h D' D v' v hD.symm hv.symm).symm
  have swap : ∀ {res res' : String → Option (Draft × Json)}, (∀ t, (res t = none ∧ res' t = none) ∨
      ∃ d X X', res t = some (d, X) ∧ res' t = some (d, X') ∧ Alike env X X') → ∀ t, (res' t = none ∧ res t = none) ∨
      ∃ d X X', res' t = some (d, X) ∧ res t = some (d, X') ∧ Alike env X X' := by
    intro res res' h t
    rcases h t with ⟨h1, h2⟩ | ⟨d, X, X', h1, h2, h3⟩
    · exact .inl ⟨h2, h1⟩
    · exact .inr ⟨d, X', X, h2, h1, h3.symm⟩
  intro res res' hr n
  induction n with
  | zero => exact hP
  | succ n ih =>
    have fwd : ∀ (res res' : String → Option (Draft × Json)), (∀ t, (res t = none ∧ res' t = none) ∨
          ∃ d X X', res t = some (d, X) ∧ res' t = some (d, X') ∧ Alike env X X') →
        (∀ d, SatAlike env (docUnfold env res P n d) (docUnfold env res' P n d)) →
        ∀ d D D' v v', Alike env D D' → Alike env v v' → DocRules env res (docUnfold env res P n) d D v →
        DocRules env res' (docUnfold env res' P n) d D' v' := by
      intro res res' hr ih d D D' v v' hD hv h
      cases hD with
      | null => exact h.elim
      | str => exact h.elim
      | num => exact h.elim
      | arr => exact h.elim
      | bool b => exact h
      | obj m m' h1 h2 h3 =>
        have hm : AlikeO env m m' := ⟨h1, h2, h3⟩
        unfold DocRules at h ⊢
        simp only at h ⊢
        have key : (∃ t, Kw m "$ref" (.str t) ∧ Kw m' "$ref" (.str t)) ∨
            ((∀ t, ¬ Kw m "$ref" (.str t)) ∧ (∀ t, ¬ Kw m' "$ref" (.str t))) := by
          by_cases e : ∃ t, Kw m "$ref" (.str t)
          · obtain ⟨t, ht⟩ := e
            obtain ⟨y, hy, ha⟩ := hm.kw ht
            cases alike_str ha
            exact .inl ⟨t, ht, hy⟩
          · refine .inr ⟨fun t ht => e ⟨t, ht⟩, fun t ht => ?_⟩
            obtain ⟨y, hy, ha⟩ := hm.symm.kw ht
            cases alike_str ha
            exact e ⟨t, hy⟩
        rcases key with ⟨t, ht, ht'⟩ | ⟨hn, hn'⟩
        · unfold Kw at ht ht'
          rw [ht] at h
          rw [ht']
          obtain ⟨d', D', h4, h5⟩ := h
          rcases hr t with ⟨h6, _⟩ | ⟨d1, X, X', h6, h7, h8⟩
          · rw [h6] at h4; cases h4
          · rw [h6] at h4
            cases h4
            exact ⟨d', X', h7, (ih d' _ _ _ _ h8 hv).1 h5⟩
        · split at h
          · rename_i t ht; exact absurd ht (hn t)
          · split
            · rename_i t ht; exact absurd ht (hn' t)
            · exact dkeywords_alike hf (ih d) hm hv h
    exact fun d D D' v v' hD hv =>
      ⟨fwd res res' hr ih d D D' v v' hD hv, fwd res' res (swap hr) (fun d => sat (ih d)) d D' D v' v hD.symm hv.symm⟩

theorem docUnfold_alike (hf : FormatBlind env) (resolve : String → Option (Draft × Json))
    (hr : ∀ t d D, resolve t = some (d, D) → D.WF) (P : Draft → Json → Json → Prop)
    (hP : ∀ d, SatAlike env (P d) (P d)) : ∀ n d, SatAlike env (docUnfold env resolve P n d) (docUnfold env resolve P n d) := by
  refine docUnfold_alike2 hf P hP resolve resolve fun t => ?_
  cases h : resolve t with
  | none => exact .inl ⟨rfl, rfl⟩
  | some x => exact .inr ⟨x.1, x.2, x.2, rfl, rfl, alike_refl (hr t _ _ h)⟩

theorem within_alike {D x} (h : Within D x) : ∀ {D'}, Alike env D D' → ∃ x', Within D' x' ∧ Alike env x x' := by
  induction h with
  | self => exact fun h => ⟨_, .self _, h⟩
  | elem xs y x hy _ ih =>
    intro D' ha
    obtain ⟨ys, rfl, hl⟩ := alike_arr ha
    obtain ⟨y', hy', hb⟩ := hl.mem hy
    obtain ⟨x', h1, h2⟩ := ih hb
    exact ⟨x', .elem _ _ _ hy' h1, h2⟩
  | member m k y x hy _ ih =>
    intro D' ha
    obtain ⟨ys, rfl, hl⟩ := alike_obj ha
    obtain ⟨y', hy', hb⟩ := hl.mem hy
    obtain ⟨x', h1, h2⟩ := ih hb
    exact ⟨x', .member _ _ _ _ hy' h1, h2⟩

theorem noRef_alike {D D'} (h : Alike env D D') (hn : NoRef D) : NoRef D' := by
  intro m hm hk
  obtain ⟨x, h1, h2⟩ := within_alike hm h.symm
  obtain ⟨ys, rfl, hl⟩ := alike_obj h2
  exact hn ys h1 (hl.key.1 hk)

end GJS

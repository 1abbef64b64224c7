import Verif.SpecReach
import Verif.LemAccept
import Verif.LemCompile
/-
Helper lemmas: what a successful compilation says about the documents it has read.
-/
namespace GJS
open Spec

variable {w : World} {σ : Sched}

/-- A sub-schema that was read: of the kinds schemas have. -/
def KindOnly : Draft → Json → Prop := fun _ D => SchemaKind D

theorem kinded_acc {rec : PRec} (hk : Kinded rec) : RecAcc False w KindOnly (fun _ => True) rec where
  acc := fun p pid id0 doc d c _ => ⟨fun s _ s' h => ⟨hk p pid id0 doc d c s s' h, trivial⟩, fun h => h.elim⟩
  kind := by rintro d D (⟨b, rfl⟩ | ⟨m, rfl⟩) <;> rfl

theorem inner_true {m : List (String × Json)} : Inner (fun _ => True) m :=
  ⟨fun _ _ _ => trivial, fun _ _ _ _ _ => trivial, fun _ _ _ _ _ => trivial⟩

/-- What reading an object with success says about it. -/
inductive ReadObj (w : World) (d : Draft) (m : List (String × Json)) : Prop
  | plain : getKey "$ref" m = none → Shape w d m → ReadObj w d m
  | ref (t) : Kw m "$ref" (.str t) → Head w d m → ReadObj w d m

theorem parseObject_read {rec isRoot p pid id0 m d c st st'} (hf : FmtOK w.env.fmtF64) (hw : Json.WF (.obj m)) (hk : Kinded rec)
    (h : parseObject w σ rec isRoot p pid id0 m d c st = (.ok (), st')) : ReadObj w d m := by
  cases hr : getKey "$ref" m with
  | none =>
    exact .plain hr ((parseObject_acc (C := False) False.elim hf hw inner_true (kinded_acc hk) hr).ok _ _ _ h).1.1
  | some v =>
    unfold parseObject at h
    obtain ⟨_, _, h1, h⟩ := M.bind_ok.1 h
    obtain ⟨_, _, h2, h⟩ := M.bind_ok.1 h
    obtain ⟨_, _, h3, h⟩ := M.bind_ok.1 h
    obtain ⟨_, _, h4, h⟩ := M.bind_ok.1 h
    obtain ⟨_, _, h5, h⟩ := M.bind_ok.1 h
    have hh : Head w d m := ⟨((kwId_acc (C := False) False.elim).ok _ _ _ h1).1,
      ((kwText_acc (C := False)).ok _ _ _ h3).1, ((kwText_acc (C := False)).ok _ _ _ h4).1,
      ((kwDefinitions_acc (C := False) inner_true (kinded_acc hk)).ok _ _ _ h2).1.1⟩
    unfold kwRefText at h5
    rw [hr] at h5
    obtain ⟨b, _, h6, h7⟩ := M.bind_ok.1 h5
    have := isKind_ok h6
    subst this
    cases v with
    | str t => exact .ref t hr hh
    | _ => simp [kindIn, rawKind] at h7

theorem Ran.read {d D} (hf : FmtOK w.env.fmtF64) (hw : D.WF) (h : Ran w d D) :
    (∃ b, D = .bool b ∧ Draft6 ≤ d) ∨ ∃ m, D = .obj m ∧ ReadObj w d m := by
  obtain ⟨σ, rec, isRoot, p, pid, id0, c, st, st', hk, h⟩ := h
  rcases parseStep_kind h with ⟨b, rfl⟩ | ⟨m, rfl⟩
  · refine .inl ⟨b, rfl, ?_⟩
    by_cases hd : Draft6 ≤ d
    · exact hd
    · exfalso
      unfold parseStep at h
      obtain ⟨x, s1, h1, h⟩ := M.bind_ok.1 h
      have := isKind_ok h1
      subst this
      rw [decide_eq_false (show ¬ d ≥ Draft6 from hd)] at h
      obtain ⟨x, s2, h2, h⟩ := M.bind_ok.1 h
      have := isKind_ok h2
      subst this
      simp [kindIn, rawKind] at h
  · refine .inr ⟨m, rfl, ?_⟩
    unfold parseStep at h
    obtain ⟨x, s1, h1, h⟩ := M.bind_ok.1 h
    have := isKind_ok h1
    subst this
    rw [show (decide (d ≥ Draft6) && kindIn (.obj m) [.bool]) = false by simp [kindIn, rawKind]] at h
    obtain ⟨x, s2, h2, h⟩ := M.bind_ok.1 h
    have := isKind_ok h2
    subst this
    exact parseObject_read hf hw hk h

/-- Every document that is reached has a node. -/
theorem Good.reached {l s d D} (g : Good w l s d D) {d' D'}
    (h : Reached (resolveIn w s.heap s.refs) d D d' D') : ∃ i, Stat s.heap d' D' i := by
  induction h with
  | root => exact ⟨_, g.root⟩
  | ref d' m t d'' D'' _ hk hr ih =>
    obtain ⟨i, hi⟩ := ih
    obtain ⟨d1, D1, j, h1, h2⟩ := g.ref hi hk
    rw [hr] at h1
    cases h1
    exact ⟨j, h2⟩
  | sub d' m D' _ hk hsub ih =>
    obtain ⟨i, n, h1, h2, h3⟩ := ih
    have hn := g.nodes i n h1
    cases hn with
    | bool b hb => rw [hb] at h3; simp at h3
    | plain m' g1 g2 _ _ F =>
      rw [g1] at h3; cases h3
      rw [h2] at F
      exact F.sub hsub
    | ref m' r u j g1 g2 _ _ _ _ _ =>
      rw [g1] at h3; cases h3
      rw [hk] at g2; cases g2
  | definition d' m ps k D' _ hk hD ih =>
    obtain ⟨i, n, h1, h2, h3⟩ := ih
    have := (g.ran i n h1).2 m ps k D' h3 hk hD
    rw [h2] at this
    exact this

theorem Good.readable {l s d D} (hf : FmtOK w.env.fmtF64) (g : Good w l s d D) :
    AllReadable w (resolveIn w s.heap s.refs) d D := by
  intro d' D' h
  obtain ⟨i, hi⟩ := g.reached h
  obtain ⟨n, h1, rfl, rfl⟩ := hi
  rcases (g.ran i n h1).1.read hf (g.docs i n h1) with ⟨b, hb, hd⟩ | ⟨m, hm, hr⟩
  · rw [hb]; exact .bool b hd
  · rw [hm]
    cases hr with
    | plain h2 h3 => exact .plain m h2 h3
    | ref t h2 h3 =>
      obtain ⟨d2, D2, j, h4, _⟩ := g.ref ⟨n, h1, rfl, hm⟩ h2
      exact .ref m t h2 (by rw [h4]; rfl) h3

theorem subSchema_size {d : Draft} {m : List (String × Json)} {D : Json} (h : SubSchema d m D) :
    D.size < (Json.obj m).size := by
  have g : ∀ {k v} {x : Json}, Kw m k v → x.size ≤ v.size → x.size < (Json.obj m).size := fun hk hw => by
    have := Json.size_lt_of_mem_kv (lookup_some_mem hk)
    omega
  have a : ∀ {xs : List Json} {x}, x ∈ xs → x.size ≤ (Json.arr xs).size := fun h => Nat.le_of_lt (Json.size_lt_of_mem h)
  have o : ∀ {xs : List (String × Json)} {k x}, (k, x) ∈ xs → x.size ≤ (Json.obj xs).size := fun h => by
    have := Json.size_lt_of_mem_kv h
    omega
  cases h with
  | property ps k _ e hD => exact g e (o hD)
  | pattern ps k _ e hD => exact g e (o hD)
  | additional A e => exact g e (Nat.le_refl _)
  | name _ _ e => exact g e (Nat.le_refl _)
  | dependency ps k _ e hD => exact g e (o hD)
  | items _ e => exact g e (Nat.le_refl _)
  | item Ds _ e hD => exact g e (a hD)
  | additionalItems A e => exact g e (Nat.le_refl _)
  | contains _ _ e => exact g e (Nat.le_refl _)
  | oneOf Ds _ e hD => exact g e (a hD)
  | anyOf Ds _ e hD => exact g e (a hD)
  | allOf Ds _ e hD => exact g e (a hD)
  | not _ e => exact g e (Nat.le_refl _)
  | if_ _ _ e => exact g e (Nat.le_refl _)
  | then_ _ _ e => exact g e (Nat.le_refl _)
  | else_ _ _ e => exact g e (Nat.le_refl _)

end GJS

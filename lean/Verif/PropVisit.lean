import Verif.LemVisit
import Verif.PropClosed
/-
C64: which closed documents are accepted.
-/
namespace GJS
open Spec

/-- `Compile` of the document `D0` returns a schema. -/
def Spec.Accepts (w : World) (σ : Sched) (fuel : Fuel) (p : Path) (l : LState) (D0 : Json) : Prop :=
  ∃ s, (compile w σ fuel p (.direct (some D0)) l).1 = .ok s

/-- `Compile` of the document `D0` returns an error. -/
def Spec.Refuses (w : World) (σ : Sched) (fuel : Fuel) (p : Path) (l : LState) (D0 : Json) : Prop :=
  ∃ e, (compile w σ fuel p (.direct (some D0)) l).1 = .error (.err e)

/-- C64.  `Compile` accepts a closed document if everything it may read of it is well-formed: however deep
or recursive, in whatever order maps are gone through. -/
theorem C64_accept (w : World) (hs : Standard w) (hb : ∀ r, w.base (w.base r) = w.base r) (hf : FmtOK w.env.fmtF64)
    (l : LState) (hw : Setting w l) (hq : Idling l) (hu : Unnamed l) (hl : PoolAll (Harmless w.env) l)
    (D0 : Json) (hD : Harmless w.env D0) (hc : Closed w l (draftFor w l D0) D0) (ha : AllIntact w l (draftFor w l D0) D0) :
    ∃ n, ∀ (σ : Sched) (fuel : Fuel) (p : Path), n ≤ fuel.parse → Accepts w σ fuel p l D0 := by
  obtain ⟨n, hn⟩ := closed_returns hw hq hs hl hD hc
  refine ⟨n, fun σ fuel p hle => ?_⟩
  unfold Accepts
  cases hx : compile w σ fuel p (.direct (some D0)) l with
  | mk r l' =>
    cases r with
    | ok s => exact ⟨s, rfl⟩
    | error f =>
      obtain ⟨e, rfl⟩ := hn σ fuel p hle f l' hx
      exact absurd hx (closed_no_err hw hq hs hb hf hu hD.1 hc ha)

/-- C64.  Conversely, if its references stand alone: whenever `Compile` accepts a closed document, everything
that is read of it is well-formed. -/
theorem C64_only (w : World) (hb : ∀ r, w.base (w.base r) = w.base r) (hf : FmtOK w.env.fmtF64)
    (l : LState) (hw : Setting w l) (hq : Idling l) (D0 : Json) (hD : D0.WF) (hc : Closed w l (draftFor w l D0) D0)
    (hA : Alone w l (draftFor w l D0) D0) (σ : Sched) (fuel : Fuel) (p : Path) (h : Accepts w σ fuel p l D0) :
    AllIntact w l (draftFor w l D0) D0 := by
  obtain ⟨s, hs⟩ := h
  cases hx : compile w σ fuel p (.direct (some D0)) l with
  | mk r l' =>
    rw [hx] at hs
    cases hs
    exact closed_accepted hw hq hb hf hD hc hA hx

/-- C64.  If its references stand alone, `Compile` accepts a closed document exactly if everything in it
that is read is well-formed; otherwise it returns an error. -/
theorem C64_exact (w : World) (hs : Standard w) (hb : ∀ r, w.base (w.base r) = w.base r) (hf : FmtOK w.env.fmtF64)
    (l : LState) (hw : Setting w l) (hq : Idling l) (hu : Unnamed l) (hl : PoolAll (Harmless w.env) l)
    (D0 : Json) (hD : Harmless w.env D0) (hc : Closed w l (draftFor w l D0) D0) (hA : Alone w l (draftFor w l D0) D0) :
    ∃ n, ∀ (σ : Sched) (fuel : Fuel) (p : Path), n ≤ fuel.parse →
      (Accepts w σ fuel p l D0 ↔ AllIntact w l (draftFor w l D0) D0) ∧
      (Refuses w σ fuel p l D0 ↔ ¬ AllIntact w l (draftFor w l D0) D0) := by
  obtain ⟨n, hn⟩ := closed_returns hw hq hs hl hD hc
  refine ⟨n, fun σ fuel p hle => ?_⟩
  unfold Accepts Refuses
  cases hx : compile w σ fuel p (.direct (some D0)) l with
  | mk r l' =>
    cases r with
    | ok s =>
      have := closed_accepted hw hq hb hf hD.1 hc hA hx
      simp [this]
    | error f =>
      obtain ⟨e, rfl⟩ := hn σ fuel p hle f l' hx
      have : ¬ AllIntact w l (draftFor w l D0) D0 := fun ha => closed_no_err hw hq hs hb hf hu hD.1 hc ha hx
      simp [this]

/-- C64.  If references stand alone, whether a closed document is accepted does not depend on the order
in which maps are gone through.  (If they do not, it may: C18.) -/
theorem C64_order (w : World) (hs : Standard w) (hb : ∀ r, w.base (w.base r) = w.base r) (hf : FmtOK w.env.fmtF64)
    (l : LState) (hw : Setting w l) (hq : Idling l) (hu : Unnamed l) (hl : PoolAll (Harmless w.env) l)
    (D0 : Json) (hD : Harmless w.env D0) (hc : Closed w l (draftFor w l D0) D0) (hA : Alone w l (draftFor w l D0) D0) :
    ∃ n, (∀ (σ : Sched) (fuel : Fuel) (p : Path), n ≤ fuel.parse → Accepts w σ fuel p l D0) ∨
      (∀ (σ : Sched) (fuel : Fuel) (p : Path), n ≤ fuel.parse → Refuses w σ fuel p l D0) := by
  obtain ⟨n, hn⟩ := C64_exact w hs hb hf l hw hq hu hl D0 hD hc hA
  refine ⟨n, ?_⟩
  by_cases h : AllIntact w l (draftFor w l D0) D0
  · exact .inl fun σ fuel p hle => (hn σ fuel p hle).1.2 h
  · exact .inr fun σ fuel p hle => (hn σ fuel p hle).2.2 h

/-! ### Self-contained documents -/

section
variable {w : World} {D0 : Json} {d : Draft} {l l' : LState}

theorem stands_move (he : Elsewhere w l D0) (hs : SelfContained w D0) {t u o X} (hr : HasRef w D0 t) (hn : w.norm t = some u)
    (h : StandsFor w l D0 u o X) : StandsFor w l' D0 u (draftOf w l'.autoDetect D0) X := by
  cases (stands_own he (hs.own t u hr hn) h).1 with
  | whole _ h => exact .whole _ (.own _ h)
  | part Y _ h hx => exact .part _ _ (.own _ h) hx

theorem visited_ref (hp : ∀ r D d, w.pointer r D = some d → Within D d) (hs : SelfContained w D0) (he : Elsewhere w l D0)
    {m t} (h : Visited w l d D0 (.obj m)) (hk : Kw m "$ref" (.str t)) : HasRef w D0 t := by
  obtain ⟨D, hD⟩ := rw_exists (w := w) (T := False) D0 ""
  exact ⟨D, m, hD, reach_within hp hs he hD (visited_met h), hk⟩

theorem visited_move (hp : ∀ r D d, w.pointer r D = some d → Within D d) (hs : SelfContained w D0) (he : Elsewhere w l D0)
    {X} (h : Visited w l d D0 X) : Visited w l' d D0 X := by
  induction h with
  | root D h => exact .root _ h
  | sub m X _ hs ih => exact .sub _ _ ih hs
  | definition m ps k X _ hk hm ih => exact .definition m ps k _ ih hk hm
  | ref m t u o X hm hk hn hst ih =>
    exact .ref m t u _ _ ih hk hn (stands_move (l' := l') he hs (visited_ref hp hs he hm hk) hn hst)

theorem intact_move (hp : ∀ r D d, w.pointer r D = some d → Within D d) (hs : SelfContained w D0) (he : Elsewhere w l D0)
    (he' : Elsewhere w l' D0) (ha : l.autoDetect = l'.autoDetect) (h : AllIntact w l d D0) : AllIntact w l' d D0 := by
  refine ⟨fun h' => h.schema (ha.trans h'), fun X hX => ?_⟩
  have hv := visited_move (l' := l) hp hs he' hX
  cases h.all X hv with
  | bool b h => exact .bool b h
  | obj m h1 h2 =>
    refine .obj m h1 fun v hk => ?_
    obtain ⟨t, u, o, Y, rfl, hn, hst⟩ := h2 v hk
    exact ⟨t, u, _, Y, rfl, hn, stands_move (l' := l') he hs (visited_ref hp hs he hv hk) hn hst⟩

end

/-- C64 for self-contained documents: two loaders with the same settings that know nothing under the URLs of
the document, whatever else they know, both accept it or both refuse it, always. -/
theorem C64_everywhere (w : World) (hs : Standard w) (hb : ∀ r, w.base (w.base r) = w.base r) (hf : FmtOK w.env.fmtF64)
    (l l' : LState) (hw : Setting w l) (hw' : Setting w l') (hq : Idling l) (hq' : Idling l')
    (hl : PoolAll (Harmless w.env) l) (hl' : PoolAll (Harmless w.env) l') (D0 : Json) (hD : Harmless w.env D0)
    (hc : SelfContained w D0) (he : Elsewhere w l D0) (he' : Elsewhere w l' D0) (ha : l.autoDetect = l'.autoDetect)
    (hd : draftFor w l D0 = draftFor w l' D0) (hA : Alone w l (draftFor w l D0) D0) :
    ∃ n, ∀ (σ σ' : Sched) (fuel fuel' : Fuel) (p p' : Path), n ≤ fuel.parse → n ≤ fuel'.parse →
      (Accepts w σ fuel p l D0 ↔ Accepts w σ' fuel' p' l' D0) ∧ (Refuses w σ fuel p l D0 ↔ Refuses w σ' fuel' p' l' D0) := by
  have free : ∀ {l : LState}, Elsewhere w l D0 → Unnamed l := by
    intro l he
    obtain ⟨D, hD⟩ := rw_exists (w := w) (T := False) D0 ""
    unfold Unnamed
    cases h : getKey "" l.pool with
    | none => rfl
    | some e => exact absurd (.inl ⟨rfl, hD⟩) (he "" e h D).1
  have hA' : Alone w l' (draftFor w l' D0) D0 := fun m v hm hk => hA m v (by rw [hd]; exact visited_move hs.pointer hc he' hm) hk
  obtain ⟨n, hn⟩ := C64_exact w hs hb hf l hw hq (free he) hl D0 hD (hc.closed hs.pointer he) hA
  obtain ⟨n', hn'⟩ := C64_exact w hs hb hf l' hw' hq' (free he') hl' D0 hD (hc.closed hs.pointer he') hA'
  have e : AllIntact w l (draftFor w l D0) D0 ↔ AllIntact w l' (draftFor w l' D0) D0 := by
    rw [← hd]
    exact ⟨intact_move hs.pointer hc he he' ha, intact_move hs.pointer hc he' he ha.symm⟩
  refine ⟨max n n', fun σ σ' fuel fuel' p p' h1 h2 => ?_⟩
  obtain ⟨a1, a2⟩ := hn σ fuel p (Nat.le_trans (Nat.le_max_left _ _) h1)
  obtain ⟨b1, b2⟩ := hn' σ' fuel' p' (Nat.le_trans (Nat.le_max_right _ _) h2)
  exact ⟨by rw [a1, b1, e], by rw [a2, b2, e]⟩

namespace Demo

/-- No keyword that is read later beside a `$ref`. -/
def aloneB : Json → Bool
  | .obj m => (getKey "$ref" m).isNone || laterKeys.all fun k => (getKey k m).isNone
  | _ => true

theorem alone_of {m v} (h : aloneB (.obj m) = true) (hk : Kw m "$ref" v) : ∀ k ∈ laterKeys, getKey k m = none := by
  unfold Kw at hk
  simpa [aloneB, hk] using h

theorem family_alone : Alone (world []) newSchemaLoader (draftFor (world []) newSchemaLoader family) family := by
  intro m v hm hk
  obtain ⟨D, hD⟩ := rw_exists (w := world []) (T := False) family ""
  have := reach_within (world_standard []).pointer family_self
    (by intro k e h; simp [newSchemaLoader, getKey] at h) hD (visited_met hm)
  rw [rwStrict_eq hD] at this
  exact alone_of (allWithin_of this (by decide +kernel)) hk

theorem asking_alone : Alone (world []) informed (draftFor (world []) informed asking) asking := by
  intro m v hm hk
  rcases asking_asks.reach (visited_met hm) with h | h
  · exact alone_of (allWithin_of h (by decide +kernel)) hk
  · exact alone_of (allWithin_of h (by decide +kernel)) hk

theorem informed_harmless : PoolAll (Harmless env) informed := by
  intro k e h
  rw [(informed_get h).2]
  exact ⟨wf_of _ (by decide +kernel), tame_of (by decide +kernel)⟩

theorem family_accepts : Accepts (world []) .id ⟨40, 40⟩ [] newSchemaLoader family := by
  have h : ((compile (world []) .id ⟨40, 40⟩ [] (.direct (some family)) newSchemaLoader).1).isOk = true := by decide +kernel
  unfold Accepts
  cases hx : (compile (world []) .id ⟨40, 40⟩ [] (.direct (some family)) newSchemaLoader).1 with
  | ok s => exact ⟨s, rfl⟩
  | error e => rw [hx] at h; cases h

end Demo

/-! `C64_only` and `C64_accept` on a recursive document: one run accepts it, so every run does. -/
example : ∃ n, ∀ (σ : Sched) (fuel : Fuel) (p : Path), n ≤ fuel.parse → Accepts (Demo.world []) σ fuel p newSchemaLoader Demo.family := by
  have he : Elsewhere (Demo.world []) newSchemaLoader Demo.family := by intro k e h; simp [newSchemaLoader, getKey] at h
  have hc := Demo.family_self.closed (Demo.world_standard []).pointer he
  exact C64_accept (Demo.world []) (Demo.world_standard _) Demo.baseOf_idem Demo.fmtOK newSchemaLoader Demo.new_setting ⟨rfl, rfl⟩ rfl
    (by intro k e h; simp [newSchemaLoader, getKey] at h) Demo.family ⟨Demo.family_wf, Demo.tame_of (by decide +kernel)⟩ hc
    (C64_only (Demo.world []) Demo.baseOf_idem Demo.fmtOK newSchemaLoader Demo.new_setting ⟨rfl, rfl⟩ Demo.family Demo.family_wf hc
      Demo.family_alone _ _ _ Demo.family_accepts)

/-! The hypotheses of `C64_everywhere`, for the same document and two loaders. -/
example : ∃ n, ∀ (σ σ' : Sched) (fuel fuel' : Fuel) (p p' : Path), n ≤ fuel.parse → n ≤ fuel'.parse →
    (Accepts (Demo.world []) σ fuel p newSchemaLoader Demo.family ↔ Accepts (Demo.world []) σ' fuel' p' Demo.informed Demo.family) ∧
    (Refuses (Demo.world []) σ fuel p newSchemaLoader Demo.family ↔ Refuses (Demo.world []) σ' fuel' p' Demo.informed Demo.family) :=
  C64_everywhere (Demo.world []) (Demo.world_standard _) Demo.baseOf_idem Demo.fmtOK newSchemaLoader Demo.informed Demo.new_setting
    Demo.informed_setting ⟨rfl, rfl⟩ ⟨rfl, rfl⟩ (by intro k e h; simp [newSchemaLoader, getKey] at h) Demo.informed_harmless
    Demo.family ⟨Demo.family_wf, Demo.tame_of (by decide +kernel)⟩ Demo.family_self
    (by intro k e h; simp [newSchemaLoader, getKey] at h) Demo.family_elsewhere rfl rfl Demo.family_alone

/-! The hypotheses of `C64_exact` and `C64_order`, for a document that refers to another one. -/
example : ∃ n, (∀ (σ : Sched) (fuel : Fuel) (p : Path), n ≤ fuel.parse → Accepts (Demo.world []) σ fuel p Demo.informed Demo.asking) ∨
    (∀ (σ : Sched) (fuel : Fuel) (p : Path), n ≤ fuel.parse → Refuses (Demo.world []) σ fuel p Demo.informed Demo.asking) :=
  C64_order (Demo.world []) (Demo.world_standard _) Demo.baseOf_idem Demo.fmtOK Demo.informed Demo.informed_setting ⟨rfl, rfl⟩ rfl
    Demo.informed_harmless Demo.asking ⟨Demo.wf_of _ (by decide +kernel), Demo.tame_of (by decide +kernel)⟩ Demo.asking_closed
    Demo.asking_alone

/-! A document that is refused because of what a reference stands for. -/
example : (match (compile (Demo.world []) .id ⟨40, 40⟩ [] (.direct (some (.obj [("definitions", .obj [("x", .obj [("x", .obj [("type", .str "num")])])]),
    ("items", .obj [("$ref", .str "#/definitions/x/x")])]))) newSchemaLoader).1 with | .error (.err _) => true | _ => false) = true := by
  decide +kernel

end GJS

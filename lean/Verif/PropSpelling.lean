import Verif.LemSpellingRules
import Verif.LemSpellingShape
import Verif.PropAccept
import Verif.PropDraft
import Verif.PropGo
/-
C61: the spelling of schema documents.
-/
namespace GJS
open Spec

theorem declaredDraft_respell (w : World) {D D' : Json} (h : Alike w.env D D') : declaredDraft w D = declaredDraft w D' := by
  cases h with
  | obj m m' h1 h2 h3 =>
    have hm : AlikeO w.env m m' := ⟨h1, h2, h3⟩
    unfold declaredDraft
    simp only
    cases e : getKey "$schema" m with
    | none =>
      cases e' : getKey "$schema" m' with
      | none => rfl
      | some y =>
        obtain ⟨x, hx, _⟩ := hm.symm.kw e'
        rw [show getKey "$schema" m = some x from hx] at e; cases e
    | some x =>
      obtain ⟨y, hy, ha⟩ := hm.kw e
      rw [show getKey "$schema" m' = some y from hy]
      cases ha <;> rfl
  | _ => rfl

/-- C61, the rules: schema documents spelled differently say the same about instances spelled differently, unfolded to
any depth, references included. -/
theorem C61_rules (env : Env) (hf : FormatBlind env) (resolve : String → Option (Draft × Json))
    (hr : ∀ t d D, resolve t = some (d, D) → D.WF) (n : Nat) (d : Draft) (D D' v v' : Json) (hD : D.WF) (hD' : D'.WF)
    (hv : v.WF) (hv' : v'.WF) (hs : Respell env D D') (hsv : Respell env v v') :
    docUnfold env resolve (fun _ _ _ => True) n d D v ↔ docUnfold env resolve (fun _ _ _ => True) n d D' v' :=
  docUnfold_alike hf resolve hr _ (fun _ _ _ _ _ _ _ => Iff.rfl) n d D D' v v' (respell_alike hs hD hD') (respell_alike hsv hv hv')

/-- C61.  Two spellings of a schema without `$ref`, compiled by loaders with the same settings, give the same verdict
on two spellings of an instance. -/
theorem C61_verdict (w : World) (hf : FormatBlind w.env) (l l' : LState) (hw : Setting w l) (hw' : Setting w l')
    (he : l.autoDetect = l'.autoDetect ∧ l.draft = l'.draft) (D D' v v' : Json) (hD : D.WF) (hD' : D'.WF) (hv : v.WF) (hv' : v'.WF)
    (hn : NoRef D) (hs : Respell w.env D D') (hsv : Respell w.env v v') (b b' : Bool)
    (h : Gives w l D v b) (h' : Gives w l' D' v' b') : b = b' := by
  have ha := respell_alike hs hD hD'
  obtain ⟨n1, h1⟩ := C01_noRef w l hw D hD hn v b h
  obtain ⟨n2, h2⟩ := C01_noRef w l' hw' D' hD' (noRef_alike ha hn) v' b' h'
  have hd : draftFor w l D = draftFor w l' D' := by
    unfold draftFor
    rw [he.1, he.2, declaredDraft_respell w ha]
  rw [Bool.eq_iff_iff, h1 _ (Nat.le_max_left n1 n2) (fun _ => none) (fun _ _ _ => True),
    h2 _ (Nat.le_max_right n1 n2) (fun _ => none) (fun _ _ _ => True), hd]
  exact C61_rules w.env hf _ (fun _ _ _ h => by cases h) _ _ D D' v v' hD hD' hv hv' hs hsv

/-- C61, acceptance: whether `Compile` accepts a schema without `$ref` does not depend on the order of members, in the
schema itself and at any depth.  Map iteration orders and fuel may differ. -/
theorem C61_accept (w : World) (h0 : w.norm "#" = some "") (hi : ∀ a b, w.inherits a b ≠ none)
    (hf : FmtOK w.env.fmtF64) (σ σ' : Sched) (fuel fuel' : Fuel) (p p' : Path) (D D' : Json) (l : LState) (hD : D.WF) (hD' : D'.WF)
    (hn : NoRef D) (hr : NumsRat w.env D) (hsz : D.size ≤ fuel.parse + 1) (hsz' : D'.size ≤ fuel'.parse + 1) (hp : l.pool = [])
    (hv : l.validate = false) (hs : SameDoc D D') :
    (∃ s l', compile w σ fuel p (.direct (some D)) l = (.ok s, l')) ↔
      ∃ s l', compile w σ' fuel' p' (.direct (some D')) l = (.ok s, l') := by
  have hsame : Reordered D D' := ⟨hs, hD, hD'⟩
  have hd : draftFor w l D = draftFor w l D' := by
    unfold draftFor
    rw [declaredDraft_respell w (reordered_alike hsame)]
  rw [C15_accept w h0 hi hf σ fuel p D l hD hn hr hsz hp hv,
    C15_accept w h0 hi hf σ' fuel' p' D' l hD' (noRef_same hsame hn) (numsRat_same hsame hr) hsz' hp hv, ← hd]
  exact ⟨fun ⟨h1, h2⟩ => ⟨fun h => schemaRead_same hsame (h1 h), wellFormed_same h2 hsame⟩,
    fun ⟨h1, h2⟩ => ⟨fun h => schemaRead_same hsame.symm (h1 h), wellFormed_same h2 hsame.symm⟩⟩

/-- C61, Go values: a schema without `$ref` that was decoded and then given to a Go loader is the schema it was; it is
accepted or refused as before, and gives the same verdicts. -/
theorem C61_go (w : World) (hfb : FormatBlind w.env) (lib : Go.Lib) (hl : Prints lib) (l : LState) (hw : Setting w l)
    (hi : ∀ a b, w.inherits a b ≠ none) (hf : FmtOK w.env.fmtF64) (D : Json) (hD : D.WF) (hd : Nested Text.maxDepth D) (hn : NoRef D)
    (hr : NumsRat w.env D) (hp : l.pool = []) (hv : l.validate = false) :
    ∃ D', Go.loadGo lib (Go.ofJson D) = .ok D' ∧
      (∀ (σ σ' : Sched) (fuel fuel' : Fuel) (p p' : Path), D.size ≤ fuel.parse + 1 → D'.size ≤ fuel'.parse + 1 →
        ((∃ s l', compile w σ fuel p (.direct (some D)) l = (.ok s, l')) ↔
          ∃ s l', compile w σ' fuel' p' (.direct (some D')) l = (.ok s, l'))) ∧
      ∀ v : Json, v.WF → ∀ b b', Gives w l D v b → Gives w l D' v b' → b = b' := by
  obtain ⟨D', h1, h2, h3⟩ := C60_roundtrip lib hl D hD hd
  refine ⟨D', h1, fun σ σ' fuel fuel' p p' hsz hsz' => ?_, fun v hvw b b' h h' => ?_⟩
  · exact C61_accept w hw.root hi hf σ σ' fuel fuel' p p' D D' l hD h3 hn hr hsz hsz' hp hv h2
  · exact C61_verdict w hfb l l hw hw ⟨rfl, rfl⟩ D D' v v hD h3 hvw hvw hn (alike_respell (reordered_alike ⟨h2, hD, h3⟩))
      (alike_respell (alike_refl hvw)) b b' h h'

namespace Demo

/-- One spelling of a schema. -/
def spellA : Json := .obj
  [ ("type", .str "object"), ("properties", .obj [("a", .obj [("minimum", .num tenth1), ("enum", .arr [int 1, .num tenth1])]), ("b", .bool false)]) ]
/-- Another one. -/
def spellB : Json := .obj
  [ ("properties", .obj [("b", .bool false), ("a", .obj [("enum", .arr [.num ⟨false, 1, [0], none⟩, .num tenth3]), ("minimum", .num tenth2)])]),
    ("type", .str "object") ]
/-- A size with and without a fraction. -/
def sizeA : Json := .obj [("maxLength", int 1)]
def sizeB : Json := .obj [("maxLength", .num ⟨false, 1, [0], none⟩)]

theorem respell_spell : Respell env spellA spellB := by
  refine .obj _ _ (by intro k; simp [or_comm]) ?_
  intro k x y hx hy
  simp only [List.mem_cons, Prod.mk.injEq, List.not_mem_nil, or_false] at hx hy
  rcases hx with ⟨rfl, rfl⟩ | ⟨rfl, rfl⟩ <;> rcases hy with ⟨h, rfl⟩ | ⟨h, rfl⟩ <;> first | (simp at h; done) | skip
  · exact .str _
  · refine .obj _ _ (by intro k; simp [or_comm]) ?_
    intro k x y hx hy
    simp only [List.mem_cons, Prod.mk.injEq, List.not_mem_nil, or_false] at hx hy
    rcases hx with ⟨rfl, rfl⟩ | ⟨rfl, rfl⟩ <;> rcases hy with ⟨h, rfl⟩ | ⟨h, rfl⟩ <;> first | (simp at h; done) | skip
    · refine .obj _ _ (by intro k; simp [or_comm]) ?_
      intro k x y hx hy
      simp only [List.mem_cons, Prod.mk.injEq, List.not_mem_nil, or_false] at hx hy
      rcases hx with ⟨rfl, rfl⟩ | ⟨rfl, rfl⟩ <;> rcases hy with ⟨h, rfl⟩ | ⟨h, rfl⟩ <;> first | (simp at h; done) | skip
      · exact .num _ _ (by decide +kernel) rfl rfl
      · refine .arr _ _ rfl ?_
        intro k x y hx hy
        match k with
        | 0 => cases hx; cases hy; exact .num _ _ (by decide +kernel) rfl rfl
        | 1 => cases hx; cases hy; exact .num _ _ (by decide +kernel) rfl rfl
        | k + 2 => simp at hx
    · exact .bool _

end Demo

/-- C61, where it ends: with another notation for a number, acceptance can differ.  A size written `1.0` is refused. -/
theorem C61_sizes : ∃ (w : World) (D D' : Json) (σ : Sched) (fuel : Fuel) (s : Schema) (e : CErr), D.WF ∧ D'.WF ∧
    Respell w.env D D' ∧ newSchema w σ fuel (.direct (some D)) = .ok s ∧ newSchema w σ fuel (.direct (some D')) = .error (.err e) := by
  obtain ⟨s, hs⟩ := Demo.accepts_iff.1 (show Demo.accepts Sched.id Demo.sizeA = true by decide +kernel)
  have h2 : (match newSchema (Demo.world []) Sched.id ⟨40, 40⟩ (.direct (some Demo.sizeB)) with
    | .error (.err _) => true
    | _ => false) = true := by decide +kernel
  cases hr : newSchema (Demo.world []) Sched.id ⟨40, 40⟩ (.direct (some Demo.sizeB)) with
  | ok s => rw [hr] at h2; cases h2
  | error e =>
    rw [hr] at h2
    cases e with
    | err e =>
      refine ⟨_, _, _, _, _, s, e, Demo.wf_of _ (by decide +kernel), Demo.wf_of _ (by decide +kernel), ?_, hs, hr⟩
      refine .obj _ _ (fun k => Iff.rfl) ?_
      intro k x y hx hy
      simp only [List.mem_cons, Prod.mk.injEq, List.not_mem_nil, or_false] at hx hy
      obtain ⟨_, rfl⟩ := hx
      obtain ⟨_, rfl⟩ := hy
      exact .num _ _ (by decide +kernel) rfl rfl
    | _ => cases h2

open Demo in
/-- Two spellings that meet the hypotheses, with both verdicts. -/
example : spellA.WF ∧ spellB.WF ∧ NoRef spellA ∧ Respell env spellA spellB ∧
    Gives (world []) (fixed Draft7) spellA (.obj [("a", int 1)]) true ∧ Gives (world []) (fixed Draft7) spellB (.obj [("a", int 1)]) true ∧
    Gives (world []) (fixed Draft7) spellA (.obj [("a", int 2)]) false ∧ Gives (world []) (fixed Draft7) spellB (.obj [("a", int 2)]) false :=
  ⟨wf_of _ (by decide +kernel), wf_of _ (by decide +kernel), noRef_of _ (by decide +kernel), respell_spell,
    gives_of (by decide +kernel), gives_of (by decide +kernel), gives_of (by decide +kernel), gives_of (by decide +kernel)⟩

open Demo in
/-- A document and the same with its members in another order. -/
example : SameDoc (.obj [("minLength", int 1), ("type", .str "string")]) (.obj [("type", .str "string"), ("minLength", int 1)]) := by
  refine .obj _ _ (List.Perm.swap ..) ?_
  intro k x y hx hy
  simp only [List.mem_cons, Prod.mk.injEq, List.not_mem_nil, or_false] at hx hy
  rcases hx with ⟨rfl, rfl⟩ | ⟨rfl, rfl⟩ <;> rcases hy with ⟨h, rfl⟩ | ⟨h, rfl⟩ <;> first | (simp at h; done) | skip
  · exact .num _
  · exact .str _

end GJS

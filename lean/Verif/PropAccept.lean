import Verif.LemAcceptRoot
import Verif.PropEqual
import Verif.PropCompile
import Verif.DemoCheck
/-
Properties of acceptance by `Compile`: C15, C18, C41.
-/
namespace GJS
open Spec

/-! ### C15: which documents are accepted -/

/-- C15.  On a loader without schemas and with meta-schema validation off, `Compile` of a
document without `$ref` succeeds exactly if the document is well-formed for the draft in force
(and, with AutoDetect on, its `$schema` can be read).  All of `inherits`, `FmtOK` and `ratOk`
speak about libraries: resolving a reference never fails, float64s are printed as by
`encoding/json`, and `big.Rat` accepts the numbers of the document. -/
theorem C15_accept (w : World) (h0 : w.norm "#" = some "") (hi : ∀ a b, w.inherits a b ≠ none)
    (hf : FmtOK w.env.fmtF64) (σ : Sched) (fuel : Fuel) (p : Path) (D : Json) (l : LState) (hd : D.WF) (hn : NoRef D)
    (hr : NumsRat w.env D) (hsz : D.size ≤ fuel.parse + 1) (hp : l.pool = []) (hv : l.validate = false) :
    (∃ s l', compile w σ fuel p (.direct (some D)) l = (.ok s, l')) ↔
      (l.autoDetect = true → SchemaRead w D) ∧ WellFormed w (draftFor w l D) D :=
  ⟨fun ⟨_, _, h⟩ => compile_sound h0 hi hf hd hn hsz h,
   fun ⟨h1, h2⟩ => compile_complete h0 hi hf hd hn hsz hr hp hv h1 h2⟩

/-- C15, the safety half, for loaders in any state, with or without meta-schema validation, and
without assuming anything about the numbers: a document that is not well-formed is never
accepted. -/
theorem C15_never_malformed (w : World) (h0 : w.norm "#" = some "") (hi : ∀ a b, w.inherits a b ≠ none)
    (hf : FmtOK w.env.fmtF64) (σ : Sched) (fuel : Fuel) (p : Path) (D : Json) (l l' : LState) (s : Schema) (hd : D.WF)
    (hn : NoRef D) (hsz : D.size ≤ fuel.parse + 1)
    (h : compile w σ fuel p (.direct (some D)) l = (.ok s, l')) : WellFormed w (draftFor w l D) D :=
  (compile_sound h0 hi hf hd hn hsz h).2

/-- C15 for `NewSchema`. -/
theorem C15_newSchema (w : World) (h0 : w.norm "#" = some "") (hi : ∀ a b, w.inherits a b ≠ none)
    (hf : FmtOK w.env.fmtF64) (σ : Sched) (fuel : Fuel) (D : Json) (hd : D.WF) (hn : NoRef D)
    (hr : NumsRat w.env D) (hsz : D.size ≤ fuel.parse + 1) :
    (∃ s, newSchema w σ fuel (.direct (some D)) = .ok s) ↔
      SchemaRead w D ∧ WellFormed w ((declaredDraft w D).getD Hybrid) D := by
  have := C15_accept w h0 hi hf σ fuel [] D newSchemaLoader hd hn hr hsz rfl rfl
  have e : draftFor w newSchemaLoader D = (declaredDraft w D).getD Hybrid := rfl
  rw [e] at this
  simp only [show newSchemaLoader.autoDetect = true from rfl, true_implies] at this
  rw [← this]
  unfold newSchema
  constructor
  · rintro ⟨s, h⟩
    exact ⟨s, _, Prod.ext h rfl⟩
  · rintro ⟨s, l', h⟩
    exact ⟨s, by rw [h]⟩

namespace Demo

/-- A document that uses several keywords and is well-formed. -/
def goodDoc : Json := .obj
  [ ("type", .arr [.str "object", .str "null"]), ("minProperties", int 1), ("maxProperties", int 3),
    ("properties", .obj [("a", .obj [("enum", .arr [int 1, int 2])])]) ]

/-- A document whose fault is two levels down. -/
def badDoc : Json := .obj
  [("properties", .obj [("a", .obj [("not", .obj [("minLength", int 3), ("maxLength", int 2)])])])]

/-- Does `NewSchema` accept? -/
def accepts (σ : Sched) (D : Json) : Bool :=
  match newSchema (world []) σ ⟨40, 40⟩ (.direct (some D)) with
  | .ok _ => true
  | .error _ => false

theorem accepts_iff {σ D} : accepts σ D = true ↔ ∃ s, newSchema (world []) σ ⟨40, 40⟩ (.direct (some D)) = .ok s := by
  unfold accepts
  cases newSchema (world []) σ ⟨40, 40⟩ (.direct (some D)) with
  | ok s => simp
  | error e => simp

end Demo

/-- The hypotheses of `C15_newSchema` hold of `Demo.goodDoc`, which is accepted, so it is
well-formed. -/
example : WellFormed (Demo.world []) Hybrid Demo.goodDoc :=
  ((C15_newSchema (Demo.world []) (by decide) (by intro a b h; cases h) Demo.fmtOK Sched.id ⟨40, 40⟩ Demo.goodDoc
    (Demo.wf_of _ (by decide +kernel)) (Demo.noRef_of _ (by decide +kernel)) (Demo.numsRat _) (by decide +kernel)).1
    (Demo.accepts_iff.1 (by decide +kernel))).2
/-- They hold of `Demo.badDoc`, which is rejected, so it is not. -/
example : ¬ WellFormed (Demo.world []) Hybrid Demo.badDoc := by
  intro h
  have := (C15_newSchema (Demo.world []) (by decide) (by intro a b h; cases h) Demo.fmtOK Sched.id ⟨40, 40⟩ Demo.badDoc
    (Demo.wf_of _ (by decide +kernel)) (Demo.noRef_of _ (by decide +kernel)) (Demo.numsRat _) (by decide +kernel)).2
    ⟨(by intro m v hm hv; cases hm; exact absurd (show (none : Option Json) = some v from hv) (by simp)), h⟩
  exact absurd (Demo.accepts_iff.2 this) (by decide +kernel)

/-! ### C18: map order -/

/-- C18, positive part.  Without `$ref`, whether `Compile` accepts does not depend on the order in
which maps are iterated. -/
theorem C18_order_independent (w : World) (h0 : w.norm "#" = some "") (hi : ∀ a b, w.inherits a b ≠ none)
    (hf : FmtOK w.env.fmtF64) (σ σ' : Sched) (fuel : Fuel) (p p' : Path) (D : Json) (l : LState) (hd : D.WF)
    (hn : NoRef D) (hr : NumsRat w.env D) (hsz : D.size ≤ fuel.parse + 1) (hp : l.pool = []) (hv : l.validate = false) :
    (∃ s l', compile w σ fuel p (.direct (some D)) l = (.ok s, l')) ↔
      ∃ s l', compile w σ' fuel p' (.direct (some D)) l = (.ok s, l') := by
  rw [C15_accept w h0 hi hf σ fuel p D l hd hn hr hsz hp hv,
    C15_accept w h0 hi hf σ' fuel p' D l hd hn hr hsz hp hv]

/-- A document with two references to the same definition, one of which has a malformed
sibling. -/
def Demo.orderDoc : Json := .obj [("definitions", .obj
  [ ("a", .obj [("$ref", .str "#/definitions/c"), ("type", Demo.int 5)]),
    ("b", .obj [("$ref", .str "#/definitions/c")]),
    ("c", .obj []) ])]

/-- C18, negative part.  The same document is accepted with one map order and rejected with
another. -/
theorem C18_order_matters : ∃ (w : World) (D : Json) (σ σ' : Sched) (fuel : Fuel) (s : Schema) (e : CErr),
    D.WF ∧ newSchema w σ fuel (.direct (some D)) = .ok s ∧ newSchema w σ' fuel (.direct (some D)) = .error (.err e) := by
  have h1 : Demo.accepts Sched.id Demo.orderDoc = true := by decide +kernel
  obtain ⟨s, hs⟩ := Demo.accepts_iff.1 h1
  have h2 : (match newSchema (Demo.world []) Sched.rev ⟨40, 40⟩ (.direct (some Demo.orderDoc)) with
    | .error (.err _) => true
    | _ => false) = true := by decide +kernel
  cases hr : newSchema (Demo.world []) Sched.rev ⟨40, 40⟩ (.direct (some Demo.orderDoc)) with
  | ok s => rw [hr] at h2; cases h2
  | error e =>
    rw [hr] at h2
    cases e with
    | err e => exact ⟨_, _, _, _, _, s, e, Demo.wf_of _ (by decide +kernel), hs, hr⟩
    | _ => cases h2

/-! ### C41: literals of the size keywords -/

/-- The keywords that give a size. -/
def Spec.sizeKeys : List String :=
  ["minLength", "maxLength", "minItems", "maxItems", "minProperties", "maxProperties"]

theorem wellFormed_single {w : World} {d : Draft} {key : String} (hk : key ∈ sizeKeys) {v : Json} :
    WellFormed w d (.obj [(key, v)]) ↔ SizeValue w.env v := by
  simp only [sizeKeys, List.mem_cons, List.not_mem_nil, or_false] at hk
  constructor
  · intro h
    cases h with
    | obj _ h _ _ =>
      rcases hk with rfl | rfl | rfl | rfl | rfl | rfl
      · exact h.minLength v rfl
      · exact h.maxLength v rfl
      · exact h.minItems v rfl
      · exact h.maxItems v rfl
      · exact h.minProperties v rfl
      · exact h.maxProperties v rfl
  · intro h
    have one : ∀ k x, Kw [(key, v)] k x → k = key ∧ x = v := by
      intro k x hx
      simp only [Kw, getKey, List.lookup_cons] at hx
      by_cases e : k = key
      · subst e; simp at hx; exact ⟨rfl, hx.symm⟩
      · rw [beq_false_of_ne e] at hx; cases hx
    have other : ∀ k x, k ∉ sizeKeys → ¬ Kw [(key, v)] k x := by
      intro k x hk' hx
      obtain ⟨rfl, _⟩ := one k x hx
      exact hk' (by simpa [sizeKeys] using hk)
    refine .obj _ ?_ (fun ds k D hd _ => absurd hd (other _ _ (by decide))) ?_
    · constructor
      · intro x hx
        refine absurd hx (other _ _ ?_)
        unfold idKey; split <;> decide
      all_goals first
        | exact fun x hx => absurd hx (other _ _ (by decide))
        | exact fun x hx => (one _ _ hx).2 ▸ h
        | exact fun _ x hx => absurd hx (other _ _ (by decide))
        | (intro a b ha hb
           have h1 := (one _ _ ha).1
           have h2 := (one _ _ hb).1
           exact absurd (h1.trans h2.symm) (by decide))
    · intro D hD
      cases hD with
      | property ps k D h => exact absurd h (other _ _ (by decide))
      | pattern ps k D h => exact absurd h (other _ _ (by decide))
      | additional A h => exact absurd h (other _ _ (by decide))
      | name _ _ h => exact absurd h (other _ _ (by decide))
      | dependency ps k D h => exact absurd h (other _ _ (by decide))
      | items _ h => exact absurd h (other _ _ (by decide))
      | item _ _ h => exact absurd h (other _ _ (by decide))
      | additionalItems A h => exact absurd h (other _ _ (by decide))
      | contains _ _ h => exact absurd h (other _ _ (by decide))
      | oneOf _ _ h => exact absurd h (other _ _ (by decide))
      | anyOf _ _ h => exact absurd h (other _ _ (by decide))
      | allOf _ _ h => exact absurd h (other _ _ (by decide))
      | not _ h => exact absurd h (other _ _ (by decide))
      | if_ _ _ h => exact absurd h (other _ _ (by decide))
      | then_ _ _ h => exact absurd h (other _ _ (by decide))
      | else_ _ _ h => exact absurd h (other _ _ (by decide))

/-- C41.  A schema consisting of one size keyword is accepted, under every draft, exactly if the
literal has no fraction and no exponent, is not negative, and is below 2^63. -/
theorem C41_size_literals (w : World) (h0 : w.norm "#" = some "") (hi : ∀ a b, w.inherits a b ≠ none)
    (hf : FmtOK w.env.fmtF64) (σ : Sched) (fuel : Fuel) (p : Path) (key : String) (hk : key ∈ sizeKeys) (n : NumLit)
    (l : LState) (hr : w.env.ratOk n = true) (hsz : 3 ≤ fuel.parse) (hp : l.pool = []) (hv : l.validate = false) :
    (∃ s l', compile w σ fuel p (.direct (some (.obj [(key, .num n)]))) l = (.ok s, l')) ↔ SizeLit n := by
  have within : ∀ x, Within (.obj [(key, .num n)]) x → x = .obj [(key, .num n)] ∨ x = .num n := by
    intro x hx
    cases hx with
    | self => exact .inl rfl
    | member _ k y _ hy hi =>
      simp only [List.mem_singleton, Prod.mk.injEq] at hy
      obtain ⟨rfl, rfl⟩ := hy
      cases hi
      exact .inr rfl
  have sk : ∀ k ∈ sizeKeys, k ≠ "$ref" ∧ k ≠ "$schema" := by decide
  rw [C15_accept w h0 hi hf σ fuel p _ l ?_ ?_ ?_ ?_ hp hv, wellFormed_single hk]
  · constructor
    · rintro ⟨_, m, hm, _, h⟩
      cases hm; exact h
    · intro h
      refine ⟨?_, n, rfl, hr, h⟩
      intro _ m v hm hv
      cases hm
      simp only [Kw, getKey, List.lookup_cons] at hv
      rw [beq_false_of_ne (sk key hk).2.symm] at hv; cases hv
  · exact .obj _ (by simp) (by simp; exact .num n)
  · intro m hm
    rcases within _ hm with h | h
    · cases h; simp [keysOf, (sk key hk).1.symm]
    · cases h
  · intro k hk'
    rcases within _ hk' with h | h
    · cases h
    · cases h; exact hr
  · simp [Json.size, Json.sizeKV]; omega

/-- C41 on whole documents: in every schema position that `Compile` reads in an accepted document
without `$ref`, a size keyword has such a literal. -/
theorem C41_everywhere (w : World) (d : Draft) (m : List (String × Json)) (h : WellFormed w d (.obj m))
    (key : String) (hk : key ∈ sizeKeys) (v : Json) (hv : Kw m key v) : ∃ n, v = .num n ∧ SizeLit n := by
  cases h with
  | obj _ h _ _ =>
    have : SizeValue w.env v := by
      simp only [sizeKeys, List.mem_cons, List.not_mem_nil, or_false] at hk
      rcases hk with rfl | rfl | rfl | rfl | rfl | rfl
      · exact h.minLength v hv
      · exact h.maxLength v hv
      · exact h.minItems v hv
      · exact h.maxItems v hv
      · exact h.minProperties v hv
      · exact h.maxProperties v hv
    obtain ⟨n, hn, _, hs⟩ := this
    exact ⟨n, hn, hs⟩

/-- The literals `1.0` and `1e2`. -/
def Demo.oneDotZero : NumLit := ⟨false, 1, [0], none⟩
@[inherit_doc Demo.oneDotZero] def Demo.oneE2 : NumLit := ⟨false, 1, [], some 2⟩

/-- C41, the contrast: integral literals that are not sizes but have type integer. -/
theorem C41_integral_rejected : ∃ n : NumLit, (∃ z : Int, n.val = z) ∧ ¬ SizeLit n ∧
    ∀ env : Env, env.ratOk n = true → env.checkInteger n = true := by
  refine ⟨Demo.oneDotZero, ⟨1, by decide +kernel⟩, by intro h; exact absurd h.1 (by decide), ?_⟩
  intro env h
  simp only [Env.checkInteger, Env.rat, h, if_true]
  decide +kernel

example : SizeLit ⟨false, 100, [], none⟩ := ⟨rfl, rfl, by decide, by decide +kernel⟩
example : ¬ SizeLit Demo.oneE2 := fun h => absurd h.2.1 (by decide)
example : Demo.accepts Sched.id (.obj [("minLength", Demo.int 1)]) = true ∧
    Demo.accepts Sched.id (.obj [("minLength", .num Demo.oneDotZero)]) = false := by decide +kernel

end GJS

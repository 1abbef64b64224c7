import Verif.LemMeta
/-
C48: with `Validate` on, what was compiled or added conforms to its meta-schema.
-/
namespace GJS
open Spec

/-- C48.  With `Validate` on, a schema document that `Compile` accepts obeys, as an instance, the
keyword rules for the document its meta-schema reference stands for: the one it declares in
`$schema`, or else the one of the draft of the loader. -/
theorem C48_compile (w : World) (hw : Lawful w) (σ : Sched) (fuel : Fuel) (p : Path) (a : LoaderArg) (l l' : LState)
    (s : Schema) (hl : PoolWF l) (hv : l.validate = true) (ha : ∀ D, a = .direct (some D) → D.WF)
    (h : compile w σ fuel p a l = (.ok s, l')) :
    ∃ D n, RootDoc w l' a D ∧ s.heap[s.root]? = some n ∧ n.doc = D ∧ ∀ u, MetaFor w l D u → Conforms w l' u D := by
  have ha' := argOK_wf hw ha
  unfold compile compileG at h
  cases hr : a.ref w with
  | none => rw [hr] at h; simp at h
  | some ref =>
    rw [hr] at h
    simp only at h
    obtain ⟨_, l1, h1, h⟩ := M.bind_ok.1 h
    obtain ⟨D, l2, h2, h⟩ := M.bind_ok.1 h
    obtain ⟨_, l3, h3, h⟩ := M.bind_ok.1 h
    obtain ⟨d, l4, h4, h5⟩ := M.bind_ok.1 h
    rw [M.modify_ok] at h1
    have wf1 : PoolWF l1 := by rw [← h1]; exact hl
    have set1 : SameSettings l l1 := by rw [← h1]; exact ⟨rfl, rfl⟩
    have R2 := rootDocument_safe (p := p) (ref := ref) (poolWF_inv hw σ) (fun _ => ha') trivial l1 wf1
    rw [h2] at R2
    have hD := R2.2.1 _ _ rfl
    have set2 := (rootDocument_safe (p := p) (ref := ref) (a := a) (settings_inv w σ l) (fun _ => argOK_true) trivial l1 set1).1
    rw [h2] at set2
    have v2 : l2.validate = true := by
      have := rootDocument_keep (w := w) (σ := σ) (p := p) (a := a) (ref := ref) l1
      rw [h2] at this
      rw [this, ← h1]; exact hv
    have R3 := whenValidate_safe (validateMetaschema_safe (doc := D) (fuel := fuel) (p := p) (poolWF_inv hw σ) id
      (refsOK_wf hw) hD) l2 R2.1
    rw [h3] at R3
    have set3 := (whenValidate_safe (validateMetaschema_safe (doc := D) (fuel := fuel) (p := p) (settings_inv w σ l2) id
      (fun _ _ _ _ _ _ => trivial) trivial) l2 ⟨rfl, rfl⟩).1
    rw [h3] at set3
    have k3 := (whenValidate_safe (validateMetaschema_safe (doc := D) (fuel := fuel) (p := p) (since_inv w l2 σ) id
      (fun _ _ _ _ _ _ => trivial) trivial) l2 (since_refl w l2)).1
    rw [h3] at k3
    obtain ⟨rfl, rfl⟩ := rootDraft_ok h4
    have k5 := (runParse_keeps (w := w) (σ := σ) (fuel := fuel) (p := 62 :: p) (ref := ref) (doc := D)
      (draft := draftFor w l4 D) l2 l4 k3).1
    rw [h5] at k5
    have k6 := (runParse_keeps (w := w) (σ := σ) (fuel := fuel) (p := 62 :: p) (ref := ref) (doc := D)
      (draft := draftFor w l4 D) l4 l4 (since_refl w l4)).1
    rw [h5] at k6
    have s6 := (runParse_safe (fuel := fuel) (p := 62 :: p) (ref := ref) (doc := D)
      (draft := draftFor w l4 D) (settings_inv w σ l4) trivial l4 ⟨rfl, rfl⟩).1
    rw [h5] at s6
    obtain ⟨n, g1, _, g3⟩ := (runParse_good hw R3.1 hD h5).root
    refine ⟨D, n, ⟨ref, hr, ?_⟩, g1, g3, fun u hu => ?_⟩
    · rcases rootDocument_ok hw wf1 ha' h2 with ⟨g1, g2⟩ | g
      · obtain ⟨new, e, _⟩ := k5.log
        exact .inl ⟨g1, g2.mono k5.keeps (by rw [e]; exact List.prefix_append _ _)⟩
      · exact .inr g
    · have := validateMetaschema_conforms hw R2.1 (whenValidate_on v2 h3) (hu.same set2)
      obtain ⟨new, e, _⟩ := k6.log
      exact this.mono k6.keeps (by rw [e]; exact List.prefix_append _ _) s6

/-- C48 for `AddSchema`. -/
theorem C48_addSchema (w : World) (hw : Lawful w) (σ : Sched) (fuel : Fuel) (p : Path) (url : String) (a : LoaderArg)
    (l l' : LState) (hl : PoolWF l) (hv : l.validate = true) (ha : ∀ D, a = .direct (some D) → D.WF)
    (h : addSchema w σ fuel p url a l = (.ok (), l')) :
    ∃ D, Loads w a D ∧ ∀ u, MetaFor w l D u → Conforms w l' u D := by
  unfold addSchema at h
  cases hr : w.norm url with
  | none => rw [hr] at h; simp at h
  | some ref =>
    rw [hr] at h
    exact (add_conforms hw hl hv ha h).1

/-- C48 for `AddSchemas`: each of the documents. -/
theorem C48_addSchemas (w : World) (hw : Lawful w) (σ : Sched) (fuel : Fuel) (p : Path) (as : List LoaderArg)
    (l l' : LState) (hl : PoolWF l) (hv : l.validate = true) (ha : ∀ a ∈ as, ∀ D, a = .direct (some D) → D.WF)
    (h : addSchemas w σ fuel p as l = (.ok (), l')) :
    ∀ a ∈ as, ∃ D, Loads w a D ∧ ∀ u, MetaFor w l D u → Conforms w l' u D := by
  unfold addSchemas at h
  obtain ⟨ys, l1, h0, h1⟩ := M.bind_ok.1 h
  rw [M.pure_ok] at h1
  obtain ⟨_, rfl⟩ := h1
  have key : ∀ (as : List LoaderArg) (k : Nat) (l : LState) (ys), PoolWF l → l.validate = true →
      (∀ a ∈ as, ∀ D, a = .direct (some D) → D.WF) →
      mapL (fun k a => addSchemaById w σ fuel (k :: p) a) k as l = (.ok ys, l1) →
      SameSettings l l1 ∧ Keeps l l1 ∧ l.log <+: l1.log ∧
      ∀ a ∈ as, ∃ D, Loads w a D ∧ ∀ u, MetaFor w l D u → Conforms w l1 u D := by
    intro as
    induction as with
    | nil =>
      intro k l ys _ _ _ h
      simp only [mapL, M.pure_ok] at h
      obtain ⟨_, rfl⟩ := h
      exact ⟨⟨rfl, rfl⟩, .refl _, List.prefix_refl _, by simp⟩
    | cons a as ih =>
      intro k l ys hl hv ha h
      unfold mapL at h
      obtain ⟨_, l2, h2, h⟩ := M.bind_ok.1 h
      obtain ⟨ys', l3, h3, h⟩ := M.bind_ok.1 h
      rw [M.pure_ok] at h
      obtain ⟨_, rfl⟩ := h
      unfold addSchemaById at h2
      obtain ⟨⟨D, c1, c2⟩, R, S, K, V⟩ := add_conforms hw hl hv (ha a (by simp)) h2
      obtain ⟨S', K', L', i⟩ := ih (k + 1) l2 ys' R V (fun a h => ha a (by simp [h])) h3
      obtain ⟨new, e, _⟩ := K.log
      have L : l.log <+: l2.log := by rw [e]; exact List.prefix_append _ _
      refine ⟨⟨S'.1.trans S.1, S'.2.trans S.2⟩, K.keeps.trans K', L.trans L', ?_⟩
      · intro b hb
        rcases List.mem_cons.1 hb with rfl | hb
        · exact ⟨D, c1, fun u hu => (c2 u hu).mono K' L' S'⟩
        · obtain ⟨D, d1, d2⟩ := i b hb
          exact ⟨D, d1, fun u hu => d2 u (hu.same S)⟩
  exact (key as 0 l ys hl hv ha h0).2.2.2

/-- C48, negative part: with `Validate` on but no `$schema` and the default draft, nothing is
checked. -/
theorem C48_nothing_checked (w : World) (σ : Sched) (fuel : Fuel) (p : Path) (D : Json) (l : LState)
    (hd : l.draft = Hybrid) (hD : (∃ b, D = .bool b) ∨ ∃ m, D = .obj m ∧ getKey "$schema" m = none) :
    validateMetaschema w σ fuel p D l = (.ok (), l) := by
  have h : metaSchemaURL w D l = (.ok none, l) := by
    unfold metaSchemaURL
    refine M.bind_ok.2 ⟨"", l, ?_, ?_⟩
    · unfold detectedURL
      refine M.bind_ok.2 ⟨l, l, rfl, ?_⟩
      split
      · refine M.bind_ok.2 ⟨("", none), l, ?_, rfl⟩
        rcases hD with ⟨b, rfl⟩ | ⟨m, rfl, hm⟩
        · rfl
        · have e1 : kindIn (.obj m) [.bool] = false := rfl
          have e2 : kindIn (.obj m) [.map] = true := rfl
          unfold parseSchemaURL
          refine M.bind_ok.2 ⟨false, l, rfl, ?_⟩
          simp only [Bool.false_eq_true, if_false]
          refine M.bind_ok.2 ⟨true, l, rfl, ?_⟩
          simp only [Bool.not_true, Bool.false_eq_true, if_false, hm]
          rfl
      · rfl
    · refine M.bind_ok.2 ⟨l, l, rfl, ?_⟩
      rw [hd]; rfl
  unfold validateMetaschema
  exact M.bind_ok.2 ⟨none, l, h, rfl⟩

namespace Demo
/-- A loader with `Validate` on. -/
def validating : LState := { newSchemaLoader with validate := true }
/-- A meta-schema that wants `type` to be a string. -/
def stringTypes : List (String × Json) :=
  [("meta", .obj [("properties", .obj [("type", .obj [("type", .str "string")])])])]
end Demo

open Demo

-- the hypotheses of `C48_compile` can be met, with a meta-schema that is not trivial
example : (compile (world stringTypes) .id ⟨20, 20⟩ [] (.direct (some (.obj [("$schema", .str "meta"), ("type", .str "object")])))
    validating).1.isOk = true := by decide +kernel
example : (compile (world stringTypes) .id ⟨20, 20⟩ [] (.direct (some (.obj [("$schema", .str "meta"), ("type", .arr [.str "object"])])))
    validating).1.isOk = false := by decide +kernel
example : MetaFor (world stringTypes) validating (.obj [("$schema", .str "meta"), ("type", .str "object")]) "meta" :=
  .declared _ "meta" _ rfl rfl rfl rfl (by decide)
example : (addSchemas (world stringTypes) .id ⟨20, 20⟩ [] [.direct (some (.obj [("$schema", .str "meta"), ("type", .str "object")])),
    .direct (some (.obj [("$id", .str "x"), ("$schema", .str "meta")]))] validating).1.isOk = true := by decide +kernel
-- what `C48_nothing_checked` is about: a document no draft allows is added
example : (addSchema (world stringTypes) .id ⟨20, 20⟩ [] "x" (.direct (some (.obj [("type", .null)]))) validating).1.isOk = true := by
  decide +kernel

end GJS

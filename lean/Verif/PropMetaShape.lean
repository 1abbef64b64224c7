import Verif.LemMetaFail
import Verif.DemoCheck
import Verif.PropEqual
import Verif.PropCompile
import Verif.PropMeta
import Verif.DemoMeta
/-
C55: the meta-schema checked against is the built-in one, and it is the shape of schemas that is checked.
-/
namespace GJS
open Spec

/-- C55.  With `Validate` on, a document that `Compile` accepts and whose meta-schema is that of draft 4,
6 or 7 has the shape this meta-schema describes. -/
theorem C55_compile (w : World) (hw : Lawful w) (u : String) (d : Draft) (hm : MetaWorld w u) (hk : Known u d) (hA : Apart w u)
    (hf : FmtOK w.env.fmtF64) (σ : Sched) (fuel : Fuel) (p : Path) (a : LoaderArg) (l l' : LState) (s : Schema)
    (hl : PoolWF l) (hc : Clean w u d l) (hv : l.validate = true) (ha : ∀ D, a = .direct (some D) → D.WF ∧ Foreign w u D)
    (h : compile w σ fuel p a l = (.ok s, l')) :
    ∃ D n, RootDoc w l' a D ∧ s.heap[s.root]? = some n ∧ n.doc = D ∧ (MetaFor w l D u → MetaValid w.env d D) := by
  obtain ⟨D, n, h1, h2, h3, h4⟩ := C48_compile w hw σ fuel p a l l' s hl hv (fun D e => (ha D e).1) h
  have c := (compile_safe (σ := σ) (fuel := fuel) (p := p) (a := a) (clean_inv hw hm hk hA) id (clean_refsOK hw hm hA)
    (argOK_compile hw hm hA ha) hm.root l hc).1
  have st := (compile_safe (fuel := fuel) (p := p) (a := a) (settings_inv w σ l) id (fun _ _ _ _ _ _ => trivial) (fun _ => argOK_true)
    trivial l ⟨rfl, rfl⟩).1
  rw [h] at c st
  refine ⟨D, n, h1, h2, h3, fun hM => ?_⟩
  have hD : D.WF := by
    obtain ⟨x, _, _, g⟩ := compile_good hw hl (fun D e => (ha D e).1) h
    exact h3 ▸ g.docs _ _ h2
  exact conforms_shape hm hk hf c (meta_draft hm hk hM st) hD (h4 u hM)

/-- C55 for `AddSchema`. -/
theorem C55_addSchema (w : World) (hw : Lawful w) (u : String) (d : Draft) (hm : MetaWorld w u) (hk : Known u d) (hA : Apart w u)
    (hf : FmtOK w.env.fmtF64) (σ : Sched) (fuel : Fuel) (p : Path) (url : String) (a : LoaderArg) (l l' : LState)
    (hl : PoolWF l) (hc : Clean w u d l) (hv : l.validate = true) (ha : ForeignArg w u a) (hu : w.base url ≠ u)
    (h : addSchema w σ fuel p url a l = (.ok (), l')) :
    ∃ D, Loads w a D ∧ (MetaFor w l D u → MetaValid w.env d D) := by
  obtain ⟨D, h1, h2⟩ := C48_addSchema w hw σ fuel p url a l l' hl hv (fun D e => (ha.1 D e).1) h
  have c := (addSchema_safe (σ := σ) (fuel := fuel) (p := p) (url := url) (a := a) (clean_inv hw hm hk hA) id (clean_refsOK hw hm hA)
    (argOK_foreign hw hA ha) hm.root (fun r hr => by rw [hm.base_norm _ _ hr]; exact hu) l hc).1
  have st := (addSchema_safe (fuel := fuel) (p := p) (url := url) (a := a) (settings_inv w σ l) id (fun _ _ _ _ _ _ => trivial) argOK_true
    trivial (fun _ _ => trivial) l ⟨rfl, rfl⟩).1
  rw [h] at c st
  exact ⟨D, h1, fun hM => conforms_shape hm hk hf c (meta_draft hm hk hM st) (loads_wf (argOK_wf hw fun D e => (ha.1 D e).1) h1) (h2 u hM)⟩

/-- C55 for `AddSchemas`: each of the documents. -/
theorem C55_addSchemas (w : World) (hw : Lawful w) (u : String) (d : Draft) (hm : MetaWorld w u) (hk : Known u d) (hA : Apart w u)
    (hf : FmtOK w.env.fmtF64) (σ : Sched) (fuel : Fuel) (p : Path) (as : List LoaderArg) (l l' : LState)
    (hl : PoolWF l) (hc : Clean w u d l) (hv : l.validate = true) (ha : ∀ a ∈ as, ForeignArg w u a)
    (h : addSchemas w σ fuel p as l = (.ok (), l')) :
    ∀ a ∈ as, ∃ D, Loads w a D ∧ (MetaFor w l D u → MetaValid w.env d D) := by
  intro a hx
  obtain ⟨D, h1, h2⟩ := C48_addSchemas w hw σ fuel p as l l' hl hv (fun a h D e => ((ha a h).1 D e).1) h a hx
  have c := (addSchemas_safe (σ := σ) (fuel := fuel) (p := p) (as := as) (clean_inv hw hm hk hA) id (clean_refsOK hw hm hA)
    (fun a h => argOK_foreign hw hA (ha a h)) hm.root l hc).1
  have st := (addSchemas_safe (fuel := fuel) (p := p) (as := as) (settings_inv w σ l) id (fun _ _ _ _ _ _ => trivial)
    (fun _ _ => argOK_true) trivial l ⟨rfl, rfl⟩).1
  rw [h] at c st
  exact ⟨D, h1, fun hM => conforms_shape hm hk hf c (meta_draft hm hk hM st) (loads_wf (argOK_wf hw fun D e => ((ha a hx).1 D e).1) h1) (h2 u hM)⟩

/-- C55, the other direction: a document that `Compile` refuses with the errors of the check does not have the
shape. -/
theorem C55_compile_refused (w : World) (hw : Lawful w) (u : String) (d : Draft) (hm : MetaWorld w u) (hk : Known u d)
    (hA : Apart w u) (hf : FmtOK w.env.fmtF64) (σ : Sched) (fuel : Fuel) (p : Path) (a : LoaderArg) (l l' : LState) (es : List Err)
    (hl : PoolWF l) (hc : Clean w u d l) (ha : ∀ D, a = .direct (some D) → D.WF ∧ Foreign w u D)
    (h : compile w σ fuel p a l = (.error (.err (.metaSchema es)), l')) :
    ∃ D, RootDoc w l' a D ∧ (MetaFor w l D u → ¬ MetaValid w.env d D) := by
  have ha' := argOK_wf hw fun D e => (ha D e).1
  unfold compile compileG at h
  cases hr : a.ref w with
  | none => rw [hr] at h; simp [M.err, M.fail] at h
  | some ref =>
    rw [hr] at h
    simp only at h
    rcases M.bind_error.1 h with h | ⟨_, l1, h1, h⟩
    · exact absurd ⟨_, rfl⟩ (Avoid.modify (B := IsMeta) _ _ _ h)
    rcases M.bind_error.1 h with h | ⟨D, l2, h2, h⟩
    · exact absurd ⟨_, rfl⟩ (rootDocument_noMeta _ _ _ h)
    rw [M.modify_ok] at h1
    have wf1 : PoolWF l1 := by rw [← h1]; exact hl
    have set1 : SameSettings l l1 := by rw [← h1]; exact ⟨rfl, rfl⟩
    have R2 := rootDocument_safe (p := p) (ref := ref) (poolWF_inv hw σ) (fun _ => ha') trivial l1 wf1
    have set2 := (rootDocument_safe (p := p) (ref := ref) (a := a) (settings_inv w σ l) (fun _ => argOK_true) trivial l1 set1).1
    have c2 := (rootDocument_safe (σ := σ) (p := p) (ref := ref) (a := a) (clean_inv hw hm hk hA)
      (fun e => argOK_compile hw hm hA ha (e ▸ hr)) hm.root l1 (by rw [← h1]; exact hc)).1
    rw [h2] at R2 set2 c2
    rcases M.bind_error.1 h with h | ⟨_, l3, h3, h⟩
    · have k3 := (whenValidate_safe (validateMetaschema_safe (doc := D) (fuel := fuel) (p := p) (since_inv w l2 σ) id
        (fun _ _ _ _ _ _ => trivial) trivial) l2 (since_refl w l2)).1
      rw [h] at k3
      refine ⟨D, ⟨ref, hr, ?_⟩, fun hM => ?_⟩
      · rcases rootDocument_ok hw wf1 ha' h2 with ⟨g1, g2⟩ | g
        · obtain ⟨new, e, _⟩ := k3.log
          exact .inl ⟨g1, g2.mono k3.keeps (by rw [e]; exact List.prefix_append _ _)⟩
        · exact .inr g
      · unfold whenValidate at h
        rcases M.bind_error.1 h with h | ⟨x, l4, h4, h⟩
        · exact absurd ⟨_, rfl⟩ (Avoid.get (B := IsMeta) _ _ _ h)
        rw [M.get_ok] at h4
        obtain ⟨rfl, rfl⟩ := h4
        split at h
        · exact refused_shape hw hm hk hA hf R2.1 c2 (hM.same set2) h
        · exact absurd ⟨_, rfl⟩ (Avoid.pure (B := IsMeta) _ _ _ h)
    · rcases M.bind_error.1 h with h | ⟨_, l4, h4, h⟩
      · exact absurd ⟨_, rfl⟩ (rootDraft_noMeta _ _ _ h)
      · exact absurd ⟨_, rfl⟩ (runParse_noMeta _ _ _ h)

/-- C55, the other direction for `AddSchema`. -/
theorem C55_addSchema_refused (w : World) (hw : Lawful w) (u : String) (d : Draft) (hm : MetaWorld w u) (hk : Known u d)
    (hA : Apart w u) (hf : FmtOK w.env.fmtF64) (σ : Sched) (fuel : Fuel) (p : Path) (url : String) (a : LoaderArg) (l l' : LState)
    (es : List Err) (hl : PoolWF l) (hc : Clean w u d l) (ha : ForeignArg w u a)
    (h : addSchema w σ fuel p url a l = (.error (.err (.metaSchema es)), l')) :
    ∃ D, Loads w a D ∧ (MetaFor w l D u → ¬ MetaValid w.env d D) := by
  unfold addSchema at h
  cases hr : w.norm url with
  | none => rw [hr] at h; simp [M.err, M.fail] at h
  | some ref =>
    rw [hr] at h
    exact add_refused hw hm hk hA hf hl hc ha h

/-- C55, the other direction for `AddSchemas`: one of the documents does not have the shape. -/
theorem C55_addSchemas_refused (w : World) (hw : Lawful w) (u : String) (d : Draft) (hm : MetaWorld w u) (hk : Known u d)
    (hA : Apart w u) (hf : FmtOK w.env.fmtF64) (σ : Sched) (fuel : Fuel) (p : Path) (as : List LoaderArg) (l l' : LState)
    (es : List Err) (hl : PoolWF l) (hc : Clean w u d l) (ha : ∀ a ∈ as, ForeignArg w u a)
    (h : addSchemas w σ fuel p as l = (.error (.err (.metaSchema es)), l')) :
    ∃ a ∈ as, ∃ D, Loads w a D ∧ (MetaFor w l D u → ¬ MetaValid w.env d D) := by
  unfold addSchemas at h
  rcases M.bind_error.1 h with h | ⟨ys, l1, _, h⟩
  swap
  · exact absurd ⟨_, rfl⟩ (Avoid.pure (B := IsMeta) _ _ _ h)
  have key : ∀ (as : List LoaderArg) (k : Nat) (l : LState), PoolWF l → Clean w u d l → (∀ a ∈ as, ForeignArg w u a) →
      mapL (fun k a => addSchemaById w σ fuel (k :: p) a) k as l = (.error (.err (.metaSchema es)), l') →
      ∃ a ∈ as, ∃ D, Loads w a D ∧ (MetaFor w l D u → ¬ MetaValid w.env d D) := by
    intro as
    induction as with
    | nil => intro k l _ _ _ h; simp [mapL, M.pure_def] at h
    | cons a as ih =>
      intro k l hl hc ha h
      unfold mapL at h
      rcases M.bind_error.1 h with h | ⟨_, l2, h2, h⟩
      · exact ⟨a, by simp, add_refused hw hm hk hA hf hl hc (ha a (by simp)) h⟩
      · have R := (addSchemaById_safe (fuel := fuel) (p := k :: p) (poolWF_inv hw σ) id (refsOK_wf hw)
          (argOK_wf hw fun D e => ((ha a (by simp)).1 D e).1) trivial l hl).1
        have st := (addSchemaById_safe (fuel := fuel) (p := k :: p) (a := a) (settings_inv w σ l) id (fun _ _ _ _ _ _ => trivial)
          argOK_true trivial l ⟨rfl, rfl⟩).1
        have c := (addSchemaById_safe (σ := σ) (fuel := fuel) (p := k :: p) (clean_inv hw hm hk hA) id (clean_refsOK hw hm hA)
          (argOK_foreign hw hA (ha a (by simp))) hm.root l hc).1
        rw [h2] at R st c
        rcases M.bind_error.1 h with h | ⟨_, l3, _, h⟩
        · obtain ⟨b, hb, D, h1, h2⟩ := ih (k + 1) l2 R c (fun a h => ha a (by simp [h])) h
          exact ⟨b, by simp [hb], D, h1, fun hM => h2 (hM.same st)⟩
        · exact absurd ⟨_, rfl⟩ (Avoid.pure (B := IsMeta) _ _ _ h)
  exact key as 0 l hl hc ha h

/-- C55: what is asked of the loader holds after any history of operations on a new `SchemaLoader`, failing
ones included, if their arguments do not claim to be part of the meta-schema. -/
theorem C55_history (w : World) (hw : Lawful w) (u : String) (d : Draft) (hm : MetaWorld w u) (hk : Known u d) (hA : Apart w u)
    (σ : Sched) (fuel : Fuel) (ops : List Op) (ho : ∀ o ∈ ops, ForeignOp w u o) :
    Clean w u d (runOps w σ fuel 0 ops newSchemaLoader).2 := by
  refine runOps_inv (clean_inv hw hm hk hA) id (clean_refsOK hw hm hA) (fun _ _ _ h => h) hm.root (fun o h => ?_)
    (by intro k e _ h; simp [newSchemaLoader, getKey] at h) fun o h url a ref e hn => ?_
  · have := ho o h
    cases o with
    | addSchema url a => exact argOK_foreign hw hA this.1
    | addSchemas as => exact fun a ha => argOK_foreign hw hA (this a ha)
    | compile a => exact argOK_compile hw hm hA this
    | _ => trivial
  · subst e
    rw [hm.base_norm _ _ hn]
    exact (ho _ h).2

namespace Demo
/-- The address of the meta-schema of draft 7. -/
def u7 : String := "http://json-schema.org/draft-07/schema"
/-- A loader with `Validate` on that has met the meta-schema. -/
def knowing : LState := { validating with pool := [(u7, ⟨Meta.absolute u7 Draft7, some Draft7⟩)] }
/-- A document with the shape of a schema, and one without. -/
def shaped : Json := .obj [("$schema", .str u7), ("type", .str "object")]
@[inherit_doc shaped] def misshaped : Json := .obj [("$schema", .str u7), ("minLength", .str "object")]
/-- Whether the check by a meta-schema refused a document. -/
def refused : Except Fail α × LState → Bool
  | (.error (.err (.metaSchema _)), _) => true
  | _ => false

theorem known7 : Known u7 Draft7 := .inr (.inr ⟨rfl, rfl⟩)

theorem knowing_clean : Clean (webWorld []) u7 Draft7 knowing := by
  intro k e _ h
  have hk : k = u7 := by
    by_cases hk : k = u7
    · exact hk
    · simp [knowing, getKey, List.lookup, beq_eq_false_iff_ne.2 hk] at h
  subst hk
  simp only [knowing, getKey, List.lookup, beq_self_eq_true, Option.some.injEq] at h
  rw [← h]
  exact ⟨(webWorld_meta [] known7).self.2.2.2 _, .inr rfl⟩
end Demo

open Demo

-- the hypotheses of the theorems about `Compile` and `AddSchema` can be met
example : Lawful (webWorld []) := webWorld_lawful (by intro k d h; cases h)
example : MetaWorld (webWorld []) u7 := webWorld_meta [] known7
example : Apart (webWorld []) u7 := webWorld_apart (by intro k D h; cases h)
example : FmtOK (webWorld []).env.fmtF64 := Demo.fmtOK
example : shaped.WF ∧ Foreign (webWorld []) u7 shaped :=
  ⟨wf_of _ (by decide +kernel), by intro b _ k h; simp [shaped, idsIn, idsInM, absId, idOf, getKey, List.lookup] at h⟩
example : PoolWF knowing := by
  intro k e h
  have := lookup_some_mem h
  simp only [knowing, List.mem_singleton, Prod.mk.injEq] at this
  rw [this.2]
  exact wf_of _ (by decide +kernel)
example : MetaFor (webWorld []) knowing shaped u7 := .declared _ _ _ rfl rfl rfl rfl (by decide)
example : (compile (webWorld []) .id ⟨200, 200⟩ [] (.direct (some shaped)) knowing).1.isOk = true := by decide +kernel
example : refused (compile (webWorld []) .id ⟨200, 200⟩ [] (.direct (some misshaped)) knowing) = true := by decide +kernel
-- the conclusions say something: not every document has the shape
example : ¬ MetaValid env Draft7 misshaped := by
  intro h
  cases h with
  | obj m h =>
    obtain ⟨n, h, _⟩ := h.sizes "minLength" (by simp) (.str "object") rfl
    cases h
/-- C55, negative part: the hypothesis on arguments is needed.  A document added under the address of the meta-schema takes its
place, and a document without the shape passes the check. -/
theorem C55_replaced : ∃ (w : World) (D : Json), Lawful w ∧ MetaWorld w u7 ∧ Apart w u7 ∧ D.WF ∧ Foreign w u7 D ∧
    ¬ MetaValid w.env Draft7 D ∧ MetaFor w (runOps w .id ⟨200, 200⟩ 0 [.addSchema u7 (.direct (some (.obj []))), .setValidate true] newSchemaLoader).2 D u7 ∧
    (compile w .id ⟨200, 200⟩ [] (.direct (some D))
      (runOps w .id ⟨200, 200⟩ 0 [.addSchema u7 (.direct (some (.obj []))), .setValidate true] newSchemaLoader).2).1.isOk = true ∧
    refused (compile w .id ⟨200, 200⟩ [] (.direct (some D)) knowing) = true := by
  refine ⟨webWorld [], .obj [("$schema", .str u7), ("$comment", .null)], webWorld_lawful (by intro k d h; cases h), webWorld_meta [] known7,
    webWorld_apart (by intro k D h; cases h), wf_of _ (by decide +kernel),
    by intro b _ k h; simp [idsIn, idsInM, absId, idOf, getKey, List.lookup] at h, ?_,
    .declared _ _ _ (by decide +kernel) rfl rfl rfl (by decide), by decide +kernel, by decide +kernel⟩
  intro h
  cases h with
  | obj m h =>
    obtain ⟨n, h⟩ := h.texts7 (by decide) "$comment" (by simp) .null rfl
    cases h

-- a loader in use, for `C55_history`
example : ForeignOp (webWorld []) u7 (.compile (.direct (some misshaped))) := by
  intro D h
  cases h
  exact ⟨wf_of _ (by decide +kernel), by intro b _ k h; simp [misshaped, idsIn, idsInM, absId, idOf, getKey, List.lookup] at h⟩

end GJS

import Verif.PropNumber
import Verif.PropErrors
import Verif.LemAccept
/-
Helper lemmas: the root node of a compiled schema object.
-/
namespace GJS
open Spec

/-- The values of `const` and `enum` are not changed by rewriting. -/
theorem rw_literal {w : World} {T : Prop} {b m m' k v} (hD : (Json.obj m).WF) (h : RwT w T b (.obj m) (.obj m'))
    (hk : Literal k) : Kw m' k v ↔ Kw m k v := by
  have same : ∀ {b x y}, RwMemberT w T b k x y → y = x := by
    intro b x y h
    cases h with
    | literal => rfl
    | ref => rcases hk with hk | hk <;> simp at hk
    | badRef => rfl
    | map _ _ _ _ h => rcases hk with rfl | rfl <;> simp [SchemaMap] at h
    | noMap => rfl
    | sub _ _ _ _ h => exact absurd hk h
  rcases rw_obj h with ⟨_, h⟩ | ⟨m2, h0, h1, h2⟩
  · cases h; exact Iff.rfl
  cases h0
  constructor
  · intro hg
    obtain ⟨j, x, e1, e2, hx⟩ := getKey_corr h1.symm (h1 ▸ wf_nodup hD) hg
    rw [same (h2 j k x v e2 e1)]; exact hx
  · intro hg
    obtain ⟨j, x, e1, e2, hx⟩ := getKey_corr h1 (wf_nodup hD) hg
    rw [← same (h2 j k v x e1 e2)]; exact hx

/-- An array of strings is not changed by rewriting. -/
theorem rwT_strs {w : World} {T : Prop} {b} {qs : List String} {y} (h : RwT w T b (.arr (qs.map .str)) y) :
    y = .arr (qs.map .str) := by
  cases h with
  | scalar => rfl
  | arr _ _ ys hl h =>
    congr 1
    apply List.ext_getElem?
    intro i
    cases hx : (qs.map Json.str)[i]? with
    | none => rw [List.getElem?_eq_none_iff] at hx ⊢; omega
    | some x =>
      have hi : i < ys.length := hl ▸ (List.getElem?_eq_some_iff.1 hx).1
      have hy := List.getElem?_eq_getElem hi
      have hsc : Scalar x := by
        obtain ⟨q, _, rfl⟩ := List.mem_map.1 (List.mem_of_getElem? hx)
        exact scalar_str
      rw [hy, rwT_scalar (h i x _ hx hy) (.inl hsc)]

theorem rw_strs {w : World} {T : Prop} {b m m' k} {qs : List String} (hD : (Json.obj m).WF)
    (h : RwT w T b (.obj m) (.obj m')) (hk : Kw m k (.arr (qs.map .str))) : Kw m' k (.arr (qs.map .str)) := by
  rcases rw_obj h with ⟨_, h⟩ | ⟨m2, h0, h1, h2⟩
  · cases h; exact hk
  cases h0
  obtain ⟨j, x, e1, e2, hx⟩ := getKey_corr h1 (wf_nodup hD) hk
  rw [Kw, hx]
  congr 1
  generalize hv : Json.arr (qs.map .str) = v at e1
  have h3 := h2 j k v x e1 e2
  cases h3 with
  | literal => rfl
  | ref => cases hv
  | badRef => rfl
  | map => cases hv
  | noMap => rfl
  | sub _ _ _ _ _ _ _ h => subst hv; exact rwT_strs h

/-- The root node of the schema compiled from an object without `$ref`. -/
theorem root_node {w : World} {l l' : LState} (hw : Setting w l) {σ : Sched} {fuel : Fuel} {p : Path}
    {m : List (String × Json)} {s : Schema} (hm : (Json.obj m).WF) (hr : "$ref" ∉ keysOf m)
    (hc : compile w σ fuel p (.direct (some (.obj m))) l = (.ok s, l')) :
    ∃ m' n, Rw w "" (.obj m) (.obj m') ∧ (Json.obj m').WF ∧ s.heap[s.root]? = some n ∧ n.pass = none ∧
      n.refSchema = none ∧ n.draft = draftFor w l (.obj m) ∧ FieldsOK w s.heap n.draft m' n := by
  obtain ⟨D, h1, hwf, hg⟩ := compile_good hw.lawful hw.pool (fun D h => by cases h; exact hm) hc
  obtain ⟨ref, e, h⟩ := h1
  simp only [LoaderArg.ref, hw.root] at e
  cases e
  rcases h with ⟨h, _⟩ | ⟨_, D0, h2, h3⟩
  · exact absurd rfl h
  cases h2
  have hd : ∃ m', D = .obj m' := by
    rcases rw_obj h3 with ⟨_, h⟩ | ⟨m2, h0, _⟩
    · exact ⟨_, h⟩
    · exact ⟨_, h0⟩
  obtain ⟨m', rfl⟩ := hd
  have hgk : getKey "$ref" m' = none := getKey_none (by rw [rw_keys h3]; exact hr)
  obtain ⟨n, hn, hdr, hdoc⟩ := hg.root
  refine ⟨m', n, h3, hwf, hn, ?_⟩
  have hdr' : n.draft = draftFor w l (.obj m) := by
    rw [hdr]; simp only [draftFor, declaredDraft_rw hm h3]
  cases hg.nodes _ n hn with
  | bool b h => rw [h] at hdoc; cases hdoc
  | ref m2 r u j h1 h2 =>
    rw [h1] at hdoc; cases hdoc
    rw [hgk] at h2; cases h2
  | plain m2 h1 h2 h3 h4 h5 =>
    rw [h1] at hdoc; cases hdoc
    exact ⟨h4, h3, hdr', h5⟩

/-- A run of `uniqueItems` that ends serialised every element. -/
theorem checkUnique_some {env : Env} {s : Sub} {xs : List Json} {c : Ctx} {r : Result} (hu : s.uniqueItems = true)
    (hr : checkUnique env s xs c = .ok r) : ∀ x ∈ xs, ∃ t, env.marshal x = some t := by
  simp only [checkUnique, hu, if_true] at hr
  have : ∀ {l : List Json} {seen j r}, uniqueLoop env xs c seen j l = .ok r → ∀ x ∈ l, ∃ t, env.marshal x = some t := by
    intro l
    induction l with
    | nil => intro _ _ _ _ x hx; simp at hx
    | cons y ys ih =>
      intro seen j r h x hx
      cases hm : env.marshal y with
      | none => simp [uniqueLoop, hm] at h
      | some t =>
        rcases List.mem_cons.1 hx with rfl | hx
        · exact ⟨t, hm⟩
        · simp only [uniqueLoop, hm] at h
          simp only [Exec.bind_ok, Exec.pure_ok] at h
          obtain ⟨a, ha, _⟩ := h
          exact ih ha x hx
  exact this hr

end GJS

import Verif.LemMetaTable
/-
Helper lemmas: a document satisfies a meta-schema exactly if it is `MetaValid`, provided that the
references in the meta-schema lead where they should.
-/
namespace GJS
open Spec

/-- The reference `s0` leads to the meta-schema `M`, `G s` to its definition `s`, or nowhere. -/
def RefsAre (R : String → Option (Draft × Json)) (d : Draft) (s0 : String) (G : String → String) (M : Json) (defs : List (String × Json)) : Prop :=
  RefIs R d s0 M ∧ ∀ s X, (s, X) ∈ defs → RefIs R d (G s) X

section
variable {env : Env} {R : String → Option (Draft × Json)} {n : Nat} {s0 : String} {G : String → String}

theorem metaValid_kind {d x} (h : MetaValid env d x) : (∃ b, x = .bool b) ∨ ∃ c, x = .obj c := by
  cases h with
  | bool => exact .inl ⟨_, rfl⟩
  | obj => exact .inr ⟨_, rfl⟩

theorem meta4_sound (hf : FmtOK env.fmtF64)
    (hR : RefsAre R Draft4 s0 G (Meta.draft4At (Meta.ref s0) fun s => Meta.ref (G s)) (Meta.defs4 (Meta.ref s0) fun s => Meta.ref (G s))) :
    ∀ n v, v.WF → docUnfold env R Nothing n Draft4 (Meta.draft4At (Meta.ref s0) fun s => Meta.ref (G s)) v → MetaValid env Draft4 v := by
  intro n
  induction n using Nat.strong_induction_on with
  | _ n ih =>
  intro v hv h
  obtain ⟨n, rfl⟩ := nothing_pos h
  obtain ⟨kvs, rfl, h1, h2⟩ := unfold_doc4.1 h
  have hS : SelfIs env R Draft4 n [("$ref", .str s0)] (MetaValid env Draft4) := by
    intro k x hk hx h
    obtain ⟨j, hj, h⟩ := fw_ref hR.1 h
    exact ih j (by omega) x hx h
  have hF := defs_are (G := G) (size := "positiveInteger") (size0 := "positiveIntegerDefault0") hf hS
    (hR.2 _ _ (by simp [Meta.defs4])) (hR.2 _ _ (by simp [Meta.defs4])) (hR.2 _ _ (by simp [Meta.defs4]))
    (hR.2 _ _ (by simp [Meta.defs4])) ⟨_, hR.2 "stringArray" _ (by simp [Meta.defs4]), fun k x _ h => fw_strings4 hf h⟩
  refine metaValid_intro (fun k x hx => ?_) fun _ => h2
  by_cases hk : k ∈ keysOf (Meta.props4 .null fun _ => .null)
  · have hk : k ∈ keysOf (Meta.props4 (Meta.ref s0) fun s => Meta.ref (G s)) := hk
    obtain ⟨⟨k, X⟩, hX, rfl⟩ := List.mem_map.1 hk
    exact fw_props4 hf (fun _ => metaValid_kind) hS hF (fun _ e => nomatch e) hX (wf_obj hv _ (kw_mem hx)) (h1 k X hX x hx)
  · exact kwMean_other4 hk

theorem meta6_sound (hf : FmtOK env.fmtF64) (hz : env.ratOk ⟨false, 0, [], none⟩ = true)
    (hR : RefsAre R Draft6 s0 G (Meta.draft6At (Meta.ref s0) fun s => Meta.ref (G s)) (Meta.defs6 (Meta.ref s0) fun s => Meta.ref (G s))) :
    ∀ n v, v.WF → docUnfold env R Nothing n Draft6 (Meta.draft6At (Meta.ref s0) fun s => Meta.ref (G s)) v → MetaValid env Draft6 v := by
  intro n
  induction n using Nat.strong_induction_on with
  | _ n ih =>
  intro v hv h
  obtain ⟨n, rfl⟩ := nothing_pos h
  rcases (unfold_doc67 (.inl ⟨_, _, rfl, rfl⟩)).1 h with ⟨b, rfl⟩ | ⟨kvs, rfl, h1⟩
  · exact .bool b (by decide)
  have hS : SelfIs env R Draft6 n [("$ref", .str s0)] (MetaValid env Draft6) := by
    intro k x hk hx h
    obtain ⟨j, hj, h⟩ := fw_ref hR.1 h
    exact ih j (by omega) x hx h
  have hF := defs_are (G := G) (size := "nonNegativeInteger") (size0 := "nonNegativeIntegerDefault0") hf hS
    (hR.2 _ _ (by simp [Meta.defs6])) (hR.2 _ _ (by simp [Meta.defs6])) (hR.2 _ _ (by simp [Meta.defs6]))
    (hR.2 _ _ (by simp [Meta.defs6])) ⟨_, hR.2 "stringArray" _ (by simp [Meta.defs6]; rfl), fun k x _ h => fw_strings6 hf (by decide) h⟩
  refine metaValid_intro (fun k x hx => ?_) fun h => absurd h (by decide)
  by_cases hk : k ∈ keysOf (Meta.props6 .null fun _ => .null)
  · have hk : k ∈ keysOf (Meta.props6 (Meta.ref s0) fun s => Meta.ref (G s)) := hk
    obtain ⟨⟨k, X⟩, hX, rfl⟩ := List.mem_map.1 hk
    exact fw_props6 hf hz (fun _ => metaValid_kind) hS hF (fun _ e => nomatch e) hX (wf_obj hv _ (kw_mem hx)) (h1 k X hX x hx)
  · exact kwMean_other6 hk

theorem meta7_sound (hf : FmtOK env.fmtF64) (hz : env.ratOk ⟨false, 0, [], none⟩ = true)
    (hR : RefsAre R Draft7 s0 G (Meta.draft7At (Meta.ref s0) fun s => Meta.ref (G s)) (Meta.defs6 (Meta.ref s0) fun s => Meta.ref (G s))) :
    ∀ n v, v.WF → docUnfold env R Nothing n Draft7 (Meta.draft7At (Meta.ref s0) fun s => Meta.ref (G s)) v → MetaValid env Draft7 v := by
  intro n
  induction n using Nat.strong_induction_on with
  | _ n ih =>
  intro v hv h
  obtain ⟨n, rfl⟩ := nothing_pos h
  rcases (unfold_doc67 (.inr ⟨_, _, rfl, rfl⟩)).1 h with ⟨b, rfl⟩ | ⟨kvs, rfl, h1⟩
  · exact .bool b (by decide)
  have hS : SelfIs env R Draft7 n [("$ref", .str s0)] (MetaValid env Draft7) := by
    intro k x hk hx h
    obtain ⟨j, hj, h⟩ := fw_ref hR.1 h
    exact ih j (by omega) x hx h
  have hF := defs_are (G := G) (size := "nonNegativeInteger") (size0 := "nonNegativeIntegerDefault0") hf hS
    (hR.2 _ _ (by simp [Meta.defs6])) (hR.2 _ _ (by simp [Meta.defs6])) (hR.2 _ _ (by simp [Meta.defs6]))
    (hR.2 _ _ (by simp [Meta.defs6])) ⟨_, hR.2 "stringArray" _ (by simp [Meta.defs6]; rfl), fun k x _ h => fw_strings6 hf (by decide) h⟩
  refine metaValid_intro (fun k x hx => ?_) fun h => absurd h (by decide)
  by_cases hk : k ∈ keysOf (Meta.props7 .null fun _ => .null)
  · have hk : k ∈ keysOf (Meta.props7 (Meta.ref s0) fun s => Meta.ref (G s)) := hk
    obtain ⟨⟨k, X⟩, hX, rfl⟩ := List.mem_map.1 hk
    exact fw_props7 hf hz (fun _ => metaValid_kind) hS hF (fun _ e => nomatch e) hX (wf_obj hv _ (kw_mem hx)) (h1 k X hX x hx)
  · exact kwMean_other7 hk

end
end GJS

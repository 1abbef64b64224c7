import Verif.LemWork
import Verif.LemCompile
import Verif.LemDraft
/-
Helper lemmas: compiled from a document without references, a node weighs as much as its document.
-/
namespace GJS
open Spec

/-- The size of the document of a node. -/
def docSize (h : Heap) (i : Id) : Nat :=
  match h[i]? with
  | some s => s.doc.size
  | none => 1

theorem docSize_stat {h : Heap} {d D c} (x : Stat h d D c) : docSize h c = D.size := by
  obtain ⟨s, h1, _, rfl⟩ := x
  simp only [docSize, h1]

/-- The size of the value of a keyword, if there. -/
def sizeOf? (o : Option Json) : Nat :=
  match o with
  | some D => D.size
  | none => 0

section
variable {h : Heap} {d : Draft} {m : List (String × Json)} {key : String}

theorem optOK_size {act o} (x : OptOK h d act m key o) : (o.toList.map (docSize h)).sum ≤ sizeOf? (getKey key m) := by
  rcases x with ⟨rfl, _⟩ | ⟨_, D, c, h1, rfl, h2⟩
  · simp
  · simp [h1, sizeOf?, docSize_stat h2]

theorem forall2_size {Ds : List Json} {ids : List Id} (x : List.Forall₂ (Stat h d) Ds ids) : (ids.map (docSize h)).sum = Json.sizeL Ds := by
  induction x with
  | nil => rfl
  | cons h1 _ ih => simp only [List.map_cons, List.sum_cons, Json.sizeL, docSize_stat h1, ih]

theorem listOK_size {ids} (x : ListOK h d m key ids) : (ids.map (docSize h)).sum ≤ sizeOf? (getKey key m) := by
  rcases x with ⟨_, rfl⟩ | ⟨Ds, h1, h2⟩
  · simp
  · rw [h1, forall2_size h2]; simp only [sizeOf?, Json.size]; omega

theorem sizeKV_perm {l l' : List (String × Json)} (h : l.Perm l') : Json.sizeKV l = Json.sizeKV l' := by
  rw [← sizeKV_sum, ← sizeKV_sum]
  exact sum_perm h

theorem mapOK_size {ps} (x : MapOK h d m key ps) : ((ps.map Prod.snd).map (docSize h)).sum ≤ sizeOf? (getKey key m) := by
  rcases x with ⟨_, rfl⟩ | ⟨Ds, l, h1, h2, h3⟩
  · simp
  · rw [h1]
    simp only [sizeOf?, Json.size, ← sizeKV_perm h2]
    clear h2
    induction h3 with
    | nil => simp
    | cons hx _ ih => simp only [List.map_cons, List.sum_cons, Json.sizeKV, docSize_stat hx.2]; omega

theorem depsOK_size {ds : List (String × Dep)} (x : DepsOK h d m ds) :
    ((inPlace { doc := .null, draft := 0, dependencies := ds }).map (docSize h)).sum ≤ sizeOf? (getKey "dependencies" m) := by
  simp only [inPlace, Option.toList_none, List.append_nil, List.nil_append]
  rcases x with ⟨_, rfl⟩ | ⟨Ds, l, es, h1, h2, h3, rfl⟩
  · simp
  · rw [h1]
    simp only [sizeOf?, Json.size, ← sizeKV_perm h2]
    clear h2
    induction h3 with
    | nil => simp
    | @cons kv e l es hx _ ih =>
      rcases hx with ⟨ks, _, rfl⟩ | ⟨_, c, rfl, hs⟩
      · cases ks with
        | nil => simp only [depEntry, List.filterMap_cons, Json.sizeKV]; omega
        | cons k ks => simp only [depEntry, List.filterMap_cons, Json.sizeKV]; omega
      · simp only [List.filterMap_cons, List.map_cons, List.sum_cons, Json.sizeKV, docSize_stat hs]
        omega

theorem extraOK_size {e} (x : ExtraOK h d m key e) : ((extraId e).map (docSize h)).sum ≤ sizeOf? (getKey key m) := by
  rcases x with ⟨_, rfl⟩ | ⟨b, _, rfl⟩ | ⟨A, c, h1, rfl, h2⟩
  · simp [extraId]
  · simp [extraId]
  · simp [extraId, h1, sizeOf?, docSize_stat h2]

theorem itemsOK_size {is b} (x : ItemsOK h d m is b) : (is.map (docSize h)).sum ≤ sizeOf? (getKey "items" m) := by
  rcases x with ⟨_, rfl, _⟩ | ⟨Ds, h1, h2, _⟩ | ⟨D, c, h1, _, rfl, h2, _⟩
  · simp
  · rw [h1, forall2_size h2]; simp only [sizeOf?, Json.size]; omega
  · simp [h1, sizeOf?, docSize_stat h2]

/-- The keywords that hold sub-schemas. -/
def schemaKeys : List String :=
  ["anyOf", "oneOf", "allOf", "not", "if", "then", "else", "dependencies", "items", "properties", "patternProperties",
    "additionalProperties", "additionalItems", "propertyNames", "contains"]

theorem keywords_size : (schemaKeys.map fun k => sizeOf? (getKey k m)).sum ≤ Json.sizeKV m := by
  refine Nat.le_trans (lookups_sum (F := sizeOf?) rfl (by decide)) ?_
  rw [← sizeKV_sum]
  exact sum_le fun kv _ => by simp [sizeOf?]

theorem fieldsOK_size {w : World} {s : Sub} (F : FieldsOK w h d m s) (hr : s.refSchema = none) :
    ((inPlace s ++ nested s).map (docSize h)).sum ≤ Json.sizeKV m := by
  refine Nat.le_trans ?_ keywords_size
  have e1 := listOK_size F.anyOf
  have e2 := listOK_size F.oneOf
  have e3 := listOK_size F.allOf
  have e4 := optOK_size F.not
  have e5 := optOK_size F.if_
  have e6 := optOK_size F.then_
  have e7 := optOK_size F.else_
  have e8 := depsOK_size F.deps
  have e9 := itemsOK_size F.items
  have e10 := mapOK_size F.props
  have e11 := mapOK_size F.patProps
  have e12 := extraOK_size F.addProps
  have e13 := extraOK_size F.addItems
  have e14 := optOK_size F.propNames
  have e15 := optOK_size F.contains
  simp only [inPlace, Option.toList_none, List.append_nil, List.nil_append] at e8
  simp only [inPlace, nested, hr, Option.toList_none, List.nil_append, List.map_append, List.sum_append, schemaKeys, List.map_cons,
    List.map_nil, List.sum_cons, List.sum_nil]
  omega

end

/-- No document of a compilation from a document without references has any. -/
theorem compiled_noRef {w : World} {l : LState} {d D} (hn : NoRef D) {d' D'} (h : Compiled w l d D d' D') : NoRef D' := by
  induction h with
  | root => exact hn
  | sub d' m D' _ hs ih => exact noRef_within ih (subSchema_within hs)
  | definition d' m ps k D' _ hk hp ih =>
    exact noRef_within ih (.member _ _ _ _ (lookup_some_mem hk) (.member _ _ _ _ hp (.self _)))
  | ref d' m t u o D' _ hk _ _ ih => exact absurd hk (by unfold Kw; rw [noRef_get ih rfl]; simp)

theorem good_weight {w : World} {l : LState} {S : Schema} {d D} (hn : NoRef D) (g : Good w l S d D) : Weight S.heap (docSize S.heap) := by
  refine ⟨fun i => ?_, fun i s hi => ?_⟩
  · unfold docSize
    split
    · exact Json.size_pos _
    · exact Nat.one_pos
  · have e : docSize S.heap i = s.doc.size := by simp only [docSize, hi]
    have hnr := compiled_noRef hn (g.made i s hi)
    rw [e]
    unfold uses
    cases g.nodes i s hi with
    | bool b hb _ =>
      rw [hb]
      simp only [Option.isSome_some, if_true, List.map_nil, List.sum_nil, Nat.add_zero]
      exact Json.size_pos _
    | ref m r u j hd hr _ _ _ _ _ =>
      rw [hd] at hnr
      exact absurd hr (by rw [noRef_get hnr rfl]; simp)
    | plain m hd _ hj hp F =>
      rw [hp, hj, hd]
      simp only [Option.isSome_none, Bool.false_eq_true, if_false, Json.size]
      exact Nat.add_le_add_left (fieldsOK_size F hj) 1

end GJS

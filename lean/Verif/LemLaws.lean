import Verif.LemPanic
import Verif.SpecLayers
import Verif.LemTrimIn
import Verif.LemMetaShape
import Verif.LemReach
import Verif.PropDraft
/-
Helper lemmas: what combined schemas say.
-/
namespace GJS
open Spec

section
variable {env : Env} {resolve : String → Option (Draft × Json)} {Sat : Draft → Json → Json → Prop} {d : Draft} {v : Json}

/-- Without references the rules settle what every document says. -/
theorem unfold_settles {P : Draft → Json → Json → Prop} : ∀ (n m : Nat) (D : Json), D.size ≤ n → D.size ≤ m → ∀ v,
    docUnfold env (fun _ => none) P n d D v ↔ docUnfold env (fun _ => none) P m d D v
  | 0, _, D, h, _, _ => by have := D.size_pos; omega
  | _ + 1, 0, D, _, h, _ => by have := D.size_pos; omega
  | n + 1, m + 1, D, hn, hm, v => by
    cases D with
    | obj ms =>
      have ih := fun X (hs : SubSchema d ms X) => unfold_settles (P := P) n m X
        (by have := subSchema_size hs; omega) (by have := subSchema_size hs; omega)
      simp only [docUnfold, DocRules]
      split
      · simp
      · exact ⟨dkeywords_sat ih, dkeywords_sat fun D hs v => (ih D hs v).symm⟩
    | _ => exact Iff.rfl

/-- What a document says, references apart. -/
def sense (env : Env) (d : Draft) (D v : Json) : Prop := docUnfold env (fun _ => none) (fun _ _ _ => True) D.size d D v

theorem sense_meaning (env : Env) : IsDocMeaning env (fun _ => none) (sense env) := by
  intro d D v
  unfold sense
  cases D with
  | obj ms =>
    obtain ⟨n, hn⟩ : ∃ n, (Json.obj ms).size = n + 1 := ⟨_, (Nat.succ_pred_eq_of_pos (Json.size_pos _)).symm⟩
    rw [hn]
    simp only [docUnfold, DocRules]
    split
    · simp
    · have ih := fun X (hs : SubSchema d ms X) => unfold_settles (env := env) (d := d) (P := fun _ _ _ => True) n X.size X
        (by have := subSchema_size hs; omega) (Nat.le_refl _)
      exact ⟨dkeywords_sat ih, dkeywords_sat fun D hs v => (ih D hs v).symm⟩
  | arr xs =>
    obtain ⟨n, hn⟩ : ∃ n, (Json.arr xs).size = n + 1 := ⟨_, (Nat.succ_pred_eq_of_pos (Json.size_pos _)).symm⟩
    rw [hn]; exact Iff.rfl
  | _ => exact Iff.rfl

theorem meaning_unfold (h : IsDocMeaning env resolve Sat) : ∀ n, docUnfold env resolve Sat n = Sat
  | 0 => rfl
  | n + 1 => by
    funext d D v
    rw [docUnfold, meaning_unfold h n]
    exact propext (h d D v).symm

end

theorem says_sense {w : World} {d : Draft} {D v : Json} {b : Bool} (hD : D.WF) (hn : NoRef D) (h : Says w d D v b) :
    b = true ↔ sense w.env d D v := by
  obtain ⟨l, hw, rfl, hg⟩ := h
  obtain ⟨n, hk⟩ := C01_noRef w l hw D hD hn v b hg
  rw [hk n (Nat.le_refl n) (fun _ => none) (sense w.env), meaning_unfold (sense_meaning _)]

section
variable {env : Env} {resolve : String → Option (Draft × Json)} {T : String → Json → Prop} {Sat : Draft → Json → Json → Prop}
  {d : Draft} {v : Json} {m m' : List (String × Json)}

theorem docRules_eq (D : Json) : DocRules env resolve Sat d D v ↔ RefRules env (Through resolve Sat) Sat d D v := by
  cases D with
  | obj m =>
    simp only [DocRules, RefRules]
    split
    · rename_i r hr; simp only [hr]; exact Iff.rfl
    · rename_i hr
      split
      · rename_i r hr'; exact absurd hr' (hr r)
      · exact Iff.rfl
  | _ => exact Iff.rfl

theorem IsDocMeaning.obeys (h : IsDocMeaning env resolve Sat) : Obeys env (Through resolve Sat) Sat :=
  fun d D v => (h d D v).trans (docRules_eq D)

theorem sense_obeys (env : Env) : Obeys env (Through (fun _ => none) (sense env)) (sense env) := IsDocMeaning.obeys (sense_meaning env)

theorem refRules_congr (hr : getKey "$ref" m = getKey "$ref" m') (hk : DKeywords env (Sat d) d m v ↔ DKeywords env (Sat d) d m' v) :
    RefRules env T Sat d (.obj m) v ↔ RefRules env T Sat d (.obj m') v := by
  unfold RefRules
  simp only
  rw [← hr]
  split
  · exact Iff.rfl
  · exact hk

variable (hS : Obeys env T Sat)
include hS

theorem sat_obj {m} (h : getKey "$ref" m = none) : Sat d (.obj m) v ↔ DKeywords env (Sat d) d m v := by
  rw [hS]; simp [RefRules, h]

theorem sat_all {Ds} : Sat d (all Ds) v ↔ ∀ D ∈ Ds, Sat d D v := by
  unfold all one; rw [sat_obj hS rfl]; dkw

theorem sat_any {Ds} (h : Ds ≠ []) : Sat d (any Ds) v ↔ ∃ D ∈ Ds, Sat d D v := by
  unfold any one; rw [sat_obj hS rfl]; dkw; simp [h]

theorem sat_neg {D} : Sat d (neg D) v ↔ ¬ Sat d D v := by
  unfold neg one; rw [sat_obj hS rfl]; dkw

theorem sat_oneOf {Ds} (h : Ds ≠ []) : Sat d (one "oneOf" (.arr Ds)) v ↔
    ∃ (k : Nat) (D : Json), Ds[k]? = some D ∧ Sat d D v ∧ ∀ (k' : Nat) (D' : Json), Ds[k']? = some D' → Sat d D' v → k' = k := by
  unfold one; rw [sat_obj hS rfl]; dkw; simp [h]

theorem sat_items {D} (hD : ∀ Ds, D ≠ .arr Ds) : Sat d (one "items" D) v ↔ ∀ xs, v = .arr xs → ∀ x ∈ xs, Sat d D x := by
  unfold one; rw [sat_obj hS rfl]
  cases D with
  | arr qs => exact absurd rfl (hD qs)
  | _ => dkw

theorem sat_tuple {Ds} : Sat d (one "items" (.arr Ds)) v ↔
    ∀ xs, v = .arr xs → ∀ (k : Nat) D x, Ds[k]? = some D → xs[k]? = some x → Sat d D x := by
  unfold one; rw [sat_obj hS rfl]; dkw

theorem sat_contains {D} (h : Draft6 ≤ d) : Sat d (one "contains" D) v ↔ ∀ xs, v = .arr xs → ∃ x ∈ xs, Sat d D x := by
  unfold one; rw [sat_obj hS rfl]; dkw; simp [h]

theorem sat_properties {ps} : Sat d (one "properties" (.obj ps)) v ↔
    ∀ kvs, v = .obj kvs → ∀ k D x, (k, D) ∈ ps → getKey k kvs = some x → Sat d D x := by
  unfold one; rw [sat_obj hS rfl]; dkw
  exact ⟨fun h kvs hv k D x h1 h2 => h kvs hv k D h1 x h2, fun h kvs hv k D h1 x h2 => h kvs hv k D x h1 h2⟩

theorem sat_patterns {ps} : Sat d (one "patternProperties" (.obj ps)) v ↔
    ∀ kvs, v = .obj kvs → ∀ q D k x, (q, D) ∈ ps → (k, x) ∈ kvs → env.reMatch q k = true → Sat d D x := by
  unfold one; rw [sat_obj hS rfl]; dkw
  exact ⟨fun h kvs hv q D k x h1 h2 => h kvs hv q D h1 k x h2, fun h kvs hv q D h1 k x h2 => h kvs hv q D k x h1 h2⟩

theorem sat_names {D} (h : Draft6 ≤ d) : Sat d (one "propertyNames" D) v ↔ ∀ kvs, v = .obj kvs → ∀ k ∈ keysOf kvs, Sat d D (.str k) := by
  unfold one; rw [sat_obj hS rfl]; dkw; simp [h]

theorem sat_rest {A} : Sat d (one "additionalProperties" (.obj A)) v ↔ ∀ kvs, v = .obj kvs → ∀ k x, (k, x) ∈ kvs → Sat d (.obj A) x := by
  unfold one; rw [sat_obj hS rfl]; dkw

theorem sat_need {qs} : Sat d (need qs) v ↔ ∀ kvs, v = .obj kvs → ∀ q ∈ qs, q ∈ keysOf kvs := by
  unfold need one; rw [sat_obj hS rfl]; dkw

theorem sat_enum {cs} (h : cs ≠ []) : Sat d (one "enum" (.arr cs)) v ↔ ∃ c ∈ cs, ValEq env v c := by
  unfold one; rw [sat_obj hS rfl]; dkw; simp [h]

theorem sat_const {c} (h : Draft6 ≤ d) : Sat d (one "const" c) v ↔ ValEq env v c := by
  unfold one; rw [sat_obj hS rfl]; dkw; simp [h]

theorem sat_type {t} : Sat d (one "type" (.str t)) v ↔ HasType env v t := by
  unfold one; rw [sat_obj hS rfl]; dkw

theorem sat_types {ts} (h : ts ≠ []) : Sat d (one "type" (.arr (ts.map .str))) v ↔ ∃ t ∈ ts, HasType env v t := by
  unfold one; rw [sat_obj hS rfl]; dkw; simp [h]

theorem sat_typeSet {xs} : Sat d (one "type" (.arr xs)) v ↔ xs = [] ∨ ∃ t, Json.str t ∈ xs ∧ HasType env v t := by
  unfold one; rw [sat_obj hS rfl]; dkw

theorem sat_requiredSet {xs} : Sat d (one "required" (.arr xs)) v ↔ ∀ kvs, v = .obj kvs → ∀ q, Json.str q ∈ xs → q ∈ keysOf kvs := by
  unfold one; rw [sat_obj hS rfl]; dkw

theorem sat_ite {I T E} (h : Draft7 ≤ d) : Sat d (.obj [("if", I), ("then", T), ("else", E)]) v ↔
    (Sat d I v → Sat d T v) ∧ (¬ Sat d I v → Sat d E v) := by
  rw [sat_obj hS rfl]; dkw; simp [h]

theorem sat_needs {k qs} : Sat d (one "dependencies" (.obj [(k, .arr qs)])) v ↔
    ∀ kvs, v = .obj kvs → k ∈ keysOf kvs → ∀ q, Json.str q ∈ qs → q ∈ keysOf kvs := by
  unfold one; rw [sat_obj hS rfl]; dkw
  exact ⟨fun h kvs hv hk => h _ kvs rfl hv k _ (List.mem_singleton.2 rfl) hk, by rintro h _ kvs rfl hv k' D hD hk; simp at hD; obtain ⟨rfl, rfl⟩ := hD; exact h kvs hv hk⟩

theorem sat_implies {k D} (hD : ∀ qs, D ≠ .arr qs) : Sat d (one "dependencies" (.obj [(k, D)])) v ↔
    ∀ kvs, v = .obj kvs → k ∈ keysOf kvs → Sat d D v := by
  unfold one; rw [sat_obj hS rfl]
  cases D with
  | arr qs => exact absurd rfl (hD qs)
  | _ =>
    dkw
    exact ⟨fun h kvs hv hk => h _ kvs rfl hv k _ (List.mem_singleton.2 rfl) hk, by
      rintro h _ kvs rfl hv k' D hD hk; simp at hD; obtain ⟨rfl, rfl⟩ := hD; exact h kvs hv hk⟩

theorem sat_has {k} : Sat d (.obj [("type", .str "object"), ("required", .arr [.str k])]) v ↔ ∃ kvs, v = .obj kvs ∧ k ∈ keysOf kvs := by
  rw [sat_obj hS rfl]; dkw
  rw [hasType_object]
  constructor
  · rintro ⟨⟨kvs, rfl⟩, h⟩; exact ⟨kvs, rfl, h kvs rfl⟩
  · rintro ⟨kvs, rfl, h⟩; exact ⟨⟨kvs, rfl⟩, by rintro _ ⟨⟩; exact h⟩

/-! Keywords given one by one. -/

end

theorem kw_append {a b : List (String × Json)} (h : (keysOf (a ++ b)).Nodup) (k : String) (x : Json) :
    Kw (a ++ b) k x ↔ Kw a k x ∨ Kw b k x := by
  have hd : ∀ k, k ∈ keysOf a → k ∉ keysOf b := by
    intro k h1 h2
    unfold keysOf at h h1 h2
    rw [List.map_append, List.nodup_append] at h
    exact h.2.2 k h1 k h2 rfl
  have e : getKey k (a ++ b) = (getKey k a).or (getKey k b) := by
    unfold getKey; exact List.lookup_append
  unfold Kw
  rw [e]
  cases ha : getKey k a with
  | none => simp
  | some y =>
    have hk : k ∈ keysOf a := List.mem_map.2 ⟨_, lookup_some_mem ha, rfl⟩
    have hb : getKey k b = none := by
      cases hb : getKey k b with
      | none => rfl
      | some z => exact absurd (List.mem_map.2 ⟨_, lookup_some_mem hb, rfl⟩) (hd k hk)
    simp [hb]

theorem kw_absent {a : List (String × Json)} {k : String} (h : k ∉ keysOf a) (x : Json) : Kw a k x ↔ False :=
  ⟨fun hx => h (List.mem_map.2 ⟨_, lookup_some_mem hx, rfl⟩), False.elim⟩

section
variable {env : Env} {sat : SatD} {d : Draft} {a b : List (String × Json)} {v : Json}

theorem dsize_append (hk : ∀ k x, Kw (a ++ b) k x ↔ Kw a k x ∨ Kw b k x) {mn mx n} :
    DSize (a ++ b) mn mx n ↔ DSize a mn mx n ∧ DSize b mn mx n := by
  simp only [DSize, hk, or_imp, forall_and]
  tauto

theorem ditems_append (hk : ∀ k x, Kw (a ++ b) k x ↔ Kw a k x ∨ Kw b k x) (h : Separate a b) :
    DItems sat (a ++ b) v ↔ DItems sat a v ∧ DItems sat b v := by
  rcases h ["items", "additionalItems"] (by decide) with h | h
  · have h1 := kw_absent (h "items" (by decide))
    have h2 := kw_absent (h "additionalItems" (by decide))
    simp only [DItems, hk, h1, h2, false_or, false_imp_iff, implies_true, true_and]
  · have h1 := kw_absent (h "items" (by decide))
    have h2 := kw_absent (h "additionalItems" (by decide))
    simp only [DItems, hk, h1, h2, or_false, false_imp_iff, implies_true, and_true]

theorem dif_append (hk : ∀ k x, Kw (a ++ b) k x ↔ Kw a k x ∨ Kw b k x) (h : Separate a b) :
    DIf sat d (a ++ b) v ↔ DIf sat d a v ∧ DIf sat d b v := by
  rcases h ["if", "then", "else"] (by decide) with h | h
  · have h1 := kw_absent (h "if" (by decide))
    have h2 := kw_absent (h "then" (by decide))
    have h3 := kw_absent (h "else" (by decide))
    simp only [DIf, hk, h1, h2, h3, false_or, false_imp_iff, implies_true, true_and]
  · have h1 := kw_absent (h "if" (by decide))
    have h2 := kw_absent (h "then" (by decide))
    have h3 := kw_absent (h "else" (by decide))
    simp only [DIf, hk, h1, h2, h3, or_false, false_imp_iff, implies_true, and_true]

theorem dobject_append (hk : ∀ k x, Kw (a ++ b) k x ↔ Kw a k x ∨ Kw b k x) (h : Separate a b) :
    DObject env sat d (a ++ b) v ↔ DObject env sat d a v ∧ DObject env sat d b v := by
  unfold DObject
  rw [← forall_and]
  refine forall_congr' fun kvs => ?_
  rw [← imp_and]
  refine forall_congr' fun _ => ?_
  rw [dsize_append hk]
  have r : (∀ qs, Kw (a ++ b) "required" (.arr qs) → ∀ q, Json.str q ∈ qs → q ∈ keysOf kvs) ↔
      (∀ qs, Kw a "required" (.arr qs) → ∀ q, Json.str q ∈ qs → q ∈ keysOf kvs) ∧
      (∀ qs, Kw b "required" (.arr qs) → ∀ q, Json.str q ∈ qs → q ∈ keysOf kvs) := by
    rw [← forall_and]; exact forall_congr' fun _ => by rw [hk, or_imp]
  have n : (Draft6 ≤ d → ∀ D, Kw (a ++ b) "propertyNames" D → ∀ k ∈ keysOf kvs, sat D (.str k)) ↔
      (Draft6 ≤ d → ∀ D, Kw a "propertyNames" D → ∀ k ∈ keysOf kvs, sat D (.str k)) ∧
      (Draft6 ≤ d → ∀ D, Kw b "propertyNames" D → ∀ k ∈ keysOf kvs, sat D (.str k)) := by
    rw [← imp_and]; refine forall_congr' fun _ => ?_
    rw [← forall_and]; exact forall_congr' fun _ => by rw [hk, or_imp]
  rw [r, n]
  rcases h ["properties", "patternProperties", "additionalProperties"] (by decide) with h | h
  · have h1 := kw_absent (h "properties" (by decide))
    have h2 := kw_absent (h "patternProperties" (by decide))
    have h3 := kw_absent (h "additionalProperties" (by decide))
    simp only [Additional, hk, h1, h2, h3, false_or, false_imp_iff, implies_true, true_and]
    tauto
  · have h1 := kw_absent (h "properties" (by decide))
    have h2 := kw_absent (h "patternProperties" (by decide))
    have h3 := kw_absent (h "additionalProperties" (by decide))
    simp only [Additional, hk, h1, h2, h3, or_false, false_imp_iff, implies_true, and_true, true_and]
    tauto

theorem darray_append (hk : ∀ k x, Kw (a ++ b) k x ↔ Kw a k x ∨ Kw b k x) :
    DArray env sat d (a ++ b) v ↔ DArray env sat d a v ∧ DArray env sat d b v := by
  unfold DArray
  rw [← forall_and]
  refine forall_congr' fun xs => ?_
  rw [← imp_and]
  refine forall_congr' fun _ => ?_
  rw [dsize_append hk]
  have n : (Draft6 ≤ d → ∀ D, Kw (a ++ b) "contains" D → ∃ x ∈ xs, sat D x) ↔
      (Draft6 ≤ d → ∀ D, Kw a "contains" D → ∃ x ∈ xs, sat D x) ∧ (Draft6 ≤ d → ∀ D, Kw b "contains" D → ∃ x ∈ xs, sat D x) := by
    rw [← imp_and]; refine forall_congr' fun _ => ?_
    rw [← forall_and]; exact forall_congr' fun _ => by rw [hk, or_imp]
  rw [n, hk, or_imp]
  tauto

theorem dstring_append (hk : ∀ k x, Kw (a ++ b) k x ↔ Kw a k x ∨ Kw b k x) :
    DString env (a ++ b) v ↔ DString env a v ∧ DString env b v := by
  unfold DString
  rw [← forall_and]
  refine forall_congr' fun xs => ?_
  rw [← imp_and]
  refine forall_congr' fun _ => ?_
  rw [dsize_append hk]
  have n : (∀ q, Kw (a ++ b) "pattern" (.str q) → env.reMatch q xs = true) ↔
      (∀ q, Kw a "pattern" (.str q) → env.reMatch q xs = true) ∧ (∀ q, Kw b "pattern" (.str q) → env.reMatch q xs = true) := by
    rw [← forall_and]; exact forall_congr' fun _ => by rw [hk, or_imp]
  rw [n]
  tauto

theorem dnumber_append (hk : ∀ k x, Kw (a ++ b) k x ↔ Kw a k x ∨ Kw b k x) (h : Separate a b) :
    DNumber env (a ++ b) v ↔ DNumber env a v ∧ DNumber env b v := by
  unfold DNumber
  rw [← forall_and]
  refine forall_congr' fun n => ?_
  rw [← imp_and]
  refine forall_congr' fun _ => ?_
  have g : ∀ (k : String) (P : NumLit → Prop), (∀ q, Kw (a ++ b) k (.num q) → P q) ↔ (∀ q, Kw a k (.num q) → P q) ∧ (∀ q, Kw b k (.num q) → P q) := by
    intro k P
    rw [← forall_and]; exact forall_congr' fun _ => by rw [hk, or_imp]
  rw [g "multipleOf", g "minimum", g "maximum", g "exclusiveMinimum", g "exclusiveMaximum"]
  have e1 : (∀ q, Kw (a ++ b) "minimum" (.num q) → Kw (a ++ b) "exclusiveMinimum" (.bool true) → q.val < n.val) ↔
      (∀ q, Kw a "minimum" (.num q) → Kw a "exclusiveMinimum" (.bool true) → q.val < n.val) ∧
      (∀ q, Kw b "minimum" (.num q) → Kw b "exclusiveMinimum" (.bool true) → q.val < n.val) := by
    rcases h ["minimum", "exclusiveMinimum"] (by decide) with h | h
    · simp only [hk, kw_absent (h "minimum" (by decide)), kw_absent (h "exclusiveMinimum" (by decide)), false_or, false_imp_iff, implies_true, true_and]
    · simp only [hk, kw_absent (h "minimum" (by decide)), kw_absent (h "exclusiveMinimum" (by decide)), or_false, false_imp_iff, implies_true, and_true]
  have e2 : (∀ q, Kw (a ++ b) "maximum" (.num q) → Kw (a ++ b) "exclusiveMaximum" (.bool true) → n.val < q.val) ↔
      (∀ q, Kw a "maximum" (.num q) → Kw a "exclusiveMaximum" (.bool true) → n.val < q.val) ∧
      (∀ q, Kw b "maximum" (.num q) → Kw b "exclusiveMaximum" (.bool true) → n.val < q.val) := by
    rcases h ["maximum", "exclusiveMaximum"] (by decide) with h | h
    · simp only [hk, kw_absent (h "maximum" (by decide)), kw_absent (h "exclusiveMaximum" (by decide)), false_or, false_imp_iff, implies_true, true_and]
    · simp only [hk, kw_absent (h "maximum" (by decide)), kw_absent (h "exclusiveMaximum" (by decide)), or_false, false_imp_iff, implies_true, and_true]
  rw [e1, e2]
  tauto

theorem dkeywords_append (hn : (keysOf (a ++ b)).Nodup) (h : Separate a b) :
    DKeywords env sat d (a ++ b) v ↔ DKeywords env sat d a v ∧ DKeywords env sat d b v := by
  have hk := kw_append hn
  have g : ∀ (k : String) (P : Json → Prop), (∀ x, Kw (a ++ b) k x → P x) ↔ (∀ x, Kw a k x → P x) ∧ (∀ x, Kw b k x → P x) := by
    intro k P
    rw [← forall_and]; exact forall_congr' fun _ => by rw [hk, or_imp]
  have ga : ∀ (k : String) (P : List Json → Prop), (∀ x, Kw (a ++ b) k (.arr x) → P x) ↔ (∀ x, Kw a k (.arr x) → P x) ∧ (∀ x, Kw b k (.arr x) → P x) := by
    intro k P
    rw [← forall_and]; exact forall_congr' fun _ => by rw [hk, or_imp]
  have gs : ∀ (k : String) (P : String → Prop), (∀ x, Kw (a ++ b) k (.str x) → P x) ↔ (∀ x, Kw a k (.str x) → P x) ∧ (∀ x, Kw b k (.str x) → P x) := by
    intro k P
    rw [← forall_and]; exact forall_congr' fun _ => by rw [hk, or_imp]
  have d1 : DType env (a ++ b) v ↔ DType env a v ∧ DType env b v := by
    unfold DType; rw [gs, ga]; tauto
  have d2 : DAnyOf sat (a ++ b) v ↔ DAnyOf sat a v ∧ DAnyOf sat b v := ga _ _
  have d3 : DOneOf sat (a ++ b) v ↔ DOneOf sat a v ∧ DOneOf sat b v := ga _ _
  have d4 : DAllOf sat (a ++ b) v ↔ DAllOf sat a v ∧ DAllOf sat b v := ga _ _
  have d5 : DNot sat (a ++ b) v ↔ DNot sat a v ∧ DNot sat b v := g _ _
  have d6 : DDependencies sat (a ++ b) v ↔ DDependencies sat a v ∧ DDependencies sat b v := by
    unfold DDependencies
    rw [← forall_and]; refine forall_congr' fun ds => ?_
    rw [← forall_and]; refine forall_congr' fun kvs => ?_
    rw [hk, or_imp]
  have d8 : DConst env d (a ++ b) v ↔ DConst env d a v ∧ DConst env d b v := by
    unfold DConst; rw [← imp_and]; exact forall_congr' fun _ => g _ _
  have d9 : DEnum env (a ++ b) v ↔ DEnum env a v ∧ DEnum env b v := ga _ _
  have d10 : DFormat env (a ++ b) v ↔ DFormat env a v ∧ DFormat env b v := gs _ _
  unfold DKeywords
  rw [d1, d2, d3, d4, d5, d6, dif_append hk h, d8, d9, d10, ditems_append hk h, darray_append hk, dobject_append hk h,
    dstring_append hk, dnumber_append hk h]
  constructor
  · rintro ⟨⟨a0, b0⟩, ⟨a1, b1⟩, ⟨a2, b2⟩, ⟨a3, b3⟩, ⟨a4, b4⟩, ⟨a5, b5⟩, ⟨a6, b6⟩, ⟨a7, b7⟩, ⟨a8, b8⟩, ⟨a9, b9⟩, ⟨a10, b10⟩, ⟨a11, b11⟩, ⟨a12, b12⟩, ⟨a13, b13⟩, ⟨a14, b14⟩⟩
    exact ⟨⟨a0, a1, a2, a3, a4, a5, a6, a7, a8, a9, a10, a11, a12, a13, a14⟩, b0, b1, b2, b3, b4, b5, b6, b7, b8, b9, b10, b11, b12, b13, b14⟩
  · rintro ⟨⟨a0, a1, a2, a3, a4, a5, a6, a7, a8, a9, a10, a11, a12, a13, a14⟩, b0, b1, b2, b3, b4, b5, b6, b7, b8, b9, b10, b11, b12, b13, b14⟩
    exact ⟨⟨a0, b0⟩, ⟨a1, b1⟩, ⟨a2, b2⟩, ⟨a3, b3⟩, ⟨a4, b4⟩, ⟨a5, b5⟩, ⟨a6, b6⟩, ⟨a7, b7⟩, ⟨a8, b8⟩, ⟨a9, b9⟩, ⟨a10, b10⟩, ⟨a11, b11⟩, ⟨a12, b12⟩, ⟨a13, b13⟩, ⟨a14, b14⟩⟩

end

/-! Laws. -/

theorem exactlyOne_iff {P : Json → Prop} [DecidablePred P] : ∀ (xs : List Json),
    (∃ (k : Nat) (D : Json), xs[k]? = some D ∧ P D ∧ ∀ (k' : Nat) (D' : Json), xs[k']? = some D' → P D' → k' = k) ↔ xs.countP (fun D => P D) = 1
  | [] => by simp
  | x :: xs => by
    by_cases hx : P x
    · rw [List.countP_cons_of_pos (by simpa using hx)]
      constructor
      · rintro ⟨k, D, h1, h2, h3⟩
        have hk : 0 = k := h3 0 x rfl hx
        subst hk
        have : xs.countP (fun D => P D) = 0 := by
          rw [List.countP_eq_zero]
          intro y hy hp
          obtain ⟨j, hj⟩ := List.getElem?_of_mem hy
          have := h3 (j + 1) y (by simpa using hj) (by simpa using hp)
          omega
        omega
      · intro h
        have h0 : xs.countP (fun D => P D) = 0 := by omega
        rw [List.countP_eq_zero] at h0
        refine ⟨0, x, rfl, hx, fun k' D' h1 h2 => ?_⟩
        cases k' with
        | zero => rfl
        | succ j => exact absurd (by simpa using h2) (h0 D' (List.mem_of_getElem? (by simpa using h1)))
    · rw [List.countP_cons_of_neg (by simpa using hx), ← exactlyOne_iff xs]
      constructor
      · rintro ⟨k, D, h1, h2, h3⟩
        cases k with
        | zero => cases h1; exact absurd h2 hx
        | succ k => exact ⟨k, D, by simpa using h1, h2, fun k' D' a b => by have := h3 (k' + 1) D' (by simpa using a) b; omega⟩
      · rintro ⟨k, D, h1, h2, h3⟩
        refine ⟨k + 1, D, by simpa using h1, h2, fun k' D' a b => ?_⟩
        cases k' with
        | zero => cases a; exact absurd b hx
        | succ k' => rw [h3 k' D' (by simpa using a) b]

section
variable {env : Env} {T : String → Json → Prop} {Sat : Draft → Json → Json → Prop} {d : Draft}

theorem getKey_notIn {k : String} {m : List (String × Json)} (h : k ∉ keysOf m) : getKey k m = none := by
  cases hk : getKey k m with
  | none => rfl
  | some x => exact absurd (List.mem_map.2 ⟨_, lookup_some_mem hk, rfl⟩) h

theorem law_sat (hS : Obeys env T Sat) {D D' : Json} (h : Law d D D') (v : Json) : Sat d D v ↔ Sat d D' v := by
  classical
  cases h with
  | single k m hk =>
    simp only [List.mem_cons, List.not_mem_nil, or_false] at hk
    rcases hk with rfl | rfl | rfl
    · exact (sat_all hS).trans (by simp)
    · exact (sat_any hS (by simp)).trans (by simp)
    · rw [sat_oneOf hS (by simp), exactlyOne_iff]
      by_cases hx : Sat d (.obj m) v <;> simp [hx]
  | notNot m => rw [sat_neg hS, sat_neg hS, Classical.not_not]
  | split a b hn hr hs =>
    rw [sat_all hS, sat_obj hS (getKey_notIn hr), dkeywords_append hn hs]
    simp only [List.mem_cons, List.not_mem_nil, or_false, forall_eq_or_imp, forall_eq]
    have ra : "$ref" ∉ keysOf a := fun h => hr (by unfold keysOf at *; rw [List.map_append]; exact List.mem_append_left _ h)
    have rb : "$ref" ∉ keysOf b := fun h => hr (by unfold keysOf at *; rw [List.map_append]; exact List.mem_append_right _ h)
    rw [sat_obj hS (getKey_notIn ra), sat_obj hS (getKey_notIn rb)]
  | notAny Ds hD =>
    rw [sat_neg hS, sat_any hS hD, sat_all hS]
    simp only [List.mem_map, forall_exists_index, and_imp, forall_apply_eq_imp_iff₂, sat_neg hS, not_exists, not_and]
  | notAll Ds hD =>
    rw [sat_neg hS, sat_all hS, sat_any hS (by simpa using hD)]
    simp only [List.mem_map, exists_exists_and_eq_and, sat_neg hS, not_forall, exists_prop]
  | set k xs ys hk h =>
    have he : xs = [] ↔ ys = [] := by
      simp only [List.eq_nil_iff_forall_not_mem, h]
    simp only [List.mem_cons, List.not_mem_nil, or_false] at hk
    rcases hk with rfl | rfl | rfl | rfl | rfl
    · exact (sat_all hS).trans ((by simp only [h] : _ ↔ _).trans (sat_all hS).symm)
    · by_cases hx : xs = []
      · rw [hx, he.1 hx]
      · exact (sat_any hS hx).trans ((by simp only [h] : _ ↔ _).trans (sat_any hS fun e => hx (he.2 e)).symm)
    · by_cases hx : xs = []
      · rw [hx, he.1 hx]
      · exact (sat_enum hS hx).trans ((by simp only [h] : _ ↔ _).trans (sat_enum hS fun e => hx (he.2 e)).symm)
    · rw [sat_typeSet hS, sat_typeSet hS, he]; simp only [h]
    · rw [sat_requiredSet hS, sat_requiredSet hS]; simp only [h]
  | perm xs ys h =>
    by_cases hx : xs = []
    · subst hx; rw [List.nil_perm.1 h]
    · rw [sat_oneOf hS hx, sat_oneOf hS (fun e => hx (by subst e; exact List.perm_nil.1 h)), exactlyOne_iff, exactlyOne_iff, h.countP_eq]
  | flatAll As Bs Cs =>
    rw [sat_all hS, sat_all hS]
    simp only [List.mem_append, List.mem_cons, or_imp, forall_and, forall_eq, sat_all hS]
    tauto
  | flatAny As Bs Cs hB =>
    rw [sat_any hS (by simp), sat_any hS (by simp [hB])]
    simp only [List.mem_append, List.mem_cons, or_and_right, exists_or, exists_eq_left, sat_any hS hB]
    rw [or_assoc]
  | distribute A Ds hD =>
    rw [sat_all hS, sat_any hS (by simpa using hD)]
    simp only [List.mem_map, exists_exists_and_eq_and, List.mem_cons, List.not_mem_nil, or_false, forall_eq_or_imp, forall_eq, sat_any hS hD, sat_all hS]
    constructor
    · rintro ⟨h1, D, h2, h3⟩; exact ⟨D, h2, h1, h3⟩
    · rintro ⟨D, h2, h1, h3⟩; exact ⟨h1, D, h2, h3⟩
  | absorb m B =>
    rw [sat_all hS]
    simp only [List.mem_cons, List.not_mem_nil, or_false, forall_eq_or_imp, forall_eq, exists_eq_or_imp, exists_eq_left, sat_any hS (List.cons_ne_nil _ _)]
    tauto
  | either A B =>
    rw [sat_oneOf hS (by simp), exactlyOne_iff, sat_any hS (by simp)]
    simp only [List.mem_cons, List.not_mem_nil, or_false, forall_eq_or_imp, forall_eq, exists_eq_or_imp, exists_eq_left, sat_all hS, sat_neg hS]
    by_cases hA : Sat d A v <;> by_cases hB : Sat d B v <;> simp [hA, hB]
  | ite I T E hd =>
    rw [sat_ite hS hd, sat_any hS (by simp)]
    simp only [List.mem_cons, List.not_mem_nil, or_false, forall_eq_or_imp, forall_eq, exists_eq_or_imp, exists_eq_left, sat_all hS, sat_neg hS]
    tauto
  | const c hd => rw [sat_const hS hd, sat_enum hS (by simp)]; simp
  | enum cs hc =>
    rw [sat_enum hS hc, sat_any hS (by simpa using hc)]
    simp only [List.mem_map, exists_exists_and_eq_and, sat_enum hS (List.cons_ne_nil _ _), List.mem_cons, List.not_mem_nil, or_false, exists_eq_left]
  | types ts ht =>
    rw [sat_types hS ht, sat_any hS (by simpa using ht)]
    simp only [List.mem_map, exists_exists_and_eq_and, sat_type hS]
  | required qs rs =>
    rw [sat_all hS]
    simp only [List.mem_append, List.mem_cons, List.not_mem_nil, or_false, forall_eq_or_imp, forall_eq, sat_need hS]
    constructor
    · exact fun h => ⟨fun kvs e q hq => h kvs e q (.inl hq), fun kvs e q hq => h kvs e q (.inr hq)⟩
    · exact fun h kvs e q hq => hq.elim (h.1 kvs e q) (h.2 kvs e q)
  | needs k qs =>
    rw [sat_needs hS, sat_any hS (by simp)]
    simp only [List.mem_cons, List.not_mem_nil, or_false, exists_eq_or_imp, exists_eq_left, sat_neg hS, sat_need hS, List.mem_map,
      forall_eq]
    constructor
    · intro h
      by_cases hk : ∀ kvs, v = .obj kvs → k ∈ keysOf kvs
      · exact .inr fun kvs e q hq => h kvs e (hk kvs e) q ⟨q, hq, rfl⟩
      · exact .inl hk
    · rintro (h | h) kvs rfl hk q ⟨q', hq, e⟩
      · exact absurd (by rintro _ ⟨⟩; exact hk) h
      · cases e; exact h kvs rfl q hq
  | implies k D hD =>
    rw [sat_implies hS hD, sat_any hS (by simp)]
    simp only [List.mem_cons, List.not_mem_nil, or_false, exists_eq_or_imp, exists_eq_left, sat_neg hS, sat_has hS]
    constructor
    · intro h
      by_cases hk : ∃ kvs, v = .obj kvs ∧ k ∈ keysOf kvs
      · obtain ⟨kvs, e, hk⟩ := hk; exact .inr (h kvs e hk)
      · exact .inl hk
    · rintro (h | h) kvs e hk
      · exact absurd ⟨kvs, e, hk⟩ h
      · exact h

theorem law_obj {D D' : Json} (h : Law d D D') : ∃ a b, D = .obj a ∧ D' = .obj b := by
  cases h <;> exact ⟨_, _, rfl, rfl⟩

theorem refactors_obj {D D' : Json} (h : Refactors d D D') : D = D' ∨ ∃ a b, D = .obj a ∧ D' = .obj b := by
  induction h with
  | refl => exact .inl rfl
  | law _ _ h => exact .inr (law_obj h)
  | symm _ _ _ ih => exact ih.elim (fun h => .inl h.symm) fun ⟨a, b, h1, h2⟩ => .inr ⟨b, a, h2, h1⟩
  | trans _ _ _ _ _ ih ih' =>
    rcases ih with rfl | ⟨a, b, h1, h2⟩
    · exact ih'
    · rcases ih' with rfl | ⟨a', b', h3, h4⟩
      · exact .inr ⟨a, b, h1, h2⟩
      · exact .inr ⟨a, b', h1, h4⟩
  | one => exact .inr ⟨_, _, rfl, rfl⟩
  | list => exact .inr ⟨_, _, rfl, rfl⟩
  | map => exact .inr ⟨_, _, rfl, rfl⟩

theorem refactors_sat (hS : Obeys env T Sat) {D D' : Json} (h : Refactors d D D') : ∀ v, Sat d D v ↔ Sat d D' v := by
  have like : ∀ {D D' : Json}, Refactors d D D' → (∀ v, Sat d D v ↔ Sat d D' v) → SaysLike (Eqv (Sat d)) D D' := by
    intro D D' h ih
    rcases refactors_obj h with rfl | ⟨a, b, h1, h2⟩
    · exact .inl rfl
    · exact .inr ⟨a, b, h1, h2, ih⟩
  induction h with
  | refl => exact fun _ => Iff.rfl
  | law _ _ h => exact law_sat hS h
  | symm _ _ _ ih => exact fun v => (ih v).symm
  | trans _ _ _ _ _ ih ih' => exact fun v => (ih v).trans (ih' v)
  | one a b k D D' hk h ih =>
    intro v
    have hn := near_hole (a := a) (b := b) (.schema _ _ hk (like h ih))
    rw [hS, hS]
    exact refRules_congr (hn.same _ (by decide)) ⟨dkeywords_near hn, dkeywords_near (hn.symm eqv_symm)⟩
  | list a b k xs ys D D' hk h ih =>
    intro v
    have hn := near_hole (a := a) (b := b) (.list _ _ hk (listLike_hole (xs := xs) (ys := ys) (like h ih)))
    rw [hS, hS]
    exact refRules_congr (hn.same _ (by decide)) ⟨dkeywords_near hn, dkeywords_near (hn.symm eqv_symm)⟩
  | map a b k xs ys q D D' hk h ih =>
    intro v
    have hn := near_hole (a := a) (b := b) (.map _ _ hk (mapLike_hole (xs := xs) (ys := ys) (q := q) (like h ih)))
    rw [hS, hS]
    exact refRules_congr (hn.same _ (by decide)) ⟨dkeywords_near hn, dkeywords_near (hn.symm eqv_symm)⟩

end

/-- A part of a document without references, if it has a verdict. -/
theorem says_part {w : World} {d : Draft} {E D v : Json} (hE : E.WF) (hn : NoRef E) (hp : Within E D) (h : ∃ b, Says w d D v b) :
    sense w.env d D v ↔ Says w d D v true := by
  obtain ⟨b, hb⟩ := h
  have k := says_sense (wf_within hp hE) (noRef_within hn hp) hb
  constructor
  · intro hs
    rw [← k] at hs
    exact hs ▸ hb
  · intro ht
    exact (says_sense (wf_within hp hE) (noRef_within hn hp) ht).1 rfl

theorem within_list {k : String} {Ds : List Json} {D : Json} (h : D ∈ Ds) : Within (one k (.arr Ds)) D :=
  .member _ k _ _ (List.mem_singleton.2 rfl) (.elem _ _ _ h (.self _))

theorem within_one {k : String} {D : Json} : Within (one k D) D := .member _ k _ _ (List.mem_singleton.2 rfl) (.self _)

theorem within_map {k q : String} {ps : List (String × Json)} {D : Json} (h : (q, D) ∈ ps) : Within (one k (.obj ps)) D :=
  .member _ k _ _ (List.mem_singleton.2 rfl) (.member _ q _ _ h (.self _))

end GJS

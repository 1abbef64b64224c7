import Verif.LemRoot
import Verif.LemTotal
import Verif.LemAccept
import Verif.SpecDraft
/-
Helper lemmas: what the keyword rules depend on.
-/
namespace GJS
open Spec

/-- The keyword rules look at sub-schemas only through `sat`. -/
theorem dkeywords_sat {env : Env} {sat sat' : SatD} {d : Draft} {m : List (String × Json)} {v : Json}
    (h : ∀ D, SubSchema d m D → ∀ v, sat D v ↔ sat' D v) (hk : DKeywords env sat d m v) : DKeywords env sat' d m v := by
  obtain ⟨h1, h2, h3, h4, h5, h6, h7, h8, h9, h10, h11, h12, h13, h14, h15⟩ := hk
  refine ⟨h1, ?_, ?_, ?_, ?_, ?_, ?_, h8, h9, h10, ?_, ?_, ?_, h14, h15⟩
  · intro Ds e
    rcases h2 Ds e with h2 | ⟨D, hD, h2⟩
    · exact .inl h2
    · exact .inr ⟨D, hD, (h D (.anyOf Ds D e hD) v).1 h2⟩
  · intro Ds e
    rcases h3 Ds e with h3 | ⟨k, D, hD, h3, h3'⟩
    · exact .inl h3
    · refine .inr ⟨k, D, hD, (h D (.oneOf Ds D e (List.mem_of_getElem? hD)) v).1 h3, ?_⟩
      intro k' D' hD' hs
      exact h3' k' D' hD' ((h D' (.oneOf Ds D' e (List.mem_of_getElem? hD')) v).2 hs)
  · intro Ds e D hD; exact (h D (.allOf Ds D e hD) v).1 (h4 Ds e D hD)
  · intro D e hs; exact h5 D e ((h D (.not D e) v).2 hs)
  · intro ds kvs e hv k D hD hk
    have := h6 ds kvs e hv k D hD hk
    cases D with
    | arr qs => exact this
    | _ => exact (h _ (.dependency ds k _ e hD (by simp)) v).1 this
  · intro hd I e
    obtain ⟨a, b⟩ := h7 hd I e
    refine ⟨fun T eT hs => ?_, fun E eE hs => ?_⟩
    · exact (h T (.then_ T hd eT) v).1 (a T eT ((h I (.if_ I hd e) v).2 hs))
    · exact (h E (.else_ E hd eE) v).1 (b E eE (fun hs' => hs ((h I (.if_ I hd e) v).1 hs')))
  · intro xs I hv e
    have := h11 xs I hv e
    cases I with
    | arr Ds =>
      refine ⟨fun k D x hD hx => (h D (.item Ds D e (List.mem_of_getElem? hD)) x).1 (this.1 k D x hD hx), fun hne => ?_⟩
      refine ⟨(this.2 hne).1, fun A eA k x hk hx => (h _ (.additionalItems A eA) x).1 ((this.2 hne).2 A eA k x hk hx)⟩
    | _ => exact fun x hx => (h _ (.items _ e (by simp)) x).1 (this x hx)
  · intro xs hv
    obtain ⟨a, b, c⟩ := h12 xs hv
    refine ⟨a, b, fun hd D e => ?_⟩
    obtain ⟨x, hx, hs⟩ := c hd D e
    exact ⟨x, hx, (h D (.contains D hd e) x).1 hs⟩
  · intro kvs hv
    obtain ⟨a1, a2, a3, a4, a5, a6, a7⟩ := h13 kvs hv
    refine ⟨a1, a2, ?_, ?_, a5, ?_, ?_⟩
    · intro ps e k D hD x hx; exact (h D (.property ps k D e hD) x).1 (a3 ps e k D hD x hx)
    · intro ps e q D hD k x hx hm; exact (h D (.pattern ps q D e hD) x).1 (a4 ps e q D hD k x hx hm)
    · intro A e k x hx hA; exact (h _ (.additional A e) x).1 (a6 A e k x hx hA)
    · intro hd D e k hk; exact (h D (.name D hd e) _).1 (a7 hd D e k hk)

theorem subSchema_within {d : Draft} {m : List (String × Json)} {D : Json} (h : SubSchema d m D) : Within (.obj m) D := by
  have g : ∀ {k v x}, Kw m k v → Within v x → Within (.obj m) x := fun hk hw => .member _ _ _ _ (lookup_some_mem hk) hw
  cases h with
  | property ps k _ e hD => exact g e (.member _ _ _ _ hD (.self _))
  | pattern ps k _ e hD => exact g e (.member _ _ _ _ hD (.self _))
  | additional A e => exact g e (.self _)
  | name _ _ e => exact g e (.self _)
  | dependency ps k _ e hD => exact g e (.member _ _ _ _ hD (.self _))
  | items _ e => exact g e (.self _)
  | item Ds _ e hD => exact g e (.elem _ _ _ hD (.self _))
  | additionalItems A e => exact g e (.self _)
  | contains _ _ e => exact g e (.self _)
  | oneOf Ds _ e hD => exact g e (.elem _ _ _ hD (.self _))
  | anyOf Ds _ e hD => exact g e (.elem _ _ _ hD (.self _))
  | allOf Ds _ e hD => exact g e (.elem _ _ _ hD (.self _))
  | not _ e => exact g e (.self _)
  | if_ _ _ e => exact g e (.self _)
  | then_ _ _ e => exact g e (.self _)
  | else_ _ _ e => exact g e (.self _)

theorem noRef_within {D x : Json} (h : NoRef D) (hw : Within D x) : NoRef x := by
  induction hw with
  | self => exact h
  | elem xs y x hy _ ih => exact ih (noRef_arr h hy)
  | member m k y x hy _ ih => exact ih (noRef_obj h hy)

/-- The meaning of a document without references does not depend on what references stand for. -/
theorem docUnfold_noRef {env : Env} {res res' : String → Option (Draft × Json)} {P : Draft → Json → Json → Prop} :
    ∀ (n : Nat) (d : Draft) (D : Json), NoRef D → ∀ v, docUnfold env res P n d D v ↔ docUnfold env res' P n d D v
  | 0, _, _, _, _ => Iff.rfl
  | n + 1, d, D, hD, v => by
    cases D with
    | obj m =>
      simp only [docUnfold, DocRules, noRef_get hD rfl]
      have ih := fun D (hs : SubSchema d m D) => docUnfold_noRef (env := env) (res := res) (res' := res') (P := P) n d D (noRef_within hD (subSchema_within hs))
      exact ⟨dkeywords_sat ih, dkeywords_sat fun D hs v => (ih D hs v).symm⟩
    | _ => exact Iff.rfl

/-- Keywords the draft does not have play no role in the rules. -/
theorem dkeywords_gated {env : Env} {sat : SatD} {d : Draft} {m m' : List (String × Json)} {v : Json}
    (h : ∀ k, ¬ Gated d k → getKey k m = getKey k m') : DKeywords env sat d m v ↔ DKeywords env sat d m' v := by
  have e6 : Draft6 ≤ d → ∀ k, (k = "const" ∨ k = "contains" ∨ k = "propertyNames") → getKey k m = getKey k m' := by
    intro hd k hk
    apply h
    rintro (⟨h1, _⟩ | ⟨h1, h2⟩)
    · exact absurd hd (by show ¬ _ ≤ _; exact Int.not_le.2 h1)
    · rcases hk with rfl | rfl | rfl <;> simp at h2
  have e7 : Draft7 ≤ d → ∀ k, (k = "if" ∨ k = "then" ∨ k = "else") → getKey k m = getKey k m' := by
    intro hd k hk
    apply h
    rintro (⟨h1, h2⟩ | ⟨h1, h2⟩)
    · rcases hk with rfl | rfl | rfl <;> simp at h2
    · exact absurd hd (by show ¬ _ ≤ _; exact Int.not_le.2 h1)
  have e : ∀ k, (k ∉ ["const", "contains", "propertyNames", "if", "then", "else"]) → getKey k m = getKey k m' := by
    intro k hk
    apply h
    simp at hk
    rintro (⟨_, h2⟩ | ⟨_, h2⟩) <;> simp [hk] at h2
  have a1 := e "type" (by simp)
  have a2 := e "anyOf" (by simp)
  have a3 := e "oneOf" (by simp)
  have a4 := e "allOf" (by simp)
  have a5 := e "not" (by simp)
  have a6 := e "dependencies" (by simp)
  have a7 := e "enum" (by simp)
  have a8 := e "format" (by simp)
  have a9 := e "items" (by simp)
  have a10 := e "additionalItems" (by simp)
  have a11 := e "minItems" (by simp)
  have a12 := e "maxItems" (by simp)
  have a13 := e "uniqueItems" (by simp)
  have a14 := e "minProperties" (by simp)
  have a15 := e "maxProperties" (by simp)
  have a16 := e "required" (by simp)
  have a17 := e "properties" (by simp)
  have a18 := e "patternProperties" (by simp)
  have a19 := e "additionalProperties" (by simp)
  have a20 := e "minLength" (by simp)
  have a21 := e "maxLength" (by simp)
  have a22 := e "pattern" (by simp)
  have a23 := e "multipleOf" (by simp)
  have a24 := e "minimum" (by simp)
  have a25 := e "maximum" (by simp)
  have a26 := e "exclusiveMinimum" (by simp)
  have a27 := e "exclusiveMaximum" (by simp)
  have hif : DIf sat d m v ↔ DIf sat d m' v := by
    unfold DIf Kw
    refine imp_congr_right fun hd => ?_
    rw [e7 hd "if" (by simp), e7 hd "then" (by simp), e7 hd "else" (by simp)]
  have hc : DConst env d m v ↔ DConst env d m' v := by
    unfold DConst Kw
    refine imp_congr_right fun hd => ?_
    rw [e6 hd "const" (by simp)]
  have har : DArray env sat d m v ↔ DArray env sat d m' v := by
    unfold DArray DSize Kw
    rw [a11, a12, a13]
    refine forall_congr' fun xs => imp_congr_right fun _ => and_congr_right fun _ => and_congr_right fun _ => ?_
    refine imp_congr_right fun hd => ?_
    rw [e6 hd "contains" (by simp)]
  have hob : DObject env sat d m v ↔ DObject env sat d m' v := by
    unfold DObject Additional DSize Kw
    rw [a14, a15, a16, a17, a18, a19]
    refine forall_congr' fun xs => imp_congr_right fun _ => and_congr_right fun _ => and_congr_right fun _ =>
      and_congr_right fun _ => and_congr_right fun _ => and_congr_right fun _ => and_congr_right fun _ => ?_
    refine imp_congr_right fun hd => ?_
    rw [e6 hd "propertyNames" (by simp)]
  unfold DKeywords
  rw [hif, hc, har, hob]
  unfold DType DAnyOf DOneOf DAllOf DNot DDependencies DEnum DFormat DItems DString DNumber DSize Kw
  rw [a1, a2, a3, a4, a5, a6, a7, a8, a9, a10, a20, a21, a22, a23, a24, a25, a26, a27]

end GJS

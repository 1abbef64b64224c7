import Verif.SpecRefLoader
import Verif.PropText
/-
Lemmas on reference loaders.
-/
namespace GJS.Ref
open GJS Text Spec
open GJS.Io (Bytes)

theorem ascii_percent : ascii "%" = [0x25] := by decide
theorem ascii_plus : ascii "+" = [0x2B] := by decide
theorem ascii_space : ascii " " = [0x20] := by decide
theorem ascii_both : ascii "%+" = [0x25, 0x2B] := by decide
theorem ascii_slash : ascii "/" = [0x2F] := by decide
theorem ascii_backslash : ascii "\\" = [0x5C] := by decide

theorem unescape_sound : ∀ (k : Nat) (s t : Bytes), s.length ≤ k → queryUnescape s = some t → Unescapes s t
  | _, [], t, _, h => by simp only [queryUnescape, Option.some.injEq] at h; subst h; exact .nil
  | 0, _ :: _, _, hk, _ => by simp at hk
  | k + 1, c :: r, t, hk, h => by
    simp only [List.length_cons, Nat.add_le_add_iff_right] at hk
    unfold queryUnescape at h
    by_cases hc : c = 0x25
    · subst hc
      simp only [if_true] at h
      match r, h, hk with
      | [], h, _ => simp at h
      | [_], h, _ => simp at h
      | a :: b :: r', h, hk =>
        simp only at h
        cases ha : hexVal? a with
        | none => simp [ha] at h
        | some x =>
          cases hb : hexVal? b with
          | none => simp [ha, hb] at h
          | some y =>
            simp only [ha, hb, Option.map_eq_some_iff] at h
            obtain ⟨u, hu, rfl⟩ := h
            have := unescape_sound k r' u (by simp at hk; omega) hu
            have e := Unescapes.hex a b x y r' u (hexVal?_some.1 ha) (hexVal?_some.1 hb) this
            rwa [ascii_percent] at e
    · rw [if_neg hc] at h
      by_cases hp : c = 0x2B
      · subst hp
        simp only [if_true, Option.map_eq_some_iff] at h
        obtain ⟨u, hu, rfl⟩ := h
        have e := Unescapes.plus r u (unescape_sound k r u hk hu)
        rwa [ascii_plus, ascii_space] at e
      · rw [if_neg hp, Option.map_eq_some_iff] at h
        obtain ⟨u, hu, rfl⟩ := h
        exact .same c r u (by rw [ascii_both]; simp [hc, hp]) (unescape_sound k r u hk hu)

theorem unescape_iff {s t : Bytes} : queryUnescape s = some t ↔ Unescapes s t := by
  refine ⟨unescape_sound _ s t (Nat.le_refl _), fun h => ?_⟩
  induction h with
  | nil => rfl
  | hex a b i j s t ha hb _ ih =>
    rw [ascii_percent]
    simp [queryUnescape, hexVal?_some.2 ha, hexVal?_some.2 hb, ih]
  | plus s t _ ih =>
    rw [ascii_plus, ascii_space, List.singleton_append, List.singleton_append]
    unfold queryUnescape
    simp [ih]
  | same c s t hc _ ih =>
    rw [ascii_both] at hc
    simp only [List.mem_cons, List.not_mem_nil, or_false, not_or] at hc
    unfold queryUnescape
    simp [hc.1, hc.2, ih]

theorem trimPrefix_iff {x s p : Bytes} : trimPrefix x s = p ↔ Without x s p := by
  unfold trimPrefix Without
  by_cases h : x <+: s
  · rw [if_pos (List.isPrefixOf_iff_prefix.2 h)]
    obtain ⟨r, rfl⟩ := h
    simp [eq_comm]
  · rw [if_neg (fun h' => h (List.isPrefixOf_iff_prefix.1 h'))]
    constructor
    · rintro rfl; exact .inr ⟨h, rfl⟩
    · rintro (rfl | ⟨_, rfl⟩)
      · exact absurd (List.prefix_append _ _) h
      · rfl

theorem fromSlash_iff {s t : Bytes} : fromSlash s = t ↔ Backslashed s t := by
  unfold fromSlash Backslashed
  rw [ascii_slash, ascii_backslash]
  constructor
  · rintro rfl
    refine ⟨by simp, fun k a b ha hb => ?_⟩
    rw [List.getElem?_map, ha, Option.map_some, Option.some.injEq] at hb
    subst hb
    by_cases h : a = 0x2F <;> simp [h]
  · rintro ⟨hl, h⟩
    refine List.ext_getElem (by simpa using hl) fun k h1 h2 => ?_
    rw [List.getElem_map]
    have := h k _ _ (List.getElem?_eq_getElem (by simpa using h1)) (List.getElem?_eq_getElem h2)
    by_cases hs : s[k]'(by simpa using h1) = 0x2F
    · rw [if_pos hs]; exact (List.mem_singleton.1 (this.1 (by simp [hs]))).symm
    · rw [if_neg hs]; exact (this.2 (by simpa using hs)).symm

theorem fileName_iff {win : Bool} {u name : Bytes} : fileName win u = some name ↔ FileNamed win u name := by
  unfold fileName FileNamed
  constructor
  · intro h
    cases hq : queryUnescape (trimPrefix (ascii "file://") u) with
    | none => simp [hq] at h
    | some t =>
      simp only [hq, Option.some.injEq] at h
      refine ⟨_, t, trimPrefix_iff.1 rfl, unescape_iff.1 hq, ?_⟩
      cases win with
      | true =>
        simp only [if_true] at h ⊢
        exact ⟨_, trimPrefix_iff.1 rfl, fromSlash_iff.1 h⟩
      | false => simpa using h.symm
  · rintro ⟨p, t, hp, ht, h⟩
    rw [trimPrefix_iff.2 hp, unescape_iff.2 ht]
    cases win with
    | true =>
      simp only [if_true] at h ⊢
      obtain ⟨q, hq, hn⟩ := h
      rw [trimPrefix_iff.2 hq, fromSlash_iff.2 hn]
    | false => simpa using h.symm

theorem readBytes_iff {s : Source} {D : Json} : readBytes s = .ok D ↔ s.fails = false ∧ StartsWith s.bytes D := by
  unfold readBytes StartsWith
  rw [← C54_decode]
  cases hf : s.fails with
  | true => simp
  | false => cases decode maxDepth s.bytes <;> simp [Except.mapError]

theorem metaSchema_embedded {u : String} : getMetaSchema u ≠ "" ↔ u ∈ embedded.map Prod.fst := by
  unfold getMetaSchema drafts embedded
  simp only [List.find?_cons, List.find?_nil, List.map_cons, List.map_nil, List.mem_cons, List.not_mem_nil, or_false]
  by_cases h4 : u = "http://json-schema.org/draft-04/schema"
  · subst h4; simp [metaSchema4]
  by_cases h6 : u = "http://json-schema.org/draft-06/schema"
  · subst h6; simp [metaSchema6]
  by_cases h7 : u = "http://json-schema.org/draft-07/schema"
  · subst h7; simp [metaSchema7]
  simp [h4, h6, h7, Ne.symm h4, Ne.symm h6, Ne.symm h7, beq_eq_false_iff_ne.2]

theorem embedded_decode {u : String} {D : Json} (h : u ∈ embedded.map Prod.fst) :
    decode maxDepth (utf8 (getMetaSchema u)) = .ok D ↔ (u, D) ∈ embedded := by
  have e4 : decode maxDepth (utf8 (getMetaSchema "http://json-schema.org/draft-04/schema")) = .ok Meta.draft4 := C54_draft4
  have e6 : decode maxDepth (utf8 (getMetaSchema "http://json-schema.org/draft-06/schema")) = .ok Meta.draft6 := C54_draft6
  have e7 : decode maxDepth (utf8 (getMetaSchema "http://json-schema.org/draft-07/schema")) = .ok Meta.draft7 := C54_draft7
  simp only [embedded, List.map_cons, List.map_nil, List.mem_cons, List.not_mem_nil, or_false] at h
  rcases h with rfl | rfl | rfl
  · rw [e4]; simp [embedded, eq_comm]
  · rw [e6]; simp [embedded, eq_comm]
  · rw [e7]; simp [embedded, eq_comm]

end GJS.Ref

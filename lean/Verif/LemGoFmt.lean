import Verif.LemGoTwice
/-
Helper lemmas: printing of numbers; the second text `marshalWithoutNumber` writes.
-/
namespace GJS
open Spec Go Text Io

/-! ### Printed numbers -/

/-- Bytes of numbers. -/
def NumByte (b : UInt8) : Prop := b ∈ ascii "0123456789-+.eE"

theorem digit_numByte (d : Fin 10) : NumByte (digitByte d) := by revert d; unfold NumByte; decide

theorem digits_numByte {t ds} (h : Digits t ds) : ∀ b ∈ t, NumByte b := by
  subst h
  intro b hb
  obtain ⟨d, _, rfl⟩ := List.mem_map.1 hb
  exact digit_numByte d

theorem number_bytes {t n} (h : NumText t n) : ∀ b ∈ t, NumByte b := by
  obtain ⟨s, i, f, x, rfl, hs, ⟨d, ds, hi, _, _⟩, hf, hx⟩ := h
  intro b hb
  simp only [List.mem_append] at hb
  rcases hb with ((hb | hb) | hb) | hb
  · subst hs
    split at hb
    · rw [ascii_minus] at hb; rw [List.mem_singleton.1 hb]; unfold NumByte; decide
    · cases hb
  · exact digits_numByte hi b hb
  · rcases hf with ⟨rfl, _⟩ | ⟨t', rfl, _, ht'⟩
    · cases hb
    · rcases List.mem_append.1 hb with hb | hb
      · rw [ascii_dot] at hb; rw [List.mem_singleton.1 hb]; unfold NumByte; decide
      · exact digits_numByte ht' b hb
  · rcases hx with ⟨rfl, _⟩ | ⟨l, s, t', ds, hl, rfl, _, ht', hs⟩
    · cases hb
    · simp only [List.mem_append] at hb
      rcases hb with (hb | hb) | hb
      · rcases hl with rfl | rfl
        · rw [ascii_e] at hb; rw [List.mem_singleton.1 hb]; unfold NumByte; decide
        · rw [ascii_E] at hb; rw [List.mem_singleton.1 hb]; unfold NumByte; decide
      · rcases hs with ⟨rfl | rfl, _⟩ | ⟨rfl, _⟩
        · cases hb
        · rw [ascii_plus] at hb; rw [List.mem_singleton.1 hb]; unfold NumByte; decide
        · rw [ascii_minus] at hb; rw [List.mem_singleton.1 hb]; unfold NumByte; decide
      · exact digits_numByte ht' b hb

theorem numByte_char {b} (h : NumByte b) : ∃ c : Char, utf8Char c = [b] := by
  unfold NumByte ascii at h
  obtain ⟨c, hc, rfl⟩ := List.mem_map.1 h
  refine ⟨c, ?_⟩
  have : ∀ c ∈ "0123456789-+.eE".toList, utf8Char c = [UInt8.ofNat c.toNat] := by decide
  exact this c hc

theorem bytes_string : ∀ t : List UInt8, (∀ b ∈ t, NumByte b) → ∃ s : String, utf8 s = t
  | [], _ => ⟨"", rfl⟩
  | b :: t, h => by
    obtain ⟨s, hs⟩ := bytes_string t fun x hx => h x (by simp [hx])
    obtain ⟨c, hc⟩ := numByte_char (h b (by simp))
    refine ⟨String.ofList (c :: s.toList), ?_⟩
    unfold utf8 at hs ⊢
    rw [String.toList_ofList, List.flatMap_cons, hc, hs]
    rfl

theorem number_string (n : NumLit) : ∃ s : String, NumText (utf8 s) n := by
  obtain ⟨t, ht⟩ := number_exists n
  obtain ⟨s, rfl⟩ := bytes_string t (number_bytes ht)
  exact ⟨s, ht⟩

/-- There is such a library. -/
theorem prints_exists : ∃ lib, Prints lib := by
  refine ⟨⟨fun n => (number_string n).choose, fun i => (number_string ⟨decide (i < 0), i.natAbs, [], none⟩).choose,
    fun f => open Classical in if h : IsF64 f then (number_string h.choose).choose else ""⟩, ?_, ?_, ?_⟩
  · exact fun n => (number_string n).choose_spec
  · exact fun i => (number_string _).choose_spec
  · intro f hf
    refine ⟨hf.choose, ?_, hf.choose_spec⟩
    simp only [hf, dif_pos]
    exact (number_string _).choose_spec

theorem low_char {c : Char} (h : ∀ b ∈ utf8Char c, NumByte b) : numChar c = Bool.true ∨ c = 'E' := by
  have hlow : ∀ b, NumByte b → b.toNat < 128 := by
    intro b hb
    unfold NumByte at hb
    have : ∀ b ∈ ascii "0123456789-+.eE", b.toNat < 128 := by decide
    exact this b hb
  by_cases h1 : c.toNat < 0x80
  · have hb := h (UInt8.ofNat c.toNat) (by unfold utf8Char; rw [if_pos h1]; simp)
    unfold NumByte ascii at hb
    obtain ⟨c', hc', e⟩ := List.mem_map.1 hb
    have h2 : ∀ c ∈ "0123456789-+.eE".toList, c.toNat < 128 ∧ (numChar c = Bool.true ∨ c = 'E') := by decide
    obtain ⟨h3, h4⟩ := h2 c' hc'
    have e' := congrArg UInt8.toNat e
    rw [ofNat_toNat (by omega), ofNat_toNat (by omega)] at e'
    have : c' = c := Char.ext (UInt32.toNat.inj e')
    rw [← this]
    exact h4
  · exfalso
    unfold utf8Char at h
    rw [if_neg h1] at h
    have hc : c.toNat < 0x110000 := by
      have := c.valid
      unfold UInt32.isValidChar Nat.isValidChar at this
      unfold Char.toNat
      omega
    split at h
    · have := hlow _ (h _ List.mem_cons_self)
      rw [ofNat_toNat (by omega)] at this
      omega
    · split at h
      · have := hlow _ (h _ List.mem_cons_self)
        rw [ofNat_toNat (by omega)] at this
        omega
      · have := hlow _ (h _ List.mem_cons_self)
        rw [ofNat_toNat (by omega)] at this
        omega

/-! ### The second text -/

theorem sameVal_symm {v v'} (h : SameVal v v') : SameVal v' v := by
  induction h with
  | null => exact .null
  | bool => exact .bool _
  | num m n e => exact .num _ _ e.symm
  | str => exact .str _
  | arr xs ys hl _ ih => exact .arr _ _ hl.symm fun k x y hx hy => ih k y x hy hx
  | obj a b hp _ ih => exact .obj _ _ (fun k => (hp k).symm) fun k x y hx hy => ih k y x hy hx

theorem sameVal_nested {v v'} (h : SameVal v v') (hw : v'.WF) : ∀ {d}, Nested d v → Nested d v' := by
  induction h with
  | null => intros; exact .null _
  | bool => intros; exact .bool _ _
  | num => intros; exact .num _ _
  | str => intros; exact .str _ _
  | arr xs ys hl _ ih =>
    intro d hd
    cases hd with | arr d _ hd => ?_
    cases hw with | arr _ hw => ?_
    refine .arr _ _ fun g hg => ?_
    obtain ⟨k, hk⟩ := List.mem_iff_getElem?.1 hg
    have hlt : k < xs.length := by rw [hl]; exact (List.getElem?_eq_some_iff.1 hk).1
    exact ih k xs[k] g (List.getElem?_eq_getElem hlt) hk (hw _ hg) (hd _ (List.getElem_mem hlt))
  | obj a b hp _ ih =>
    intro d hd
    cases hd with | obj d _ hd => ?_
    cases hw with | obj _ _ hw => ?_
    refine .obj _ _ fun e he => ?_
    obtain ⟨q, hq, hk⟩ := List.mem_map.1 ((hp e.1).2 (List.mem_map_of_mem he))
    exact ih e.1 q.2 e.2 (by rw [← hk]; exact hq) he (hw _ he) (hd _ hq)

theorem ofCanonL_eq : ∀ xs : List Canon, ofCanonL xs = xs.map ofCanon
  | [] => rfl
  | x :: xs => by simp [ofCanonL, ofCanonL_eq xs]

theorem ofCanonKV_eq : ∀ xs : List (String × Canon), ofCanonKV xs = xs.map fun e => (e.1, ofCanon e.2)
  | [] => rfl
  | (k, x) :: xs => by simp [ofCanonKV, ofCanonKV_eq xs]

theorem ofCanon_proper {v : Json} (h : v.WF) : ∀ {c}, canon v = some c → Proper (ofCanon c) := by
  induction h with
  | null => intro c h; simp [canon] at h; subst h; exact .nil
  | bool => intro c h; simp [canon] at h; subst h; exact .bool _
  | str => intro c h; simp [canon] at h; subst h; exact .str _
  | num n =>
    intro c h
    simp only [canon, Option.map_eq_some_iff] at h
    obtain ⟨f, hf, rfl⟩ := h
    exact .float _ ⟨n, hf⟩
  | arr xs _ ih =>
    intro c h
    simp only [canon, Option.map_eq_some_iff] at h
    obtain ⟨cs, hcs, rfl⟩ := h
    simp only [ofCanon, ofCanonL_eq]
    refine .arr _ fun g hg => ?_
    obtain ⟨c, hc, rfl⟩ := List.mem_map.1 hg
    obtain ⟨x, hx, hxc⟩ := forall2_mem_right (canonL_forall hcs) c hc
    exact ih x hx hxc
  | obj kvs hn _ ih =>
    intro c h
    simp only [canon, Option.map_eq_some_iff] at h
    obtain ⟨cs, hcs, rfl⟩ := h
    simp only [ofCanon, ofCanonKV_eq]
    refine .map _ ?_ fun e he => ?_
    · rw [List.map_map]
      have hp : ((cs.mergeSort keyLE).map Prod.fst).Perm (kvs.map Prod.fst) := by
        rw [forall2_keys (canonKV_forall hcs)]
        exact (List.mergeSort_perm _ _).map _
      exact hp.nodup_iff.2 hn
    · obtain ⟨c, hc, rfl⟩ := List.mem_map.1 he
      rw [List.mem_mergeSort] at hc
      obtain ⟨x, hx, hxc⟩ := forall2_mem_right (canonKV_forall hcs) c hc
      exact ih x hx hxc.2

theorem stands_ofCanon {g v'} (h : Stands g v') : ∀ {c v}, g = ofCanon c → v.WF → canon v = some c → SameVal v v' := by
  have num : ∀ {m : NumLit} {c}, canon (.num m) = some c → ∃ f, m.toF64 = some f ∧ c = .num f := by
    intro m c h
    simp only [canon, Option.map_eq_some_iff] at h
    obtain ⟨f, hf, rfl⟩ := h
    exact ⟨f, hf, rfl⟩
  have arr : ∀ {m : List Json} {c}, canon (.arr m) = some c → ∃ f, canonL m = some f ∧ c = .arr f := by
    intro m c h
    simp only [canon, Option.map_eq_some_iff] at h
    obtain ⟨f, hf, rfl⟩ := h
    exact ⟨f, hf, rfl⟩
  have obj : ∀ {m : List (String × Json)} {c}, canon (.obj m) = some c → ∃ f, canonKV m = some f ∧ c = .obj (f.mergeSort keyLE) := by
    intro m c h
    simp only [canon, Option.map_eq_some_iff] at h
    obtain ⟨f, hf, rfl⟩ := h
    exact ⟨f, hf, rfl⟩
  induction h with
  | nil =>
    intro c v e _ h
    cases c <;> simp [ofCanon] at e
    cases v <;> simp [canon] at h
    exact .null
  | bool b =>
    intro c v e _ h
    cases c <;> simp [ofCanon] at e
    cases v <;> simp [canon] at h
    subst h e
    exact .bool _
  | str s =>
    intro c v e _ h
    cases c <;> simp [ofCanon] at e
    cases v <;> simp [canon] at h
    subst h e
    exact .str _
  | number => intro c v e _ h; cases c <;> simp [ofCanon] at e
  | int => intro c v e _ h; cases c <;> simp [ofCanon] at e
  | record => intro c v e _ h; cases c <;> simp [ofCanon] at e
  | float f n hn =>
    intro c v e _ h
    cases c <;> simp [ofCanon] at e
    cases v <;> try (simp [canon] at h; done)
    obtain ⟨f', h1, h2⟩ := num h
    cases h2
    subst e
    exact .num _ _ (h1.trans hn.symm)
  | arr gs xs hl _ ih =>
    intro c v e hw h
    cases c <;> simp [ofCanon, ofCanonL_eq] at e
    cases v <;> try (simp [canon] at h; done)
    rename_i cs' as
    obtain ⟨cs, h1, h2⟩ := arr h
    injection h2 with h2
    subst h2
    subst e
    have hf := canonL_forall h1
    cases hw with | arr _ hw => ?_
    refine .arr _ _ (hf.length_eq.trans (by simpa using hl)) fun k x y hx hy => ?_
    obtain ⟨hlt, ex⟩ := List.getElem?_eq_some_iff.1 hx
    have hlt' : k < cs'.length := by rw [← hf.length_eq]; exact hlt
    have hc := (List.forall₂_iff_get.1 hf).2 k hlt hlt'
    simp only [List.get_eq_getElem] at hc
    rw [ex] at hc
    exact ih k (ofCanon cs'[k]) y (by rw [List.getElem?_map, List.getElem?_eq_getElem hlt']; rfl) hy rfl
      (hw _ (ex ▸ List.getElem_mem hlt)) hc
  | map gs xs hp _ ih =>
    intro c v e hw h
    cases c <;> simp [ofCanon, ofCanonKV_eq] at e
    cases v <;> try (simp [canon] at h; done)
    rename_i kvs
    obtain ⟨cs, h1, h2⟩ := obj h
    cases h2
    subst e
    have hf := canonKV_forall h1
    cases hw with | obj _ hn hw => ?_
    have hp' : (kvs.map Prod.fst).Perm (xs.map Prod.fst) := by
      rw [forall2_keys hf]
      refine List.Perm.trans ?_ hp
      rw [List.map_map]
      exact ((List.mergeSort_perm _ _).map _).symm
    refine .obj _ _ (fun k => hp'.mem_iff) fun k x y hx hy => ?_
    obtain ⟨⟨k', c⟩, hc, hk, hxc⟩ := forall2_mem_left hf _ hx
    simp only at hk hxc
    subst hk
    refine ih k (ofCanon c) y (List.mem_map.2 ⟨(k, c), ?_, rfl⟩) hy rfl (hw _ hx) hxc
    rw [List.mem_mergeSort]
    exact hc

end GJS

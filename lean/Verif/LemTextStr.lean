import Verif.LemText
/-
Decoding and the grammar of texts: string literals.
-/
namespace GJS.Text
open GJS.Io GJS.Spec

/-! ### UTF-8 -/

theorem char_valid (c : Char) : c.toNat < 0xD800 ∨ (0xDFFF < c.toNat ∧ c.toNat < 0x110000) := c.valid

theorem toNat_ofNat {n : Nat} (h : n < 0xD800 ∨ (0xDFFF < n ∧ n < 0x110000)) : (Char.ofNat n).toNat = n := by
  have hv : n.isValidChar := h
  rw [Char.ofNat, dif_pos hv]
  exact UInt32.toNat_ofNatLT ..

theorem utf8_one {n : Nat} (h : n < 0x80) : utf8Char (Char.ofNat n) = [UInt8.ofNat n] := by
  unfold utf8Char
  rw [toNat_ofNat (by omega), if_pos h]

theorem utf8_two {n : Nat} (h : 0x80 ≤ n) (h' : n < 0x800) :
    utf8Char (Char.ofNat n) = [UInt8.ofNat (0xC0 + n / 64), UInt8.ofNat (0x80 + n % 64)] := by
  unfold utf8Char
  rw [toNat_ofNat (by omega), if_neg (by omega), if_pos h']

theorem utf8_three {n : Nat} (h : 0x800 ≤ n) (h' : n < 0x10000) (hs : n < 0xD800 ∨ 0xDFFF < n) :
    utf8Char (Char.ofNat n) =
      [UInt8.ofNat (0xE0 + n / 4096), UInt8.ofNat (0x80 + n / 64 % 64), UInt8.ofNat (0x80 + n % 64)] := by
  unfold utf8Char
  rw [toNat_ofNat (by omega), if_neg (by omega), if_neg (by omega), if_pos h']

theorem utf8_four {n : Nat} (h : 0x10000 ≤ n) (h' : n < 0x110000) :
    utf8Char (Char.ofNat n) = [UInt8.ofNat (0xF0 + n / 262144), UInt8.ofNat (0x80 + n / 4096 % 64),
      UInt8.ofNat (0x80 + n / 64 % 64), UInt8.ofNat (0x80 + n % 64)] := by
  unfold utf8Char
  rw [toNat_ofNat (by omega), if_neg (by omega), if_neg (by omega), if_neg (by omega)]

theorem ofNat_self (c : Char) : Char.ofNat c.toNat = c := by
  simp

theorem contIn_iff {lo hi : Nat} {c : UInt8} : contIn lo hi c = true ↔ lo ≤ c.toNat ∧ c.toNat ≤ hi := by
  simp [contIn]

theorem ofNat_pair {m n k : Nat} (h : m = n) : (Char.ofNat m, k) = (Char.ofNat n, k) := by rw [h]

theorem decodeRune_cons (a : UInt8) (r : Bytes) : decodeRune (a :: r) =
    if a.toNat < 0x80 then (Char.ofNat a.toNat, 1)
    else if a.toNat < 0xC2 then (replacement, 1)
    else if a.toNat < 0xE0 then rune2 a r
    else if a.toNat < 0xF0 then rune3 a r
    else if a.toNat < 0xF5 then rune4 a r
    else (replacement, 1) := rfl

/-- Decoding what was encoded. -/
theorem decodeRune_utf8 (c : Char) (t : Bytes) : decodeRune (utf8Char c ++ t) = (c, (utf8Char c).length) := by
  have hv := char_valid c
  obtain ⟨n, hn⟩ : ∃ n, n = c.toNat := ⟨_, rfl⟩
  have hc : c = Char.ofNat n := by rw [hn, ofNat_self]
  rw [← hn] at hv
  clear hn
  subst hc
  by_cases h1 : n < 0x80
  · rw [utf8_one h1]
    have e1 : (UInt8.ofNat n).toNat = n := ofNat_toNat (by omega)
    generalize UInt8.ofNat n = a at *
    show (if a.toNat < 0x80 then (Char.ofNat a.toNat, 1) else _) = _
    rw [if_pos (by omega), e1]
    rfl
  by_cases h2 : n < 0x800
  · rw [utf8_two (by omega) h2]
    have e1 : (UInt8.ofNat (0xC0 + n / 64)).toNat = 0xC0 + n / 64 := ofNat_toNat (by omega)
    have e2 : (UInt8.ofNat (0x80 + n % 64)).toNat = 0x80 + n % 64 := ofNat_toNat (by omega)
    generalize UInt8.ofNat (0xC0 + n / 64) = a at *
    generalize UInt8.ofNat (0x80 + n % 64) = b at *
    show decodeRune (a :: b :: t) = (_, 2)
    rw [decodeRune_cons, if_neg (by omega), if_neg (by omega), if_pos (by omega), rune2, if_pos (contIn_iff.2 (by omega))]
    exact ofNat_pair (by omega)
  by_cases h3 : n < 0x10000
  · rw [utf8_three (by omega) h3 (by omega)]
    have e1 : (UInt8.ofNat (0xE0 + n / 4096)).toNat = 0xE0 + n / 4096 := ofNat_toNat (by omega)
    have e2 : (UInt8.ofNat (0x80 + n / 64 % 64)).toNat = 0x80 + n / 64 % 64 := ofNat_toNat (by omega)
    have e3 : (UInt8.ofNat (0x80 + n % 64)).toNat = 0x80 + n % 64 := ofNat_toNat (by omega)
    generalize UInt8.ofNat (0xE0 + n / 4096) = a at *
    generalize UInt8.ofNat (0x80 + n / 64 % 64) = b at *
    generalize UInt8.ofNat (0x80 + n % 64) = c at *
    show decodeRune (a :: b :: c :: t) = (_, 3)
    rw [decodeRune_cons, if_neg (by omega), if_neg (by omega), if_neg (by omega), if_pos (by omega), rune3, if_pos]
    · exact ofNat_pair (by omega)
    · rw [Bool.and_eq_true, contIn_iff, contIn_iff]
      refine ⟨⟨?_, ?_⟩, by omega⟩ <;> split <;> omega
  · rw [utf8_four (by omega) (by omega)]
    have e1 : (UInt8.ofNat (0xF0 + n / 262144)).toNat = 0xF0 + n / 262144 := ofNat_toNat (by omega)
    have e2 : (UInt8.ofNat (0x80 + n / 4096 % 64)).toNat = 0x80 + n / 4096 % 64 := ofNat_toNat (by omega)
    have e3 : (UInt8.ofNat (0x80 + n / 64 % 64)).toNat = 0x80 + n / 64 % 64 := ofNat_toNat (by omega)
    have e4 : (UInt8.ofNat (0x80 + n % 64)).toNat = 0x80 + n % 64 := ofNat_toNat (by omega)
    generalize UInt8.ofNat (0xF0 + n / 262144) = a at *
    generalize UInt8.ofNat (0x80 + n / 4096 % 64) = b at *
    generalize UInt8.ofNat (0x80 + n / 64 % 64) = c at *
    generalize UInt8.ofNat (0x80 + n % 64) = d at *
    show decodeRune (a :: b :: c :: d :: t) = (_, 4)
    rw [decodeRune_cons, if_neg (by omega), if_neg (by omega), if_neg (by omega), if_neg (by omega), if_pos (by omega), rune4, if_pos]
    · exact ofNat_pair (by omega)
    · rw [Bool.and_eq_true, Bool.and_eq_true, contIn_iff, contIn_iff, contIn_iff]
      refine ⟨⟨⟨?_, ?_⟩, by omega⟩, by omega⟩ <;> split <;> omega

theorem rune2_spec {a : UInt8} {r : Bytes} (h : 0xC2 ≤ a.toNat) (h' : a.toNat < 0xE0) :
    rune2 a r = (replacement, 1) ∨ ∃ c t, a :: r = utf8Char c ++ t := by
  cases r with
  | nil => exact .inl rfl
  | cons b r =>
    by_cases hb : contIn 0x80 0xBF b = true
    · rw [contIn_iff] at hb
      obtain ⟨n, hn⟩ : ∃ n, n = (a.toNat - 0xC0) * 64 + (b.toNat - 0x80) := ⟨_, rfl⟩
      have ea : a = UInt8.ofNat (0xC0 + n / 64) := byte_ofNat (by omega)
      have eb : b = UInt8.ofNat (0x80 + n % 64) := byte_ofNat (by omega)
      refine .inr ⟨Char.ofNat n, r, ?_⟩
      rw [utf8_two (by omega) (by omega), ← ea, ← eb]
      rfl
    · rw [rune2, if_neg hb]; exact .inl rfl

theorem rune3_spec {a : UInt8} {r : Bytes} (h : 0xE0 ≤ a.toNat) (h' : a.toNat < 0xF0) :
    rune3 a r = (replacement, 1) ∨ ∃ c t, a :: r = utf8Char c ++ t := by
  match r with
  | [] => exact .inl rfl
  | [_] => exact .inl rfl
  | b :: c :: r =>
    by_cases hb : (contIn (if a.toNat = 0xE0 then 0xA0 else 0x80) (if a.toNat = 0xED then 0x9F else 0xBF) b &&
        contIn 0x80 0xBF c) = true
    · rw [Bool.and_eq_true, contIn_iff, contIn_iff] at hb
      obtain ⟨⟨b1, b2⟩, c1, c2⟩ := hb
      have b1' : 0x80 ≤ b.toNat ∧ (a.toNat = 0xE0 → 0xA0 ≤ b.toNat) := by
        split at b1
        · exact ⟨by omega, fun _ => b1⟩
        · exact ⟨b1, fun h => by omega⟩
      have b2' : b.toNat ≤ 0xBF ∧ (a.toNat = 0xED → b.toNat ≤ 0x9F) := by
        split at b2
        · exact ⟨by omega, fun _ => b2⟩
        · exact ⟨b2, fun h => by omega⟩
      clear b1 b2
      obtain ⟨n, hn⟩ : ∃ n, n = (a.toNat - 0xE0) * 4096 + (b.toNat - 0x80) * 64 + (c.toNat - 0x80) := ⟨_, rfl⟩
      have ea : a = UInt8.ofNat (0xE0 + n / 4096) := byte_ofNat (by omega)
      have eb : b = UInt8.ofNat (0x80 + n / 64 % 64) := byte_ofNat (by omega)
      have ec : c = UInt8.ofNat (0x80 + n % 64) := byte_ofNat (by omega)
      refine .inr ⟨Char.ofNat n, r, ?_⟩
      rw [utf8_three (by omega) (by omega) (by omega), ← ea, ← eb, ← ec]
      rfl
    · rw [rune3, if_neg hb]; exact .inl rfl

theorem rune4_spec {a : UInt8} {r : Bytes} (h : 0xF0 ≤ a.toNat) (h' : a.toNat < 0xF5) :
    rune4 a r = (replacement, 1) ∨ ∃ c t, a :: r = utf8Char c ++ t := by
  match r with
  | [] => exact .inl rfl
  | [_] => exact .inl rfl
  | [_, _] => exact .inl rfl
  | b :: c :: d :: r =>
    by_cases hb : (contIn (if a.toNat = 0xF0 then 0x90 else 0x80) (if a.toNat = 0xF4 then 0x8F else 0xBF) b &&
        contIn 0x80 0xBF c && contIn 0x80 0xBF d) = true
    · rw [Bool.and_eq_true, Bool.and_eq_true, contIn_iff, contIn_iff, contIn_iff] at hb
      obtain ⟨⟨⟨b1, b2⟩, c1, c2⟩, d1, d2⟩ := hb
      have b1' : 0x80 ≤ b.toNat ∧ (a.toNat = 0xF0 → 0x90 ≤ b.toNat) := by
        split at b1
        · exact ⟨by omega, fun _ => b1⟩
        · exact ⟨b1, fun h => by omega⟩
      have b2' : b.toNat ≤ 0xBF ∧ (a.toNat = 0xF4 → b.toNat ≤ 0x8F) := by
        split at b2
        · exact ⟨by omega, fun _ => b2⟩
        · exact ⟨b2, fun h => by omega⟩
      clear b1 b2
      obtain ⟨n, hn⟩ : ∃ n, n = (a.toNat - 0xF0) * 262144 + (b.toNat - 0x80) * 4096 + (c.toNat - 0x80) * 64 +
        (d.toNat - 0x80) := ⟨_, rfl⟩
      have ea : a = UInt8.ofNat (0xF0 + n / 262144) := byte_ofNat (by omega)
      have eb : b = UInt8.ofNat (0x80 + n / 4096 % 64) := byte_ofNat (by omega)
      have ec : c = UInt8.ofNat (0x80 + n / 64 % 64) := byte_ofNat (by omega)
      have ed : d = UInt8.ofNat (0x80 + n % 64) := byte_ofNat (by omega)
      refine .inr ⟨Char.ofNat n, r, ?_⟩
      rw [utf8_four (by omega) (by omega), ← ea, ← eb, ← ec, ← ed]
      rfl
    · rw [rune4, if_neg hb]; exact .inl rfl

/-- What is decoded is a character, or else U+FFFD for one byte. -/
theorem decodeRune_spec (a : UInt8) (r : Bytes) :
    decodeRune (a :: r) = (replacement, 1) ∨ ∃ c t, a :: r = utf8Char c ++ t := by
  rw [decodeRune_cons]
  by_cases h1 : a.toNat < 0x80
  · refine .inr ⟨Char.ofNat a.toNat, r, ?_⟩
    rw [utf8_one h1, UInt8.ofNat_toNat]; rfl
  rw [if_neg h1]
  by_cases h2 : a.toNat < 0xC2
  · rw [if_pos h2]; exact .inl rfl
  rw [if_neg h2]
  by_cases h3 : a.toNat < 0xE0
  · rw [if_pos h3]; exact rune2_spec (by omega) h3
  rw [if_neg h3]
  by_cases h4 : a.toNat < 0xF0
  · rw [if_pos h4]; exact rune3_spec (by omega) h4
  rw [if_neg h4]
  by_cases h5 : a.toNat < 0xF5
  · rw [if_pos h5]; exact rune4_spec (by omega) h5
  · rw [if_neg h5]; exact .inl rfl

/-- The bytes of a character: one below 0x80, or several from there on. -/
theorem utf8_bytes (c : Char) : (c.toNat < 0x80 ∧ utf8Char c = [UInt8.ofNat c.toNat]) ∨
    (0x80 ≤ c.toNat ∧ (∀ b ∈ utf8Char c, 0x80 ≤ b.toNat) ∧ ∃ a b r, utf8Char c = a :: b :: r) := by
  have hv := char_valid c
  unfold utf8Char
  split
  · rename_i h; exact .inl ⟨h, rfl⟩
  · rename_i h
    refine .inr ⟨by omega, ?_⟩
    split
    · refine ⟨?_, _, _, _, rfl⟩
      intro b hb
      simp only [List.mem_cons, List.not_mem_nil, or_false] at hb
      rcases hb with rfl | rfl <;> rw [ofNat_toNat (by omega)] <;> omega
    · split
      · refine ⟨?_, _, _, _, rfl⟩
        intro b hb
        simp only [List.mem_cons, List.not_mem_nil, or_false] at hb
        rcases hb with rfl | rfl | rfl <;> rw [ofNat_toNat (by omega)] <;> omega
      · refine ⟨?_, _, _, _, rfl⟩
        intro b hb
        simp only [List.mem_cons, List.not_mem_nil, or_false] at hb
        rcases hb with rfl | rfl | rfl | rfl <;> rw [ofNat_toNat (by omega)] <;> omega

/-! ### Escapes -/

theorem hexVal?_some {c : UInt8} {n : Nat} : hexVal? c = some n ↔ Hex c n := by
  have hc := toNat_lt c
  unfold hexVal? Hex
  constructor
  · intro h
    split at h
    · cases h; omega
    · split at h
      · cases h; omega
      · split at h
        · cases h; omega
        · cases h
  · intro h
    by_cases h1 : 0x30 ≤ c.toNat ∧ c.toNat ≤ 0x39
    · rw [if_pos h1]; congr 1; omega
    · rw [if_neg h1]
      by_cases h2 : 0x61 ≤ c.toNat ∧ c.toNat ≤ 0x66
      · rw [if_pos h2]; congr 1; omega
      · rw [if_neg h2, if_pos (by omega)]; congr 1; omega

theorem hex4_some {bs u r} : hex4 bs = some (u, r) ↔
    ∃ a b c d i j k l, bs = a :: b :: c :: d :: r ∧ Hex a i ∧ Hex b j ∧ Hex c k ∧ Hex d l ∧
      u = i * 4096 + j * 256 + k * 16 + l := by
  constructor
  · intro h
    match bs with
    | [] => cases h
    | [_] => cases h
    | [_, _] => cases h
    | [_, _, _] => cases h
    | a :: b :: c :: d :: r' =>
      simp only [hex4, Option.bind_eq_bind, Option.bind_eq_some_iff] at h
      obtain ⟨i, hi, j, hj, k, hk, l, hl, h⟩ := h
      cases h
      exact ⟨a, b, c, d, i, j, k, l, rfl, hexVal?_some.1 hi, hexVal?_some.1 hj, hexVal?_some.1 hk, hexVal?_some.1 hl, rfl⟩
  · rintro ⟨a, b, c, d, i, j, k, l, rfl, hi, hj, hk, hl, rfl⟩
    simp [hex4, hexVal?_some.2 hi, hexVal?_some.2 hj, hexVal?_some.2 hk, hexVal?_some.2 hl]

theorem ascii_u : ascii "\\u" = [0x5C, 0x75] := by decide
theorem ascii_bs : ascii "\\" = [0x5C] := by decide
theorem ascii_q : ascii "\"" = [0x22] := by decide

theorem hex4_unit {bs u r} : hex4 bs = some (u, r) ↔ ∃ x, Unit16 x u ∧ 0x5C :: 0x75 :: bs = x ++ r := by
  rw [hex4_some]
  constructor
  · rintro ⟨a, b, c, d, i, j, k, l, rfl, hi, hj, hk, hl, rfl⟩
    exact ⟨_, .mk a b c d i j k l hi hj hk hl, by rw [ascii_u]; rfl⟩
  · rintro ⟨x, ⟨a, b, c, d, i, j, k, l, hi, hj, hk, hl⟩, h⟩
    rw [ascii_u] at h
    cases h
    exact ⟨a, b, c, d, i, j, k, l, rfl, hi, hj, hk, hl, rfl⟩

theorem unit_cons {x u} (h : Unit16 x u) : ∃ y, x = 0x5C :: 0x75 :: y ∧ ∀ t, hex4 (y ++ t) = some (u, t) := by
  obtain ⟨a, b, c, d, i, j, k, l, hi, hj, hk, hl⟩ := h
  refine ⟨[a, b, c, d], by rw [ascii_u]; rfl, fun t => ?_⟩
  exact hex4_some.2 ⟨a, b, c, d, i, j, k, l, rfl, hi, hj, hk, hl, rfl⟩

theorem unit_lt {x u} (h : Unit16 x u) : u < 65536 := by
  obtain ⟨a, b, c, d, i, j, k, l, hi, hj, hk, hl⟩ := h
  have e : ∀ {b n}, Hex b n → n < 16 := by
    intro b n h
    unfold Hex at h
    omega
  have := e hi; have := e hj; have := e hk; have := e hl
  omega

theorem lowHalf_some {hi bs ch r} : lowHalf hi bs = some (ch, r) ↔
    ∃ y v, Unit16 y v ∧ High hi ∧ Low v ∧ bs = y ++ r ∧ ch = Char.ofNat (0x10000 + (hi - 0xD800) * 0x400 + (v - 0xDC00)) := by
  constructor
  · intro h
    match bs with
    | [] => cases h
    | [_] => cases h
    | a :: b :: r' =>
      rw [lowHalf] at h
      split at h
      · rename_i hab
        obtain ⟨rfl, rfl⟩ := hab
        cases hx : hex4 r' with
        | none => rw [hx] at h; cases h
        | some q =>
          obtain ⟨lo, r''⟩ := q
          rw [hx] at h
          simp only at h
          split at h
          · rename_i hc
            obtain ⟨rfl, rfl⟩ := Prod.mk.inj (Option.some.inj h)
            obtain ⟨x, h1, h2⟩ := hex4_unit.1 hx
            refine ⟨x, lo, h1, ⟨hc.1, hc.2.1⟩, ⟨hc.2.2.1, hc.2.2.2⟩, h2, ?_⟩
            exact congrArg Char.ofNat (by omega)
          · cases h
      · cases h
  · rintro ⟨y, v, h1, h2, h3, rfl, hch⟩
    obtain ⟨z, rfl, hz⟩ := unit_cons h1
    show lowHalf hi (0x5C :: 0x75 :: (z ++ r)) = _
    rw [lowHalf, if_pos ⟨rfl, rfl⟩, hz]
    simp only
    rw [if_pos ⟨h2.1, h2.2, h3.1, h3.2⟩]
    have : (hi - 0xD800) * 1024 + (v - 0xDC00) + 0x10000 = 0x10000 + (hi - 0xD800) * 0x400 + (v - 0xDC00) := by omega
    rw [this, hch]

theorem escape?_some {e : UInt8} {ch} (h : escape? e = some ch) : ∃ c, (c, ch) ∈ shortEscapes ∧ utf8Char c = [e] ∧ e ≠ 0x75 := by
  unfold escape? at h
  repeat' split at h
  all_goals first
    | cases h; done
    | (rename_i he; subst he; cases h; first
        | exact ⟨'b', by decide, by decide, by decide⟩
        | exact ⟨'f', by decide, by decide, by decide⟩
        | exact ⟨'n', by decide, by decide, by decide⟩
        | exact ⟨'r', by decide, by decide, by decide⟩
        | exact ⟨'t', by decide, by decide, by decide⟩
        | exact ⟨'\\', by decide, by decide, by decide⟩
        | exact ⟨'/', by decide, by decide, by decide⟩
        | exact ⟨'"', by decide, by decide, by decide⟩)

theorem escape?_of {c ch} (h : (c, ch) ∈ shortEscapes) : ∃ e, utf8Char c = [e] ∧ e ≠ 0x75 ∧ escape? e = some ch := by
  simp only [shortEscapes, List.mem_cons, List.not_mem_nil, or_false, Prod.mk.injEq] at h
  rcases h with ⟨rfl, rfl⟩ | ⟨rfl, rfl⟩ | ⟨rfl, rfl⟩ | ⟨rfl, rfl⟩ | ⟨rfl, rfl⟩ | ⟨rfl, rfl⟩ | ⟨rfl, rfl⟩ | ⟨rfl, rfl⟩
  · exact ⟨0x62, by decide, by decide, by decide⟩
  · exact ⟨0x66, by decide, by decide, by decide⟩
  · exact ⟨0x6E, by decide, by decide, by decide⟩
  · exact ⟨0x72, by decide, by decide, by decide⟩
  · exact ⟨0x74, by decide, by decide, by decide⟩
  · exact ⟨0x5C, by decide, by decide, by decide⟩
  · exact ⟨0x2F, by decide, by decide, by decide⟩
  · exact ⟨0x22, by decide, by decide, by decide⟩

/-! ### Between the quotes -/

/-- What the scanner accepts between the quotes. -/
def Lex : StrState → Bytes → Prop
  | .body, [] => True
  | _, [] => False
  | .body, c :: cs => c ≠ 0x22 ∧ ((c = 0x5C ∧ Lex .esc cs) ∨ (c ≠ 0x5C ∧ 0x20 ≤ c.toNat ∧ Lex .body cs))
  | .esc, c :: cs => ((escape? c).isSome = true ∧ Lex .body cs) ∨ (c = 0x75 ∧ Lex (.hex 3) cs)
  | .hex 0, c :: cs => (hexVal? c).isSome = true ∧ Lex .body cs
  | .hex (n + 1), c :: cs => (hexVal? c).isSome = true ∧ Lex (.hex n) cs

theorem scanStr_ok : ∀ {st bs body r}, scanStr st bs = .ok body r ↔ bs = body ++ 0x22 :: r ∧ Lex st body := by
  intro st bs
  induction bs generalizing st with
  | nil =>
    intro body r
    constructor
    · intro h; cases st <;> cases h
    · rintro ⟨h, _⟩; cases body <;> cases h
  | cons c cs ih =>
    intro body r
    have wrap : ∀ {st'}, (scanStr st' cs).map (c :: ·) = .ok body r ↔ ∃ b, body = c :: b ∧ cs = b ++ 0x22 :: r ∧ Lex st' b := by
      intro st'
      rw [map_ok]
      constructor
      · rintro ⟨a, h1, rfl⟩
        exact ⟨a, rfl, ih.1 h1⟩
      · rintro ⟨b, rfl, h⟩
        exact ⟨b, ih.2 h, rfl⟩
    constructor
    · intro h
      cases st with
      | body =>
        rw [scanStr] at h
        split at h
        · rename_i hc
          cases h
          exact ⟨by rw [hc]; rfl, trivial⟩
        · rename_i hq
          split at h
          · rename_i hc
            obtain ⟨b, rfl, h1, h2⟩ := wrap.1 h
            exact ⟨by rw [h1]; rfl, hq, .inl ⟨hc, h2⟩⟩
          · rename_i hc
            split at h
            · cases h
            · rename_i hb
              obtain ⟨b, rfl, h1, h2⟩ := wrap.1 h
              exact ⟨by rw [h1]; rfl, hq, .inr ⟨hc, by omega, h2⟩⟩
      | esc =>
        rw [scanStr] at h
        split at h
        · rename_i hc
          obtain ⟨b, rfl, h1, h2⟩ := wrap.1 h
          exact ⟨by rw [h1]; rfl, .inl ⟨hc, h2⟩⟩
        · split at h
          · rename_i hc
            obtain ⟨b, rfl, h1, h2⟩ := wrap.1 h
            exact ⟨by rw [h1]; rfl, .inr ⟨hc, h2⟩⟩
          · cases h
      | hex n =>
        cases n with
        | zero =>
          rw [scanStr] at h
          split at h
          · rename_i hc
            obtain ⟨b, rfl, h1, h2⟩ := wrap.1 h
            exact ⟨by rw [h1]; rfl, hc, h2⟩
          · cases h
        | succ n =>
          rw [scanStr] at h
          split at h
          · rename_i hc
            obtain ⟨b, rfl, h1, h2⟩ := wrap.1 h
            exact ⟨by rw [h1]; rfl, hc, h2⟩
          · cases h
    · rintro ⟨h, hl⟩
      cases body with
      | nil =>
        cases h
        cases st with
        | body => rw [scanStr, if_pos rfl]
        | esc => exact absurd hl (by simp [Lex])
        | hex n => exact absurd hl (by simp [Lex])
      | cons c' b =>
        rw [List.cons_append] at h
        obtain ⟨rfl, hcs⟩ := List.cons.inj h
        clear h
        have h := hcs
        cases st with
        | body =>
          obtain ⟨h1, h2⟩ := hl
          rw [scanStr, if_neg h1]
          rcases h2 with ⟨h2, h3⟩ | ⟨h2, h3, h4⟩
          · rw [if_pos h2]; exact wrap.2 ⟨b, rfl, h, h3⟩
          · rw [if_neg h2, if_neg (by omega)]; exact wrap.2 ⟨b, rfl, h, h4⟩
        | esc =>
          rw [scanStr]
          rcases hl with ⟨h2, h3⟩ | ⟨h2, h3⟩
          · rw [if_pos h2]; exact wrap.2 ⟨b, rfl, h, h3⟩
          · subst h2
            rw [if_neg (by decide), if_pos rfl]; exact wrap.2 ⟨b, rfl, h, h3⟩
        | hex n =>
          cases n with
          | zero =>
            obtain ⟨h2, h3⟩ := hl
            rw [scanStr, if_pos h2]; exact wrap.2 ⟨b, rfl, h, h3⟩
          | succ n =>
            obtain ⟨h2, h3⟩ := hl
            rw [scanStr, if_pos h2]; exact wrap.2 ⟨b, rfl, h, h3⟩

theorem lex_high {t : Bytes} : ∀ {x : Bytes}, (∀ b ∈ x, 0x80 ≤ b.toNat) → (Lex .body (x ++ t) ↔ Lex .body t)
  | [], _ => Iff.rfl
  | c :: cs, h => by
    have hc := h c (by simp)
    have e1 : c ≠ 0x22 := by rintro rfl; revert hc; decide
    have e2 : c ≠ 0x5C := by rintro rfl; revert hc; decide
    rw [List.cons_append, Lex]
    refine Iff.trans ?_ (lex_high (x := cs) (fun b hb => h b (by simp [hb])))
    constructor
    · rintro ⟨_, ⟨h, _⟩ | ⟨_, _, h⟩⟩
      · exact absurd h e2
      · exact h
    · intro h
      exact ⟨e1, .inr ⟨e2, by omega, h⟩⟩

theorem lex_hex {n : Nat} {bs : Bytes} (h : Lex (.hex n) bs) : ∃ c cs, bs = c :: cs ∧ (hexVal? c).isSome = true ∧
    (match n with | 0 => Lex .body cs | n + 1 => Lex (.hex n) cs) := by
  cases bs with
  | nil => exact absurd h (by simp [Lex])
  | cons c cs =>
    cases n with
    | zero => exact ⟨c, cs, rfl, h.1, h.2⟩
    | succ n => exact ⟨c, cs, rfl, h.1, h.2⟩

theorem lex_unit {bs : Bytes} (h : Lex (.hex 3) bs) : ∃ u r, hex4 bs = some (u, r) ∧ Lex .body r := by
  obtain ⟨a, r1, rfl, ha, h⟩ := lex_hex h
  obtain ⟨b, r2, rfl, hb, h⟩ := lex_hex h
  obtain ⟨c, r3, rfl, hc, h⟩ := lex_hex h
  obtain ⟨d, r4, rfl, hd, h⟩ := lex_hex h
  obtain ⟨i, hi⟩ := Option.isSome_iff_exists.1 ha
  obtain ⟨j, hj⟩ := Option.isSome_iff_exists.1 hb
  obtain ⟨k, hk⟩ := Option.isSome_iff_exists.1 hc
  obtain ⟨l, hl⟩ := Option.isSome_iff_exists.1 hd
  exact ⟨_, r4, hex4_some.2 ⟨a, b, c, d, i, j, k, l, rfl, hexVal?_some.1 hi, hexVal?_some.1 hj, hexVal?_some.1 hk,
    hexVal?_some.1 hl, rfl⟩, h⟩

theorem unit_lex {x u t} (h : Unit16 x u) (ht : Lex .body t) : Lex .body (x ++ t) := by
  obtain ⟨a, b, c, d, i, j, k, l, hi, hj, hk, hl⟩ := h
  rw [ascii_u]
  have e : ∀ {b n}, Hex b n → (hexVal? b).isSome = true := fun h => by rw [hexVal?_some.2 h]; rfl
  exact ⟨by decide, .inl ⟨rfl, .inr ⟨rfl, e hi, e hj, e hk, e hl, ht⟩⟩⟩

theorem char_byte {c : Char} {ch : Char} (hlt : c.toNat < 0x80) (h : UInt8.ofNat c.toNat = UInt8.ofNat ch.toNat)
    (hch : ch.toNat < 0x80) : c = ch := by
  have := congrArg UInt8.toNat h
  rw [ofNat_toNat (by omega), ofNat_toNat (by omega)] at this
  rw [← ofNat_self c, this, ofNat_self]

theorem strText_lex {x cs} (h : StrText x cs) : Lex .body x := by
  induction h with
  | nil => trivial
  | char c t cs h1 h2 h3 _ ih =>
    rcases utf8_bytes c with ⟨hlt, he⟩ | ⟨_, he, _⟩
    · rw [he]
      refine ⟨?_, .inr ⟨?_, ?_, ih⟩⟩
      · intro h; exact h2 (char_byte (ch := '"') hlt h (by decide))
      · intro h; exact h3 (char_byte (ch := '\\') hlt h (by decide))
      · rw [ofNat_toNat (by omega)]; exact h1
    · exact (lex_high he).2 ih
  | short e c t cs he _ ih =>
    obtain ⟨b, h1, h2, h3⟩ := escape?_of he
    rw [h1, ascii_bs]
    exact ⟨by decide, .inl ⟨rfl, .inl ⟨by rw [h3]; rfl, ih⟩⟩⟩
  | unit x u t cs hu _ _ _ ih => exact unit_lex hu ih
  | pair x y u v t cs hu hv _ _ _ ih =>
    rw [List.append_assoc]
    exact unit_lex hu (unit_lex hv ih)
  | lone x u t cs hu _ _ _ ih => exact unit_lex hu ih
  | stray b t cs hb _ _ ih =>
    exact (lex_high (x := [b]) (by simpa using hb)).2 ih

theorem high_iff {u : Nat} : (0xD800 ≤ u ∧ u < 0xE000) ↔ (High u ∨ Low u) := by unfold High Low; omega

theorem unquote_cons {n c cs q} (h : firstChar c cs = some q) : unquote (n + 1) (c :: cs) = q.1 :: unquote n q.2 := by
  rw [unquote, h]

theorem firstChar_unit {r u r'} (h : hex4 r = some (u, r')) : firstChar 0x5C (0x75 :: r) =
    some (if 0xD800 ≤ u ∧ u < 0xE000 then (lowHalf u r').getD (replacement, r') else (Char.ofNat u, r')) := by
  rw [firstChar, if_pos rfl, escaped, if_pos rfl, unit, h]
  rfl

theorem unquote_text {x cs} (h : StrText x cs) : ∀ n, x.length ≤ n → unquote n x = cs := by
  induction h with
  | nil =>
    intro n _
    cases n <;> rfl
  | char c t cs h1 h2 h3 _ ih =>
    intro n hn
    have key : ∃ a r, utf8Char c ++ t = a :: r ∧ a ≠ 0x5C := by
      rcases utf8_bytes c with ⟨hlt, he⟩ | ⟨_, he, a, b, r, hr⟩
      · rw [he]
        exact ⟨_, _, rfl, fun h => h3 (char_byte (ch := '\\') hlt h (by decide))⟩
      · refine ⟨a, b :: r ++ t, by rw [hr]; rfl, ?_⟩
        have := he a (by rw [hr]; simp)
        rintro rfl
        revert this; decide
    obtain ⟨a, r, hr, ha⟩ := key
    have hlen : 1 ≤ (utf8Char c).length := by
      rcases utf8_bytes c with ⟨hlt, he⟩ | ⟨_, he, a, b, r, hr⟩
      · rw [he]; exact Nat.le_refl _
      · rw [hr]; simp
    cases n with
    | zero => rw [hr] at hn; simp at hn
    | succ n =>
      have hf : firstChar a r = some (c, t) := by
        rw [firstChar, if_neg ha, ← hr, decodeRune_utf8, List.drop_left]
      rw [hr, unquote_cons hf, ih n (by rw [List.length_append] at hn; omega)]
  | short e c t cs he _ ih =>
    intro n hn
    obtain ⟨b, h1, h2, h3⟩ := escape?_of he
    rw [h1, ascii_bs] at hn ⊢
    cases n with
    | zero => simp at hn
    | succ n =>
      show unquote (n + 1) (0x5C :: b :: t) = _
      have hf : firstChar 0x5C (b :: t) = some (c, t) := by
        rw [firstChar, if_pos rfl, escaped, if_neg h2, h3]; rfl
      rw [unquote_cons hf, ih n (by simp at hn; omega)]
  | unit x u t cs hu h1 h2 _ ih =>
    intro n hn
    obtain ⟨y, rfl, hy⟩ := unit_cons hu
    cases n with
    | zero => simp at hn
    | succ n =>
      show unquote (n + 1) (0x5C :: 0x75 :: (y ++ t)) = _
      have hf : firstChar 0x5C (0x75 :: (y ++ t)) = some (Char.ofNat u, t) := by
        rw [firstChar_unit (hy t), if_neg (by rw [high_iff]; rintro (h | h) <;> contradiction)]
      rw [unquote_cons hf, ih n (by simp at hn; omega)]
  | pair x y u v t cs hu hv h1 h2 _ ih =>
    intro n hn
    have hlow : lowHalf u (y ++ t) = some (_, t) := lowHalf_some.2 ⟨y, v, hv, h1, h2, rfl, rfl⟩
    obtain ⟨z, rfl, hz⟩ := unit_cons hu
    cases n with
    | zero => simp at hn
    | succ n =>
      have : 0x5C :: 0x75 :: z ++ y ++ t = 0x5C :: 0x75 :: (z ++ (y ++ t)) := by simp
      have hf := firstChar_unit (hz (y ++ t))
      rw [if_pos (high_iff.2 (.inl h1)), hlow, Option.getD_some] at hf
      rw [this, unquote_cons hf]
      show _ :: unquote n t = _
      rw [ih n (by simp at hn; omega)]
  | lone x u t cs hu h1 h2 _ ih =>
    intro n hn
    have hlow : lowHalf u t = none := by
      cases hl : lowHalf u t with
      | none => rfl
      | some q =>
        obtain ⟨ch, r⟩ := q
        obtain ⟨y, v, e1, e2, e3, e4, _⟩ := lowHalf_some.1 hl
        exact absurd e4 (h2 e2 y v r e1 e3)
    obtain ⟨z, rfl, hz⟩ := unit_cons hu
    cases n with
    | zero => simp at hn
    | succ n =>
      show unquote (n + 1) (0x5C :: 0x75 :: (z ++ t)) = _
      have hf := firstChar_unit (hz t)
      rw [if_pos (high_iff.2 h1), hlow] at hf
      rw [unquote_cons hf]
      show _ :: unquote n t = _
      rw [ih n (by simp at hn; omega)]
      rfl
  | stray b t cs hb hs _ ih =>
    intro n hn
    cases n with
    | zero => simp at hn
    | succ n =>
      rcases decodeRune_spec b t with h | ⟨c, t', h⟩
      · have hf : firstChar b t = some (replacement, t) := by
          rw [firstChar, if_neg (by rintro rfl; revert hb; decide), h]; rfl
        rw [unquote_cons hf]
        rw [ih n (by simp at hn; omega)]
        rfl
      · exact absurd h (hs c t')

theorem lex_text : ∀ (n : Nat) (x : Bytes), x.length ≤ n → Lex .body x → ∃ cs, StrText x cs
  | 0, x, hn, _ => by
    cases x with
    | nil => exact ⟨_, .nil⟩
    | cons => simp at hn
  | n + 1, [], _, _ => ⟨_, .nil⟩
  | n + 1, c :: r, hn, hl => by
    obtain ⟨h1, ⟨rfl, h2⟩ | ⟨h2, h3, h4⟩⟩ := hl
    · cases r with
      | nil => exact absurd h2 (by simp [Lex])
      | cons e r =>
        rcases h2 with ⟨h2, h3⟩ | ⟨rfl, h3⟩
        · obtain ⟨ch, hch⟩ := Option.isSome_iff_exists.1 h2
          obtain ⟨c, k1, k2, _⟩ := escape?_some hch
          obtain ⟨cs, hcs⟩ := lex_text n r (by simp at hn; omega) h3
          refine ⟨ch :: cs, ?_⟩
          have := StrText.short c ch r cs k1 hcs
          rw [k2, ascii_bs] at this
          exact this
        · obtain ⟨u, r', k1, k2⟩ := lex_unit h3
          obtain ⟨x, hx, he⟩ := hex4_unit.1 k1
          have hlen : r'.length ≤ n := by
            obtain ⟨a, b, c, d, i, j, k, l, rfl, _⟩ := hex4_some.1 k1
            simp at hn; omega
          rw [he]
          by_cases hs : High u ∨ Low u
          · cases hl : lowHalf u r' with
            | none =>
              obtain ⟨cs, hcs⟩ := lex_text n r' hlen k2
              refine ⟨_, .lone x u r' cs hx hs ?_ hcs⟩
              intro hh y v t' hy hv ht
              have : lowHalf u r' = some (_, t') := lowHalf_some.2 ⟨y, v, hy, hh, hv, ht, rfl⟩
              rw [hl] at this
              cases this
            | some q =>
              obtain ⟨ch, r''⟩ := q
              obtain ⟨y, v, e1, e2, e3, e4, _⟩ := lowHalf_some.1 hl
              have k3 : Lex .body r'' := by
                rw [e4] at k2
                obtain ⟨z, rfl, hz⟩ := unit_cons e1
                obtain ⟨_, ⟨_, k2⟩ | ⟨k2, _⟩⟩ := k2
                · rcases k2 with ⟨k2, _⟩ | ⟨_, k2⟩
                  · exact absurd k2 (by decide)
                  · obtain ⟨u', r3, k5, k6⟩ := lex_unit k2
                    rw [List.append_eq] at k5
                    rw [hz] at k5
                    cases k5
                    exact k6
                · exact absurd rfl k2
              obtain ⟨cs, hcs⟩ := lex_text n r'' (by rw [e4, List.length_append] at hlen; omega) k3
              rw [e4, ← List.append_assoc]
              exact ⟨_, .pair x y u v r'' cs hx e1 e2 e3 hcs⟩
          · obtain ⟨cs, hcs⟩ := lex_text n r' hlen k2
            exact ⟨_, .unit x u r' cs hx (fun h => hs (.inl h)) (fun h => hs (.inr h)) hcs⟩
    · by_cases hc : c.toNat < 0x80
      · obtain ⟨cs, hcs⟩ := lex_text n r (by simp at hn; omega) h4
        have hto : (Char.ofNat c.toNat).toNat = c.toNat := toNat_ofNat (by omega)
        refine ⟨Char.ofNat c.toNat :: cs, ?_⟩
        have := StrText.char (Char.ofNat c.toNat) r cs (by omega) ?_ ?_ hcs
        · rw [utf8_one hc, UInt8.ofNat_toNat] at this
          exact this
        · intro h
          rw [h] at hto
          exact h1 (byte_eq hto.symm)
        · intro h
          rw [h] at hto
          exact h2 (byte_eq hto.symm)
      · by_cases hu : ∃ ch t, c :: r = utf8Char ch ++ t
        · obtain ⟨ch, t, he⟩ := hu
          rcases utf8_bytes ch with ⟨hlt, hb⟩ | ⟨hge, hb, a, b, r', hr⟩
          · exfalso
            rw [hb] at he
            cases he
            rw [ofNat_toNat (by omega)] at hc
            exact hc hlt
          · have k : Lex .body (utf8Char ch ++ t) := by
              rw [← he]; exact ⟨h1, .inr ⟨h2, h3, h4⟩⟩
            have hlen : t.length ≤ n := by
              have := congrArg List.length he
              rw [hr] at this
              simp at this hn; omega
            obtain ⟨cs, hcs⟩ := lex_text n t hlen ((lex_high hb).1 k)
            rw [he]
            refine ⟨_, .char ch t cs (by omega) ?_ ?_ hcs⟩
            · rintro rfl; revert hge; decide
            · rintro rfl; revert hge; decide
        · obtain ⟨cs, hcs⟩ := lex_text n r (by simp at hn; omega) h4
          exact ⟨_, .stray c r cs (by omega) (fun ch t h => hu ⟨ch, t, h⟩) hcs⟩

/-- String literals. -/
theorem strLit_ok {bs s r} : strLit bs = .ok s r ↔ ∃ q, StrLit q s ∧ 0x22 :: bs = q ++ r := by
  unfold strLit
  rw [map_ok]
  constructor
  · rintro ⟨body, h1, rfl⟩
    obtain ⟨h2, h3⟩ := scanStr_ok.1 h1
    obtain ⟨cs, hcs⟩ := lex_text _ body (Nat.le_refl _) h3
    refine ⟨_, ⟨body, rfl, ?_⟩, by rw [h2, ascii_q]; simp⟩
    rw [unquote_text hcs _ (Nat.le_refl _), String.toList_ofList]
    exact hcs
  · rintro ⟨q, ⟨x, rfl, hx⟩, he⟩
    rw [ascii_q] at he
    have he : bs = x ++ 0x22 :: r := by simpa using he
    refine ⟨x, scanStr_ok.2 ⟨he, strText_lex hx⟩, ?_⟩
    rw [unquote_text hx _ (Nat.le_refl _), String.ofList_toList]

end GJS.Text

import Verif.Decode
import Verif.SpecText
/-
Decoding and the grammar of texts.
-/
namespace GJS.Text
open GJS.Io GJS.Spec

/-! ### Bytes -/

theorem ofNat_toNat {n : Nat} (h : n < 256) : (UInt8.ofNat n).toNat = n := by
  rw [UInt8.toNat_ofNat']; omega

theorem byte_eq {a b : UInt8} (h : a.toNat = b.toNat) : a = b := UInt8.toNat.inj h

theorem byte_ofNat {a : UInt8} {n : Nat} (h : a.toNat = n) : a = UInt8.ofNat n := by
  subst h; exact (UInt8.ofNat_toNat).symm

theorem toNat_lt (a : UInt8) : a.toNat < 256 := UInt8.toNat_lt a

theorem digitByte_toNat (d : Fin 10) : (digitByte d).toNat = 0x30 + d.val := ofNat_toNat (by omega)

theorem digit?_some {c : UInt8} {d : Fin 10} : digit? c = some d ↔ c = digitByte d := by
  unfold digit?
  constructor
  · intro h
    split at h
    · rename_i hc
      cases h
      apply byte_eq
      rw [digitByte_toNat]
      show c.toNat = 0x30 + (c.toNat - 0x30)
      omega
    · cases h
  · rintro rfl
    have := digitByte_toNat d
    rw [dif_pos (by omega)]
    congr 1
    apply Fin.ext
    show (digitByte d).toNat - 0x30 = d.val
    omega

theorem digit?_none {c : UInt8} : digit? c = none ↔ ¬ ∃ d, c = digitByte d := by
  constructor
  · rintro h ⟨d, hd⟩
    rw [digit?_some.2 hd] at h; cases h
  · intro h
    cases hc : digit? c with
    | none => rfl
    | some d => exact absurd ⟨d, digit?_some.1 hc⟩ h

/-! ### White space -/

theorem isSpace_iff {c : UInt8} : isSpace c = true ↔ c ∈ ascii " \t\n\r" := by
  have : ascii " \t\n\r" = [0x20, 0x09, 0x0A, 0x0D] := by decide
  rw [this]
  simp [isSpace, or_assoc]

theorem skip_blank {b r : Bytes} (h : Blank b) : skip (b ++ r) = skip r := by
  induction b with
  | nil => rfl
  | cons c cs ih =>
    have hc : isSpace c = true := isSpace_iff.2 (h c (by simp))
    rw [List.cons_append, skip, if_pos hc]
    exact ih fun x hx => h x (by simp [hx])

theorem skip_stop {c : UInt8} {r : Bytes} (h : isSpace c = false) : skip (c :: r) = c :: r := by
  rw [skip, if_neg (by simp [h])]

theorem skip_spec : ∀ bs : Bytes, ∃ b, Blank b ∧ bs = b ++ skip bs
  | [] => ⟨[], by simp [Blank], rfl⟩
  | c :: cs => by
    rw [skip]
    split
    · rename_i hc
      obtain ⟨b, h1, h2⟩ := skip_spec cs
      refine ⟨c :: b, ?_, by rw [List.cons_append, ← h2]⟩
      intro x hx
      rcases List.mem_cons.1 hx with rfl | hx
      · exact isSpace_iff.1 hc
      · exact h1 x hx
    · exact ⟨[], by simp [Blank], rfl⟩

theorem skip_head : ∀ {bs : Bytes} {c cs}, skip bs = c :: cs → isSpace c = false
  | [], c, cs, h => by cases h
  | x :: xs, c, cs, h => by
    rw [skip] at h
    split at h
    · exact skip_head h
    · rename_i hx
      cases h
      simpa using hx

theorem skip_length : ∀ bs : Bytes, (skip bs).length ≤ bs.length
  | [] => Nat.le_refl _
  | c :: cs => by
    rw [skip]
    split
    · have := skip_length cs
      simp only [List.length_cons]; omega
    · exact Nat.le_refl _

/-! ### Numbers -/

/-- The input does not begin with a digit. -/
def NoDigit (r : Bytes) : Prop := ∀ b, r.head? = some b → digit? b = none

theorem digits_spec : ∀ {bs ds r}, digits bs = (ds, r) → bs = ds.map digitByte ++ r ∧ NoDigit r
  | [], ds, r, h => by cases h; exact ⟨rfl, by simp [NoDigit]⟩
  | c :: cs, ds, r, h => by
    rw [digits] at h
    cases hc : digit? c with
    | none =>
      rw [hc] at h
      cases h
      refine ⟨rfl, ?_⟩
      intro b hb
      cases hb
      exact hc
    | some d =>
      rw [hc] at h
      cases hr : digits cs with
      | mk ds' r' =>
        rw [hr] at h
        cases h
        obtain ⟨h1, h2⟩ := digits_spec hr
        exact ⟨by rw [List.map_cons, List.cons_append, ← h1, digit?_some.1 hc], h2⟩

theorem digits_of {r : Bytes} (hr : NoDigit r) : ∀ ds : List (Fin 10), digits (ds.map digitByte ++ r) = (ds, r)
  | [] => by
    cases r with
    | nil => rfl
    | cons c cs =>
      show digits (c :: cs) = _
      rw [digits, hr c rfl]
  | d :: ds => by
    rw [List.map_cons, List.cons_append, digits, digit?_some.2 rfl, digits_of hr ds]

theorem digits1_ok {bs ds r} : digits1 bs = .ok ds r ↔ bs = ds.map digitByte ++ r ∧ ds ≠ [] ∧ r ≠ [] ∧ NoDigit r := by
  constructor
  · intro h
    unfold digits1 at h
    cases hd : digits bs with
    | mk ds' r' =>
      rw [hd] at h
      obtain ⟨h1, h2⟩ := digits_spec hd
      cases r' with
      | nil => cases h
      | cons c cs =>
        cases ds' with
        | nil => cases h
        | cons d ds' => cases h; exact ⟨h1, by simp, by simp, h2⟩
  · rintro ⟨rfl, h1, h2, h3⟩
    unfold digits1
    rw [digits_of h3]
    cases r with
    | nil => exact absurd rfl h2
    | cons c cs =>
      cases ds with
      | nil => exact absurd rfl h1
      | cons d ds => rfl

theorem map_ok {α β : Type} {f : α → β} {x : Dec α} {b : β} {r : Bytes} :
    x.map f = .ok b r ↔ ∃ a, x = .ok a r ∧ f a = b := by
  cases x with
  | ok a r' =>
    constructor
    · intro h; cases h; exact ⟨a, rfl, rfl⟩
    · rintro ⟨a', h, rfl⟩; cases h; rfl
  | bad => exact ⟨fun h => (by cases h), fun ⟨_, h, _⟩ => (by cases h)⟩
  | more => exact ⟨fun h => (by cases h), fun ⟨_, h, _⟩ => (by cases h)⟩

theorem bind_ok {α β : Type} {f : α → Bytes → Dec β} {x : Dec α} {b : β} {r : Bytes} :
    x.bind f = .ok b r ↔ ∃ a r', x = .ok a r' ∧ f a r' = .ok b r := by
  cases x with
  | ok a r' =>
    constructor
    · intro h; exact ⟨a, r', rfl, h⟩
    · rintro ⟨a', r'', h, h'⟩; cases h; exact h'
  | bad => exact ⟨fun h => (by cases h), fun ⟨_, _, h, _⟩ => (by cases h)⟩
  | more => exact ⟨fun h => (by cases h), fun ⟨_, _, h, _⟩ => (by cases h)⟩

theorem foldl_pos : ∀ (ds : List (Fin 10)) (a : Nat), a ≠ 0 → ds.foldl (fun a d => a * 10 + d.val) a ≠ 0
  | [], _, h => h
  | d :: ds, a, h => foldl_pos ds _ (by show a * 10 + d.val ≠ 0; omega)

theorem worth_pos {d : Fin 10} {ds} (h : d ≠ 0) : worth (d :: ds) ≠ 0 := by
  refine foldl_pos ds (0 * 10 + d.val) ?_
  intro h0
  apply h
  apply Fin.ext
  have h1 : 0 * 10 + d.val = 0 := h0
  show d.val = 0
  omega

theorem byte_zero : (0x30 : UInt8) = digitByte 0 := by decide

theorem intPart_ok {bs n r} : intPart bs = .ok n r ↔
    ∃ t, IntText t n ∧ bs = t ++ r ∧ (n ≠ 0 → r ≠ [] ∧ NoDigit r) := by
  constructor
  · intro h
    cases bs with
    | nil => cases h
    | cons c cs =>
      rw [intPart] at h
      split at h
      · rename_i hc
        cases h
        exact ⟨[0x30], ⟨0, [], by rw [Digits, List.map_cons, List.map_nil, byte_zero], rfl, fun _ => rfl⟩, by rw [hc]; rfl,
          fun h => absurd rfl h⟩
      · rename_i hc
        obtain ⟨ds, h1, h2⟩ := map_ok.1 h
        obtain ⟨h3, h4, h5, h6⟩ := digits1_ok.1 h1
        refine ⟨ds.map digitByte, ?_, h3, fun _ => ⟨h5, h6⟩⟩
        cases ds with
        | nil => exact absurd rfl h4
        | cons d ds =>
          refine ⟨d, ds, rfl, h2.symm, ?_⟩
          rintro rfl
          rw [List.map_cons, List.cons_append] at h3
          cases h3
          exact absurd byte_zero.symm hc
  · rintro ⟨t, ⟨d, ds, h1, h2, h3⟩, rfl, h4⟩
    rw [h1, List.map_cons, List.cons_append, intPart]
    by_cases hd : d = 0
    · subst hd
      rw [h3 rfl] at h2 ⊢
      rw [if_pos byte_zero.symm, h2]
      rfl
    · rw [if_neg]
      · have hn : n ≠ 0 := by rw [h2]; exact worth_pos hd
        obtain ⟨h5, h6⟩ := h4 hn
        rw [map_ok]
        exact ⟨d :: ds, digits1_ok.2 ⟨rfl, by simp, h5, h6⟩, h2.symm⟩
      · intro h
        rw [byte_zero] at h
        have h' : digit? (digitByte d) = some 0 := digit?_some.2 h
        rw [digit?_some.2 rfl] at h'
        cases h'
        exact hd rfl

theorem ascii_dot : ascii "." = [0x2E] := by decide
theorem ascii_e : ascii "e" = [0x65] := by decide
theorem ascii_E : ascii "E" = [0x45] := by decide
theorem ascii_eE : ascii "eE" = [0x65, 0x45] := by decide
theorem ascii_plus : ascii "+" = [0x2B] := by decide
theorem ascii_minus : ascii "-" = [0x2D] := by decide

theorem fracPart_ok {bs ds r} : fracPart bs = .ok ds r ↔
    ∃ t, FracText t ds ∧ bs = t ++ r ∧ r ≠ [] ∧ (ds ≠ [] → NoDigit r) ∧ (ds = [] → r.head? ≠ some 0x2E) := by
  constructor
  · intro h
    cases bs with
    | nil => cases h
    | cons c cs =>
      rw [fracPart] at h
      split at h
      · rename_i hc
        obtain ⟨h3, h4, h5, h6⟩ := digits1_ok.1 h
        exact ⟨ascii "." ++ ds.map digitByte, .inr ⟨_, rfl, h4, rfl⟩, by rw [hc, h3, ascii_dot]; rfl, h5, fun _ => h6,
          fun h => absurd h h4⟩
      · rename_i hc
        cases h
        exact ⟨[], .inl ⟨rfl, rfl⟩, rfl, by simp, fun h => absurd rfl h, by simpa using hc⟩
  · rintro ⟨t, h1, rfl, h2, h3, h4⟩
    rcases h1 with ⟨rfl, rfl⟩ | ⟨t', rfl, h5, h6⟩
    · cases r with
      | nil => exact absurd rfl h2
      | cons c cs =>
        have := h4 rfl
        rw [List.nil_append, fracPart, if_neg (by simpa using this)]
    · rw [ascii_dot]
      show fracPart (0x2E :: (t' ++ r)) = _
      rw [fracPart, if_pos rfl, h6]
      exact digits1_ok.2 ⟨rfl, h5, h2, h3 h5⟩

theorem noDigit_cons {c : UInt8} {r : Bytes} (h : digit? c = none) : NoDigit (c :: r) := by
  intro b hb; cases hb; exact h

theorem expPart_ok {bs e r} : expPart bs = .ok e r ↔
    ∃ t, ExpText t e ∧ bs = t ++ r ∧ r ≠ [] ∧ (e ≠ none → NoDigit r) ∧
      (e = none → r.head? ≠ some 0x65 ∧ r.head? ≠ some 0x45) := by
  constructor
  · intro h
    cases bs with
    | nil => cases h
    | cons c cs =>
      rw [expPart] at h
      split at h
      · rename_i hc
        have hl : ∃ l, (l = ascii "e" ∨ l = ascii "E") ∧ l = [c] := by
          rcases hc with rfl | rfl
          · exact ⟨_, .inl rfl, ascii_e⟩
          · exact ⟨_, .inr rfl, ascii_E⟩
        obtain ⟨l, hl, rfl⟩ := hl
        obtain ⟨z, hz, rfl⟩ := map_ok.1 h
        clear h
        have h := hz
        cases cs with
        | nil => cases h
        | cons s ds =>
          rw [signedDigits] at h
          split at h
          · rename_i hs
            obtain ⟨l', h1, rfl⟩ := map_ok.1 h
            obtain ⟨h3, h4, h5, h6⟩ := digits1_ok.1 h1
            refine ⟨[c] ++ ascii "+" ++ l'.map digitByte, .inr ⟨_, _, _, l', hl, rfl, h4, rfl, .inl ⟨.inr rfl, rfl⟩⟩, ?_, h5,
              fun _ => h6, fun h => by cases h⟩
            rw [h3, hs, ascii_plus]; rfl
          · split at h
            · rename_i hs
              obtain ⟨l', h1, rfl⟩ := map_ok.1 h
              obtain ⟨h3, h4, h5, h6⟩ := digits1_ok.1 h1
              refine ⟨[c] ++ ascii "-" ++ l'.map digitByte, .inr ⟨_, _, _, l', hl, rfl, h4, rfl, .inr ⟨rfl, rfl⟩⟩, ?_, h5,
                fun _ => h6, fun h => by cases h⟩
              rw [h3, hs, ascii_minus]; rfl
            · obtain ⟨l', h1, rfl⟩ := map_ok.1 h
              obtain ⟨h3, h4, h5, h6⟩ := digits1_ok.1 h1
              refine ⟨[c] ++ [] ++ l'.map digitByte, .inr ⟨_, _, _, l', hl, rfl, h4, rfl, .inl ⟨.inl rfl, rfl⟩⟩, ?_, h5,
                fun _ => h6, fun h => by cases h⟩
              rw [h3]; rfl
      · rename_i hc
        cases h
        refine ⟨[], .inl ⟨rfl, rfl⟩, rfl, by simp, fun h => absurd rfl h, fun _ => ?_⟩
        simpa using hc
  · rintro ⟨t, h1, rfl, h2, h3, h4⟩
    rcases h1 with ⟨rfl, rfl⟩ | ⟨l, s, t', ds, hl, rfl, h5, h6, h7⟩
    · cases r with
      | nil => exact absurd rfl h2
      | cons c cs =>
        have := h4 rfl
        rw [List.nil_append, expPart, if_neg (by simpa using this)]
    · have hl : ∃ c : UInt8, (c = 0x65 ∨ c = 0x45) ∧ l = [c] := by
        rcases hl with rfl | rfl
        · exact ⟨_, .inl rfl, ascii_e⟩
        · exact ⟨_, .inr rfl, ascii_E⟩
      obtain ⟨c, hc, rfl⟩ := hl
      have hd : digits1 (t' ++ r) = .ok ds r := by
        rw [h6]
        refine digits1_ok.2 ⟨rfl, h5, h2, h3 ?_⟩
        rcases h7 with ⟨_, rfl⟩ | ⟨_, rfl⟩ <;> simp
      have step : ∀ x, expPart ([c] ++ s ++ t' ++ r) = x ↔ expPart (c :: (s ++ (t' ++ r))) = x := by
        intro x
        have : [c] ++ s ++ t' ++ r = c :: (s ++ (t' ++ r)) := by simp
        rw [this]
      rw [step, expPart, if_pos hc, map_ok]
      rcases h7 with ⟨h7 | h7, rfl⟩ | ⟨h7, rfl⟩
      · subst h7
        rw [List.nil_append]
        cases ds with
        | nil => exact absurd rfl h5
        | cons d ds =>
          rw [h6] at hd ⊢
          rw [List.map_cons, List.cons_append] at hd ⊢
          have e1 : digitByte d ≠ 0x2B := by
            intro h
            have := digitByte_toNat d
            rw [h] at this
            simp at this; omega
          have e2 : digitByte d ≠ 0x2D := by
            intro h
            have := digitByte_toNat d
            rw [h] at this
            simp at this; omega
          refine ⟨_, ?_, rfl⟩
          rw [signedDigits, if_neg e1, if_neg e2, hd]
          rfl
      · subst h7
        rw [ascii_plus]
        refine ⟨_, ?_, rfl⟩
        show signedDigits (0x2B :: (t' ++ r)) = _
        rw [signedDigits, if_pos rfl, hd]
        rfl
      · subst h7
        rw [ascii_minus]
        refine ⟨_, ?_, rfl⟩
        show signedDigits (0x2D :: (t' ++ r)) = _
        rw [signedDigits, if_neg (by decide), if_pos rfl, hd]
        rfl

theorem expText_none {x} (h : ExpText x none) : x = [] := by
  rcases h with ⟨h, _⟩ | ⟨_, _, _, _, _, _, _, _, h⟩
  · exact h
  · rcases h with ⟨_, h⟩ | ⟨_, h⟩ <;> cases h

theorem fracText_nil {x} (h : FracText x []) : x = [] := by
  rcases h with ⟨h, _⟩ | ⟨_, _, h, _⟩
  · exact h
  · exact absurd rfl h

/-- What follows does not go on with the number. -/
def EndsN (n : NumLit) (r : Bytes) : Prop := ∀ b, r.head? = some b → ¬ Continues n b

theorem numRest_ok {s bs n r} : numRest s bs = .ok n r ↔
    ∃ i f x, bs = i ++ f ++ x ++ r ∧ n.neg = s ∧ IntText i n.ip ∧ FracText f n.frac ∧ ExpText x n.exp ∧ r ≠ [] ∧ EndsN n r := by
  unfold numRest
  constructor
  · intro h
    obtain ⟨ip, r1, h1, h⟩ := bind_ok.1 h
    obtain ⟨frac, r2, h2, h⟩ := bind_ok.1 h
    obtain ⟨exp, r3, h3, h⟩ := bind_ok.1 h
    cases h
    obtain ⟨i, i1, i2, i3⟩ := intPart_ok.1 h1
    obtain ⟨f, f1, f2, f3, f4, f5⟩ := fracPart_ok.1 h2
    obtain ⟨x, x1, x2, x3, x4, x5⟩ := expPart_ok.1 h3
    refine ⟨i, f, x, by rw [i2, f2, x2]; simp, rfl, i1, f1, x1, x3, ?_⟩
    rintro b hb (⟨hd, hc⟩ | ⟨hd, hf, hx⟩ | ⟨hd, hx⟩)
    · have hnd : digit? b ≠ none := fun h => digit?_none.1 h hd
      by_cases he : exp = none
      · subst he
        have hx0 : x = [] := expText_none x1
        subst hx0
        rw [List.nil_append] at x2
        subst x2
        by_cases hf : frac = []
        · subst hf
          have hf0 : f = [] := fracText_nil f1
          subst hf0
          rw [List.nil_append] at f2
          subst f2
          rcases hc with hc | hc | hc
          · exact hnd ((i3 hc).2 b hb)
          · exact absurd rfl hc
          · exact absurd rfl hc
        · exact hnd (f4 hf b hb)
      · exact hnd (x4 he b hb)
    · simp only at hf hx
      subst hf hx
      have hx0 : x = [] := expText_none x1
      subst hx0
      rw [List.nil_append] at x2
      subst x2
      rw [ascii_dot, List.mem_singleton] at hd
      subst hd
      exact f5 rfl hb
    · simp only at hx
      subst hx
      rw [ascii_eE] at hd
      simp only [List.mem_cons, List.not_mem_nil, or_false] at hd
      rcases hd with rfl | rfl
      · exact (x5 rfl).1 hb
      · exact (x5 rfl).2 hb
  · rintro ⟨i, f, x, rfl, rfl, i1, f1, x1, hr, he⟩
    have hdot : digit? 0x2E = none := by decide
    have hee : digit? 0x65 = none := by decide
    have hEE : digit? 0x45 = none := by decide
    have hx : expPart (x ++ r) = .ok n.exp r := by
      refine expPart_ok.2 ⟨x, x1, rfl, hr, ?_, ?_⟩
      · intro hn b hb
        rw [digit?_none]
        intro hd
        exact he b hb (.inl ⟨hd, .inr (.inr hn)⟩)
      · intro hn
        constructor
        · intro hb; exact he _ hb (.inr (.inr ⟨by decide, hn⟩))
        · intro hb; exact he _ hb (.inr (.inr ⟨by decide, hn⟩))
    have hxr : x ++ r ≠ [] := by simp [hr]
    have xhead : ∀ b, (x ++ r).head? = some b → (∃ d, b = digitByte d) ∨ b = 0x2E → n.exp = none ∧ r.head? = some b := by
      intro b hb hd
      rcases x1 with ⟨rfl, h⟩ | ⟨l, s, t', ds, hl, rfl, _⟩
      · exact ⟨h, hb⟩
      · exfalso
        have : b = 0x65 ∨ b = 0x45 := by
          rcases hl with rfl | rfl
          · rw [ascii_e] at hb; simp at hb; exact .inl hb.symm
          · rw [ascii_E] at hb; simp at hb; exact .inr hb.symm
        rcases this with rfl | rfl
        · rcases hd with hd | hd
          · exact digit?_none.1 hee hd
          · revert hd; decide
        · rcases hd with hd | hd
          · exact digit?_none.1 hEE hd
          · revert hd; decide
    have hf : fracPart (f ++ (x ++ r)) = .ok n.frac (x ++ r) := by
      refine fracPart_ok.2 ⟨f, f1, rfl, hxr, ?_, ?_⟩
      · intro hn b hb
        rw [digit?_none]
        intro hd
        obtain ⟨h1, h2⟩ := xhead b hb (.inl hd)
        exact he b h2 (.inl ⟨hd, .inr (.inl hn)⟩)
      · intro hn hb
        obtain ⟨h1, h2⟩ := xhead _ hb (.inr rfl)
        exact he _ h2 (.inr (.inl ⟨by decide, hn, h1⟩))
    have hi : intPart (i ++ (f ++ (x ++ r))) = .ok n.ip (f ++ (x ++ r)) := by
      refine intPart_ok.2 ⟨i, i1, rfl, ?_⟩
      intro hn
      refine ⟨by simp [hr], ?_⟩
      intro b hb
      rw [digit?_none]
      intro hd
      rcases f1 with ⟨rfl, h⟩ | ⟨t', rfl, _, _⟩
      · obtain ⟨h1, h2⟩ := xhead b hb (.inl hd)
        exact he b h2 (.inl ⟨hd, .inl hn⟩)
      · rw [ascii_dot] at hb
        simp at hb
        subst hb
        exact digit?_none.1 hdot hd
    have : i ++ f ++ x ++ r = i ++ (f ++ (x ++ r)) := by simp
    rw [this, hi]
    show (fracPart _).bind _ = _
    rw [hf]
    show (expPart _).bind _ = _
    rw [hx]
    rfl

/-- Numbers. -/
theorem number_ok {bs n r} : number bs = .ok n r ↔ ∃ t, NumText t n ∧ bs = t ++ r ∧ r ≠ [] ∧ EndsN n r := by
  constructor
  · intro h
    cases bs with
    | nil => cases h
    | cons c cs =>
      rw [number] at h
      split at h
      · rename_i hc
        obtain ⟨i, f, x, h1, h2, h3, h4, h5, h6, h7⟩ := numRest_ok.1 h
        refine ⟨_, ⟨[0x2D], i, f, x, rfl, by rw [h2, if_pos rfl, ascii_minus], h3, h4, h5⟩, ?_, h6, h7⟩
        rw [hc, h1]; simp
      · rename_i hc
        obtain ⟨i, f, x, h1, h2, h3, h4, h5, h6, h7⟩ := numRest_ok.1 h
        exact ⟨_, ⟨[], i, f, x, rfl, by rw [h2]; rfl, h3, h4, h5⟩, h1, h6, h7⟩
  · rintro ⟨t, ⟨s, i, f, x, rfl, hs, h3, h4, h5⟩, rfl, h6, h7⟩
    by_cases hn : n.neg = true
    · rw [hn, if_pos rfl, ascii_minus] at hs
      subst hs
      show number (0x2D :: (i ++ f ++ x ++ r)) = _
      rw [number, if_pos rfl]
      exact numRest_ok.2 ⟨i, f, x, by simp, hn, h3, h4, h5, h6, h7⟩
    · rw [if_neg hn] at hs
      subst hs
      have hi : ∃ d i', i = digitByte d :: i' := by
        obtain ⟨d, ds, h, _⟩ := h3
        exact ⟨d, _, h⟩
      obtain ⟨d, i', rfl⟩ := hi
      show number (digitByte d :: (i' ++ f ++ x ++ r)) = _
      rw [number, if_neg]
      · exact numRest_ok.2 ⟨_, f, x, by simp, by simpa using hn, h3, h4, h5, h6, h7⟩
      · intro h
        have := digitByte_toNat d
        rw [h] at this
        simp at this; omega

end GJS.Text

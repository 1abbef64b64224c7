import Verif.LemTextStr
/-
Decoding and the grammar of texts: values.
-/
namespace GJS.Text
open GJS.Io GJS.Spec

theorem ascii_null : ascii "null" = [0x6E, 0x75, 0x6C, 0x6C] := by decide
theorem ascii_true : ascii "true" = [0x74, 0x72, 0x75, 0x65] := by decide
theorem ascii_false : ascii "false" = [0x66, 0x61, 0x6C, 0x73, 0x65] := by decide
theorem ascii_lbr : ascii "[" = [0x5B] := by decide
theorem ascii_rbr : ascii "]" = [0x5D] := by decide
theorem ascii_lbc : ascii "{" = [0x7B] := by decide
theorem ascii_rbc : ascii "}" = [0x7D] := by decide
theorem ascii_comma : ascii "," = [0x2C] := by decide
theorem ascii_colon : ascii ":" = [0x3A] := by decide

/-- What a number needs after it to be recognised. -/
def After (v : Json) (r : Bytes) : Prop := ∀ n, v = .num n → r ≠ [] ∧ EndsN n r

theorem after_of {v : Json} {r : Bytes} (h : ∀ n, v ≠ .num n) : After v r := fun n hn => absurd hn (h n)

/-- Nothing else is accepted. -/
def Sound (d : Nat) (val : Bytes → Dec Json) : Prop :=
  ∀ bs v r, val bs = .ok v r → ∃ t, Text d v t ∧ bs = t ++ r ∧ After v r

/-- All texts are accepted. -/
def Complete (d : Nat) (val : Bytes → Dec Json) : Prop :=
  ∀ t v r, Text d v t → After v r → val (t ++ r) = .ok v r

/-! ### Words -/

theorem word_ok {v w : Json} {r : Bytes} : ∀ {es bs : Bytes}, word v es bs = .ok w r ↔ v = w ∧ bs = es ++ r
  | [], bs => by
    rw [word]
    constructor
    · intro h; cases h; exact ⟨rfl, rfl⟩
    · rintro ⟨rfl, rfl⟩; rfl
  | e :: es, [] => by
    rw [word]
    constructor
    · intro h; cases h
    · rintro ⟨_, h⟩; cases h
  | e :: es, b :: bs => by
    rw [word]
    by_cases he : e = b
    · subst he
      rw [if_pos rfl, word_ok]
      constructor
      · rintro ⟨h, rfl⟩; exact ⟨h, rfl⟩
      · rintro ⟨h, h'⟩; exact ⟨h, (List.cons.inj h').2⟩
    · rw [if_neg he]
      constructor
      · intro h; cases h
      · rintro ⟨_, h⟩; exact absurd (List.cons.inj h).1.symm he

/-! ### First bytes -/

theorem numText_head {t n} (h : NumText t n) : ∃ c cs, t = c :: cs ∧ (c = 0x2D ∨ ∃ d, c = digitByte d) := by
  obtain ⟨s, i, f, x, rfl, hs, ⟨d, ds, hi, _, _⟩, _, _⟩ := h
  rw [hi, hs]
  by_cases hn : n.neg = true
  · rw [if_pos hn, ascii_minus]
    exact ⟨_, _, rfl, .inl rfl⟩
  · rw [if_neg hn]
    exact ⟨_, _, rfl, .inr ⟨d, rfl⟩⟩

theorem digitByte_range (d : Fin 10) : 0x30 ≤ (digitByte d).toNat ∧ (digitByte d).toNat ≤ 0x39 := by
  have := digitByte_toNat d
  omega

/-- First bytes of a value. -/
theorem text_head {d v t} (h : Text d v t) : ∃ c cs, t = c :: cs ∧ isSpace c = false ∧ c ≠ 0x5D ∧ c ≠ 0x7D := by
  cases h with
  | null => rw [ascii_null]; exact ⟨_, _, rfl, by decide, by decide, by decide⟩
  | true => rw [ascii_true]; exact ⟨_, _, rfl, by decide, by decide, by decide⟩
  | false => rw [ascii_false]; exact ⟨_, _, rfl, by decide, by decide, by decide⟩
  | num _ n _ h =>
    obtain ⟨c, cs, rfl, rfl | ⟨d, rfl⟩⟩ := numText_head h
    · exact ⟨_, _, rfl, by decide, by decide, by decide⟩
    · have := digitByte_range d
      refine ⟨_, _, rfl, ?_, ?_, ?_⟩
      · cases hs : isSpace (digitByte d) with
        | false => rfl
        | true =>
          exfalso
          simp only [isSpace, Bool.or_eq_true, beq_iff_eq] at hs
          rcases hs with ((hs | hs) | hs) | hs <;> rw [hs] at this <;> revert this <;> decide
      · intro h; rw [h] at this; revert this; decide
      · intro h; rw [h] at this; revert this; decide
  | str _ s _ h =>
    obtain ⟨x, rfl, _⟩ := h
    rw [ascii_q]
    exact ⟨_, _, rfl, by decide, by decide, by decide⟩
  | arr0 => rw [ascii_lbr]; exact ⟨_, _, rfl, by decide, by decide, by decide⟩
  | arr => rw [ascii_lbr]; exact ⟨_, _, rfl, by decide, by decide, by decide⟩
  | obj0 => rw [ascii_lbc]; exact ⟨_, _, rfl, by decide, by decide, by decide⟩
  | obj => rw [ascii_lbc]; exact ⟨_, _, rfl, by decide, by decide, by decide⟩

theorem skip_text {d v t r} (h : Text d v t) : skip (t ++ r) = t ++ r := by
  obtain ⟨c, cs, rfl, hs, _, _⟩ := text_head h
  exact skip_stop hs

/-! ### What may follow a number -/

theorem not_continues {n : NumLit} {c : UInt8} (h1 : digit? c = none) (h2 : c ≠ 0x2E) (h3 : c ≠ 0x65) (h4 : c ≠ 0x45) :
    ¬ Continues n c := by
  rintro (⟨h, _⟩ | ⟨h, _⟩ | ⟨h, _⟩)
  · exact digit?_none.1 h1 h
  · rw [ascii_dot, List.mem_singleton] at h; exact h2 h
  · rw [ascii_eE] at h
    simp only [List.mem_cons, List.not_mem_nil, or_false] at h
    rcases h with h | h
    · exact h3 h
    · exact h4 h

/-- White space, and then a byte that is no part of numbers. -/
theorem after_blank {v : Json} {b : Bytes} {c : UInt8} {r : Bytes} (hb : Blank b)
    (h1 : digit? c = none) (h2 : c ≠ 0x2E) (h3 : c ≠ 0x65) (h4 : c ≠ 0x45) : After v (b ++ c :: r) := by
  intro n _
  refine ⟨by simp, ?_⟩
  intro x hx
  cases b with
  | nil => cases hx; exact not_continues h1 h2 h3 h4
  | cons y ys =>
    cases hx
    have := isSpace_iff.2 (hb x (by simp))
    simp only [isSpace, Bool.or_eq_true, beq_iff_eq] at this
    rcases this with ((h | h) | h) | h <;> subst h <;> exact not_continues (by decide) (by decide) (by decide) (by decide)

/-! ### Elements -/

theorem skip_cons {r : Bytes} {c cs} (h : skip r = c :: cs) : ∃ b, Blank b ∧ r = b ++ c :: cs := by
  obtain ⟨b, h1, h2⟩ := skip_spec r
  exact ⟨b, h1, by rw [h] at h2; exact h2⟩

theorem elems_sound {d val} (hv : Sound d val) : ∀ {n bs vs r}, elems val n bs = .ok vs r →
    ∃ t, Elems d vs t ∧ bs = t ++ 0x5D :: r
  | 0, _, _, _, h => by cases h
  | n + 1, bs, vs, r, h => by
    rw [elems] at h
    obtain ⟨v, r1, h1, h⟩ := bind_ok.1 h
    obtain ⟨t, t1, t2, t3⟩ := hv _ _ _ h1
    obtain ⟨b, b1, b2⟩ := skip_spec bs
    cases hs : skip r1 with
    | nil => rw [hs] at h; cases h
    | cons c cs =>
      rw [hs] at h
      simp only at h
      obtain ⟨b', b3, b4⟩ := skip_cons hs
      split at h
      · rename_i hc
        obtain ⟨vs', h3, rfl⟩ := map_ok.1 h
        obtain ⟨ts, h4, h5⟩ := elems_sound hv h3
        refine ⟨_, .cons d v vs' b t b' ts b1 t1 b3 h4, ?_⟩
        rw [b2, t2, b4, hc, h5, ascii_comma]
        simp
      · split at h
        · rename_i hc
          cases h
          refine ⟨_, .one d v b t b' b1 t1 b3, ?_⟩
          rw [b2, t2, b4, hc]
          simp
        · cases h

theorem elems_complete {d val} (hv : Complete d val) {vs t} (h : Elems d vs t) :
    ∀ {n r}, t.length ≤ n → elems val n (t ++ 0x5D :: r) = .ok vs r := by
  refine Elems.rec (motive_1 := fun _ _ _ _ => True)
    (motive_2 := fun d' vs t _ => d' = d → ∀ {n r}, t.length ≤ n → elems val n (t ++ 0x5D :: r) = .ok vs r)
    (motive_3 := fun _ _ _ _ => True) ?_ ?_ ?_ ?_ ?_ ?_ ?_ ?_ ?_ ?_ ?_ ?_ ?_ h rfl
  all_goals try (intros; trivial)
  · rintro d v b t b' hb ht hb' _ rfl n r hn
    obtain ⟨c, cs, hc, _⟩ := text_head ht
    cases n with
    | zero => rw [hc] at hn; simp at hn
    | succ n =>
      have e : b ++ t ++ b' ++ 0x5D :: r = b ++ (t ++ (b' ++ 0x5D :: r)) := by simp
      rw [e, elems, skip_blank hb, skip_text ht,
        hv t v _ ht (after_blank hb' (by decide) (by decide) (by decide) (by decide))]
      show (match skip (b' ++ 0x5D :: r) with | [] => _ | c :: cs => _) = _
      rw [skip_blank hb', skip_stop (by decide)]
      rfl
  · rintro d v vs b t b' ts hb ht hb' _ _ ih rfl n r hn
    obtain ⟨c, cs, hc, _⟩ := text_head ht
    cases n with
    | zero => rw [hc] at hn; simp at hn
    | succ n =>
      have e : b ++ t ++ b' ++ ascii "," ++ ts ++ 0x5D :: r = b ++ (t ++ (b' ++ 0x2C :: (ts ++ 0x5D :: r))) := by
        rw [ascii_comma]; simp
      rw [e, elems, skip_blank hb, skip_text ht,
        hv t v _ ht (after_blank hb' (by decide) (by decide) (by decide) (by decide))]
      show (match skip (b' ++ 0x2C :: (ts ++ 0x5D :: r)) with | [] => _ | c :: cs => _) = _
      rw [skip_blank hb', skip_stop (by decide)]
      show (elems val n (ts ++ 0x5D :: r)).map (v :: ·) = _
      rw [ih rfl]
      · rfl
      · rw [hc] at hn
        simp at hn
        omega

theorem elems_head {d vs t} (h : Elems d vs t) (r : Bytes) : ∃ c cs, skip (t ++ r) = c :: cs ∧ c ≠ 0x5D := by
  cases h with
  | one _ v b t b' hb ht hb' =>
    obtain ⟨c, cs, rfl, h1, h2, _⟩ := text_head ht
    refine ⟨c, cs ++ b' ++ r, ?_, h2⟩
    have : b ++ (c :: cs) ++ b' ++ r = b ++ (c :: (cs ++ b' ++ r)) := by simp
    rw [this, skip_blank hb, skip_stop h1]
  | cons _ v vs b t b' ts hb ht hb' _ =>
    obtain ⟨c, cs, rfl, h1, h2, _⟩ := text_head ht
    refine ⟨c, cs ++ b' ++ ascii "," ++ ts ++ r, ?_, h2⟩
    have : b ++ (c :: cs) ++ b' ++ ascii "," ++ ts ++ r = b ++ (c :: (cs ++ b' ++ ascii "," ++ ts ++ r)) := by simp
    rw [this, skip_blank hb, skip_stop h1]

/-- Arrays. -/
theorem array_sound {d val bs v r} (hv : Sound d val) (h : array val bs = .ok v r) :
    ∃ t, Text (d + 1) v t ∧ 0x5B :: bs = t ++ r ∧ After v r := by
  unfold array at h
  cases hs : skip bs with
  | nil => rw [hs] at h; cases h
  | cons c cs =>
    rw [hs] at h
    simp only at h
    split at h
    · rename_i hc
      cases h
      obtain ⟨b, b1, b2⟩ := skip_cons hs
      refine ⟨_, .arr0 d b b1, ?_, after_of (by simp)⟩
      rw [b2, hc, ascii_lbr, ascii_rbr]
      simp
    · obtain ⟨vs, h1, rfl⟩ := map_ok.1 h
      obtain ⟨t, h2, h3⟩ := elems_sound hv h1
      refine ⟨_, .arr d vs t h2, ?_, after_of (by simp)⟩
      rw [h3, ascii_lbr, ascii_rbr]
      simp

theorem array_empty {val} {b r : Bytes} (hb : Blank b) : array val (b ++ 0x5D :: r) = .ok (.arr []) r := by
  unfold array
  rw [skip_blank hb, skip_stop (by decide)]
  rfl

theorem array_elems {d val vs t r} (hv : Complete d val) (h : Elems d vs t) :
    array val (t ++ 0x5D :: r) = .ok (.arr vs) r := by
  unfold array
  obtain ⟨c, cs, h1, h2⟩ := elems_head h (0x5D :: r)
  rw [h1]
  simp only
  rw [if_neg h2, elems_complete hv h (by simp)]
  rfl

/-! ### Members -/

theorem name_ok {bs k r} : name bs = .ok k r ↔
    ∃ b q b', Blank b ∧ StrLit q k ∧ Blank b' ∧ bs = b ++ q ++ b' ++ 0x3A :: r := by
  constructor
  · intro h
    unfold name at h
    cases hs : skip bs with
    | nil => rw [hs] at h; cases h
    | cons c cs =>
      rw [hs] at h
      simp only at h
      split at h
      · rename_i hc
        obtain ⟨k', r1, h1, h⟩ := bind_ok.1 h
        obtain ⟨q, q1, q2⟩ := strLit_ok.1 h1
        obtain ⟨b, b1, b2⟩ := skip_cons hs
        cases hs' : skip r1 with
        | nil => rw [hs'] at h; cases h
        | cons c' cs' =>
          rw [hs'] at h
          simp only at h
          split at h
          · rename_i hc'
            cases h
            obtain ⟨b', b3, b4⟩ := skip_cons hs'
            refine ⟨b, q, b', b1, q1, b3, ?_⟩
            rw [b2, hc, q2, b4, hc']
            simp
          · cases h
      · cases h
  · rintro ⟨b, q, b', hb, hq, hb', rfl⟩
    have hq' := hq
    obtain ⟨x, rfl, _⟩ := hq'
    have e : b ++ (ascii "\"" ++ x ++ ascii "\"") ++ b' ++ 0x3A :: r = b ++ 0x22 :: (x ++ 0x22 :: (b' ++ 0x3A :: r)) := by
      rw [ascii_q]; simp
    have hk : strLit (x ++ 0x22 :: (b' ++ 0x3A :: r)) = .ok k (b' ++ 0x3A :: r) :=
      strLit_ok.2 ⟨_, hq, by rw [ascii_q]; simp⟩
    unfold name
    rw [e, skip_blank hb, skip_stop (by decide)]
    simp only
    rw [if_pos trivial, hk]
    show (match skip (b' ++ 0x3A :: r) with | [] => _ | c :: cs => _) = _
    rw [skip_blank hb', skip_stop (by decide)]
    rfl

theorem members_sound {d val} (hv : Sound d val) : ∀ {n m bs m' r}, members val n m bs = .ok m' r →
    ∃ ms t, Members d ms t ∧ bs = t ++ 0x7D :: r ∧ m' = ms.foldl (fun m e => mapSet m e.1 e.2) m
  | 0, _, _, _, _, h => by cases h
  | n + 1, m, bs, m', r, h => by
    rw [members] at h
    obtain ⟨k, r0, h0, h⟩ := bind_ok.1 h
    obtain ⟨v, r1, h1, h⟩ := bind_ok.1 h
    obtain ⟨b, q, b', hb, hq, hb', e0⟩ := name_ok.1 h0
    obtain ⟨t, t1, t2, t3⟩ := hv _ _ _ h1
    obtain ⟨b2, b3, b4⟩ := skip_spec r0
    cases hs : skip r1 with
    | nil => rw [hs] at h; cases h
    | cons c cs =>
      rw [hs] at h
      simp only at h
      obtain ⟨b5, b6, b7⟩ := skip_cons hs
      split at h
      · rename_i hc
        obtain ⟨ms, ts, h4, h5, h6⟩ := members_sound hv h
        refine ⟨(k, v) :: ms, _, .cons d k v ms b q b' b2 t b5 ts hb hq hb' b3 t1 b6 h4, ?_, h6⟩
        rw [e0, b4, t2, b7, hc, h5, ascii_comma, ascii_colon]
        simp
      · split at h
        · rename_i hc
          cases h
          refine ⟨[(k, v)], _, .one d k v b q b' b2 t b5 hb hq hb' b3 t1 b6, ?_, rfl⟩
          rw [e0, b4, t2, b7, hc, ascii_colon]
          simp
        · cases h

theorem members_complete {d val} (hv : Complete d val) {ms t} (h : Members d ms t) :
    ∀ {n m r}, t.length ≤ n →
      members val n m (t ++ 0x7D :: r) = .ok (ms.foldl (fun m e => mapSet m e.1 e.2) m) r := by
  refine Members.rec (motive_1 := fun _ _ _ _ => True)
    (motive_2 := fun _ _ _ _ => True)
    (motive_3 := fun d' ms t _ => d' = d → ∀ {n m r}, t.length ≤ n →
      members val n m (t ++ 0x7D :: r) = .ok (ms.foldl (fun m e => mapSet m e.1 e.2) m) r) ?_ ?_ ?_ ?_ ?_ ?_ ?_ ?_ ?_ ?_ ?_ ?_ ?_ h rfl
  all_goals try (intros; trivial)
  · rintro d k v b q b' b2 t b5 hb hq hb' hb2 ht hb5 _ rfl n m r hn
    obtain ⟨c, cs, hc, _⟩ := text_head ht
    cases n with
    | zero => rw [hc] at hn; simp at hn
    | succ n =>
      have e : b ++ q ++ b' ++ ascii ":" ++ b2 ++ t ++ b5 ++ 0x7D :: r =
          b ++ q ++ b' ++ 0x3A :: (b2 ++ (t ++ (b5 ++ 0x7D :: r))) := by rw [ascii_colon]; simp
      rw [e, members, name_ok.2 ⟨b, q, b', hb, hq, hb', rfl⟩]
      show (val (skip (b2 ++ (t ++ (b5 ++ 0x7D :: r))))).bind _ = _
      rw [skip_blank hb2, skip_text ht, hv t v _ ht (after_blank hb5 (by decide) (by decide) (by decide) (by decide))]
      show (match skip (b5 ++ 0x7D :: r) with | [] => _ | c :: cs => _) = _
      rw [skip_blank hb5, skip_stop (by decide)]
      rfl
  · rintro d k v ms b q b' b2 t b5 ts hb hq hb' hb2 ht hb5 _ _ ih rfl n m r hn
    obtain ⟨c, cs, hc, _⟩ := text_head ht
    cases n with
    | zero => rw [hc] at hn; simp at hn
    | succ n =>
      have e : b ++ q ++ b' ++ ascii ":" ++ b2 ++ t ++ b5 ++ ascii "," ++ ts ++ 0x7D :: r =
          b ++ q ++ b' ++ 0x3A :: (b2 ++ (t ++ (b5 ++ 0x2C :: (ts ++ 0x7D :: r)))) := by rw [ascii_colon, ascii_comma]; simp
      rw [e, members, name_ok.2 ⟨b, q, b', hb, hq, hb', rfl⟩]
      show (val (skip (b2 ++ (t ++ (b5 ++ 0x2C :: (ts ++ 0x7D :: r)))))).bind _ = _
      rw [skip_blank hb2, skip_text ht, hv t v _ ht (after_blank hb5 (by decide) (by decide) (by decide) (by decide))]
      show (match skip (b5 ++ 0x2C :: (ts ++ 0x7D :: r)) with | [] => _ | c :: cs => _) = _
      rw [skip_blank hb5, skip_stop (by decide)]
      show members val n (mapSet m k v) (ts ++ 0x7D :: r) = _
      rw [ih rfl]
      · rfl
      · rw [hc] at hn
        simp at hn
        omega

theorem foldl_mapSet : ∀ (ms m : List (String × Json)),
    ms.foldl (fun m e => mapSet m e.1 e.2) m = m.filter (fun e => decide (e.1 ∉ ms.map Prod.fst)) ++ lastOf ms
  | [], m => by
    rw [List.filter_eq_self.2 (by simp)]
    exact (List.append_nil m).symm
  | (k, v) :: ms, m => by
    rw [List.foldl_cons, foldl_mapSet ms, mapSet, List.filter_append, List.filter_filter, lastOf]
    have e : (m.filter fun a => decide (a.1 ∉ ms.map Prod.fst) && !(a.1 == k)) =
        m.filter fun e => decide (e.1 ∉ ((k, v) :: ms).map Prod.fst) := by
      apply List.filter_congr
      rintro ⟨a, b⟩ _
      rw [Bool.eq_iff_iff]
      simp only [List.map_cons, List.mem_cons, Bool.and_eq_true, decide_eq_true_eq, Bool.not_eq_true', beq_eq_false_iff_ne, not_or]
      exact And.comm
    rw [e]
    by_cases hk : k ∈ ms.map Prod.fst
    · rw [if_pos hk, List.filter_cons_of_neg (by simpa using hk), List.filter_nil, List.append_nil]
    · rw [if_neg hk, List.filter_cons_of_pos (by simpa using hk), List.filter_nil, List.append_assoc]
      rfl

theorem mapSet_all (ms : List (String × Json)) : ms.foldl (fun m e => mapSet m e.1 e.2) [] = lastOf ms := by
  rw [foldl_mapSet]; rfl

theorem members_head {d vs t} (h : Members d vs t) (r : Bytes) : ∃ c cs, skip (t ++ r) = c :: cs ∧ c ≠ 0x7D := by
  have key : ∀ {b q k} {z : Bytes}, Blank b → StrLit q k → ∃ c cs, skip (b ++ (q ++ z)) = c :: cs ∧ c ≠ 0x7D := by
    rintro b q k z hb ⟨x, rfl, _⟩
    rw [skip_blank hb, ascii_q]
    refine ⟨0x22, x ++ [0x22] ++ z, ?_, by decide⟩
    show skip (0x22 :: (x ++ [0x22] ++ z)) = _
    rw [skip_stop (by decide)]
  cases h with
  | one _ k v b q b' b2 t b5 hb hq =>
    have : b ++ q ++ b' ++ ascii ":" ++ b2 ++ t ++ b5 ++ r = b ++ (q ++ (b' ++ ascii ":" ++ b2 ++ t ++ b5 ++ r)) := by simp
    rw [this]
    exact key hb hq
  | cons _ k v ms b q b' b2 t b5 ts hb hq =>
    have : b ++ q ++ b' ++ ascii ":" ++ b2 ++ t ++ b5 ++ ascii "," ++ ts ++ r =
      b ++ (q ++ (b' ++ ascii ":" ++ b2 ++ t ++ b5 ++ ascii "," ++ ts ++ r)) := by simp
    rw [this]
    exact key hb hq

/-- Objects. -/
theorem object_sound {d val bs v r} (hv : Sound d val) (h : object val bs = .ok v r) :
    ∃ t, Text (d + 1) v t ∧ 0x7B :: bs = t ++ r ∧ After v r := by
  unfold object at h
  cases hs : skip bs with
  | nil => rw [hs] at h; cases h
  | cons c cs =>
    rw [hs] at h
    simp only at h
    split at h
    · rename_i hc
      cases h
      obtain ⟨b, b1, b2⟩ := skip_cons hs
      refine ⟨_, .obj0 d b b1, ?_, after_of (by simp)⟩
      rw [b2, hc, ascii_lbc, ascii_rbc]
      simp
    · obtain ⟨vs, h1, rfl⟩ := map_ok.1 h
      obtain ⟨ms, t, h2, h3, h4⟩ := members_sound hv h1
      rw [mapSet_all] at h4
      subst h4
      refine ⟨_, .obj d ms t h2, ?_, after_of (by simp)⟩
      rw [h3, ascii_lbc, ascii_rbc]
      simp

theorem object_empty {val} {b r : Bytes} (hb : Blank b) : object val (b ++ 0x7D :: r) = .ok (.obj []) r := by
  unfold object
  rw [skip_blank hb, skip_stop (by decide)]
  rfl

theorem object_members {d val ms t r} (hv : Complete d val) (h : Members d ms t) :
    object val (t ++ 0x7D :: r) = .ok (.obj (lastOf ms)) r := by
  unfold object
  obtain ⟨c, cs, h1, h2⟩ := members_head h (0x7D :: r)
  rw [h1]
  simp only
  rw [if_neg h2, members_complete hv h (by simp), mapSet_all]
  rfl

/-! ### Values -/

theorem scalar_sound {d c cs v r} (h : scalar c cs = .ok v r) : ∃ t, Text d v t ∧ c :: cs = t ++ r ∧ After v r := by
  unfold scalar at h
  split at h
  · rename_i hc
    obtain ⟨s, h1, rfl⟩ := map_ok.1 h
    obtain ⟨q, q1, q2⟩ := strLit_ok.1 h1
    exact ⟨q, .str d s q q1, by rw [hc]; exact q2, after_of (by simp)⟩
  · split at h
    · rename_i hc
      obtain ⟨rfl, h2⟩ := word_ok.1 h
      exact ⟨_, .null d, by rw [hc, h2, ascii_null]; rfl, after_of (by simp)⟩
    · split at h
      · rename_i hc
        obtain ⟨rfl, h2⟩ := word_ok.1 h
        exact ⟨_, .true d, by rw [hc, h2, ascii_true]; rfl, after_of (by simp)⟩
      · split at h
        · rename_i hc
          obtain ⟨rfl, h2⟩ := word_ok.1 h
          exact ⟨_, .false d, by rw [hc, h2, ascii_false]; rfl, after_of (by simp)⟩
        · split at h
          · obtain ⟨n, h1, rfl⟩ := map_ok.1 h
            obtain ⟨t, t1, t2, t3, t4⟩ := number_ok.1 h1
            refine ⟨t, .num d n t t1, t2, ?_⟩
            intro n' hn
            cases hn
            exact ⟨t3, t4⟩
          · cases h

theorem scalar_num {t n c cs r} (h : NumText t n) (he : c :: cs = t ++ r) (hr : r ≠ []) (hn : EndsN n r) :
    scalar c cs = .ok (.num n) r := by
  obtain ⟨c', cs', rfl, hc⟩ := numText_head h
  rw [List.cons_append] at he
  obtain ⟨rfl, rfl⟩ := List.cons.inj he
  have hne : ∀ x : UInt8, (x.toNat < 0x30 ∨ 0x39 < x.toNat) → x ≠ 0x2D → c ≠ x := by
    rintro x hx hx' rfl
    rcases hc with rfl | ⟨d, rfl⟩
    · exact hx' rfl
    · have := digitByte_range d
      omega
  have hd : c = 0x2D ∨ (digit? c).isSome = true := by
    rcases hc with rfl | ⟨d, rfl⟩
    · exact .inl rfl
    · exact .inr (by rw [digit?_some.2 rfl]; rfl)
  unfold scalar
  rw [if_neg (hne _ (by decide) (by decide)), if_neg (hne _ (by decide) (by decide)), if_neg (hne _ (by decide) (by decide)),
    if_neg (hne _ (by decide) (by decide)), if_pos hd, (number_ok (bs := c :: (cs' ++ r))).2 ⟨c :: cs', h, rfl, hr, hn⟩]
  rfl

theorem value_sound : ∀ d, Sound d (value d)
  | d, [], v, r, h => by cases d <;> cases h
  | 0, c :: cs, v, r, h => by
    rw [value] at h
    split at h
    · cases h
    · exact scalar_sound h
  | d + 1, c :: cs, v, r, h => by
    rw [value] at h
    split at h
    · rename_i hc
      rw [hc]
      exact array_sound (value_sound d) h
    · split at h
      · rename_i hc
        rw [hc]
        exact object_sound (value_sound d) h
      · exact scalar_sound h

theorem value_scalar {d : Nat} {c : UInt8} {cs : Bytes} (h1 : c ≠ 0x5B) (h2 : c ≠ 0x7B) : value d (c :: cs) = scalar c cs := by
  cases d with
  | zero => rw [value, if_neg (by rintro (h | h) <;> contradiction)]
  | succ d => rw [value, if_neg h1, if_neg h2]

theorem value_complete : ∀ d, Complete d (value d)
  | d, _, _, r, .null _, _ => by
    rw [ascii_null]
    show value d (0x6E :: ([0x75, 0x6C, 0x6C] ++ r)) = _
    rw [value_scalar (by decide) (by decide)]
    exact word_ok.2 ⟨rfl, rfl⟩
  | d, _, _, r, .true _, _ => by
    rw [ascii_true]
    show value d (0x74 :: ([0x72, 0x75, 0x65] ++ r)) = _
    rw [value_scalar (by decide) (by decide)]
    exact word_ok.2 ⟨rfl, rfl⟩
  | d, _, _, r, .false _, _ => by
    rw [ascii_false]
    show value d (0x66 :: ([0x61, 0x6C, 0x73, 0x65] ++ r)) = _
    rw [value_scalar (by decide) (by decide)]
    exact word_ok.2 ⟨rfl, rfl⟩
  | d, t, _, r, .num _ n _ h, ha => by
    obtain ⟨c, cs, rfl, hc⟩ := numText_head h
    have hne : ∀ x : UInt8, (x.toNat < 0x30 ∨ 0x39 < x.toNat) → x ≠ 0x2D → c ≠ x := by
      rintro x hx hx' rfl
      rcases hc with rfl | ⟨d, rfl⟩
      · exact hx' rfl
      · have := digitByte_range d
        omega
    obtain ⟨h1, h2⟩ := ha n rfl
    rw [List.cons_append, value_scalar (hne _ (by decide) (by decide)) (hne _ (by decide) (by decide))]
    exact scalar_num h rfl h1 h2
  | d, _, _, r, .str _ s _ h, _ => by
    have h' := h
    obtain ⟨x, rfl, _⟩ := h'
    rw [ascii_q]
    show value d (0x22 :: (x ++ [0x22] ++ r)) = _
    rw [value_scalar (by decide) (by decide)]
    show (strLit _).map _ = _
    rw [strLit_ok.2 ⟨_, h, by rw [ascii_q]; rfl⟩]
    rfl
  | _, _, _, r, .arr0 d b hb, _ => by
    rw [ascii_lbr, ascii_rbr]
    have : [0x5B] ++ b ++ [0x5D] ++ r = 0x5B :: (b ++ 0x5D :: r) := by simp
    rw [this, value, if_pos rfl, array_empty hb]
  | _, _, _, r, .arr d xs t h, _ => by
    rw [ascii_lbr, ascii_rbr]
    have : [0x5B] ++ t ++ [0x5D] ++ r = 0x5B :: (t ++ 0x5D :: r) := by simp
    rw [this, value, if_pos rfl, array_elems (value_complete d) h]
  | _, _, _, r, .obj0 d b hb, _ => by
    rw [ascii_lbc, ascii_rbc]
    have : [0x7B] ++ b ++ [0x7D] ++ r = 0x7B :: (b ++ 0x7D :: r) := by simp
    rw [this, value, if_neg (by decide), if_pos rfl, object_empty hb]
  | _, _, _, r, .obj d ms t h, _ => by
    rw [ascii_lbc, ascii_rbc]
    have : [0x7B] ++ t ++ [0x7D] ++ r = 0x7B :: (t ++ 0x7D :: r) := by simp
    rw [this, value, if_neg (by decide), if_pos rfl, object_members (value_complete d) h]

/-- Values. -/
theorem value_ok {d bs v r} : value d bs = .ok v r ↔ ∃ t, Text d v t ∧ bs = t ++ r ∧ After v r :=
  ⟨value_sound d bs v r, fun ⟨t, h1, h2, h3⟩ => by rw [h2]; exact value_complete d t v r h1 h3⟩

end GJS.Text

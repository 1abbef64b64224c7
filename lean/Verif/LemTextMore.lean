import Verif.LemTextStable
/-
Decoding whole inputs.
-/
namespace GJS.Text
open GJS.Io GJS.Spec

theorem ends_of_after {v : Json} {r : Bytes} (h : After v r) : Ends v r := by
  intro n b hn hb
  exact (h n hn).2 b hb

theorem after_of_ends {v : Json} {r : Bytes} (h : Ends v r) (hr : r ≠ []) : After v r :=
  fun n hn => ⟨hr, fun b hb => h n b hn hb⟩

theorem late_false {v : Json} : late v = false ↔ (∃ xs, v = .arr xs) ∨ ∃ m, v = .obj m := by
  cases v <;> simp [late]

/-- The last byte of a text of an array or an object. -/
theorem text_last {d v t} (h : Text d v t) (hl : late v = false) : ∃ t' c, t = t' ++ [c] ∧ c ≠ 0x20 := by
  cases h with
  | null => cases hl
  | true => cases hl
  | false => cases hl
  | num => cases hl
  | str => cases hl
  | arr0 => exact ⟨_, 0x5D, rfl, by decide⟩
  | arr => exact ⟨_, 0x5D, rfl, by decide⟩
  | obj0 => exact ⟨_, 0x7D, rfl, by decide⟩
  | obj => exact ⟨_, 0x7D, rfl, by decide⟩

/-- The first value of an input. -/
theorem readValue_ok {d bs v r} : readValue d bs = .ok v r ↔
    ∃ b t, Blank b ∧ Text d v t ∧ bs = b ++ t ++ r ∧ Ends v r ∧ (r = [] → late v = false) := by
  constructor
  · intro h
    obtain ⟨v', r', h1, h2⟩ := bind_ok.1 h
    obtain ⟨t, h3, h4, h5⟩ := value_ok.1 h1
    obtain ⟨b, h6, h7⟩ := skip_spec bs
    split at h2
    · cases h2
    · rename_i hl
      cases h2
      refine ⟨b, t, h6, h3, by rw [List.append_assoc, ← h4]; exact h7, ends_of_after h5, ?_⟩
      rintro rfl
      simpa using hl
  · rintro ⟨b, t, h1, h2, h3, h4, h5⟩
    refine bind_ok.2 ⟨v, r, ?_, ?_⟩
    · rw [h3, List.append_assoc, skip_blank h1, skip_text h2]
      refine value_ok.2 ⟨t, h2, rfl, ?_⟩
      by_cases hr : r = []
      · exact after_of fun n hn => by have := h5 hr; rw [hn] at this; cases this
      · exact after_of_ends h4 hr
    · rw [if_neg]
      cases hr : r with
      | nil => rw [h5 hr]; simp
      | cons => simp

theorem readValue_space {d bs v r} (h : readValue d (bs ++ [0x20]) = .ok v r) :
    ∃ b t r', Blank b ∧ Text d v t ∧ bs = b ++ t ++ r' ∧ r = r' ++ [0x20] ∧ Ends v r' := by
  obtain ⟨b, t, h1, h2, h3, h4, h5⟩ := readValue_ok.1 h
  rcases List.eq_nil_or_concat r with rfl | ⟨r', c, rfl⟩
  · obtain ⟨t', c, ht, hc⟩ := text_last h2 (h5 rfl)
    rw [ht, List.append_nil, ← List.append_assoc] at h3
    have := (List.append_inj' h3 rfl).2
    simp only [List.cons.injEq, and_true] at this
    exact absurd this.symm hc
  · rw [List.concat_eq_append, ← List.append_assoc] at h3
    obtain ⟨e1, e2⟩ := List.append_inj' h3 rfl
    simp only [List.cons.injEq, and_true] at e2
    subst e2
    refine ⟨b, t, r', h1, h2, e1, by simp, ?_⟩
    intro n x hn hx
    refine h4 n x hn ?_
    cases r' with
    | nil => cases hx
    | cons => exact hx

theorem space_ends {v : Json} : Ends v [0x20] := by
  intro n b _ hb hc
  have : b = 0x20 := by simpa using hb.symm
  subst this
  rcases hc with ⟨⟨d, hd⟩, _⟩ | ⟨hd, _⟩ | ⟨hd, _⟩
  · revert d; decide
  · revert hd; decide
  · revert hd; decide

/-- Decoding is reading the first value, with a space after the input if need be. -/
theorem decode_ok {d bs v} : decode d bs = .ok v ↔
    ∃ b t r, Blank b ∧ Text d v t ∧ bs = b ++ t ++ r ∧ Ends v r := by
  constructor
  · intro h
    unfold decode at h
    cases hr : readValue d bs with
    | ok v' r =>
      rw [hr] at h
      cases h
      obtain ⟨b, t, h1, h2, h3, h4, _⟩ := readValue_ok.1 hr
      exact ⟨b, t, r, h1, h2, h3, h4⟩
    | bad => rw [hr] at h; cases h
    | more =>
      rw [hr] at h
      simp only [atEnd] at h
      cases hs : readValue d (bs ++ [0x20]) with
      | ok v' r =>
        rw [hs] at h
        cases h
        obtain ⟨b, t, r', h1, h2, h3, _, h4⟩ := readValue_space hs
        exact ⟨b, t, r', h1, h2, h3, h4⟩
      | bad => rw [hs] at h; cases h
      | more => rw [hs] at h; cases h
  · rintro ⟨b, t, r, h1, h2, h3, h4⟩
    have hs : readValue d (bs ++ [0x20]) = .ok v (r ++ [0x20]) := by
      refine readValue_ok.2 ⟨b, t, h1, h2, by rw [h3]; simp, ?_, by simp⟩
      cases r with
      | nil => exact space_ends
      | cons x xs => exact fun n y hn hy => h4 n y hn hy
    unfold decode
    cases hr : readValue d bs with
    | ok v' r' =>
      have := (readValue_st d bs [0x20]).1 v' r' hr
      rw [hs] at this
      injection this with e _
      rw [e]
    | bad =>
      have := (readValue_st d bs [0x20]).2 hr
      rw [hs] at this
      cases this
    | more =>
      show atEnd d bs = _
      rw [atEnd, hs]

/-- Names are distinct after the last of each is chosen. -/
theorem lastOf_mem {e : String × Json} : ∀ {ms : List (String × Json)}, e ∈ lastOf ms → e ∈ ms
  | [], h => by cases h
  | (k, v) :: ms, h => by
    rw [lastOf] at h
    split at h
    · exact List.mem_cons_of_mem _ (lastOf_mem h)
    · rcases List.mem_cons.1 h with rfl | h
      · exact List.mem_cons_self ..
      · exact List.mem_cons_of_mem _ (lastOf_mem h)

theorem lastOf_nodup : ∀ ms : List (String × Json), ((lastOf ms).map Prod.fst).Nodup
  | [] => List.nodup_nil
  | (k, v) :: ms => by
    rw [lastOf]
    split
    · exact lastOf_nodup ms
    · rename_i hk
      rw [List.map_cons, List.nodup_cons]
      refine ⟨?_, lastOf_nodup ms⟩
      intro hm
      obtain ⟨e, he, h⟩ := List.mem_map.1 hm
      exact hk (List.mem_map.2 ⟨e, lastOf_mem he, h⟩)

theorem lastOf_self : ∀ {ms : List (String × Json)}, (ms.map Prod.fst).Nodup → lastOf ms = ms
  | [], _ => rfl
  | (k, v) :: ms, h => by
    rw [List.map_cons, List.nodup_cons] at h
    rw [lastOf, if_neg h.1, lastOf_self h.2]

theorem text_wf {d v t} (h : Text d v t) : v.WF := by
  refine Text.rec (motive_1 := fun _ v _ _ => v.WF)
    (motive_2 := fun _ vs _ _ => ∀ v ∈ vs, v.WF)
    (motive_3 := fun _ ms _ _ => ∀ e ∈ ms, e.2.WF) ?_ ?_ ?_ ?_ ?_ ?_ ?_ ?_ ?_ ?_ ?_ ?_ ?_ h
  · intro _; exact .null
  · intro _; exact .bool _
  · intro _; exact .bool _
  · intro _ n _ _; exact .num n
  · intro _ s _ _; exact .str s
  · intro _ _ _; exact .arr _ (by simp)
  · intro _ xs _ _ ih; exact .arr _ ih
  · intro _ _ _; exact .obj _ List.nodup_nil (by simp)
  · intro _ ms _ _ ih; exact .obj _ (lastOf_nodup ms) fun e he => ih e (lastOf_mem he)
  · intro _ v _ _ _ _ _ _ ih x hx
    rw [List.mem_singleton] at hx
    rw [hx]; exact ih
  · intro _ v vs _ _ _ _ _ _ _ _ ih ihs x hx
    rcases List.mem_cons.1 hx with rfl | hx
    · exact ih
    · exact ihs x hx
  · intro _ k v _ _ _ _ _ _ _ _ _ _ _ _ ih e he
    rw [List.mem_singleton] at he
    rw [he]; exact ih
  · intro _ k v ms _ _ _ _ _ _ _ _ _ _ _ _ _ _ ih ihs e he
    rcases List.mem_cons.1 he with rfl | he
    · exact ih
    · exact ihs e he

/-! ### Every value has a text -/

theorem digits_exist (n : Nat) : ∃ d ds, n = worth (d :: ds) ∧ (d = 0 → ds = []) := by
  induction n using Nat.strongRecOn with
  | ind n ih =>
    by_cases h : n < 10
    · exact ⟨⟨n, h⟩, [], by simp [worth], fun _ => rfl⟩
    · obtain ⟨d, ds, h1, h2⟩ := ih (n / 10) (by omega)
      refine ⟨d, ds ++ [⟨n % 10, by omega⟩], ?_, ?_⟩
      · have e : worth (d :: (ds ++ [⟨n % 10, by omega⟩])) = worth (d :: ds) * 10 + n % 10 := by
          unfold worth
          rw [← List.cons_append, List.foldl_append]
          rfl
        rw [e, ← h1]
        omega
      · intro h0
        have h3 := h2 h0
        rw [h3, h0] at h1
        simp [worth] at h1
        omega

theorem number_exists (n : NumLit) : ∃ t, NumText t n := by
  obtain ⟨d, ds, h1, h2⟩ := digits_exist n.ip
  have hf : ∃ f, FracText f n.frac := by
    by_cases h : n.frac = []
    · exact ⟨[], .inl ⟨rfl, h⟩⟩
    · exact ⟨_, .inr ⟨_, rfl, h, rfl⟩⟩
  have hx : ∃ x, ExpText x n.exp := by
    cases he : n.exp with
    | none => exact ⟨[], .inl ⟨rfl, rfl⟩⟩
    | some e =>
      obtain ⟨d, ds, h1, -⟩ := digits_exist e.natAbs
      rcases Int.le_total 0 e with h | h
      · refine ⟨_, .inr ⟨ascii "e", [], _, d :: ds, .inl rfl, rfl, by simp, rfl, .inl ⟨.inl rfl, ?_⟩⟩⟩
        rw [← h1]; congr 1; omega
      · refine ⟨_, .inr ⟨ascii "e", ascii "-", _, d :: ds, .inl rfl, rfl, by simp, rfl, .inr ⟨rfl, ?_⟩⟩⟩
        rw [← h1]; congr 1; omega
  obtain ⟨f, hf⟩ := hf
  obtain ⟨x, hx⟩ := hx
  exact ⟨_, _, _, f, x, rfl, rfl, ⟨d, ds, rfl, h1, h2⟩, hf, hx⟩

theorem hex_exists {n : Nat} (h : n < 16) : ∃ b, Hex b n := by
  by_cases h' : n < 10
  · exact ⟨UInt8.ofNat (0x30 + n), .inl ⟨h', by rw [UInt8.toNat_ofNat']; omega⟩⟩
  · exact ⟨UInt8.ofNat (0x61 + (n - 10)), .inr ⟨by omega, h, .inl (by rw [UInt8.toNat_ofNat']; omega)⟩⟩

theorem strText_exists : ∀ cs : List Char, ∃ t, StrText t cs
  | [] => ⟨[], .nil⟩
  | c :: cs => by
    obtain ⟨t, h⟩ := strText_exists cs
    by_cases h1 : c.toNat < 0x20
    · obtain ⟨a, ha⟩ := hex_exists (n := 0) (by omega)
      obtain ⟨k, hk⟩ := hex_exists (n := c.toNat / 16) (by omega)
      obtain ⟨l, hl⟩ := hex_exists (n := c.toNat % 16) (by omega)
      have hu := Unit16.mk a a k l _ _ _ _ ha ha hk hl
      have e : 0 * 4096 + 0 * 256 + c.toNat / 16 * 16 + c.toNat % 16 = c.toNat := by omega
      rw [e] at hu
      have := StrText.unit _ _ t cs hu (by unfold High; omega) (by unfold Low; omega) h
      rw [Char.ofNat_toNat] at this
      exact ⟨_, this⟩
    · by_cases h2 : c = '"'
      · subst h2
        exact ⟨_, .short '"' '"' t cs (by decide) h⟩
      · by_cases h3 : c = '\\'
        · subst h3
          exact ⟨_, .short '\\' '\\' t cs (by decide) h⟩
        · exact ⟨_, .char c t cs (by omega) h2 h3 h⟩

theorem strLit_exists (s : String) : ∃ t, StrLit t s := by
  obtain ⟨x, h⟩ := strText_exists s.toList
  exact ⟨_, x, rfl, h⟩

theorem blank_nil : Blank [] := by intro b hb; cases hb

theorem elems_exist {d} : ∀ {xs : List Json}, xs ≠ [] → (∀ x ∈ xs, ∃ t, Text d x t) → ∃ t, Elems d xs t
  | [], h, _ => absurd rfl h
  | [x], _, h => by
    obtain ⟨t, ht⟩ := h x (by simp)
    exact ⟨_, .one d x [] t [] blank_nil ht blank_nil⟩
  | x :: y :: xs, _, h => by
    obtain ⟨t, ht⟩ := h x (by simp)
    obtain ⟨ts, hts⟩ := elems_exist (d := d) (xs := y :: xs) (by simp) fun z hz => h z (List.mem_cons_of_mem _ hz)
    exact ⟨_, .cons d x _ [] t [] ts blank_nil ht blank_nil hts⟩

theorem members_exist {d} : ∀ {ms : List (String × Json)}, ms ≠ [] → (∀ e ∈ ms, ∃ t, Text d e.2 t) → ∃ t, Members d ms t
  | [], h, _ => absurd rfl h
  | [(k, v)], _, h => by
    obtain ⟨t, ht⟩ := h (k, v) (by simp)
    obtain ⟨q, hq⟩ := strLit_exists k
    exact ⟨_, .one d k v [] q [] [] t [] blank_nil hq blank_nil blank_nil ht blank_nil⟩
  | (k, v) :: e :: ms, _, h => by
    obtain ⟨t, ht⟩ := h (k, v) (by simp)
    obtain ⟨q, hq⟩ := strLit_exists k
    obtain ⟨ts, hts⟩ := members_exist (d := d) (ms := e :: ms) (by simp) fun z hz => h z (List.mem_cons_of_mem _ hz)
    exact ⟨_, .cons d k v _ [] q [] [] t [] ts blank_nil hq blank_nil blank_nil ht blank_nil hts⟩

theorem text_exists {d v} (hn : Nested d v) : v.WF → ∃ t, Text d v t := by
  induction hn with
  | null => intro _; exact ⟨_, .null _⟩
  | bool d b =>
    intro _
    cases b
    · exact ⟨_, .false _⟩
    · exact ⟨_, .true _⟩
  | num d n => intro _; obtain ⟨t, h⟩ := number_exists n; exact ⟨t, .num _ _ _ h⟩
  | str d s => intro _; obtain ⟨t, h⟩ := strLit_exists s; exact ⟨t, .str _ _ _ h⟩
  | arr d xs _ ih =>
    intro hw
    cases hw with
    | arr _ hw =>
      by_cases h : xs = []
      · subst h; exact ⟨_, .arr0 _ [] blank_nil⟩
      · obtain ⟨t, ht⟩ := elems_exist h fun x hx => ih x hx (hw x hx)
        exact ⟨_, .arr _ _ _ ht⟩
  | obj d ms _ ih =>
    intro hw
    cases hw with
    | obj _ hn hw =>
      by_cases h : ms = []
      · subst h; exact ⟨_, .obj0 _ [] blank_nil⟩
      · obtain ⟨t, ht⟩ := members_exist h fun x hx => ih x hx (hw x hx)
        have := Text.obj _ _ _ ht
        rw [lastOf_self hn] at this
        exact ⟨_, this⟩

theorem text_nested {d v t} (h : Text d v t) : Nested d v := by
  refine Text.rec (motive_1 := fun d v _ _ => Nested d v)
    (motive_2 := fun d vs _ _ => ∀ v ∈ vs, Nested d v)
    (motive_3 := fun d ms _ _ => ∀ e ∈ ms, Nested d e.2) ?_ ?_ ?_ ?_ ?_ ?_ ?_ ?_ ?_ ?_ ?_ ?_ ?_ h
  · intro _; exact .null _
  · intro _; exact .bool _ _
  · intro _; exact .bool _ _
  · intro _ n _ _; exact .num _ n
  · intro _ s _ _; exact .str _ s
  · intro _ _ _; exact .arr _ _ (by simp)
  · intro _ xs _ _ ih; exact .arr _ _ ih
  · intro _ _ _; exact .obj _ _ (by simp)
  · intro _ ms _ _ ih; exact .obj _ _ fun e he => ih e (lastOf_mem he)
  · intro _ v _ _ _ _ _ _ ih x hx
    rw [List.mem_singleton] at hx
    rw [hx]; exact ih
  · intro _ v vs _ _ _ _ _ _ _ _ ih ihs x hx
    rcases List.mem_cons.1 hx with rfl | hx
    · exact ih
    · exact ihs x hx
  · intro _ k v _ _ _ _ _ _ _ _ _ _ _ _ ih e he
    rw [List.mem_singleton] at he
    rw [he]; exact ih
  · intro _ k v ms _ _ _ _ _ _ _ _ _ _ _ _ _ _ ih ihs e he
    rcases List.mem_cons.1 he with rfl | he
    · exact ih
    · exact ihs e he

theorem text_mono {d v t} (h : Text d v t) : ∀ {d'}, d ≤ d' → Text d' v t := by
  refine Text.rec (motive_1 := fun d v t _ => ∀ {d'}, d ≤ d' → Text d' v t)
    (motive_2 := fun d vs t _ => ∀ {d'}, d ≤ d' → Elems d' vs t)
    (motive_3 := fun d ms t _ => ∀ {d'}, d ≤ d' → Members d' ms t) ?_ ?_ ?_ ?_ ?_ ?_ ?_ ?_ ?_ ?_ ?_ ?_ ?_ h
  · intros; exact .null _
  · intros; exact .true _
  · intros; exact .false _
  · intro _ _ _ h _ _; exact .num _ _ _ h
  · intro _ _ _ h _ _; exact .str _ _ _ h
  · intro _ _ hb d' hd
    match d', hd with
    | d' + 1, _ => exact .arr0 _ _ hb
  · intro _ _ _ _ ih d' hd
    match d', hd with
    | d' + 1, hd => exact .arr _ _ _ (ih (by omega))
  · intro _ _ hb d' hd
    match d', hd with
    | d' + 1, _ => exact .obj0 _ _ hb
  · intro _ _ _ _ ih d' hd
    match d', hd with
    | d' + 1, hd => exact .obj _ _ _ (ih (by omega))
  · intro _ _ _ _ _ h1 _ h2 ih d' hd
    exact .one _ _ _ _ _ h1 (ih hd) h2
  · intro _ _ _ _ _ _ _ h1 _ h2 _ ih ihs d' hd
    exact .cons _ _ _ _ _ _ _ h1 (ih hd) h2 (ihs hd)
  · intro _ _ _ _ _ _ _ _ _ h1 h2 h3 h4 _ h5 ih d' hd
    exact .one _ _ _ _ _ _ _ _ _ h1 h2 h3 h4 (ih hd) h5
  · intro _ _ _ _ _ _ _ _ _ _ _ h1 h2 h3 h4 _ h5 _ ih ihs d' hd
    exact .cons _ _ _ _ _ _ _ _ _ _ _ h1 h2 h3 h4 (ih hd) h5 (ihs hd)

/-! ### Reading in pieces -/

/-- `Decoder.Decode` in the terms of `IoLoader`. -/
theorem loop_eq (d : Nat) : ∀ fuel cap have_ buf, buf.length < fuel → have_.length ≤ cap →
    (decodeLoop (scanner d) fuel cap have_ buf).1 = (decode d (have_ ++ buf)).mapError ioErr
  | 0, _, _, _, h, _ => by omega
  | fuel + 1, cap, have_, buf, h, hc => by
    unfold decodeLoop
    cases hr : readValue d have_ with
    | ok v r =>
      have hs : (scanner d).scan have_ = some (.ok v) := by simp [scanner, hr]
      have hd : readValue d (have_ ++ buf) = _ := (readValue_st d have_ buf).1 _ _ hr
      rw [hs, decode, hd]
      rfl
    | bad =>
      have hs : (scanner d).scan have_ = some (.error (ioErr .syntax)) := by simp [scanner, hr]
      have hd : readValue d (have_ ++ buf) = _ := (readValue_st d have_ buf).2 hr
      rw [hs, decode, hd]
      rfl
    | more =>
      have hs : (scanner d).scan have_ = none := by simp [scanner, hr]
      rw [hs]
      cases buf with
      | nil =>
        rw [List.append_nil, decode, hr]
        rfl
      | cons c cs =>
        have key : ∀ cap', 0 < cap' - have_.length →
            (decodeLoop (scanner d) fuel cap' (have_ ++ (c :: cs).take (cap' - have_.length))
              ((c :: cs).drop (cap' - have_.length))).1 = (decode d (have_ ++ (c :: cs))).mapError ioErr := by
          intro cap' hc
          rw [loop_eq d fuel _ _ _ (by rw [List.length_drop]; simp at h ⊢; omega)
            (by rw [List.length_append, List.length_take]; omega), List.append_assoc, List.take_append_drop]
        refine key _ ?_
        split <;> omega

end GJS.Text

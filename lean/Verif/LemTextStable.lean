import Verif.LemTextVal
/-
Decoding does not depend on what it has not looked at.
-/
namespace GJS.Text
open GJS.Io GJS.Spec

/-- What `f` finds out about an input, `g` finds out about a longer one. -/
def St (f g : Bytes → Dec α) : Prop :=
  ∀ bs x, (∀ a r, f bs = .ok a r → g (bs ++ x) = .ok a (r ++ x)) ∧ (f bs = .bad → g (bs ++ x) = .bad)

theorem St.bind {α β : Type} {f f' : Bytes → Dec α} {g g' : α → Bytes → Dec β} (h : St f f') (hg : ∀ a, St (g a) (g' a)) :
    St (fun bs => (f bs).bind g) (fun bs => (f' bs).bind g') := by
  intro bs x
  obtain ⟨h1, h2⟩ := h bs x
  cases hf : f bs with
  | ok a r =>
    obtain ⟨k1, k2⟩ := hg a r x
    constructor
    · intro b r' h
      show (f' (bs ++ x)).bind g' = _
      rw [h1 a r hf]
      exact k1 b r' (by have h := h; simp only [hf] at h; exact h)
    · intro h
      show (f' (bs ++ x)).bind g' = _
      rw [h1 a r hf]
      exact k2 (by have h := h; simp only [hf] at h; exact h)
  | bad =>
    constructor
    · intro b r' h
      simp only [hf] at h
      cases h
    · intro _
      show (f' (bs ++ x)).bind g' = _
      rw [h2 hf]
      rfl
  | more =>
    constructor
    · intro b r' h
      simp only [hf] at h
      cases h
    · intro h
      simp only [hf] at h
      cases h

theorem St.ok {α : Type} (a : α) : St (fun bs => .ok a bs) (fun bs => .ok a bs) := by
  intro bs x
  exact ⟨fun _ _ h => (by cases h; rfl), fun h => by cases h⟩

theorem St.bad {α : Type} : St (fun _ => (.bad : Dec α)) (fun _ => .bad) := by
  intro bs x
  exact ⟨fun _ _ h => (by cases h), fun _ => rfl⟩

theorem St.more {α : Type} {g : Bytes → Dec α} : St (fun _ => (.more : Dec α)) g := by
  intro bs x
  exact ⟨fun _ _ h => (by cases h), fun h => by cases h⟩

theorem St.map {α β : Type} {f f' : Bytes → Dec α} (h : St f f') (u : α → β) :
    St (fun bs => (f bs).map u) (fun bs => (f' bs).map u) := h.bind fun a => St.ok (u a)

theorem St.ite {α : Type} {p : Prop} [Decidable p] {f f' g g' : Bytes → Dec α} (h : St f f') (h' : St g g') :
    St (fun bs => if p then f bs else g bs) (fun bs => if p then f' bs else g' bs) := by
  by_cases hp : p
  · simp only [if_pos hp]; exact h
  · simp only [if_neg hp]; exact h'

/-- Look at the first byte. -/
def first (f : UInt8 → Bytes → Dec α) : Bytes → Dec α
  | [] => .more
  | c :: cs => f c cs

theorem St.first {α : Type} {f f' : UInt8 → Bytes → Dec α} (h : ∀ c, St (f c) (f' c)) : St (first f) (first f') := by
  intro bs x
  cases bs with
  | nil => exact ⟨fun _ _ h => (by cases h), fun h => by cases h⟩
  | cons c cs => exact h c cs x

theorem skip_append {bs x : Bytes} {c cs} (h : skip bs = c :: cs) : skip (bs ++ x) = c :: (cs ++ x) := by
  obtain ⟨b, h1, h2⟩ := skip_cons h
  rw [h2, List.append_assoc, skip_blank h1]
  exact skip_stop (skip_head h)

/-- After white space. -/
theorem St.skip {α : Type} {f f' : Bytes → Dec α} (h : St f f') (hn : f [] = .more) :
    St (fun bs => f (skip bs)) (fun bs => f' (skip bs)) := by
  intro bs x
  cases hs : Text.skip bs with
  | nil =>
    constructor
    · intro a r he
      simp only [hs, hn] at he
      cases he
    · intro he
      simp only [hs, hn] at he
      cases he
  | cons c cs =>
    simp only [skip_append hs]
    obtain ⟨h1, h2⟩ := h (c :: cs) x
    exact ⟨fun a r he => h1 a r (by simpa only [hs] using he), fun he => h2 (by simpa only [hs] using he)⟩

/-- Values recognised together with the rest: what was found stays. -/
theorem append_head? {r x : Bytes} (h : r ≠ []) : (r ++ x).head? = r.head? := by
  cases r with
  | nil => exact absurd rfl h
  | cons => rfl

theorem digits1_st : St digits1 digits1 := by
  intro bs x
  constructor
  · intro ds r h
    obtain ⟨h1, h2, h3, h4⟩ := digits1_ok.1 h
    refine digits1_ok.2 ⟨by rw [h1, List.append_assoc], h2, by simp [h3], ?_⟩
    intro b hb
    rw [append_head? h3] at hb
    exact h4 b hb
  · intro h
    unfold digits1 at h
    cases hd : digits bs with
    | mk ds r =>
      rw [hd] at h
      obtain ⟨h1, h2⟩ := digits_spec hd
      cases r with
      | nil => cases h
      | cons c cs =>
        cases ds with
        | cons d ds => cases h
        | nil =>
          have h1 : bs = c :: cs := h1
          subst h1
          rw [List.cons_append, digits1, digits, h2 c rfl]

theorem intPart_eq : intPart = first fun c cs => if c = 0x30 then .ok 0 cs else (digits1 (c :: cs)).map digitsVal := by
  funext bs; cases bs <;> rfl

theorem fracPart_eq : fracPart = first fun c cs => if c = 0x2E then digits1 cs else .ok [] (c :: cs) := by
  funext bs; cases bs <;> rfl

theorem signedDigits_eq : signedDigits = first fun s ds =>
    if s = 0x2B then (digits1 ds).map fun l => (digitsVal l : Int)
    else if s = 0x2D then (digits1 ds).map fun l => -(digitsVal l : Int)
    else (digits1 (s :: ds)).map fun l => (digitsVal l : Int) := by
  funext bs; cases bs <;> rfl

theorem expPart_eq : expPart = first fun c cs =>
    if c = 0x65 ∨ c = 0x45 then (signedDigits cs).map some else .ok none (c :: cs) := by
  funext bs; cases bs <;> rfl

theorem number_eq : number = first fun c cs => if c = 0x2D then numRest true cs else numRest false (c :: cs) := by
  funext bs; cases bs <;> rfl

theorem St.cons {α : Type} {f f' : Bytes → Dec α} (h : St f f') (c : UInt8) :
    St (fun cs => f (c :: cs)) (fun cs => f' (c :: cs)) := fun bs x => h (c :: bs) x

theorem intPart_st : St intPart intPart := by
  rw [intPart_eq]
  exact .first fun c => .ite (.ok _) ((digits1_st.cons c).map _)

theorem fracPart_st : St fracPart fracPart := by
  rw [fracPart_eq]
  exact .first fun c => .ite digits1_st ((St.ok _).cons c)

theorem signedDigits_st : St signedDigits signedDigits := by
  rw [signedDigits_eq]
  exact .first fun c => .ite (digits1_st.map _) (.ite (digits1_st.map _) ((digits1_st.cons c).map _))

theorem expPart_st : St expPart expPart := by
  rw [expPart_eq]
  exact .first fun c => .ite (signedDigits_st.map _) ((St.ok _).cons c)

theorem numRest_st (s : Bool) : St (numRest s) (numRest s) :=
  intPart_st.bind fun _ => fracPart_st.bind fun _ => expPart_st.bind fun _ => .ok _

theorem number_st : St number number := by
  rw [number_eq]
  exact .first fun c => .ite (numRest_st true) ((numRest_st false).cons c)

theorem scanStr_st : ∀ st, St (scanStr st) (scanStr st) := by
  intro st bs x
  induction bs generalizing st with
  | nil => cases st <;> exact ⟨fun _ _ h => (by cases h), fun h => by cases h⟩
  | cons c cs ih =>
    have wrap : ∀ st', (∀ a r, (scanStr st' cs).map (c :: ·) = .ok a r →
          (scanStr st' (cs ++ x)).map (c :: ·) = .ok a (r ++ x)) ∧
        ((scanStr st' cs).map (c :: ·) = .bad → (scanStr st' (cs ++ x)).map (c :: ·) = .bad) := by
      intro st'
      obtain ⟨h1, h2⟩ := ih st'
      constructor
      · intro a r h
        obtain ⟨a', h3, rfl⟩ := map_ok.1 h
        rw [h1 _ _ h3]; rfl
      · intro h
        cases hs : scanStr st' cs with
        | ok a r => rw [hs] at h; cases h
        | more => rw [hs] at h; cases h
        | bad => rw [h2 hs]; rfl
    have isbad : (∀ a r, (.bad : Dec Bytes) = .ok a r → (.bad : Dec Bytes) = .ok a (r ++ x)) ∧
        ((.bad : Dec Bytes) = .bad → (.bad : Dec Bytes) = .bad) := ⟨fun _ _ h => (by cases h), fun _ => rfl⟩
    rw [List.cons_append]
    match st with
    | .body =>
      rw [scanStr, scanStr]
      split
      · exact ⟨fun _ _ h => (by cases h; rfl), fun h => by cases h⟩
      · split
        · exact wrap _
        · split
          · exact isbad
          · exact wrap _
    | .esc =>
      rw [scanStr, scanStr]
      split
      · exact wrap _
      · split
        · exact wrap _
        · exact isbad
    | .hex 0 =>
      rw [scanStr, scanStr]
      split
      · exact wrap _
      · exact isbad
    | .hex (n + 1) =>
      rw [scanStr, scanStr]
      split
      · exact wrap _
      · exact isbad

theorem strLit_st : St strLit strLit := (scanStr_st .body).map _

theorem word_st (v : Json) : ∀ es, St (word v es) (word v es)
  | [] => by
    have : word v [] = fun bs => .ok v bs := by funext bs; cases bs <;> rfl
    rw [this]; exact .ok v
  | e :: es => by
    have : word v (e :: es) = first fun b bs => if e = b then word v es bs else .bad := by
      funext bs; cases bs <;> rfl
    rw [this]
    exact .first fun b => .ite (word_st v es) .bad

/-- After a value: a comma, an end, or nothing else. -/
theorem elems_eq (val : Bytes → Dec Json) (n : Nat) : elems val (n + 1) = fun bs =>
    (val (skip bs)).bind fun v r => first (fun c cs =>
        if c = 0x2C then (elems val n cs).map (v :: ·)
        else if c = 0x5D then .ok [v] cs
        else .bad) (skip r) := by
  funext bs
  rw [elems]
  congr 1

theorem elems_st {val : Bytes → Dec Json} (hv : St val val) (h0 : val [] = .more) :
    ∀ {n m}, n ≤ m → St (elems val n) (elems val m)
  | 0, m, _ => by
    have : elems val 0 = fun _ => .more := by funext bs; rfl
    rw [this]; exact .more
  | n + 1, 0, h => by omega
  | n + 1, m + 1, h => by
    rw [elems_eq, elems_eq]
    refine St.bind (hv.skip h0) fun v => ?_
    exact (St.first fun c => .ite ((elems_st hv h0 (by omega)).map _) (.ite (.ok _) .bad)).skip rfl

theorem name_eq : name = fun bs => first (fun q cs =>
    if q = 0x22 then (strLit cs).bind fun k r => first (fun c cs' => if c = 0x3A then .ok k cs' else .bad) (skip r)
    else .bad) (skip bs) := by
  funext bs
  unfold name
  cases skip bs with
  | nil => rfl
  | cons q cs =>
    show (if q = 0x22 then _ else _) = (if q = 0x22 then _ else _)
    congr 2

theorem name_st : St name name := by
  rw [name_eq]
  exact (St.first fun q => .ite (strLit_st.bind fun k => (St.first fun c => .ite (.ok _) .bad).skip rfl) .bad).skip rfl

theorem members_eq (val : Bytes → Dec Json) (n : Nat) (m : List (String × Json)) : members val (n + 1) m = fun bs =>
    (name bs).bind fun k r => (val (skip r)).bind fun v r => first (fun c cs =>
        if c = 0x2C then members val n (mapSet m k v) cs
        else if c = 0x7D then .ok (mapSet m k v) cs
        else .bad) (skip r) := by
  funext bs
  rw [members]
  congr 1

theorem members_st {val : Bytes → Dec Json} (hv : St val val) (h0 : val [] = .more) :
    ∀ {n n' m}, n ≤ n' → St (members val n m) (members val n' m)
  | 0, n', m, _ => by
    have : members val 0 m = fun _ => .more := by funext bs; rfl
    rw [this]; exact .more
  | n + 1, 0, m, h => by omega
  | n + 1, n' + 1, m, h => by
    rw [members_eq, members_eq]
    refine St.bind name_st fun k => St.bind (hv.skip h0) fun v => ?_
    exact (St.first fun c => .ite (members_st hv h0 (by omega)) (.ite (.ok _) .bad)).skip rfl

theorem array_st {val : Bytes → Dec Json} (hv : St val val) (h0 : val [] = .more) : St (array val) (array val) := by
  intro bs x
  cases hs : skip bs with
  | nil =>
    have : array val bs = .more := by unfold array; rw [hs]
    rw [this]
    exact ⟨fun _ _ h => (by cases h), fun h => by cases h⟩
  | cons c cs =>
    unfold array
    rw [hs, skip_append hs]
    simp only
    split
    · exact ⟨fun _ _ h => (by cases h; rfl), fun h => by cases h⟩
    · exact ((elems_st hv h0 (n := bs.length) (m := (bs ++ x).length) (by simp)).map Json.arr) bs x

theorem object_st {val : Bytes → Dec Json} (hv : St val val) (h0 : val [] = .more) : St (object val) (object val) := by
  intro bs x
  cases hs : skip bs with
  | nil =>
    have : object val bs = .more := by unfold object; rw [hs]
    rw [this]
    exact ⟨fun _ _ h => (by cases h), fun h => by cases h⟩
  | cons c cs =>
    unfold object
    rw [hs, skip_append hs]
    simp only
    split
    · exact ⟨fun _ _ h => (by cases h; rfl), fun h => by cases h⟩
    · exact ((members_st hv h0 (n := bs.length) (n' := (bs ++ x).length) (by simp)).map Json.obj) bs x

theorem scalar_st (c : UInt8) : St (scalar c) (scalar c) :=
  .ite (strLit_st.map _) (.ite (word_st _ _) (.ite (word_st _ _) (.ite (word_st _ _) (.ite ((number_st.cons c).map _) .bad))))

theorem value_nil (d : Nat) : value d [] = .more := by cases d <;> rfl

theorem value_st : ∀ d, St (value d) (value d)
  | 0 => by
    have : value 0 = first fun c cs => if c = 0x5B ∨ c = 0x7B then .bad else scalar c cs := by
      funext bs; cases bs <;> rfl
    rw [this]
    exact .first fun c => .ite .bad (scalar_st c)
  | d + 1 => by
    have : value (d + 1) = first fun c cs => if c = 0x5B then array (value d) cs
        else if c = 0x7B then object (value d) cs else scalar c cs := by
      funext bs; cases bs <;> rfl
    rw [this]
    exact .first fun c => .ite (array_st (value_st d) (value_nil d)) (.ite (object_st (value_st d) (value_nil d)) (scalar_st c))

theorem late_st (v : Json) : St (fun rest => if (late v && rest.isEmpty) = true then .more else .ok v rest)
    (fun rest => if (late v && rest.isEmpty) = true then .more else .ok v rest) := by
  intro bs x
  constructor
  · intro a r h
    simp only at h ⊢
    split at h
    · cases h
    · rename_i hl
      cases h
      rw [if_neg]
      intro hx
      apply hl
      rw [Bool.and_eq_true] at hx ⊢
      refine ⟨hx.1, ?_⟩
      have := hx.2
      rw [List.isEmpty_iff] at this ⊢
      exact (List.append_eq_nil_iff.1 this).1
  · intro h
    simp only at h
    split at h <;> cases h

/-- The first value, and syntax errors, are found whatever follows. -/
theorem readValue_st (d : Nat) : St (readValue d) (readValue d) :=
  ((value_st d).skip (value_nil d)).bind late_st

end GJS.Text

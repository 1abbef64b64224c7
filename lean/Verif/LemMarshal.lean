import Verif.SpecEqual
import Mathlib.Data.Char
import Mathlib.Data.List.Forall2
import Mathlib.Data.List.Nodup
/-
Helper lemmas: serialisation is injective.
-/
namespace GJS
open Spec

/-! ### strings -/

theorem hexDigit_inj {a b : Nat} (h : hexDigit a = hexDigit b) : a % 16 = b % 16 := by
  have : ∀ x : Fin 16, ∀ y : Fin 16, Nat.digitChar x = Nat.digitChar y → x = y := by decide
  have := this ⟨a % 16, Nat.mod_lt _ (by decide)⟩ ⟨b % 16, Nat.mod_lt _ (by decide)⟩ h
  simpa using this

theorem escU_inj {c d : Char} (hc : c.toNat < 65536) (hd : d.toNat < 65536) (h : escU c = escU d) : c = d := by
  simp only [escU, List.cons.injEq, true_and, and_true] at h
  obtain ⟨h1, h2, h3, h4⟩ := h
  have h1 := hexDigit_inj h1
  have h2 := hexDigit_inj h2
  have h3 := hexDigit_inj h3
  have h4 := hexDigit_inj h4
  have : c.toNat = d.toNat := by omega
  exact Char.toNat_inj.1 this

/-- The shape of an escape: the character itself, or a backslash, a tag and a fixed payload. -/
theorem escChar_cases (c : Char) :
    (escChar c = [c] ∧ c ≠ '"' ∧ c ≠ '\\') ∨
    (c = '"' ∧ escChar c = ['\\', '"']) ∨ (c = '\\' ∧ escChar c = ['\\', '\\']) ∨
    (c = '\n' ∧ escChar c = ['\\', 'n']) ∨ (c = '\r' ∧ escChar c = ['\\', 'r']) ∨
    (c = '\t' ∧ escChar c = ['\\', 't']) ∨ (c.toNat < 65536 ∧ escChar c = escU c) := by
  unfold escChar
  split
  · exact .inr (.inl ⟨by assumption, rfl⟩)
  split
  · exact .inr (.inr (.inl ⟨by assumption, rfl⟩))
  split
  · exact .inr (.inr (.inr (.inl ⟨by assumption, rfl⟩)))
  split
  · exact .inr (.inr (.inr (.inr (.inl ⟨by assumption, rfl⟩))))
  split
  · exact .inr (.inr (.inr (.inr (.inr (.inl ⟨by assumption, rfl⟩)))))
  split
  · rename_i h
    refine .inr (.inr (.inr (.inr (.inr (.inr ⟨?_, rfl⟩)))))
    rcases h with h | h | h | h | h | h
    · omega
    · subst h; decide
    · subst h; decide
    · subst h; decide
    · omega
    · omega
  · exact .inl ⟨rfl, by assumption, by assumption⟩

theorem escChar_inj {c d : Char} {a b : List Char} (h : escChar c ++ a = escChar d ++ b) : c = d ∧ a = b := by
  rcases escChar_cases c with ⟨hc, hc1, hc2⟩ | ⟨rfl, hc⟩ | ⟨rfl, hc⟩ | ⟨rfl, hc⟩ | ⟨rfl, hc⟩ | ⟨rfl, hc⟩ | ⟨hc1, hc⟩ <;>
  rcases escChar_cases d with ⟨hd, hd1, hd2⟩ | ⟨rfl, hd⟩ | ⟨rfl, hd⟩ | ⟨rfl, hd⟩ | ⟨rfl, hd⟩ | ⟨rfl, hd⟩ | ⟨hd1, hd⟩ <;>
  rw [hc] at h <;> (try rw [hd] at h) <;>
  first
  | exact ⟨escU_inj hc1 hd1 (List.append_inj h rfl).1, (List.append_inj h rfl).2⟩
  | (simp only [escU, List.cons_append, List.nil_append, List.cons.injEq] at h
     first
     | exact absurd h.1.symm hd2
     | simp_all)

theorem escChar_ne_quote {c : Char} {a b : List Char} : escChar c ++ a ≠ '"' :: b := by
  intro h
  rcases escChar_cases c with ⟨hc, hc1, hc2⟩ | ⟨rfl, hc⟩ | ⟨rfl, hc⟩ | ⟨rfl, hc⟩ | ⟨rfl, hc⟩ | ⟨rfl, hc⟩ | ⟨hc1, hc⟩ <;>
  rw [hc] at h <;> simp [escU] at h
  exact hc1 h.1

theorem escList_inj : ∀ {s t : List Char} {a b : List Char},
    s.flatMap escChar ++ '"' :: a = t.flatMap escChar ++ '"' :: b → s = t ∧ a = b := by
  intro s
  induction s with
  | nil =>
    intro t a b h
    cases t with
    | nil => simpa using h
    | cons d t => simp only [List.flatMap_cons, List.flatMap_nil, List.nil_append, List.append_assoc] at h
                  exact absurd h.symm escChar_ne_quote
  | cons c s ih =>
    intro t a b h
    cases t with
    | nil => simp only [List.flatMap_cons, List.flatMap_nil, List.nil_append, List.append_assoc] at h
             exact absurd h escChar_ne_quote
    | cons d t =>
      simp only [List.flatMap_cons, List.append_assoc] at h
      obtain ⟨h1, h2⟩ := escChar_inj h
      obtain ⟨h3, h4⟩ := ih h2
      exact ⟨by rw [h1, h3], h4⟩

theorem encStr_inj {s t : String} {a b : List Char} (h : encStr s ++ a = encStr t ++ b) : s = t ∧ a = b := by
  simp only [encStr, List.cons_append, List.append_assoc, List.nil_append, List.cons.injEq, true_and] at h
  obtain ⟨h1, h2⟩ := escList_inj h
  exact ⟨String.toList_inj.1 h1, h2⟩

/-! ### numbers -/

/-- What may follow a serialised value. -/
def Delim (l : List Char) : Prop := ∀ ch t, l = ch :: t → ch = ',' ∨ ch = ']' ∨ ch = '}'

theorem Delim.nil : Delim [] := by intro ch t h; cases h
theorem Delim.cons {c t} (h : c = ',' ∨ c = ']' ∨ c = '}') : Delim (c :: t) := by
  intro ch t' h'; cases h'; exact h

theorem numSpan_inj : ∀ {l l' r r' : List Char}, (∀ c ∈ l, numChar c = true) → (∀ c ∈ l', numChar c = true) →
    Delim r → Delim r' → l ++ r = l' ++ r' → l = l' ∧ r = r' := by
  intro l
  induction l with
  | nil =>
    intro l' r r' _ h' hr _ h
    cases l' with
    | nil => exact ⟨rfl, by simpa using h⟩
    | cons c l' =>
      have h1 := hr c _ (by simpa using h)
      have h2 := h' c (by simp)
      rcases h1 with rfl | rfl | rfl <;> exact absurd h2 (by decide)
  | cons c l ih =>
    intro l' r r' h1 h' hr hr' h
    cases l' with
    | nil =>
      have h3 := hr' c _ (by simpa using h.symm)
      have h2 := h1 c (by simp)
      rcases h3 with rfl | rfl | rfl <;> exact absurd h2 (by decide)
    | cons d l' =>
      simp only [List.cons_append, List.cons.injEq] at h
      obtain ⟨rfl, h⟩ := h
      obtain ⟨rfl, rfl⟩ := ih (fun x hx => h1 x (by simp [hx])) (fun x hx => h' x (by simp [hx])) hr hr' h
      exact ⟨rfl, rfl⟩

/-! ### values -/

/-- All numbers in the value are float64s. -/
inductive CanonOK : Canon → Prop
  | null : CanonOK .null
  | bool (b) : CanonOK (.bool b)
  | num (f) : IsF64 f → CanonOK (.num f)
  | str (s) : CanonOK (.str s)
  | arr (xs) : (∀ x ∈ xs, CanonOK x) → CanonOK (.arr xs)
  | obj (kvs) : (∀ kv ∈ kvs, CanonOK kv.2) → CanonOK (.obj kvs)

/-- Comma-separated tail. -/
def tailL (fmt : F64 → String) : List Canon → List Char
  | [] => []
  | y :: ys => ',' :: encL fmt (y :: ys)
/-- Comma-separated tail of members. -/
def tailKV (fmt : F64 → String) : List (String × Canon) → List Char
  | [] => []
  | y :: ys => ',' :: encKV fmt (y :: ys)

theorem encL_cons {fmt x xs} : encL fmt (x :: xs) = enc fmt x ++ tailL fmt xs := by
  cases xs <;> simp [encL, tailL]
theorem encKV_cons {fmt k x xs} : encKV fmt ((k, x) :: xs) = encStr k ++ ':' :: (enc fmt x ++ tailKV fmt xs) := by
  cases xs <;> simp [encKV, tailKV]

/-- First characters of the different kinds of values. -/
def headOK (c : Canon) (ch : Char) : Prop :=
  match c with
  | .null => ch = 'n'
  | .bool b => ch = if b then 't' else 'f'
  | .num _ => numChar ch = true
  | .str _ => ch = '"'
  | .arr _ => ch = '['
  | .obj _ => ch = '{'

theorem enc_head {fmt} (hf : FmtOK fmt) {c : Canon} (hc : CanonOK c) : ∃ ch t, enc fmt c = ch :: t ∧ headOK c ch := by
  cases hc with
  | null => exact ⟨'n', "ull".toList, by simp [enc], rfl⟩
  | bool b => cases b
              · exact ⟨'f', "alse".toList, by simp [enc], rfl⟩
              · exact ⟨'t', "rue".toList, by simp [enc], rfl⟩
  | num f h =>
    have h1 := hf.nonempty f h
    have h2 := hf.chars f h
    simp only [enc]
    cases hl : (fmt f).toList with
    | nil => exact absurd (String.toList_eq_nil_iff.1 hl) h1
    | cons ch t => exact ⟨ch, t, rfl, h2 ch (by simp [hl])⟩
  | str s => exact ⟨'"', _, by simp only [enc, encStr]; rfl, rfl⟩
  | arr xs _ => exact ⟨'[', _, by simp only [enc]; rfl, rfl⟩
  | obj xs _ => exact ⟨'{', _, by simp only [enc]; rfl, rfl⟩

theorem enc_kind {fmt} (hf : FmtOK fmt) {c d : Canon} (hc : CanonOK c) (hd : CanonOK d) {r r' : List Char}
    (h : enc fmt c ++ r = enc fmt d ++ r') : ∃ ch, headOK c ch ∧ headOK d ch := by
  obtain ⟨x, t, h1, h2⟩ := enc_head hf hc
  obtain ⟨y, u, h3, h4⟩ := enc_head hf hd
  rw [h1, h3] at h
  simp only [List.cons_append, List.cons.injEq] at h
  exact ⟨x, h2, h.1 ▸ h4⟩

theorem enc_not_close {fmt} (hf : FmtOK fmt) {c : Canon} (hc : CanonOK c) {r r' : List Char} {ch : Char}
    (hch : ch = ']' ∨ ch = '}') : enc fmt c ++ r ≠ ch :: r' := by
  intro h
  obtain ⟨x, t, h1, h2⟩ := enc_head hf hc
  rw [h1] at h
  simp only [List.cons_append, List.cons.injEq] at h
  obtain ⟨rfl, _⟩ := h
  rcases hch with rfl | rfl <;> cases c <;> simp [headOK] at h2 <;> try exact absurd h2 (by decide)
  all_goals (split at h2 <;> exact absurd h2 (by decide))

mutual
theorem enc_inj {fmt} (hf : FmtOK fmt) : ∀ (c : Canon) (d : Canon) (r r' : List Char), CanonOK c → CanonOK d →
    Delim r → Delim r' → enc fmt c ++ r = enc fmt d ++ r' → c = d ∧ r = r'
  | .null, d, r, r', hc, hd, hr, hr', h => by
    obtain ⟨ch, h1, h2⟩ := enc_kind hf hc hd h
    cases d <;> simp only [headOK] at h1 h2 <;> subst h1 <;> try exact absurd h2 (by decide)
    · simpa using h
    · split at h2 <;> exact absurd h2 (by decide)
  | .bool b, d, r, r', hc, hd, hr, hr', h => by
    obtain ⟨ch, h1, h2⟩ := enc_kind hf hc hd h
    cases d <;> simp only [headOK] at h1 h2 <;> subst h1 <;> try (cases b <;> exact absurd h2 (by decide))
    rename_i b'
    cases b <;> cases b' <;> simp at h2
    · simpa using h
    · simpa using h
  | .num f, d, r, r', hc, hd, hr, hr', h => by
    obtain ⟨ch, h1, h2⟩ := enc_kind hf hc hd h
    cases d <;> simp only [headOK] at h1 h2 <;> try (subst h2; exact absurd h1 (by decide))
    · split at h2 <;> subst h2 <;> exact absurd h1 (by decide)
    · rename_i g
      cases hc with | num _ hc => ?_
      cases hd with | num _ hd => ?_
      simp only [enc] at h
      obtain ⟨h3, h4⟩ := numSpan_inj (hf.chars f hc) (hf.chars g hd) hr hr' h
      exact ⟨by rw [hf.inj f g hc hd (String.toList_inj.1 h3)], h4⟩
  | .str s, d, r, r', hc, hd, hr, hr', h => by
    obtain ⟨ch, h1, h2⟩ := enc_kind hf hc hd h
    cases d <;> simp only [headOK] at h1 h2 <;> subst h1 <;> try exact absurd h2 (by decide)
    · split at h2 <;> exact absurd h2 (by decide)
    · simp only [enc] at h
      obtain ⟨rfl, h'⟩ := encStr_inj h
      exact ⟨rfl, h'⟩
  | .arr xs, d, r, r', hc, hd, hr, hr', h => by
    obtain ⟨ch, h1, h2⟩ := enc_kind hf hc hd h
    cases d <;> simp only [headOK] at h1 h2 <;> subst h1 <;> try exact absurd h2 (by decide)
    · split at h2 <;> exact absurd h2 (by decide)
    · cases hc with | arr _ hc => ?_
      cases hd with | arr _ hd => ?_
      simp only [enc, List.cons_append, List.append_assoc, List.nil_append, List.cons.injEq, true_and] at h
      obtain ⟨rfl, h'⟩ := encL_inj hf xs _ r r' hc hd h
      exact ⟨rfl, h'⟩
  | .obj xs, d, r, r', hc, hd, hr, hr', h => by
    obtain ⟨ch, h1, h2⟩ := enc_kind hf hc hd h
    cases d <;> simp only [headOK] at h1 h2 <;> subst h1 <;> try exact absurd h2 (by decide)
    · split at h2 <;> exact absurd h2 (by decide)
    · cases hc with | obj _ hc => ?_
      cases hd with | obj _ hd => ?_
      simp only [enc, List.cons_append, List.append_assoc, List.nil_append, List.cons.injEq, true_and] at h
      obtain ⟨rfl, h'⟩ := encKV_inj hf xs _ r r' hc hd h
      exact ⟨rfl, h'⟩
theorem encL_inj {fmt} (hf : FmtOK fmt) : ∀ (xs ys : List Canon) (r r' : List Char),
    (∀ x ∈ xs, CanonOK x) → (∀ x ∈ ys, CanonOK x) →
    encL fmt xs ++ ']' :: r = encL fmt ys ++ ']' :: r' → xs = ys ∧ r = r'
  | [], ys, r, r', hx, hy, h => by
    cases ys with
    | nil => simpa [encL] using h
    | cons y ys =>
      rw [encL_cons, List.append_assoc] at h
      exact absurd h.symm (enc_not_close hf (hy y (by simp)) (.inl rfl))
  | x :: xs, ys, r, r', hx, hy, h => by
    cases ys with
    | nil =>
      rw [encL_cons, List.append_assoc] at h
      exact absurd h (enc_not_close hf (hx x (by simp)) (.inl rfl))
    | cons y ys =>
      rw [encL_cons, encL_cons, List.append_assoc, List.append_assoc] at h
      obtain ⟨rfl, h2⟩ := enc_inj hf x y _ _ (hx x (by simp)) (hy y (by simp)) (by
        cases xs
        · exact .cons (by simp)
        · exact .cons (by simp)) (by
        cases ys
        · exact .cons (by simp)
        · exact .cons (by simp)) h
      have hx' : ∀ z ∈ xs, CanonOK z := fun z hz => hx z (by simp [hz])
      have hy' : ∀ z ∈ ys, CanonOK z := fun z hz => hy z (by simp [hz])
      match xs, ys, hx', hy', h2 with
      | [], [], _, _, h => simpa [tailL] using h
      | [], _ :: _, _, _, h => simp [tailL] at h
      | _ :: _, [], _, _, h => simp [tailL] at h
      | a :: as, b :: bs, hx', hy', h =>
        simp only [tailL, List.cons_append, List.cons.injEq, true_and] at h
        obtain ⟨h1, h2⟩ := encL_inj hf (a :: as) (b :: bs) r r' hx' hy' h
        exact ⟨by rw [h1], h2⟩
theorem encKV_inj {fmt} (hf : FmtOK fmt) : ∀ (xs ys : List (String × Canon)) (r r' : List Char),
    (∀ kv ∈ xs, CanonOK kv.2) → (∀ kv ∈ ys, CanonOK kv.2) →
    encKV fmt xs ++ '}' :: r = encKV fmt ys ++ '}' :: r' → xs = ys ∧ r = r'
  | [], ys, r, r', hx, hy, h => by
    cases ys with
    | nil => simpa [encKV] using h
    | cons y ys =>
      obtain ⟨k, y⟩ := y
      rw [encKV_cons] at h
      simp [encKV, encStr] at h
  | (k, x) :: xs, ys, r, r', hx, hy, h => by
    cases ys with
    | nil =>
      rw [encKV_cons] at h
      simp [encKV, encStr] at h
    | cons y ys =>
      obtain ⟨k', y⟩ := y
      rw [encKV_cons, encKV_cons, List.append_assoc, List.append_assoc] at h
      obtain ⟨rfl, h1⟩ := encStr_inj h
      simp only [List.cons_append, List.append_assoc, List.cons.injEq, true_and] at h1
      obtain ⟨rfl, h2⟩ := enc_inj hf x y _ _ (hx (k, x) (by simp)) (hy (k, y) (by simp)) (by
        cases xs
        · exact .cons (by simp)
        · exact .cons (by simp)) (by
        cases ys
        · exact .cons (by simp)
        · exact .cons (by simp)) h1
      have hx' : ∀ z ∈ xs, CanonOK z.2 := fun z hz => hx z (by simp [hz])
      have hy' : ∀ z ∈ ys, CanonOK z.2 := fun z hz => hy z (by simp [hz])
      match xs, ys, hx', hy', h2 with
      | [], [], _, _, h => simpa [tailKV] using h
      | [], _ :: _, _, _, h => simp [tailKV] at h
      | _ :: _, [], _, _, h => simp [tailKV] at h
      | a :: as, b :: bs, hx', hy', h =>
        simp only [tailKV, List.cons_append, List.cons.injEq, true_and] at h
        obtain ⟨h1, h2⟩ := encKV_inj hf (a :: as) (b :: bs) r r' hx' hy' h
        exact ⟨by rw [h1], h2⟩
end

/-! ### decoding again -/

theorem canonL_forall : ∀ {xs : List Json} {cs}, canonL xs = some cs →
    List.Forall₂ (fun x c => canon x = some c) xs cs
  | [], cs, h => by simp [canonL] at h; subst h; exact .nil
  | x :: xs, cs, h => by
    simp only [canonL, Option.bind_eq_bind, Option.bind_eq_some_iff, Option.some.injEq] at h
    obtain ⟨c, hc, cs', hcs, rfl⟩ := h
    exact .cons hc (canonL_forall hcs)

theorem canonKV_forall : ∀ {xs : List (String × Json)} {cs}, canonKV xs = some cs →
    List.Forall₂ (fun x c => x.1 = c.1 ∧ canon x.2 = some c.2) xs cs
  | [], cs, h => by simp [canonKV] at h; subst h; exact .nil
  | (k, x) :: xs, cs, h => by
    simp only [canonKV, Option.bind_eq_bind, Option.bind_eq_some_iff, Option.some.injEq] at h
    obtain ⟨c, hc, cs', hcs, rfl⟩ := h
    exact .cons ⟨rfl, hc⟩ (canonKV_forall hcs)

theorem forall2_keys : ∀ {xs : List (String × Json)} {cs : List (String × Canon)},
    List.Forall₂ (fun x c => x.1 = c.1 ∧ canon x.2 = some c.2) xs cs → xs.map Prod.fst = cs.map Prod.fst := by
  intro xs cs h
  induction h with
  | nil => rfl
  | cons h _ ih => simp [h.1, ih]

theorem forall2_mem_left {α β : Type} {R : α → β → Prop} {xs : List α} {ys : List β} (h : List.Forall₂ R xs ys) :
    ∀ x ∈ xs, ∃ y ∈ ys, R x y := by
  induction h with
  | nil => simp
  | cons h _ ih =>
    intro x hx
    simp only [List.mem_cons] at hx
    rcases hx with rfl | hx
    · exact ⟨_, by simp, h⟩
    · obtain ⟨y, hy, hr⟩ := ih x hx; exact ⟨y, by simp [hy], hr⟩

theorem forall2_mem_right {α β : Type} {R : α → β → Prop} {xs : List α} {ys : List β} (h : List.Forall₂ R xs ys) :
    ∀ y ∈ ys, ∃ x ∈ xs, R x y := by
  induction h with
  | nil => simp
  | cons h _ ih =>
    intro x hx
    simp only [List.mem_cons] at hx
    rcases hx with rfl | hx
    · exact ⟨_, by simp, h⟩
    · obtain ⟨y, hy, hr⟩ := ih x hx; exact ⟨y, by simp [hy], hr⟩

theorem canon_ok : ∀ (v : Json) {c}, canon v = some c → CanonOK c := by
  intro v
  induction hn : v.size using Nat.strongRecOn generalizing v with
  | ind n ih =>
    intro c h
    cases v with
    | null => simp [canon] at h; subst h; exact .null
    | bool b => simp [canon] at h; subst h; exact .bool b
    | str b => simp [canon] at h; subst h; exact .str b
    | num m =>
      simp only [canon, Option.map_eq_some_iff] at h
      obtain ⟨f, hf, rfl⟩ := h
      exact .num f ⟨m, hf⟩
    | arr xs =>
      simp only [canon, Option.map_eq_some_iff] at h
      obtain ⟨cs, hcs, rfl⟩ := h
      refine .arr cs fun c hc => ?_
      obtain ⟨x, hx, hxc⟩ := forall2_mem_right (canonL_forall hcs) c hc
      exact ih x.size (by have := Json.size_lt_of_mem hx; omega) x rfl hxc
    | obj kvs =>
      simp only [canon, Option.map_eq_some_iff] at h
      obtain ⟨cs, hcs, rfl⟩ := h
      refine .obj _ fun c hc => ?_
      rw [List.mem_mergeSort] at hc
      obtain ⟨⟨k, x⟩, hx, hxc⟩ := forall2_mem_right (canonKV_forall hcs) c hc
      exact ih x.size (by have := Json.size_lt_of_mem_kv hx; omega) x rfl hxc.2

theorem keyLE_sorted {α : Type} (l : List (String × α)) : (l.mergeSort keyLE).Pairwise (fun a b => keyLE a b = true) := by
  refine List.pairwise_mergeSort ?_ ?_ l
  · intro a b c h1 h2
    simp only [keyLE, decide_eq_true_eq] at *
    exact String.le_trans h1 h2
  · intro a b
    simp only [keyLE, Bool.or_eq_true, decide_eq_true_eq]
    exact String.le_total _ _

theorem mem_keys_eq {α : Type} {l : List (String × α)} (hn : (l.map Prod.fst).Nodup) {k : String} {x y : α}
    (hx : (k, x) ∈ l) (hy : (k, y) ∈ l) : x = y := by
  have h1 := lookup_eq_some_of_mem hn hx
  rw [lookup_eq_some_of_mem hn hy] at h1
  exact (Option.some.inj h1).symm

theorem sort_eq_iff {α : Type} {l l' : List (String × α)} (hn : (l.map Prod.fst).Nodup) :
    l.mergeSort keyLE = l'.mergeSort keyLE ↔ l.Perm l' := by
  constructor
  · intro h
    exact (List.mergeSort_perm l keyLE).symm.trans (h ▸ List.mergeSort_perm l' keyLE)
  · intro h
    have hp : (l.mergeSort keyLE).Perm (l'.mergeSort keyLE) :=
      (List.mergeSort_perm l keyLE).trans (h.trans (List.mergeSort_perm l' keyLE).symm)
    refine hp.eq_of_pairwise ?_ (keyLE_sorted l) (keyLE_sorted l')
    rintro ⟨a, x⟩ ⟨b, y⟩ ha hb h1 h2
    simp only [keyLE, decide_eq_true_eq] at h1 h2
    obtain rfl := String.le_antisymm h1 h2
    rw [List.mem_mergeSort] at ha hb
    rw [mem_keys_eq hn ha (h.mem_iff.2 hb)]

/-- Decoded again, two documents are equal exactly when they are the same value. -/
theorem canon_eq_iff : ∀ (x y : Json) {c d}, x.WF → y.WF → canon x = some c → canon y = some d →
    (c = d ↔ SameVal x y) := by
  intro x
  induction hn : x.size using Nat.strongRecOn generalizing x with
  | ind n ih =>
    intro y c d hx hy hc hd
    cases x with
    | null =>
      simp only [canon, Option.some.injEq] at hc; subst hc
      cases y <;> simp only [canon, Option.some.injEq, Option.map_eq_some_iff] at hd
      · subst hd; simp [SameVal.null]
      all_goals first | (subst hd; constructor <;> intro h <;> cases h) | (obtain ⟨_, _, rfl⟩ := hd; constructor <;> intro h <;> cases h)
    | bool b =>
      simp only [canon, Option.some.injEq] at hc; subst hc
      cases y <;> simp only [canon, Option.some.injEq, Option.map_eq_some_iff] at hd
      case bool b' => subst hd; constructor <;> intro h <;> cases h <;> first | exact .bool _ | rfl
      all_goals first | (subst hd; constructor <;> intro h <;> cases h) | (obtain ⟨_, _, rfl⟩ := hd; constructor <;> intro h <;> cases h)
    | str b =>
      simp only [canon, Option.some.injEq] at hc; subst hc
      cases y <;> simp only [canon, Option.some.injEq, Option.map_eq_some_iff] at hd
      case str b' => subst hd; constructor <;> intro h <;> cases h <;> first | exact .str _ | rfl
      all_goals first | (subst hd; constructor <;> intro h <;> cases h) | (obtain ⟨_, _, rfl⟩ := hd; constructor <;> intro h <;> cases h)
    | num m =>
      simp only [canon, Option.map_eq_some_iff] at hc
      obtain ⟨f, hf, rfl⟩ := hc
      cases y <;> simp only [canon, Option.some.injEq, Option.map_eq_some_iff] at hd
      case num m' =>
        obtain ⟨g, hg, rfl⟩ := hd
        constructor
        · intro h; cases h; exact .num _ _ (by rw [hf, hg])
        · intro h; cases h with | num _ _ h => rw [hf, hg] at h; cases h; rfl
      all_goals first | (subst hd; constructor <;> intro h <;> cases h) | (obtain ⟨_, _, rfl⟩ := hd; constructor <;> intro h <;> cases h)
    | arr xs =>
      simp only [canon, Option.map_eq_some_iff] at hc
      obtain ⟨cs, hcs, rfl⟩ := hc
      cases y <;> simp only [canon, Option.some.injEq, Option.map_eq_some_iff] at hd
      case arr ys =>
        obtain ⟨ds, hds, rfl⟩ := hd
        have f1 := canonL_forall hcs
        have f2 := canonL_forall hds
        cases hx with | arr _ hx => ?_
        cases hy with | arr _ hy => ?_
        have key : ∀ (k : Nat) x y c d, xs[k]? = some x → ys[k]? = some y → cs[k]? = some c → ds[k]? = some d →
            (c = d ↔ SameVal x y) := by
          intro k x y c d h1 h2 h3 h4
          have hxm := List.mem_of_getElem? h1
          refine ih x.size (by have := Json.size_lt_of_mem hxm; omega) x rfl y (hx x hxm)
            (hy y (List.mem_of_getElem? h2)) ?_ ?_
          · obtain ⟨hk1, h1⟩ := List.getElem?_eq_some_iff.1 h1
            obtain ⟨hk3, h3⟩ := List.getElem?_eq_some_iff.1 h3
            have := (List.forall₂_iff_get.1 f1).2 k hk1 hk3
            simp only [List.get_eq_getElem, h1, h3] at this
            exact this
          · obtain ⟨hk1, h2⟩ := List.getElem?_eq_some_iff.1 h2
            obtain ⟨hk3, h4⟩ := List.getElem?_eq_some_iff.1 h4
            have := (List.forall₂_iff_get.1 f2).2 k hk1 hk3
            simp only [List.get_eq_getElem, h2, h4] at this
            exact this
        constructor
        · intro h; cases h
          refine .arr _ _ (by rw [f1.length_eq, f2.length_eq]) ?_
          intro k x y h1 h2
          have hk : k < cs.length := by
            have := (List.getElem?_eq_some_iff.1 h1).1; rw [f1.length_eq] at this; exact this
          exact (key k x y _ _ h1 h2 (List.getElem?_eq_getElem hk) (List.getElem?_eq_getElem hk)).1 rfl
        · intro h; cases h with
          | arr _ _ hl h =>
            congr 1
            apply List.ext_getElem?
            intro k
            have hlen : cs.length = ds.length := by rw [← f1.length_eq, ← f2.length_eq, hl]
            by_cases hk : k < cs.length
            · have hkx : k < xs.length := by rw [f1.length_eq]; exact hk
              have hky : k < ys.length := by omega
              have hkd : k < ds.length := by omega
              rw [List.getElem?_eq_getElem hk, List.getElem?_eq_getElem hkd]
              rw [(key k _ _ _ _ (List.getElem?_eq_getElem hkx) (List.getElem?_eq_getElem hky)
                (List.getElem?_eq_getElem hk) (List.getElem?_eq_getElem hkd)).2
                (h k _ _ (List.getElem?_eq_getElem hkx) (List.getElem?_eq_getElem hky))]
            · rw [List.getElem?_eq_none (by omega), List.getElem?_eq_none (by omega)]
      all_goals first | (subst hd; constructor <;> intro h <;> cases h) | (obtain ⟨_, _, rfl⟩ := hd; constructor <;> intro h <;> cases h)
    | obj a =>
      simp only [canon, Option.map_eq_some_iff] at hc
      obtain ⟨cs, hcs, rfl⟩ := hc
      cases y <;> simp only [canon, Option.some.injEq, Option.map_eq_some_iff] at hd
      case obj b =>
        obtain ⟨ds, hds, rfl⟩ := hd
        have f1 := canonKV_forall hcs
        have f2 := canonKV_forall hds
        cases hx with | obj _ hna hx => ?_
        cases hy with | obj _ hnb hy => ?_
        have hnc : (cs.map Prod.fst).Nodup := by rw [← forall2_keys f1]; exact hna
        have hnd : (ds.map Prod.fst).Nodup := by rw [← forall2_keys f2]; exact hnb
        have key : ∀ k x y c d, (k, x) ∈ a → (k, y) ∈ b → (k, c) ∈ cs → (k, d) ∈ ds → (c = d ↔ SameVal x y) := by
          intro k x y c d h1 h2 h3 h4
          refine ih x.size (by have := Json.size_lt_of_mem_kv h1; omega) x rfl y (hx _ h1) (hy _ h2) ?_ ?_
          · obtain ⟨⟨k', c'⟩, hm, rfl, hcc⟩ := forall2_mem_left f1 _ h1
            simp only at hcc
            rw [hcc, mem_keys_eq hnc hm h3]
          · obtain ⟨⟨k', c'⟩, hm, rfl, hcc⟩ := forall2_mem_left f2 _ h2
            simp only at hcc
            rw [hcc, mem_keys_eq hnd hm h4]
        rw [Canon.obj.injEq, sort_eq_iff hnc]
        constructor
        · intro hp
          refine .obj _ _ ?_ ?_
          · intro k
            rw [forall2_keys f1, forall2_keys f2]
            exact (hp.map Prod.fst).mem_iff
          · intro k x y h1 h2
            obtain ⟨⟨k', c'⟩, hm, rfl, hcc⟩ := forall2_mem_left f1 _ h1
            exact (key _ x y c' c' h1 h2 hm (hp.mem_iff.1 hm)).1 rfl
        · intro h
          cases h with
          | obj _ _ hk h =>
            rw [List.perm_ext_iff_of_nodup (List.Nodup.of_map _ hnc) (List.Nodup.of_map _ hnd)]
            rintro ⟨k, c⟩
            constructor
            · intro hm
              obtain ⟨⟨k', x⟩, h1, rfl, hxc⟩ := forall2_mem_right f1 _ hm
              have hkb := (hk k').1 (List.mem_map.2 ⟨_, h1, rfl⟩)
              obtain ⟨⟨k'', y⟩, h2, rfl⟩ := List.mem_map.1 hkb
              obtain ⟨⟨k3, d⟩, h4, rfl, hyd⟩ := forall2_mem_left f2 _ h2
              rw [(key _ x y c d h1 h2 hm h4).2 (h _ x y h1 h2)]
              exact h4
            · intro hm
              obtain ⟨⟨k', y⟩, h2, rfl, hyd⟩ := forall2_mem_right f2 _ hm
              have hka := (hk k').2 (List.mem_map.2 ⟨_, h2, rfl⟩)
              obtain ⟨⟨k'', x⟩, h1, rfl⟩ := List.mem_map.1 hka
              obtain ⟨⟨k3, c'⟩, h3, rfl, hxc⟩ := forall2_mem_left f1 _ h1
              rw [← (key _ x y c' c h1 h2 h3 hm).2 (h _ x y h1 h2)]
              exact h3
      all_goals first | (subst hd; constructor <;> intro h <;> cases h) | (obtain ⟨_, _, rfl⟩ := hd; constructor <;> intro h <;> cases h)

theorem marshal_eq_iff {fmt} (hf : FmtOK fmt) {x y : Json} {s t : String} (hx : x.WF) (hy : y.WF)
    (hs : marshalWithoutNumber fmt x = some s) (ht : marshalWithoutNumber fmt y = some t) :
    s = t ↔ SameVal x y := by
  simp only [marshalWithoutNumber, Option.map_eq_some_iff] at hs ht
  obtain ⟨c, hc, rfl⟩ := hs
  obtain ⟨d, hd, rfl⟩ := ht
  rw [← canon_eq_iff x y hx hy hc hd]
  constructor
  · intro h
    have h := String.ofList_inj.1 h
    exact (enc_inj hf c d [] [] (canon_ok x hc) (canon_ok y hd) .nil .nil (by simpa using h)).1
  · rintro rfl; rfl

end GJS

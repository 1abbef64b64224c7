import Verif.SpecGo
import Verif.LemMarshal
import Verif.LemTextMore
/-
Helper lemmas: what `json.Marshal` writes is a JSON text of the value.
-/
namespace GJS
open Spec Go Text Io

/-! ### Bytes -/

theorem utf8_core (c : Char) : String.utf8EncodeChar c = utf8Char c := by
  have hv := char_valid c
  have h0 : c.toNat = c.val.toNat := rfl
  unfold String.utf8EncodeChar utf8Char
  simp only [← h0]
  by_cases h1 : c.toNat < 0x80
  · have : c.toNat ≤ 0x7f := by omega
    simp only [h1, this, if_true]
  · have h1' : ¬ c.toNat ≤ 0x7f := by omega
    simp only [h1, h1', if_false]
    by_cases h2 : c.toNat < 0x800
    · have : c.toNat ≤ 0x7ff := by omega
      simp only [h2, this, if_true]
      have e1 : c.toNat / 64 % 32 = c.toNat / 64 := by omega
      simp only [List.cons.injEq, and_true]
      refine ⟨?_, ?_⟩ <;> refine congrArg UInt8.ofNat ?_ <;> omega
    · have h2' : ¬ c.toNat ≤ 0x7ff := by omega
      simp only [h2, h2', if_false]
      by_cases h3 : c.toNat < 0x10000
      · have : c.toNat ≤ 0xffff := by omega
        simp only [h3, this, if_true]
        simp only [List.cons.injEq, and_true]
        refine ⟨?_, ?_, ?_⟩ <;> refine congrArg UInt8.ofNat ?_ <;> omega
      · have h3' : ¬ c.toNat ≤ 0xffff := by omega
        simp only [h3, h3', if_false]
        simp only [List.cons.injEq, and_true]
        refine ⟨?_, ?_, ?_, ?_⟩ <;> refine congrArg UInt8.ofNat ?_ <;> omega

theorem bytes_eq (cs : List Char) : bytes cs = cs.flatMap utf8Char := by
  unfold bytes
  congr 1
  funext c
  exact utf8_core c

theorem bytes_toList (s : String) : bytes s.toList = utf8 s := bytes_eq _
theorem bytes_nil : bytes [] = [] := rfl
theorem bytes_cons (c : Char) (cs : List Char) : bytes (c :: cs) = utf8Char c ++ bytes cs := by
  rw [bytes_eq, bytes_eq]; rfl
theorem bytes_append (a b : List Char) : bytes (a ++ b) = bytes a ++ bytes b := by
  simp [bytes]

/-! ### Strings -/

theorem hexDigit_hex (n : Nat) : ∃ b, utf8Char (hexDigit n) = [b] ∧ Hex b (n % 16) := by
  have key : ∀ m : Fin 16, ∃ b, utf8Char (Nat.digitChar m.val) = [b] ∧ Hex b m.val := by
    intro m
    refine ⟨UInt8.ofNat (Nat.digitChar m.val).toNat, ?_, ?_⟩
    · revert m; decide
    · revert m; unfold Hex; decide
  exact key ⟨n % 16, by omega⟩

theorem escU_unit {c : Char} (h : c.toNat < 65536) : Unit16 (bytes (escU c)) c.toNat := by
  obtain ⟨b1, e1, h1⟩ := hexDigit_hex (c.toNat / 4096)
  obtain ⟨b2, e2, h2⟩ := hexDigit_hex (c.toNat / 256)
  obtain ⟨b3, e3, h3⟩ := hexDigit_hex (c.toNat / 16)
  obtain ⟨b4, e4, h4⟩ := hexDigit_hex c.toNat
  have e : bytes (escU c) = ascii "\\u" ++ [b1, b2, b3, b4] := by
    have q1 : utf8Char '\\' = [0x5C] := by decide
    have q2 : utf8Char 'u' = [0x75] := by decide
    unfold escU
    simp only [bytes_cons, bytes_nil, e1, e2, e3, e4, q1, q2, ascii_u]
    rfl
  have := Unit16.mk b1 b2 b3 b4 _ _ _ _ h1 h2 h3 h4
  rw [e]
  have hn : c.toNat / 4096 % 16 * 4096 + c.toNat / 256 % 16 * 256 + c.toNat / 16 % 16 * 16 + c.toNat % 16 = c.toNat := by omega
  rw [hn] at this
  exact this

theorem char_neq {c d : Char} (h : ¬ c = d) : c.toNat ≠ d.toNat := by
  intro e
  exact h (by rw [← ofNat_self c, e, ofNat_self d])

theorem escChar_text (c : Char) {t cs} (h : StrText t cs) : StrText (bytes (escChar c) ++ t) (c :: cs) := by
  have short : ∀ e : Char, (e, c) ∈ shortEscapes → StrText (bytes ['\\', e] ++ t) (c :: cs) := by
    intro e he
    have := StrText.short e c t cs he h
    rw [ascii_bs] at this
    have q1 : utf8Char '\\' = [0x5C] := by decide
    rw [bytes_cons, bytes_cons, bytes_nil, q1]
    simpa using this
  unfold escChar
  split
  · next e => subst e; exact short _ (by simp [shortEscapes])
  split
  · next e => subst e; exact short _ (by simp [shortEscapes])
  split
  · next e => subst e; exact short _ (by simp [shortEscapes])
  split
  · next e => subst e; exact short _ (by simp [shortEscapes])
  split
  · next e => subst e; exact short _ (by simp [shortEscapes])
  split
  · next e =>
    have hlt : c.toNat < 0x2030 := by
      rcases e with e | e | e | e | e | e
      · omega
      · subst e; decide
      · subst e; decide
      · subst e; decide
      · omega
      · omega
    have := StrText.unit (bytes (escU c)) c.toNat t cs (escU_unit (by omega)) (by unfold High; omega) (by unfold Low; omega) h
    rwa [ofNat_self] at this
  · next h1 h2 _ _ _ h3 =>
    have := StrText.char c t cs (by omega) h1 h2 h
    rw [bytes_cons, bytes_nil, List.append_nil]
    exact this

theorem escList_text : ∀ cs : List Char, StrText (bytes (cs.flatMap escChar)) cs
  | [] => .nil
  | c :: cs => by
    rw [List.flatMap_cons, bytes_append]
    exact escChar_text c (escList_text cs)

theorem encStr_lit (s : String) : StrLit (bytes (encStr s)) s := by
  refine ⟨bytes (s.toList.flatMap escChar), ?_, escList_text _⟩
  have q : utf8Char '"' = ascii "\"" := by decide
  unfold encStr
  rw [bytes_cons, bytes_append, bytes_cons, bytes_nil, q]
  simp

/-! ### Elements and members -/

/-- A value with its text. -/
abbrev Item := GoTree × Json × List Char

/-- The text is one of the value, and the value what the Go value stands for. -/
def Item.Good (e : Item) : Prop := Stands e.1 e.2.1 ∧ ∀ d, Encodable d e.1 → Text d e.2.1 (bytes e.2.2)

theorem blank_text {d v t} (h : Text d v t) : Elems d [v] t := by
  have := Elems.one d v [] t [] blank_nil h blank_nil
  simpa using this

theorem commas_cons {t : List Char} {ts : List (List Char)} (h : ts ≠ []) : commas (t :: ts) = t ++ ',' :: commas ts := by
  cases ts with
  | nil => exact absurd rfl h
  | cons u ts => rfl

theorem utf8_comma : utf8Char ',' = ascii "," := by decide
theorem utf8_colon : utf8Char ':' = ascii ":" := by decide

theorem elems_text {d : Nat} : ∀ {z : List (Json × List Char)}, z ≠ [] → (∀ e ∈ z, Text d e.1 (bytes e.2)) →
    Elems d (z.map (·.1)) (bytes (commas (z.map (·.2))))
  | [], h, _ => absurd rfl h
  | [e], _, h => blank_text (h e (by simp))
  | e :: e' :: z, _, h => by
    have ih := elems_text (z := e' :: z) (by simp) (fun x hx => h x (by simp [List.mem_cons.1 hx]))
    show Elems d (e.1 :: (e' :: z).map (·.1)) (bytes (commas (e.2 :: (e' :: z).map (·.2))))
    rw [commas_cons (by simp), bytes_append, bytes_cons, utf8_comma]
    have := Elems.cons d e.1 _ [] (bytes e.2) [] _ blank_nil (h e (by simp)) blank_nil ih
    simpa using this

theorem member_bytes (k : String) (t : List Char) : bytes (member (k, t)) = bytes (encStr k) ++ ascii ":" ++ bytes t := by
  unfold member
  rw [bytes_append, bytes_cons, utf8_colon]
  simp

theorem members_text {d : Nat} : ∀ {z : List (String × Json × List Char)}, z ≠ [] → (∀ e ∈ z, Text d e.2.1 (bytes e.2.2)) →
    Members d (z.map fun e => (e.1, e.2.1)) (bytes (commas ((z.map fun e => (e.1, e.2.2)).map member)))
  | [], h, _ => absurd rfl h
  | [(k, v, t)], _, h => by
    have := Members.one d k v [] (bytes (encStr k)) [] [] (bytes t) [] blank_nil (encStr_lit k) blank_nil blank_nil
      (h (k, v, t) (by simp)) blank_nil
    simp only [List.map_cons, List.map_nil, commas, member_bytes]
    simpa using this
  | (k, v, t) :: e' :: z, _, h => by
    have ih := members_text (z := e' :: z) (by simp) (fun x hx => h x (by simp [List.mem_cons.1 hx]))
    have := Members.cons d k v _ [] (bytes (encStr k)) [] [] (bytes t) [] _ blank_nil (encStr_lit k) blank_nil blank_nil
      (h (k, v, t) (by simp)) blank_nil ih
    show Members d ((k, v) :: (e' :: z).map fun e => (e.1, e.2.1))
      (bytes (commas (member (k, t) :: ((e' :: z).map fun e => (e.1, e.2.2)).map member)))
    rw [commas_cons (by simp), bytes_append, bytes_cons, utf8_comma, member_bytes]
    simpa using this

theorem arr_text {d : Nat} {z : List (Json × List Char)} (h : ∀ e ∈ z, Text d e.1 (bytes e.2)) :
    Text (d + 1) (.arr (z.map (·.1))) (bytes ('[' :: (commas (z.map (·.2)) ++ [']']))) := by
  have q1 : utf8Char '[' = ascii "[" := by decide
  have q2 : utf8Char ']' = ascii "]" := by decide
  rw [bytes_cons, bytes_append, bytes_cons, bytes_nil, q1, q2, List.append_nil, ← List.append_assoc]
  by_cases hz : z = []
  · subst hz; exact .arr0 d [] blank_nil
  · exact .arr d _ _ (elems_text hz h)

theorem obj_text {d : Nat} {z : List (String × Json × List Char)} (hn : (z.map (·.1)).Nodup)
    (h : ∀ e ∈ z, Text d e.2.1 (bytes e.2.2)) :
    Text (d + 1) (.obj (z.map fun e => (e.1, e.2.1)))
      (bytes ('{' :: (commas ((z.map fun e => (e.1, e.2.2)).map member) ++ ['}']))) := by
  have q1 : utf8Char '{' = ascii "{" := by decide
  have q2 : utf8Char '}' = ascii "}" := by decide
  rw [bytes_cons, bytes_append, bytes_cons, bytes_nil, q1, q2, List.append_nil, ← List.append_assoc]
  by_cases hz : z = []
  · subst hz; exact .obj0 d [] blank_nil
  · have := Text.obj d _ _ (members_text hz h)
    rwa [lastOf_self] at this
    simpa [List.map_map, Function.comp_def] using hn

/-! ### The whole value -/

theorem eq_of_key {α : Type} {l : List (String × α)} (hn : (l.map Prod.fst).Nodup) {a b : String × α} (ha : a ∈ l) (hb : b ∈ l)
    (h : a.1 = b.1) : a = b := by
  obtain ⟨k, x⟩ := a
  obtain ⟨k', y⟩ := b
  simp only at h
  subst h
  rw [mem_keys_eq hn ha hb]

mutual
theorem marshal_text {lib : Lib} (hl : Prints lib) : ∀ (g : GoTree) {t}, Proper g → marshal lib g = some t →
    ∃ v, Stands g v ∧ ∀ d, Encodable d g → Text d v (bytes t)
  | .nil, t, _, h => by
    simp only [marshal, Option.some.injEq] at h; subst h
    refine ⟨_, .nil, fun d _ => ?_⟩
    have : bytes "null".toList = ascii "null" := by decide
    rw [this]; exact .null d
  | .bool b, t, _, h => by
    simp only [marshal, Option.some.injEq] at h; subst h
    refine ⟨_, .bool b, fun d _ => ?_⟩
    cases b with
    | true => have : bytes "true".toList = ascii "true" := by decide
              simp only [if_true]; rw [this]; exact .true d
    | false => have : bytes "false".toList = ascii "false" := by decide
               simp only [Bool.false_eq_true, if_false]; rw [this]; exact .false d
  | .number n, t, _, h => by
    simp only [marshal, Option.some.injEq] at h; subst h
    exact ⟨_, .number n, fun d _ => .num d n _ (by rw [bytes_toList]; exact hl.number n)⟩
  | .int i, t, _, h => by
    simp only [marshal, Option.some.injEq] at h; subst h
    exact ⟨_, .int i _ rfl rfl rfl rfl, fun d _ => .num d _ _ (by rw [bytes_toList]; exact hl.int i)⟩
  | .float f, t, hp, h => by
    simp only [marshal, Option.some.injEq] at h; subst h
    cases hp with | float _ hf => ?_
    obtain ⟨n, h1, h2⟩ := hl.float f hf
    exact ⟨_, .float f n h2, fun d _ => .num d _ _ (by rw [bytes_toList]; exact h1)⟩
  | .str s, t, _, h => by
    simp only [marshal, Option.some.injEq] at h; subst h
    exact ⟨_, .str s, fun d _ => .str d s _ (encStr_lit s)⟩
  | .arr xs, t, hp, h => by
    simp only [marshal, Option.map_eq_some_iff] at h
    obtain ⟨ts, hts, rfl⟩ := h
    cases hp with | arr _ hp => ?_
    obtain ⟨z, e1, e2, hz⟩ := marshalL_text hl xs hp hts
    refine ⟨.arr ((z.map (·.2)).map (·.1)), .arr _ _ (by simp [e1]) ?_, ?_⟩
    · intro k g x hg hx
      rw [e1, List.getElem?_map] at hg
      rw [List.map_map, List.getElem?_map] at hx
      cases he : z[k]? with
      | none => rw [he] at hg; cases hg
      | some e =>
        rw [he] at hg hx
        cases hg; cases hx
        exact (hz e (List.mem_of_getElem? he)).1
    · intro d hd
      cases hd with | arr d _ hd => ?_
      have := arr_text (d := d) (z := z.map (·.2)) (by
        intro e he
        obtain ⟨q, hq, rfl⟩ := List.mem_map.1 he
        exact (hz q hq).2 d (hd q.1 (by rw [e1]; exact List.mem_map_of_mem hq)))
      rw [e2]
      simpa [List.map_map, Function.comp_def] using this
  | .map kvs, t, hp, h => by
    simp only [marshal, Option.map_eq_some_iff] at h
    obtain ⟨ts, hts, rfl⟩ := h
    cases hp with | map _ hn hp => ?_
    obtain ⟨z, e1, e2, hz⟩ := marshalKV_text hl kvs hp hts
    have hs : ts.mergeSort keyLE = (z.mergeSort keyLE).map fun e => (e.1, e.2.2.2) := by
      rw [e2, List.map_mergeSort (s := keyLE)]
      intro a _ b _; rfl
    have hm : ∀ e, e ∈ z.mergeSort keyLE ↔ e ∈ z := fun e => List.mem_mergeSort
    have hnz : (z.map Prod.fst).Nodup := by
      rw [e1, List.map_map] at hn; exact hn
    refine ⟨.obj ((z.mergeSort keyLE).map fun e => (e.1, e.2.2.1)), .map _ _ ?_ ?_, ?_⟩
    · rw [e1, List.map_map, List.map_map]
      exact ((List.mergeSort_perm z keyLE).map _).symm
    · intro k g x hg hx
      rw [e1] at hg
      obtain ⟨a, ha, ea⟩ := List.mem_map.1 hg
      obtain ⟨b, hb, eb⟩ := List.mem_map.1 hx
      have : a = b := eq_of_key hnz ha ((hm b).1 hb) (by
        have := congrArg Prod.fst ea; have := congrArg Prod.fst eb; simp_all)
      subst this
      cases ea; cases eb
      exact (hz a ha).1
    · intro d hd
      cases hd with | map d _ hd => ?_
      have := obj_text (d := d) (z := (z.mergeSort keyLE).map fun e => (e.1, e.2.2)) (by
          rw [List.map_map]
          exact (((List.mergeSort_perm z keyLE).map Prod.fst).nodup_iff).2 hnz) (by
        intro e he
        obtain ⟨q, hq, rfl⟩ := List.mem_map.1 he
        exact (hz q ((hm q).1 hq)).2 d (hd (q.1, q.2.1) (by rw [e1]; exact List.mem_map_of_mem (f := fun e : String × Item => (e.1, e.2.1)) ((hm q).1 hq))))
      rw [hs]
      simpa [List.map_map, Function.comp_def] using this
  | .record kvs, t, hp, h => by
    simp only [marshal, Option.map_eq_some_iff] at h
    obtain ⟨ts, hts, rfl⟩ := h
    cases hp with | record _ hn hp => ?_
    obtain ⟨z, e1, e2, hz⟩ := marshalKV_text hl kvs hp hts
    have hnz : (z.map Prod.fst).Nodup := by
      rw [e1, List.map_map] at hn; exact hn
    refine ⟨.obj (z.map fun e => (e.1, e.2.2.1)), .record _ _ ?_ ?_, ?_⟩
    · rw [e1, List.map_map, List.map_map]; rfl
    · intro k g x hg hx
      rw [e1] at hg
      obtain ⟨a, ha, ea⟩ := List.mem_map.1 hg
      obtain ⟨b, hb, eb⟩ := List.mem_map.1 hx
      have : a = b := eq_of_key hnz ha hb (by
        have := congrArg Prod.fst ea; have := congrArg Prod.fst eb; simp_all)
      subst this
      cases ea; cases eb
      exact (hz a ha).1
    · intro d hd
      cases hd with | record d _ hd => ?_
      have := obj_text (d := d) (z := z.map fun e => (e.1, e.2.2)) (by rw [List.map_map]; exact hnz) (by
        intro e he
        obtain ⟨q, hq, rfl⟩ := List.mem_map.1 he
        exact (hz q hq).2 d (hd (q.1, q.2.1) (by rw [e1]; exact List.mem_map_of_mem (f := fun e : String × Item => (e.1, e.2.1)) hq)))
      rw [e2]
      simpa [List.map_map, Function.comp_def] using this
  | .none, t, _, h => by simp [marshal] at h
theorem marshalL_text {lib : Lib} (hl : Prints lib) : ∀ (xs : List GoTree) {ts}, (∀ x ∈ xs, Proper x) → marshalL lib xs = some ts →
    ∃ z : List Item, xs = z.map (·.1) ∧ ts = z.map (·.2.2) ∧ ∀ e ∈ z, e.Good
  | [], ts, _, h => by
    simp only [marshalL, Option.some.injEq] at h; subst h
    exact ⟨[], rfl, rfl, by simp⟩
  | x :: xs, ts, hp, h => by
    simp only [marshalL, Option.bind_eq_bind, Option.bind_eq_some_iff, Option.some.injEq] at h
    obtain ⟨t, ht, ts', hts, rfl⟩ := h
    obtain ⟨v, h1, h2⟩ := marshal_text hl x (hp x (by simp)) ht
    obtain ⟨z, e1, e2, hz⟩ := marshalL_text hl xs (fun y hy => hp y (by simp [hy])) hts
    refine ⟨(x, v, t) :: z, by simp [e1], by simp [e2], ?_⟩
    intro e he
    rcases List.mem_cons.1 he with rfl | he
    · exact ⟨h1, h2⟩
    · exact hz e he
theorem marshalKV_text {lib : Lib} (hl : Prints lib) : ∀ (xs : List (String × GoTree)) {ts}, (∀ x ∈ xs, Proper x.2) →
    marshalKV lib xs = some ts →
    ∃ z : List (String × Item), xs = z.map (fun e => (e.1, e.2.1)) ∧ ts = z.map (fun e => (e.1, e.2.2.2)) ∧ ∀ e ∈ z, e.2.Good
  | [], ts, _, h => by
    simp only [marshalKV, Option.some.injEq] at h; subst h
    exact ⟨[], rfl, rfl, by simp⟩
  | (k, x) :: xs, ts, hp, h => by
    simp only [marshalKV, Option.bind_eq_bind, Option.bind_eq_some_iff, Option.some.injEq] at h
    obtain ⟨t, ht, ts', hts, rfl⟩ := h
    obtain ⟨v, h1, h2⟩ := marshal_text hl x (hp (k, x) (by simp)) ht
    obtain ⟨z, e1, e2, hz⟩ := marshalKV_text hl xs (fun y hy => hp y (by simp [hy])) hts
    refine ⟨(k, x, v, t) :: z, by simp [e1], by simp [e2], ?_⟩
    intro e he
    rcases List.mem_cons.1 he with rfl | he
    · exact ⟨h1, h2⟩
    · exact hz e he
end

end GJS

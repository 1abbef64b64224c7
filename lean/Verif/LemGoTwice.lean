import Verif.LemGo
/-
Helper lemmas: Go values and the documents they stand for; serialising twice.
-/
namespace GJS
open Spec Go Text Io

/-! ### Depth -/

theorem nested_mono {d v} (h : Nested d v) : ∀ {d'}, d ≤ d' → Nested d' v := by
  induction h with
  | null d => intro d' _; exact .null _
  | bool d b => intro d' _; exact .bool _ _
  | num d n => intro d' _; exact .num _ _
  | str d s => intro d' _; exact .str _ _
  | arr d xs _ ih =>
    intro d' hd
    cases d' with
    | zero => omega
    | succ d' => exact .arr _ _ fun x hx => ih x hx (by omega)
  | obj d m _ ih =>
    intro d' hd
    cases d' with
    | zero => omega
    | succ d' => exact .obj _ _ fun x hx => ih x hx (by omega)

theorem nested_size (v : Json) : Nested v.size v := by
  induction hn : v.size using Nat.strongRecOn generalizing v with
  | ind n ih =>
    cases v with
    | null => exact .null _
    | bool b => exact .bool _ _
    | num b => exact .num _ _
    | str b => exact .str _ _
    | arr xs =>
      have hp : n = Json.sizeL xs + 1 := by rw [← hn, Json.size]; omega
      rw [hp]
      refine .arr _ _ fun x hx => ?_
      have h1 := Json.size_lt_of_mem hx
      exact nested_mono (ih x.size (by omega) x rfl) (by omega)
    | obj m =>
      have hp : n = Json.sizeKV m + 1 := by rw [← hn, Json.size]; omega
      rw [hp]
      refine .obj _ _ fun x hx => ?_
      have h1 := Json.size_lt_of_mem_kv (k := x.1) (x := x.2) hx
      exact nested_mono (ih x.2.size (by omega) x.2 rfl) (by omega)

theorem key_partner {α β : Type} {gs : List (String × α)} {xs : List (String × β)} (h : (gs.map Prod.fst).Perm (xs.map Prod.fst))
    {e : String × α} (he : e ∈ gs) : ∃ x, (e.1, x) ∈ xs := by
  have : e.1 ∈ xs.map Prod.fst := h.mem_iff.1 (List.mem_map_of_mem he)
  obtain ⟨q, hq, hk⟩ := List.mem_map.1 this
  exact ⟨q.2, by rw [← hk]; exact hq⟩

/-- A Go value is as deep as the document. -/
theorem stands_encodable {g v} (h : Stands g v) : ∀ {d}, Nested d v → Encodable d g := by
  induction h with
  | nil => intros; exact .nil _
  | bool => intros; exact .bool _ _
  | number => intros; exact .number _ _
  | int => intros; exact .int _ _
  | float => intros; exact .float _ _
  | str => intros; exact .str _ _
  | arr gs xs hl _ ih =>
    intro d hd
    cases hd with | arr d _ hd => ?_
    refine .arr _ _ fun g hg => ?_
    obtain ⟨k, hk⟩ := List.mem_iff_getElem?.1 hg
    have hlt : k < xs.length := by rw [← hl]; exact (List.getElem?_eq_some_iff.1 hk).1
    exact ih k g xs[k] hk (List.getElem?_eq_getElem hlt) (hd _ (List.getElem_mem hlt))
  | map gs xs hp _ ih =>
    intro d hd
    cases hd with | obj d _ hd => ?_
    refine .map _ _ fun e he => ?_
    obtain ⟨x, hx⟩ := key_partner hp he
    exact ih e.1 e.2 x he hx (hd _ hx)
  | record gs xs hp _ ih =>
    intro d hd
    cases hd with | obj d _ hd => ?_
    refine .record _ _ fun e he => ?_
    obtain ⟨x, hx⟩ := key_partner (List.Perm.of_eq hp) he
    exact ih e.1 e.2 x he hx (hd _ hx)

/-! ### When `json.Marshal` succeeds -/

theorem marshalL_some {lib : Lib} : ∀ {xs : List GoTree}, (∀ x ∈ xs, ∃ t, marshal lib x = some t) → ∃ ts, marshalL lib xs = some ts
  | [], _ => ⟨[], rfl⟩
  | x :: xs, h => by
    obtain ⟨t, ht⟩ := h x (by simp)
    obtain ⟨ts, hts⟩ := marshalL_some (xs := xs) fun y hy => h y (by simp [hy])
    exact ⟨t :: ts, by simp [marshalL, ht, hts]⟩

theorem marshalKV_some {lib : Lib} : ∀ {xs : List (String × GoTree)}, (∀ x ∈ xs, ∃ t, marshal lib x.2 = some t) →
    ∃ ts, marshalKV lib xs = some ts
  | [], _ => ⟨[], rfl⟩
  | (k, x) :: xs, h => by
    obtain ⟨t, ht⟩ := h (k, x) (by simp)
    obtain ⟨ts, hts⟩ := marshalKV_some (xs := xs) fun y hy => h y (by simp [hy])
    exact ⟨(k, t) :: ts, by simp [marshalKV, ht, hts]⟩

theorem goMarshal_some {lib : Lib} {d g} (h : Encodable d g) : ∃ t, marshal lib g = some t := by
  induction h with
  | arr d gs _ ih => obtain ⟨ts, hts⟩ := marshalL_some ih; exact ⟨_, by simp only [marshal, hts, Option.map_some]; rfl⟩
  | map d gs _ ih => obtain ⟨ts, hts⟩ := marshalKV_some ih; exact ⟨_, by simp only [marshal, hts, Option.map_some]; rfl⟩
  | record d gs _ ih => obtain ⟨ts, hts⟩ := marshalKV_some ih; exact ⟨_, by simp only [marshal, hts, Option.map_some]; rfl⟩
  | _ => exact ⟨_, by simp only [marshal]; rfl⟩

/-- What is written is a text of the document the value stands for, at some depth; the document is not deeper
than the value. -/
theorem marshal_doc {lib : Lib} (hl : Prints lib) {g t} (hp : Proper g) (h : marshal lib g = some t) :
    ∃ v, Stands g v ∧ Text v.size v (bytes t) ∧ ∀ d, Encodable d g → Text d v (bytes t) := by
  obtain ⟨v, h1, h2⟩ := marshal_text hl g hp h
  exact ⟨v, h1, h2 _ (stands_encodable h1 (nested_size v)), h2⟩

theorem decode_text {d v t} (h : Text d v t) : decode d t = .ok v :=
  decode_ok.2 ⟨[], t, [], blank_nil, h, by simp, by intro n b _ hb; cases hb⟩

theorem decode_mono {d d' bs v} (h : decode d bs = .ok v) (hd : d ≤ d') : decode d' bs = .ok v := by
  obtain ⟨b, t, r, h1, h2, h3, h4⟩ := decode_ok.1 h
  exact decode_ok.2 ⟨b, t, r, h1, text_mono h2 hd, h3, h4⟩

theorem decode_nested {d bs v} (h : decode d bs = .ok v) : Nested d v := by
  obtain ⟨b, t, r, h1, h2, h3, h4⟩ := decode_ok.1 h
  exact text_nested h2

/-- Decoding a text with a lower limit gives the same value, or nothing. -/
theorem decode_lower {d d' v v' t} (h : Text d v t) (h' : decode d' t = .ok v') : v' = v := by
  have e1 := decode_mono (decode_text h) (Nat.le_max_left d d')
  have e2 := decode_mono h' (Nat.le_max_right d d')
  rw [e1] at e2
  injection e2 with e
  exact e.symm

theorem unmarshal_text {d v t} (h : Text d v t) : unmarshal d t = some v := by
  have : readValue d (t ++ [0x20]) = .ok v [0x20] :=
    readValue_ok.2 ⟨[], t, blank_nil, h, by simp, space_ends, by simp⟩
  unfold unmarshal
  rw [this]
  have hs : skip [0x20] = [] := by decide
  simp only [hs, if_true]

theorem unmarshal_decode {d bs v} (h : unmarshal d bs = some v) : decode d bs = .ok v := by
  unfold unmarshal at h
  cases hr : readValue d (bs ++ [0x20]) with
  | ok v' r =>
    rw [hr] at h
    simp only at h
    split at h
    · cases h
      obtain ⟨b, t, r', h1, h2, h3, _, h4⟩ := readValue_space hr
      exact decode_ok.2 ⟨b, t, r', h1, h2, h3, h4⟩
    · cases h
  | bad => rw [hr] at h; cases h
  | more => rw [hr] at h; cases h

/-! ### Documents as Go values -/

theorem ofJsonL_eq : ∀ xs : List Json, ofJsonL xs = xs.map ofJson
  | [] => rfl
  | x :: xs => by simp [ofJsonL, ofJsonL_eq xs]

theorem ofJsonKV_eq : ∀ xs : List (String × Json), ofJsonKV xs = xs.map fun e => (e.1, ofJson e.2)
  | [] => rfl
  | (k, x) :: xs => by simp [ofJsonKV, ofJsonKV_eq xs]

theorem ofJson_proper {v : Json} (h : v.WF) : Proper (ofJson v) := by
  induction h with
  | null => exact .nil
  | bool => exact .bool _
  | num => exact .number _
  | str => exact .str _
  | arr xs _ ih =>
    simp only [ofJson, ofJsonL_eq]
    refine .arr _ fun g hg => ?_
    obtain ⟨x, hx, rfl⟩ := List.mem_map.1 hg
    exact ih x hx
  | obj kvs hn _ ih =>
    simp only [ofJson, ofJsonKV_eq]
    refine .map _ (by simpa [List.map_map, Function.comp_def] using hn) fun e he => ?_
    obtain ⟨x, hx, rfl⟩ := List.mem_map.1 he
    exact ih x hx

theorem ofJson_encodable {d v} (h : Nested d v) : Encodable d (ofJson v) := by
  induction h with
  | null => exact .nil _
  | bool => exact .bool _ _
  | num => exact .number _ _
  | str => exact .str _ _
  | arr d xs _ ih =>
    simp only [ofJson, ofJsonL_eq]
    refine .arr _ _ fun g hg => ?_
    obtain ⟨x, hx, rfl⟩ := List.mem_map.1 hg
    exact ih x hx
  | obj d kvs _ ih =>
    simp only [ofJson, ofJsonKV_eq]
    refine .map _ _ fun e he => ?_
    obtain ⟨x, hx, rfl⟩ := List.mem_map.1 he
    exact ih x hx

theorem stands_ofJson {g v'} (h : Stands g v') : ∀ {v}, g = ofJson v → SameDoc v v' := by
  induction h with
  | nil => intro v e; cases v <;> simp [ofJson] at e; exact .null
  | bool b => intro v e; cases v <;> simp [ofJson] at e; subst e; exact .bool _
  | number n => intro v e; cases v <;> simp [ofJson] at e; subst e; exact .num _
  | str s => intro v e; cases v <;> simp [ofJson] at e; subst e; exact .str _
  | int => intro v e; cases v <;> simp [ofJson] at e
  | float => intro v e; cases v <;> simp [ofJson] at e
  | record => intro v e; cases v <;> simp [ofJson] at e
  | arr gs xs hl _ ih =>
    intro v e
    cases v <;> simp [ofJson, ofJsonL_eq] at e
    subst e
    refine .arr _ _ (by simpa using hl) fun k x y hx hy => ?_
    exact ih k (ofJson x) y (by rw [List.getElem?_map, hx]; rfl) hy rfl
  | map gs xs hp _ ih =>
    intro v e
    cases v <;> simp [ofJson, ofJsonKV_eq] at e
    subst e
    refine .obj _ _ (by simpa [List.map_map, Function.comp_def] using hp) fun k x y hx hy => ?_
    exact ih k (ofJson x) y (List.mem_map_of_mem (f := fun e : String × Json => (e.1, ofJson e.2)) hx) hy rfl

theorem sameDoc_val {v v'} (h : SameDoc v v') : SameVal v v' := by
  induction h with
  | null => exact .null
  | bool => exact .bool _
  | num => exact .num _ _ rfl
  | str => exact .str _
  | arr xs ys hl _ ih => exact .arr _ _ hl ih
  | obj a b hp _ ih => exact .obj _ _ (fun k => hp.mem_iff) ih

theorem sameDoc_nested {v v'} (h : SameDoc v v') : ∀ {d}, Nested d v' → Nested d v := by
  induction h with
  | null => intros; exact .null _
  | bool => intros; exact .bool _ _
  | num => intros; exact .num _ _
  | str => intros; exact .str _ _
  | arr xs ys hl _ ih =>
    intro d hd
    cases hd with | arr d _ hd => ?_
    refine .arr _ _ fun g hg => ?_
    obtain ⟨k, hk⟩ := List.mem_iff_getElem?.1 hg
    have hlt : k < ys.length := by rw [← hl]; exact (List.getElem?_eq_some_iff.1 hk).1
    exact ih k g ys[k] hk (List.getElem?_eq_getElem hlt) (hd _ (List.getElem_mem hlt))
  | obj a b hp _ ih =>
    intro d hd
    cases hd with | obj d _ hd => ?_
    refine .obj _ _ fun e he => ?_
    obtain ⟨x, hx⟩ := key_partner hp he
    exact ih e.1 e.2 x he hx (hd _ hx)

/-! ### Decoding numbers as floats -/

theorem canonL_exists : ∀ {xs : List Json}, (∀ x ∈ xs, ∃ c, canon x = some c) → ∃ cs, canonL xs = some cs
  | [], _ => ⟨[], rfl⟩
  | x :: xs, h => by
    obtain ⟨c, hc⟩ := h x (by simp)
    obtain ⟨cs, hcs⟩ := canonL_exists (xs := xs) fun y hy => h y (by simp [hy])
    exact ⟨c :: cs, by simp [canonL, hc, hcs]⟩

theorem canonKV_exists : ∀ {xs : List (String × Json)}, (∀ x ∈ xs, ∃ c, canon x.2 = some c) → ∃ cs, canonKV xs = some cs
  | [], _ => ⟨[], rfl⟩
  | (k, x) :: xs, h => by
    obtain ⟨c, hc⟩ := h (k, x) (by simp)
    obtain ⟨cs, hcs⟩ := canonKV_exists (xs := xs) fun y hy => h y (by simp [hy])
    exact ⟨(k, c) :: cs, by simp [canonKV, hc, hcs]⟩

/-- The same value decodes again, or does not. -/
theorem canon_same {v v'} (h : SameVal v v') : (∃ c, canon v = some c) → ∃ c, canon v' = some c := by
  induction h with
  | null => exact id
  | bool => exact id
  | str => exact id
  | num m n e => simp [canon, e]
  | arr xs ys hl _ ih =>
    rintro ⟨c, hc⟩
    simp only [canon, Option.map_eq_some_iff] at hc
    obtain ⟨cs, hcs, rfl⟩ := hc
    have hf := canonL_forall hcs
    obtain ⟨ds, hds⟩ := canonL_exists (xs := ys) (by
      intro y hy
      obtain ⟨k, hk⟩ := List.mem_iff_getElem?.1 hy
      have hlt : k < xs.length := by rw [hl]; exact (List.getElem?_eq_some_iff.1 hk).1
      obtain ⟨c, _, hc⟩ := forall2_mem_left hf _ (List.getElem_mem hlt)
      exact ih k xs[k] y (List.getElem?_eq_getElem hlt) hk ⟨c, hc⟩)
    exact ⟨_, by simp only [canon, hds, Option.map_some]; rfl⟩
  | obj a b hk _ ih =>
    rintro ⟨c, hc⟩
    simp only [canon, Option.map_eq_some_iff] at hc
    obtain ⟨cs, hcs, rfl⟩ := hc
    have hf := canonKV_forall hcs
    obtain ⟨ds, hds⟩ := canonKV_exists (xs := b) (by
      intro y hy
      have := (hk y.1).2 (List.mem_map_of_mem hy)
      obtain ⟨q, hq, e⟩ := List.mem_map.1 this
      obtain ⟨c, _, hc⟩ := forall2_mem_left hf _ hq
      exact ih y.1 q.2 y.2 (by rw [← e]; exact hq) hy ⟨c.2, hc.2⟩)
    exact ⟨_, by simp only [canon, hds, Option.map_some]; rfl⟩

/-- Maps listed by increasing key. -/
inductive Sorted : Canon → Prop
  | null : Sorted .null
  | bool (b) : Sorted (.bool b)
  | num (f) : Sorted (.num f)
  | str (s) : Sorted (.str s)
  | arr (xs) : (∀ x ∈ xs, Sorted x) → Sorted (.arr xs)
  | obj (kvs : List (String × Canon)) : kvs.Pairwise (fun a b => keyLE a b = Bool.true) → (∀ e ∈ kvs, Sorted e.2) → Sorted (.obj kvs)

theorem canon_sorted : ∀ (v : Json) {c}, canon v = some c → Sorted c := by
  intro v
  induction hn : v.size using Nat.strongRecOn generalizing v with
  | ind n ih =>
    intro c h
    cases v with
    | null => simp [canon] at h; subst h; exact .null
    | bool b => simp [canon] at h; subst h; exact .bool b
    | str b => simp [canon] at h; subst h; exact .str b
    | num m =>
      simp only [canon, Option.map_eq_some_iff] at h
      obtain ⟨f, hf, rfl⟩ := h
      exact .num f
    | arr xs =>
      simp only [canon, Option.map_eq_some_iff] at h
      obtain ⟨cs, hcs, rfl⟩ := h
      refine .arr cs fun c hc => ?_
      obtain ⟨x, hx, hxc⟩ := forall2_mem_right (canonL_forall hcs) c hc
      exact ih x.size (by have := Json.size_lt_of_mem hx; omega) x rfl hxc
    | obj kvs =>
      simp only [canon, Option.map_eq_some_iff] at h
      obtain ⟨cs, hcs, rfl⟩ := h
      refine .obj _ (keyLE_sorted cs) fun c hc => ?_
      rw [List.mem_mergeSort] at hc
      obtain ⟨⟨k, x⟩, hx, hxc⟩ := forall2_mem_right (canonKV_forall hcs) c hc
      exact ih x.size (by have := Json.size_lt_of_mem_kv hx; omega) x rfl hxc.2

theorem encL_commas (fmt : F64 → String) : ∀ xs : List Canon, encL fmt xs = commas (xs.map (enc fmt))
  | [] => rfl
  | [x] => rfl
  | x :: y :: ys => by
    have := encL_commas fmt (y :: ys)
    rw [encL, this]
    rfl

theorem encKV_commas (fmt : F64 → String) : ∀ xs : List (String × Canon),
    encKV fmt xs = commas ((xs.map fun e => (e.1, enc fmt e.2)).map member)
  | [] => rfl
  | [(k, x)] => rfl
  | (k, x) :: y :: ys => by
    have := encKV_commas fmt (y :: ys)
    rw [encKV, this]
    simp [commas, member]

mutual
/-- The second serialisation. -/
theorem marshal_canon (lib : Lib) : ∀ c : Canon, Sorted c → marshal lib (ofCanon c) = some (enc lib.float c)
  | .null, _ => by simp [ofCanon, marshal, enc]
  | .bool b, _ => by simp [ofCanon, marshal, enc]
  | .num f, _ => by simp [ofCanon, marshal, enc]
  | .str s, _ => by simp [ofCanon, marshal, enc]
  | .arr xs, h => by
    cases h with | arr _ h => ?_
    simp only [ofCanon, marshal, marshalL_canon lib xs h, Option.map_some, enc, encL_commas]
  | .obj kvs, h => by
    cases h with | obj _ hs h => ?_
    simp only [ofCanon, marshal, marshalKV_canon lib kvs h, Option.map_some, enc, encKV_commas]
    rw [List.mergeSort_of_pairwise]
    rw [List.pairwise_map]
    exact hs
theorem marshalL_canon (lib : Lib) : ∀ xs : List Canon, (∀ x ∈ xs, Sorted x) → marshalL lib (ofCanonL xs) = some (xs.map (enc lib.float))
  | [], _ => rfl
  | x :: xs, h => by
    simp [ofCanonL, marshalL, marshal_canon lib x (h x (by simp)), marshalL_canon lib xs fun y hy => h y (by simp [hy])]
theorem marshalKV_canon (lib : Lib) : ∀ xs : List (String × Canon), (∀ x ∈ xs, Sorted x.2) →
    marshalKV lib (ofCanonKV xs) = some (xs.map fun e => (e.1, enc lib.float e.2))
  | [], _ => rfl
  | (k, x) :: xs, h => by
    simp [ofCanonKV, marshalKV, marshal_canon lib x (h (k, x) (by simp)), marshalKV_canon lib xs fun y hy => h y (by simp [hy])]
end

end GJS

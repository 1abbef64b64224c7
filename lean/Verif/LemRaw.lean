import Verif.SpecRaw
/-
Lemmas for C53: validation of Go values and of the JSON values they stand for.
-/
namespace GJS
open Spec

/-! ### JSON counterparts -/

/-- The value stands for a JSON value. -/
def GoVal.IsJ (g : GoVal) : Prop := g.json.isSome = true

theorem GoVal.IsJ.eq {g : GoVal} (h : g.IsJ) : g.json = some g.view := by
  unfold GoVal.IsJ at h
  unfold GoVal.view
  cases hg : g.json with
  | none => rw [hg] at h; simp at h
  | some v => rfl

theorem GoVal.view_of {g : GoVal} {v} (h : g.json = some v) : g.IsJ ∧ g.view = v := by
  unfold GoVal.IsJ GoVal.view; rw [h]; exact ⟨rfl, rfl⟩

theorem jsonL_some : ∀ {xs : List GoVal}, (∀ x ∈ xs, x.IsJ) → GoVal.jsonL xs = some (xs.map GoVal.view)
  | [], _ => rfl
  | x :: xs, h => by
    rw [GoVal.jsonL, (h x (by simp)).eq, jsonL_some fun y hy => h y (by simp [hy])]; rfl

theorem jsonL_mem : ∀ {xs : List GoVal} {l}, GoVal.jsonL xs = some l → ∀ x ∈ xs, x.IsJ
  | [], _, _ => by simp
  | x :: xs, l, h => by
    rw [GoVal.jsonL] at h
    cases hx : x.json with
    | none => rw [hx] at h; simp at h
    | some v =>
      cases hs : GoVal.jsonL xs with
      | none => rw [hs] at h; simp at h
      | some w =>
        intro y hy
        rcases List.mem_cons.1 hy with rfl | hy
        · exact (GoVal.view_of hx).1
        · exact jsonL_mem hs y hy

theorem jsonKV_some : ∀ {kvs : List (String × GoVal)}, (∀ kv ∈ kvs, kv.2.IsJ) →
    GoVal.jsonKV kvs = some (kvs.map fun kv => (kv.1, kv.2.view))
  | [], _ => rfl
  | (k, x) :: xs, h => by
    rw [GoVal.jsonKV, (h (k, x) (by simp)).eq, jsonKV_some fun y hy => h y (by simp [hy])]; rfl

theorem jsonKV_mem : ∀ {kvs : List (String × GoVal)} {l}, GoVal.jsonKV kvs = some l → ∀ kv ∈ kvs, kv.2.IsJ
  | [], _, _ => by simp
  | (k, x) :: xs, l, h => by
    rw [GoVal.jsonKV] at h
    cases hx : x.json with
    | none => rw [hx] at h; simp at h
    | some v =>
      cases hs : GoVal.jsonKV xs with
      | none => rw [hs] at h; simp at h
      | some w =>
        intro y hy
        rcases List.mem_cons.1 hy with rfl | hy
        · exact (GoVal.view_of hx).1
        · exact jsonKV_mem hs y hy

theorem jsonIV_mem : ∀ {kvs : List (Option String × GoVal)} {l}, GoVal.jsonIV kvs = some l →
    ∀ kv ∈ kvs, kv.1.isSome = true ∧ kv.2.IsJ
  | [], _, _ => by simp
  | (k, x) :: xs, l, h => by
    rw [GoVal.jsonIV] at h
    cases k with
    | none => simp at h
    | some k =>
    cases hx : x.json with
    | none => rw [hx] at h; simp at h
    | some v =>
      cases hs : GoVal.jsonIV xs with
      | none => rw [hs] at h; simp at h
      | some w =>
        intro y hy
        rcases List.mem_cons.1 hy with rfl | hy
        · exact ⟨rfl, (GoVal.view_of hx).1⟩
        · exact jsonIV_mem hs y hy

theorem GoVal.isJ_arr {xs : List GoVal} (h : (GoVal.arr xs).IsJ) :
    (∀ x ∈ xs, x.IsJ) ∧ (GoVal.arr xs).view = .arr (xs.map GoVal.view) := by
  have h1 : ∀ x ∈ xs, x.IsJ := by
    have := h.eq
    rw [GoVal.json] at this
    obtain ⟨l, hl, _⟩ := Option.map_eq_some_iff.1 this
    exact jsonL_mem hl
  exact ⟨h1, by rw [GoVal.view, GoVal.json, jsonL_some h1]; rfl⟩

theorem GoVal.isJ_obj {kvs : List (String × GoVal)} (h : (GoVal.obj kvs).IsJ) :
    (∀ kv ∈ kvs, kv.2.IsJ) ∧ (GoVal.obj kvs).view = .obj (kvs.map fun kv => (kv.1, kv.2.view)) := by
  have h1 : ∀ kv ∈ kvs, kv.2.IsJ := by
    have := h.eq
    rw [GoVal.json] at this
    obtain ⟨l, hl, _⟩ := Option.map_eq_some_iff.1 this
    exact jsonKV_mem hl
  exact ⟨h1, by rw [GoVal.view, GoVal.json, jsonKV_some h1]; rfl⟩

theorem GoVal.isJ_mk_arr {xs : List GoVal} (h : ∀ x ∈ xs, x.IsJ) : (GoVal.arr xs).IsJ := by
  unfold GoVal.IsJ; rw [GoVal.json, jsonL_some h]; rfl

theorem GoVal.isJ_mk_obj {kvs : List (String × GoVal)} (h : ∀ kv ∈ kvs, kv.2.IsJ) : (GoVal.obj kvs).IsJ := by
  unfold GoVal.IsJ; rw [GoVal.json, jsonKV_some h]; rfl

theorem PlainGo.isJ {g : GoVal} (h : PlainGo g) : g.IsJ := by
  induction h with
  | arr xs _ ih => exact GoVal.isJ_mk_arr ih
  | obj kvs _ ih => exact GoVal.isJ_mk_obj ih
  | _ => rfl

/-! ### Conversion -/

mutual
theorem convert_spec : ∀ (g : GoVal) (v : Json), g.json = some v →
    ∃ g', convertDocumentNode g = .ok g' ∧ g'.json = some v ∧ (YamlGo g → PlainGo g')
  | .nil, v, h => ⟨_, rfl, h, fun _ => .nil⟩
  | .bool b, v, h => ⟨_, rfl, h, fun _ => .bool b⟩
  | .num n, v, h => ⟨_, rfl, h, fun _ => .num n⟩
  | .str s, v, h => ⟨_, rfl, h, fun _ => .str s⟩
  | .obj kvs, v, h => ⟨_, rfl, h, fun h => by cases h⟩
  | .opaque _ _, v, h => by simp [GoVal.json] at h
  | .arr xs, v, h => by
    rw [GoVal.json] at h
    obtain ⟨l, hl, rfl⟩ := Option.map_eq_some_iff.1 h
    obtain ⟨ys, h1, h2, h3⟩ := convertL_spec xs l hl
    refine ⟨.arr ys, by rw [convertDocumentNode, h1]; rfl, by rw [GoVal.json, h2]; rfl, ?_⟩
    intro hy
    cases hy with
    | arr _ hx => exact .arr _ (h3 hx)
  | .imap kvs, v, h => by
    rw [GoVal.json] at h
    obtain ⟨l, hl, rfl⟩ := Option.map_eq_some_iff.1 h
    obtain ⟨ys, h1, h2, h3⟩ := convertIV_spec kvs l hl
    refine ⟨.obj ys, by rw [convertDocumentNode, h1]; rfl, by rw [GoVal.json, h2]; rfl, ?_⟩
    intro hy
    cases hy with
    | imap _ _ hx => exact .obj _ (h3 hx)
theorem convertL_spec : ∀ (xs : List GoVal) (l : List Json), GoVal.jsonL xs = some l →
    ∃ ys, convertL xs = .ok ys ∧ GoVal.jsonL ys = some l ∧ ((∀ x ∈ xs, YamlGo x) → ∀ y ∈ ys, PlainGo y)
  | [], l, h => ⟨[], rfl, h, fun _ => by simp⟩
  | x :: xs, l, h => by
    rw [GoVal.jsonL] at h
    simp only [Option.bind_eq_bind, Option.bind_eq_some_iff, Option.some.injEq] at h
    obtain ⟨a, ha, b, hb, rfl⟩ := h
    obtain ⟨g', h1, h2, h3⟩ := convert_spec x a ha
    obtain ⟨ys, k1, k2, k3⟩ := convertL_spec xs b hb
    refine ⟨g' :: ys, by rw [convertL, h1, k1]; rfl, by rw [GoVal.jsonL, h2, k2]; rfl, ?_⟩
    intro hy y hm
    rcases List.mem_cons.1 hm with rfl | hm
    · exact h3 (hy x (by simp))
    · exact k3 (fun z hz => hy z (by simp [hz])) y hm
theorem convertIV_spec : ∀ (kvs : List (Option String × GoVal)) (l : List (String × Json)), GoVal.jsonIV kvs = some l →
    ∃ ys, convertIV kvs = .ok ys ∧ GoVal.jsonKV ys = some l ∧ ((∀ kv ∈ kvs, YamlGo kv.2) → ∀ y ∈ ys, PlainGo y.2)
  | [], l, h => ⟨[], rfl, h, fun _ => by simp⟩
  | (none, x) :: xs, l, h => by simp [GoVal.jsonIV] at h
  | (some k, x) :: xs, l, h => by
    rw [GoVal.jsonIV] at h
    simp only [Option.bind_eq_bind, Option.bind_eq_some_iff, Option.some.injEq] at h
    obtain ⟨_, rfl, a, ha, b, hb, rfl⟩ := h
    obtain ⟨g', h1, h2, h3⟩ := convert_spec x a ha
    obtain ⟨ys, k1, k2, k3⟩ := convertIV_spec xs b hb
    refine ⟨(k, g') :: ys, by rw [convertIV, h1, k1]; rfl, by rw [GoVal.jsonKV, h2, k2]; rfl, ?_⟩
    intro hy y hm
    rcases List.mem_cons.1 hm with rfl | hm
    · exact h3 (hy (some k, x) (by simp))
    · exact k3 (fun z hz => hy z (by simp [hz])) y hm
end

mutual
theorem convert_panic : ∀ (g : GoVal) e, convertDocumentNode g = .error e → e = .panic
  | .arr xs, e, h => by
    rw [convertDocumentNode] at h
    cases hx : convertL xs with
    | error e' => rw [hx] at h; cases h; exact convertL_panic xs _ hx
    | ok ys => rw [hx] at h; cases h
  | .imap kvs, e, h => by
    rw [convertDocumentNode] at h
    cases hx : convertIV kvs with
    | error e' => rw [hx] at h; cases h; exact convertIV_panic kvs _ hx
    | ok ys => rw [hx] at h; cases h
  | .nil, _, h | .bool _, _, h | .num _, _, h | .str _, _, h | .obj _, _, h | .opaque _ _, _, h => by
    simp [convertDocumentNode, pure, Except.pure] at h
theorem convertL_panic : ∀ (xs : List GoVal) e, convertL xs = .error e → e = .panic
  | [], e, h => by cases h
  | x :: xs, e, h => by
    rw [convertL] at h
    cases hx : convertDocumentNode x with
    | error e' => rw [hx] at h; cases h; exact convert_panic x _ hx
    | ok y =>
      rw [hx] at h
      cases hy : convertL xs with
      | error e' => rw [hy] at h; cases h; exact convertL_panic xs _ hy
      | ok ys => rw [hy] at h; cases h
theorem convertIV_panic : ∀ (xs : List (Option String × GoVal)) e, convertIV xs = .error e → e = .panic
  | [], e, h => by cases h
  | (none, _) :: _, e, h => by cases h; rfl
  | (some k, x) :: xs, e, h => by
    rw [convertIV] at h
    cases hx : convertDocumentNode x with
    | error e' => rw [hx] at h; cases h; exact convert_panic x _ hx
    | ok y =>
      rw [hx] at h
      cases hy : convertIV xs with
      | error e' => rw [hy] at h; cases h; exact convertIV_panic xs _ hy
      | ok ys => rw [hy] at h; cases h
end

/-- A value that stands for a JSON value survives the type assertions. -/
theorem rawCast_spec {g : GoVal} (h : g.IsJ) :
    ∃ g', rawCast g = .ok (some g') ∧ g'.IsJ ∧ g'.view = g.view ∧ (∀ kvs, g' ≠ .imap kvs) ∧ (TidyGo g → PlainGo g') := by
  have triv : ∀ g : GoVal, (TidyGo g → (∀ kvs, g ≠ .imap kvs) → PlainGo g) := by
    intro g ht hn
    cases ht with
    | plain _ h => exact h
    | yaml kvs _ => exact absurd rfl (hn kvs)
  cases g with
  | imap kvs =>
    obtain ⟨g', h1, h2, h3⟩ := convert_spec _ _ h.eq
    have hv := GoVal.view_of h2
    refine ⟨g', by rw [rawCast, h1]; rfl, hv.1, hv.2, ?_, ?_⟩
    · rintro kvs' rfl
      rw [convertDocumentNode] at h1
      cases hc : convertIV kvs with
      | error e => rw [hc] at h1; cases h1
      | ok l => rw [hc] at h1; cases h1
    · intro ht
      cases ht with
      | plain _ h => cases h
      | yaml _ h => exact h3 h
  | «opaque» k i => simp [GoVal.IsJ, GoVal.json] at h
  | _ => exact ⟨_, rfl, h, rfl, by simp, fun ht => triv _ ht (by simp)⟩

/-! ### Marshalling -/

mutual
theorem rawCanon_spec (env : RawEnv) : ∀ (g : GoVal) (v : Json), g.json = some v →
    (rawCanon env g = canon v ∨ rawCanon env g = none) ∧ (PlainGo g → rawCanon env g = canon v)
  | .nil, v, h => by cases h; exact ⟨.inl rfl, fun _ => rfl⟩
  | .bool b, v, h => by cases h; exact ⟨.inl rfl, fun _ => rfl⟩
  | .num n, v, h => by cases h; exact ⟨.inl rfl, fun _ => rfl⟩
  | .str s, v, h => by cases h; exact ⟨.inl rfl, fun _ => rfl⟩
  | .opaque _ _, v, h => by simp [GoVal.json] at h
  | .imap kvs, v, h => ⟨.inr rfl, fun h => by cases h⟩
  | .arr xs, v, h => by
    rw [GoVal.json] at h
    obtain ⟨l, hl, rfl⟩ := Option.map_eq_some_iff.1 h
    obtain ⟨h1, h2⟩ := rawCanonL_spec env xs l hl
    refine ⟨?_, fun hp => ?_⟩
    · rcases h1 with h1 | h1
      · left; rw [rawCanon, canon, h1]
      · right; rw [rawCanon, h1]; rfl
    · cases hp with
      | arr _ hx => rw [rawCanon, canon, h2 hx]
  | .obj kvs, v, h => by
    rw [GoVal.json] at h
    obtain ⟨l, hl, rfl⟩ := Option.map_eq_some_iff.1 h
    obtain ⟨h1, h2⟩ := rawCanonKV_spec env kvs l hl
    refine ⟨?_, fun hp => ?_⟩
    · rcases h1 with h1 | h1
      · left; rw [rawCanon, canon, h1]
      · right; rw [rawCanon, h1]; rfl
    · cases hp with
      | obj _ hx => rw [rawCanon, canon, h2 hx]
theorem rawCanonL_spec (env : RawEnv) : ∀ (xs : List GoVal) (l : List Json), GoVal.jsonL xs = some l →
    (rawCanonL env xs = canonL l ∨ rawCanonL env xs = none) ∧ ((∀ x ∈ xs, PlainGo x) → rawCanonL env xs = canonL l)
  | [], l, h => by cases h; exact ⟨.inl rfl, fun _ => rfl⟩
  | x :: xs, l, h => by
    rw [GoVal.jsonL] at h
    simp only [Option.bind_eq_bind, Option.bind_eq_some_iff, Option.some.injEq] at h
    obtain ⟨a, ha, b, hb, rfl⟩ := h
    obtain ⟨h1, h2⟩ := rawCanon_spec env x a ha
    obtain ⟨k1, k2⟩ := rawCanonL_spec env xs b hb
    rw [rawCanonL, canonL]
    refine ⟨?_, fun hp => by rw [h2 (hp x (by simp)), k2 fun y hy => hp y (by simp [hy])]⟩
    rcases h1 with h1 | h1
    · rcases k1 with k1 | k1
      · left; rw [h1, k1]
      · right; rw [h1, k1]; cases canon a <;> rfl
    · right; rw [h1]; rfl
theorem rawCanonKV_spec (env : RawEnv) : ∀ (kvs : List (String × GoVal)) (l : List (String × Json)), GoVal.jsonKV kvs = some l →
    (rawCanonKV env kvs = canonKV l ∨ rawCanonKV env kvs = none) ∧
    ((∀ kv ∈ kvs, PlainGo kv.2) → rawCanonKV env kvs = canonKV l)
  | [], l, h => by cases h; exact ⟨.inl rfl, fun _ => rfl⟩
  | (k, x) :: xs, l, h => by
    rw [GoVal.jsonKV] at h
    simp only [Option.bind_eq_bind, Option.bind_eq_some_iff, Option.some.injEq] at h
    obtain ⟨a, ha, b, hb, rfl⟩ := h
    obtain ⟨h1, h2⟩ := rawCanon_spec env x a ha
    obtain ⟨k1, k2⟩ := rawCanonKV_spec env xs b hb
    rw [rawCanonKV, canonKV]
    refine ⟨?_, fun hp => by rw [h2 (hp (k, x) (by simp)), k2 fun y hy => hp y (by simp [hy])]⟩
    rcases h1 with h1 | h1
    · rcases k1 with k1 | k1
      · left; rw [h1, k1]
      · right; rw [h1, k1]; cases canon a <;> rfl
    · right; rw [h1]; rfl
end

/-! ### Runs that agree -/

/-- The runs have the same outcome, or the first panics and `C` does not hold. -/
def Agree (C : Prop) (x y : Exec α) : Prop := x = y ∨ x = .error .panic ∧ ¬ C

theorem Agree.rfl' {C : Prop} {x : Exec α} : Agree C x x := .inl rfl

theorem Agree.bind {C : Prop} {x y : Exec α} {f g : α → Exec β} (h : Agree C x y) (hf : ∀ a, Agree C (f a) (g a)) :
    Agree C (x >>= f) (y >>= g) := by
  rcases h with rfl | ⟨rfl, hc⟩
  · cases x with
    | error e => exact .inl rfl
    | ok a => exact hf a
  · exact .inr ⟨rfl, hc⟩

theorem Agree.forEach {C : Prop} {f : Nat → α → Exec Result} {g : Nat → β → Exec Result} {φ : α → β} :
    ∀ {l : List α} {k : Nat}, (∀ k x, x ∈ l → Agree C (f k x) (g k (φ x))) →
      Agree C (GJS.forEach f k l) (GJS.forEach g k (l.map φ))
  | [], _, _ => .inl rfl
  | x :: xs, k, h => by
    rw [List.map_cons, GJS.forEach, GJS.forEach]
    exact .bind (h k x (by simp)) fun _ => .bind (Agree.forEach fun k y hy => h k y (by simp [hy])) fun _ => .rfl'

section
variable {env : RawEnv} {σ : Sched} {h : Heap} {C : Prop} {rec : RawRec} {rec' : Rec}

/-- What is asked of a node if the outcomes are to be equal. -/
def Inv (C : Prop) (h : Heap) (g : GoVal) : Prop := C → NoCompare h ∨ TidyGo g

theorem Inv.of_plain {g : GoVal} (hp : C → NoCompare h ∨ PlainGo g) : Inv C h g := fun hc => (hp hc).imp id (.plain _)

/-- The recursive calls agree. -/
def RecAgree (C : Prop) (h : Heap) (rec : RawRec) (rec' : Rec) : Prop :=
  ∀ p i g c, g.IsJ → Inv C h g → Agree C (rec p i g c) (rec' p i g.view c)

/-- The node after the type assertions. -/
structure Node (C : Prop) (h : Heap) (g : GoVal) : Prop where
  j : g.IsJ
  ni : ∀ kvs, g ≠ .imap kvs
  plain : C → NoCompare h ∨ PlainGo g

theorem Node.inv {g : GoVal} (hn : Node C h g) : Inv C h g := .of_plain hn.plain

theorem anyOfLoop_agree {f g : Nat → Id → Exec Result} (hf : ∀ k i, Agree C (f k i) (g k i)) :
    ∀ is k v b, Agree C (anyOfLoop f k is v b) (anyOfLoop g k is v b)
  | [], _, _, _ => .rfl'
  | i :: is, k, v, b => by
    rw [anyOfLoop, anyOfLoop]
    split
    · exact .bind (hf k i) fun r => anyOfLoop_agree hf is _ _ _
    · exact anyOfLoop_agree hf is _ _ _

theorem oneOfLoop_agree {f g : Nat → Id → Exec Result} (hf : ∀ k i, Agree C (f k i) (g k i)) :
    ∀ is k v b, Agree C (oneOfLoop f k is v b) (oneOfLoop g k is v b)
  | [], _, _, _ => .rfl'
  | i :: is, k, v, b => by
    rw [oneOfLoop, oneOfLoop]
    refine .bind (hf k i) fun r => ?_
    split
    · exact oneOfLoop_agree hf is _ _ _
    · split <;> exact oneOfLoop_agree hf is _ _ _

theorem allOfLoop_agree {f g : Nat → Id → Exec Result} (hf : ∀ k i, Agree C (f k i) (g k i)) :
    ∀ is k, Agree C (allOfLoop f k is) (allOfLoop g k is)
  | [], _ => .rfl'
  | i :: is, k => by
    rw [allOfLoop, allOfLoop]
    exact .bind (hf k i) fun r => .bind (allOfLoop_agree hf is _) fun _ => .rfl'

variable (hrec : RecAgree C h rec rec') (hσ : σ.Natural)
include hrec

theorem here_agree {g : GoVal} (hn : Node C h g) (p i c) : Agree C (rec.here g p i g.view c) (rec' p i g.view c) :=
  hrec p i g c hn.j hn.inv

theorem anyOf_agree {g : GoVal} (hn : Node C h g) {p s c} :
    Agree C (checkAnyOf (rec.here g) p s g.view c) (checkAnyOf rec' p s g.view c) := by
  unfold checkAnyOf
  split
  · exact .bind (anyOfLoop_agree (fun k i => here_agree hrec hn _ _ _) _ _ _ _) fun _ => .rfl'
  · exact .rfl'

theorem oneOf_agree {g : GoVal} (hn : Node C h g) {p s c} :
    Agree C (checkOneOf (rec.here g) p s g.view c) (checkOneOf rec' p s g.view c) := by
  unfold checkOneOf
  split
  · exact .bind (oneOfLoop_agree (fun k i => here_agree hrec hn _ _ _) _ _ _ _) fun _ => .rfl'
  · exact .rfl'

theorem allOf_agree {g : GoVal} (hn : Node C h g) {p s c} :
    Agree C (checkAllOf (rec.here g) p s g.view c) (checkAllOf rec' p s g.view c) := by
  unfold checkAllOf
  split
  · exact .bind (allOfLoop_agree (fun k i => here_agree hrec hn _ _ _) _ _) fun _ => .rfl'
  · exact .rfl'

theorem not_agree {g : GoVal} (hn : Node C h g) {p s c} :
    Agree C (checkNot (rec.here g) p s g.view c) (checkNot rec' p s g.view c) := by
  unfold checkNot
  split
  · exact .bind (here_agree hrec hn _ _ _) fun _ => .rfl'
  · exact .rfl'

theorem branch_agree {g : GoVal} (hn : Node C h g) {p o on kind c} :
    Agree C (checkBranch (rec.here g) p o on kind g.view c) (checkBranch rec' p o on kind g.view c) := by
  unfold checkBranch
  split
  · split
    · exact .bind (here_agree hrec hn _ _ _) fun _ => .rfl'
    · exact .rfl'
  · exact .rfl'

theorem if_agree {g : GoVal} (hn : Node C h g) {p s c} :
    Agree C (checkIf (rec.here g) p s g.view c) (checkIf rec' p s g.view c) := by
  unfold checkIf
  split
  · exact .rfl'
  · exact .bind (here_agree hrec hn _ _ _) fun _ => .bind (branch_agree hrec hn) fun _ =>
      .bind (branch_agree hrec hn) fun _ => .rfl'

end

theorem getKey_map {f : α → β} (k : String) : ∀ kvs : List (String × α),
    getKey k (kvs.map fun kv => (kv.1, f kv.2)) = (getKey k kvs).map f
  | [] => rfl
  | (k', x) :: xs => by
    simp only [List.map_cons, getKey, List.lookup_cons]
    cases k == k' with
    | true => rfl
    | false => exact getKey_map k xs

theorem exists_map {f : α → β} (kvs : List (String × α)) (k : String) :
    existsMapKey (kvs.map fun kv => (kv.1, f kv.2)) k = existsMapKey kvs k := by
  unfold existsMapKey; rw [getKey_map]; cases getKey k kvs <;> rfl

section
variable {env : RawEnv} {σ : Sched} {h : Heap} {C : Prop} {rec : RawRec} {rec' : Rec}

theorem Node.of_obj {kvs : List (String × GoVal)} (hn : Node C h (.obj kvs)) {kv} (hk : kv ∈ kvs) : kv.2.IsJ ∧ Inv C h kv.2 :=
  ⟨(GoVal.isJ_obj hn.j).1 kv hk, fun hc => (hn.plain hc).imp id fun hp => by
    cases hp with
    | obj _ hx => exact .plain _ (hx kv hk)⟩

theorem Node.of_arr {xs : List GoVal} (hn : Node C h (.arr xs)) {x} (hk : x ∈ xs) : x.IsJ ∧ (C → NoCompare h ∨ PlainGo x) :=
  ⟨(GoVal.isJ_arr hn.j).1 x hk, fun hc => (hn.plain hc).imp id fun hp => by
    cases hp with
    | arr _ hx => exact hx x hk⟩

theorem mem_order {σ : Sched} {p : Path} {l : List α} {x} (hx : x ∈ σ.order p l) : x ∈ l := (σ.perm p l).mem_iff.1 hx

theorem dependencies_agree (hrec : RecAgree C h rec rec') (hσ : σ.Natural) {g : GoVal} (hn : Node C h g) {p s c} :
    Agree C (rawDependencies env σ rec p s g c) (checkDependencies env.toEnv σ rec' p s g.view c) := by
  unfold rawDependencies checkDependencies
  split
  · cases g with
    | obj kvs =>
      obtain ⟨_, hv⟩ := GoVal.isJ_obj hn.j
      rw [hv]
      simp only
      rw [hσ]
      refine .forEach fun k kv hk => ?_
      unfold checkDependency
      cases hd : getKey kv.1 s.dependencies with
      | none => exact .rfl'
      | some d =>
        cases d with
        | keys ks => simp only [exists_map]; exact .rfl'
        | schema i =>
          simp only
          rw [← hv]
          exact hrec _ _ _ _ hn.j hn.inv
    | arr xs => rw [(GoVal.isJ_arr hn.j).2]; exact .rfl'
    | imap kvs => exact absurd rfl (hn.ni kvs)
    | «opaque» k i => exact absurd hn.j (by simp [GoVal.IsJ, GoVal.json])
    | _ => exact .rfl'
  · exact .rfl'

theorem schema_agree (hrec : RecAgree C h rec rec') (hσ : σ.Natural) {g : GoVal} (hn : Node C h g) {p s c} :
    Agree C (rawSchema env σ rec p s g c) (validateSchema env.toEnv σ rec' p s g.view c) :=
  .bind (anyOf_agree hrec hn) fun _ => .bind (oneOf_agree hrec hn) fun _ => .bind (allOf_agree hrec hn) fun _ =>
    .bind (not_agree hrec hn) fun _ => .bind (dependencies_agree hrec hσ hn) fun _ => .bind (if_agree hrec hn) fun _ => .rfl'

theorem marshal_agree {g : GoVal} (hj : g.IsJ) (hp : C → PlainGo g) :
    env.rawMarshal g = env.marshal g.view ∨ env.rawMarshal g = none ∧ ¬ C := by
  obtain ⟨h1, h2⟩ := rawCanon_spec env g g.view hj.eq
  unfold RawEnv.rawMarshal Env.marshal marshalWithoutNumber
  by_cases hc : C
  · left; rw [h2 (hp hc)]
  · rcases h1 with h1 | h1
    · left; rw [h1]
    · right; exact ⟨by rw [h1]; rfl, hc⟩

theorem common_agree (hf : FormatsAlike env) {g : GoVal} (hn : Node C h g) {s c} (hs : s ∈ h) :
    Agree C (rawCommon env s g c) (validateCommon env.toEnv s g.view c) := by
  unfold rawCommon validateCommon
  refine .bind ?_ fun _ => .bind ?_ fun _ => .bind ?_ fun _ => .rfl'
  · unfold rawConst checkConst
    cases hc : s.const with
    | none => exact .rfl'
    | some k =>
      rcases marshal_agree (env := env) hn.j (fun c => (hn.plain c).resolve_left fun hh => by rw [(hh s hs).1] at hc; cases hc) with hm | ⟨hm, hC⟩
      · simp only [hm]; exact .rfl'
      · simp only [hm]; exact .inr ⟨rfl, hC⟩
  · unfold rawEnum checkEnum
    split
    · rename_i he
      rcases marshal_agree (env := env) hn.j (fun c => (hn.plain c).resolve_left fun hh => by rw [(hh s hs).2.1] at he; simp at he) with hm | ⟨hm, hC⟩
      · simp only [hm]; exact .rfl'
      · simp only [hm]; exact .inr ⟨rfl, hC⟩
    · exact .rfl'
  · unfold rawFormat checkFormat
    rw [hf _ _ _ hn.j.eq]
    exact .rfl'

theorem uniqueLoop_agree {v c} : ∀ (xs : List GoVal) seen j, (∀ x ∈ xs, x.IsJ ∧ (C → PlainGo x)) →
    ∀ all, v = .arr all → Agree C (rawUniqueLoop env v c seen j xs) (uniqueLoop env.toEnv all c seen j (xs.map GoVal.view))
  | [], _, _, _, _, _ => .rfl'
  | x :: xs, seen, j, hx, all, hv => by
    rw [List.map_cons, rawUniqueLoop, uniqueLoop]
    obtain ⟨hj, hp⟩ := hx x (by simp)
    rcases marshal_agree (env := env) hj hp with hm | ⟨hm, hC⟩
    · rw [hm]
      cases env.marshal x.view with
      | none => exact .rfl'
      | some t =>
        refine .bind (uniqueLoop_agree xs _ _ (fun y hy => hx y (by simp [hy])) all hv) fun _ => ?_
        rw [hv]; exact .rfl'
    · rw [hm]; exact .inr ⟨rfl, hC⟩

theorem containsLoop_agree {f : Nat → GoVal → Exec Result} {g : Nat → Json → Exec Result} :
    ∀ (xs : List GoVal) k b, (∀ k, ∀ x ∈ xs, Agree C (f k x) (g k x.view)) →
      Agree C (rawContainsLoop f k xs b) (containsLoop g k (xs.map GoVal.view) b)
  | [], _, _, _ => .rfl'
  | x :: xs, k, b, hx => by
    rw [List.map_cons, rawContainsLoop, containsLoop]
    refine .bind (hx k x (by simp)) fun r => ?_
    split
    · exact .rfl'
    · exact containsLoop_agree xs _ _ fun k y hy => hx k y (by simp [hy])

theorem zip_map_right {l : List γ} (f : α → β) (xs : List α) :
    l.zip (xs.map f) = (l.zip xs).map fun ix => (ix.1, f ix.2) := by
  induction l generalizing xs with
  | nil => rfl
  | cons a l ih => cases xs <;> simp [ih]

theorem array_agree (hrec : RecAgree C h rec rec') {xs : List GoVal} (hn : Node C h (.arr xs)) {p s c} (hs : s ∈ h) :
    Agree C (rawArray env rec p s xs c) (validateArray env.toEnv rec' p s (xs.map GoVal.view) c) := by
  obtain ⟨_, hv⟩ := GoVal.isJ_arr hn.j
  have call : ∀ p i c x, x ∈ xs → Agree C (rec p i x c) (rec' p i x.view c) := fun p i c x hx =>
    hrec p i x c (hn.of_arr hx).1 (.of_plain (hn.of_arr hx).2)
  unfold rawArray validateArray
  refine .bind ?_ fun _ => ?_
  · unfold rawItems checkItems
    split
    · refine .forEach fun k x hx => ?_
      cases s.itemsChildren with
      | cons i _ => exact call _ _ _ _ hx
      | nil => exact .rfl'
    · split
      · rw [zip_map_right]
        refine .bind (.forEach fun k ix hx => call _ _ _ _ (List.of_mem_zip hx).2) fun _ => .bind ?_ fun _ => .rfl'
        unfold rawAdditionalItems checkAdditionalItems
        simp only [List.length_map]
        split
        · cases s.additionalItems with
          | bool b => simp only; rw [hv]; exact .rfl'
          | schema i =>
            simp only
            rw [← List.map_drop]
            exact .forEach fun k x hx => call _ _ _ _ (List.mem_of_mem_drop hx)
          | absent => exact .rfl'
        · exact .rfl'
      · exact .rfl'
  · have e : sizeCheck s.minItems s.maxItems xs.length .arrayMinItems .arrayMaxItems c (GoVal.arr xs).view =
        checkItemCount s (xs.map GoVal.view) c := by unfold checkItemCount; rw [hv, List.length_map]
    rw [e]
    refine .bind ?_ fun _ => .bind ?_ fun _ => .rfl'
    · unfold rawUnique checkUnique
      split
      · rename_i hu
        exact uniqueLoop_agree xs _ _ (fun x hx => ⟨(hn.of_arr hx).1, fun c => ((hn.of_arr hx).2 c).resolve_left fun hh => by
          rw [(hh s hs).2.2] at hu; cases hu⟩) _ hv
      · exact .rfl'
    · unfold rawContains checkContains
      cases s.contains with
      | none => exact .rfl'
      | some i =>
        refine .bind (containsLoop_agree xs _ _ fun k x hx => call _ _ _ _ hx) fun r => ?_
        rw [hv]; exact .rfl'

theorem required_agree {kvs : List (String × GoVal)} {v c} (hv : v = .obj (kvs.map fun kv => (kv.1, kv.2.view))) :
    ∀ qs, rawRequired kvs v c qs = checkRequired (kvs.map fun kv => (kv.1, kv.2.view)) c qs
  | [] => rfl
  | q :: qs => by rw [rawRequired, checkRequired, exists_map, required_agree hv qs, hv]

theorem patternLoop_agree (hrec : RecAgree C h rec rec') {x : GoVal} (hx : x.IsJ ∧ Inv C h x) {p key c} :
    ∀ l k, Agree C (rawPatternLoop env rec p key x c k l) (patternLoop env.toEnv rec' p key x.view c k l)
  | [], _ => .rfl'
  | (pat, i) :: l, k => by
    rw [rawPatternLoop, patternLoop]
    refine .bind ?_ fun _ => .bind (patternLoop_agree hrec hx l _) fun _ => .rfl'
    unfold rawPatternOne patternOne
    split
    · exact .bind (hrec _ _ _ _ hx.1 hx.2) fun _ => .rfl'
    · exact .rfl'

theorem property_agree (hrec : RecAgree C h rec rec') {x : GoVal} (hx : x.IsJ ∧ Inv C h x) {p s key c} :
    Agree C (rawProperty env σ rec p s key x c) (checkProperty env.toEnv σ rec' p s key x.view c) := by
  unfold rawProperty checkProperty
  refine .bind (.bind (patternLoop_agree hrec hx _ _) fun _ => .rfl') fun r => ?_
  obtain ⟨pp, r⟩ := r
  simp only
  cases hc : (!s.propertiesChildren.any fun q => key == q.1) && !pp with
  | false => exact .rfl'
  | true =>
    simp only [if_true]
    cases s.additionalProperties with
    | bool b => exact .rfl'
    | schema i => exact .bind (hrec _ _ _ _ hx.1 hx.2) fun _ => .rfl'
    | absent => exact .rfl'

theorem object_agree (hrec : RecAgree C h rec rec') (hσ : σ.Natural) {kvs : List (String × GoVal)} (hn : Node C h (.obj kvs)) {p s c} :
    Agree C (rawObject env σ rec p s kvs c) (validateObject env.toEnv σ rec' p s (kvs.map fun kv => (kv.1, kv.2.view)) c) := by
  obtain ⟨_, hv⟩ := GoVal.isJ_obj hn.j
  unfold rawObject validateObject
  have e : sizeCheck s.minProperties s.maxProperties kvs.length .arrayMinProperties .arrayMaxProperties c (GoVal.obj kvs).view =
      checkPropCount s (kvs.map fun kv => (kv.1, kv.2.view)) c := by unfold checkPropCount; rw [hv, List.length_map]
  simp only
  rw [e, required_agree hv, hσ]
  refine .bind (.forEach fun k kv hk => property_agree hrec (hn.of_obj (mem_order hk))) fun _ => .bind ?_ fun _ => .rfl'
  unfold rawPropertyNames checkPropertyNames
  cases s.propertyNames with
  | none => exact .rfl'
  | some i =>
    simp only
    rw [hσ]
    refine .forEach fun k kv hk => .bind (hrec _ _ (.str kv.1) _ rfl (.of_plain fun _ => .inr (.str _))) fun _ => ?_
    rw [hv]; exact .rfl'

theorem properties_agree (hrec : RecAgree C h rec rec') {kvs : List (String × GoVal)} (hn : Node C h (.obj kvs)) {p s c} :
    Agree C (rawProperties rec p s kvs c) (checkProperties rec' p s (kvs.map fun kv => (kv.1, kv.2.view)) c) := by
  unfold rawProperties checkProperties
  have := Agree.forEach (C := C) (φ := id) (l := s.propertiesChildren) (k := 0)
    (f := fun k (q : String × Id) => match getKey q.1 kvs with
      | some x => rec (k :: 19 :: p) q.2 x (q.1 :: c)
      | none => return {})
    (g := fun k (q : String × Id) => match getKey q.1 (kvs.map fun kv => (kv.1, kv.2.view)) with
      | some x => rec' (k :: 19 :: p) q.2 x (q.1 :: c)
      | none => return {}) (fun k q _ => by
    simp only [id_eq, getKey_map]
    cases hg : getKey q.1 kvs with
    | none => exact .rfl'
    | some x =>
      obtain ⟨h1, h2⟩ := hn.of_obj (lookup_some_mem hg)
      exact hrec _ _ _ _ h1 h2)
  rwa [List.map_id] at this

theorem node_agree (hrec : RecAgree C h rec rec') (hσ : σ.Natural) (hf : FormatsAlike env) {g : GoVal} (hn : Node C h g)
    {p s c} (hs : s ∈ h) : Agree C (rawNode env σ rec p s g c) (validateNode env.toEnv σ rec' p s g.view c) := by
  unfold rawNode validateNode
  refine .bind (schema_agree hrec hσ hn) fun r1 => ?_
  cases g with
  | arr xs =>
    rw [(GoVal.isJ_arr hn.j).2]
    refine .bind (array_agree hrec hn hs) fun _ => .bind ?_ fun _ => .rfl'
    rw [← (GoVal.isJ_arr hn.j).2]; exact common_agree hf hn hs
  | obj kvs =>
    rw [(GoVal.isJ_obj hn.j).2]
    refine .bind (object_agree hrec hσ hn) fun _ => .bind ?_ fun _ => .bind (properties_agree hrec hn) fun _ => .rfl'
    rw [← (GoVal.isJ_obj hn.j).2]; exact common_agree hf hn hs
  | imap kvs => exact absurd rfl (hn.ni kvs)
  | «opaque» k i => exact absurd hn.j (by simp [GoVal.IsJ, GoVal.json])
  | nil => exact .bind (common_agree hf hn hs) fun _ => .rfl'
  | bool b => exact .bind .rfl' fun _ => .bind (common_agree hf hn hs) fun _ => .rfl'
  | num n => exact .bind .rfl' fun _ => .bind (common_agree hf hn hs) fun _ => .rfl'
  | str t => exact .bind .rfl' fun _ => .bind (common_agree hf hn hs) fun _ => .rfl'

theorem typeError_agree {g : GoVal} (hj : g.IsJ) (ts : List String) : rawTypeError env ts g = typeError env.toEnv ts g.view := by
  cases g with
  | arr xs => rw [(GoVal.isJ_arr hj).2]; rfl
  | obj kvs => rw [(GoVal.isJ_obj hj).2]; rfl
  | imap kvs =>
    have := hj.eq
    rw [GoVal.json] at this
    obtain ⟨l, _, h2⟩ := Option.map_eq_some_iff.1 this
    rw [← h2]; rfl
  | «opaque» k i => exact absurd hj (by simp [GoVal.IsJ, GoVal.json])
  | _ => rfl

theorem raw_agree (hσ : σ.Natural) (hf : FormatsAlike env) : ∀ n, RecAgree C h (rawRecursive env σ h n) (validateRecursive env.toEnv σ h n)
  | 0 => fun _ _ _ _ _ _ => .rfl'
  | n + 1 => by
    intro p i g c hj hi
    have hrec := raw_agree hσ hf n
    show Agree C (rawStep env σ h _ p i g c) (validateStep env.toEnv σ h _ p i g.view c)
    unfold rawStep validateStep
    cases hs : h[i]? with
    | none => exact .rfl'
    | some s =>
      simp only
      cases s.pass with
      | some b => exact .rfl'
      | none =>
        cases s.refSchema with
        | some j => exact hrec _ _ _ _ hj hi
        | none =>
          simp only
          rw [typeError_agree hj]
          cases typeError env.toEnv s.types g.view with
          | some t => exact .rfl'
          | none =>
            obtain ⟨g', k1, k2, k3, k4, k5⟩ := rawCast_spec hj
            rw [k1, ← k3]
            exact .bind (node_agree hrec hσ hf ⟨k2, k4, fun hc => (hi hc).imp id k5⟩ (List.mem_of_getElem? hs)) fun _ => .rfl'

end

end GJS

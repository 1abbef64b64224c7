import Verif.LemMarshal
import Verif.LemNum
import Verif.PropErrors
import Verif.LemAbort
/-
Equality of values in enum, const and uniqueItems: C11, C12, C13.
-/
namespace GJS
open Spec

/-! ### The assumption on number printing can be met -/

theorem digits_no_e {n : Nat} : ∀ c ∈ (toString n).toList, c.isDigit = true := by
  intro c hc
  have : (toString n).toList = Nat.toDigits 10 n := Nat.toList_repr
  rw [this] at hc
  exact Nat.isDigit_of_mem_toDigits (by decide) (by decide) hc

theorem split_e {a b a' b' : List Char} (ha : ∀ c ∈ a, c ≠ 'e') (ha' : ∀ c ∈ a', c ≠ 'e')
    (h : a ++ 'e' :: b = a' ++ 'e' :: b') : a = a' ∧ b = b' := by
  induction a generalizing a' with
  | nil =>
    cases a' with
    | nil => simpa using h
    | cons c a' =>
      simp only [List.nil_append, List.cons_append, List.cons.injEq] at h
      exact absurd h.1.symm (ha' c (by simp))
  | cons c a ih =>
    cases a' with
    | nil =>
      simp only [List.nil_append, List.cons_append, List.cons.injEq] at h
      exact absurd h.1 (ha c (by simp))
    | cons c' a' =>
      simp only [List.cons_append, List.cons.injEq] at h
      obtain ⟨rfl, h⟩ := h
      obtain ⟨rfl, rfl⟩ := ih (fun x hx => ha x (by simp [hx])) (fun x hx => ha' x (by simp [hx])) h
      exact ⟨rfl, rfl⟩

theorem Demo.fmt_toList (f : F64) : (Demo.env.fmtF64 f).toList =
    (if f.neg then ['-'] else []) ++ ((toString f.mag.num.natAbs).toList ++ 'e' :: (toString f.mag.den).toList) := by
  simp only [Demo.env, String.toList_append]
  cases f.neg <;> simp

/-- The demonstration environment prints numbers as assumed of `encoding/json`. -/
theorem Demo.fmtOK : FmtOK Demo.env.fmtF64 where
  inj := by
    intro a b ha hb h
    have h := congrArg String.toList h
    rw [Demo.fmt_toList, Demo.fmt_toList] at h
    have ne : ∀ {n : Nat}, ∀ c ∈ (toString n).toList, c ≠ 'e' ∧ c ≠ '-' := by
      intro n c hc
      have := digits_no_e c hc
      constructor <;> rintro rfl <;> revert this <;> decide
    have hneg : a.neg = b.neg := by
      have hne : ∀ n : Nat, ∃ d t, (toString n).toList = d :: t ∧ d ≠ '-' := by
        intro n
        cases hl : (toString n).toList with
        | nil =>
          have : (toString n).toList = Nat.toDigits 10 n := Nat.toList_repr
          rw [hl] at this
          exact absurd this.symm Nat.toDigits_ne_nil
        | cons d t => exact ⟨d, t, rfl, (ne d (by rw [hl]; simp)).2⟩
      obtain ⟨d, t, hd, hd'⟩ := hne a.mag.num.natAbs
      obtain ⟨d2, t2, hd2, hd2'⟩ := hne b.mag.num.natAbs
      rw [hd, hd2] at h
      cases ha : a.neg <;> cases hb : b.neg <;> simp [ha, hb] at h ⊢
      · exact hd' h.1
      · exact hd2' h.1.symm
    rw [hneg] at h
    have h := List.append_cancel_left h
    obtain ⟨h1, h2⟩ := split_e (fun c hc => (ne c hc).1) (fun c hc => (ne c hc).1) h
    have h1 := toString_nat_inj (String.toList_inj.1 h1)
    have h2 := toString_nat_inj (String.toList_inj.1 h2)
    have p1 := Rat.num_nonneg.2 (isF64_nonneg ha)
    have p2 := Rat.num_nonneg.2 (isF64_nonneg hb)
    have hm : a.mag = b.mag := Rat.ext (by omega) h2
    cases a; cases b; simp_all
  chars := by
    intro a _ c hc
    rw [Demo.fmt_toList] at hc
    have dig : ∀ {n : Nat} {c}, c ∈ (toString n).toList → numChar c = true := by
      intro n c hc; simp [numChar, digits_no_e c hc]
    simp only [List.mem_append, List.mem_cons] at hc
    rcases hc with hc | hc | rfl | hc
    · split at hc <;> simp at hc; subst hc; decide
    · exact dig hc
    · decide
    · exact dig hc
  nonempty := by
    intro a _ h
    have := congrArg String.toList h
    rw [Demo.fmt_toList] at this
    simp at this

/-! ### C11 -/

/-- C11.  Two documents have the same serialisation exactly when they are the same value:
same structure, strings and members whatever their order, and numbers that round to the same
float64. -/
theorem C11_same_serialisation (env : Env) (hf : FmtOK env.fmtF64) (x y : Json) (hx : x.WF) (hy : y.WF)
    (s t : String) (hs : env.marshal x = some s) (ht : env.marshal y = some t) :
    s = t ↔ SameVal x y := marshal_eq_iff hf hx hy hs ht

/-- C11, const: a schema whose `const` was parsed from `k` accepts exactly the values equal to
`k`. -/
theorem C11_const (env : Env) (hf : FmtOK env.fmtF64) (s : Sub) (k v : Json) (hk : k.WF) (hv : v.WF)
    (t : String) (ht : env.marshal k = some t) (hs : s.const = some t) (c : Ctx) (r : Result)
    (hr : checkConst env s v c = .ok r) : r.valid = true ↔ SameVal v k := by
  rw [checkConst_valid hr]
  unfold ConstRule
  simp only [hs, Option.some.injEq, forall_eq']
  unfold checkConst at hr
  simp only [hs] at hr
  cases hm : env.marshal v with
  | none => simp [hm] at hr
  | some u => rw [Option.some.injEq]; exact C11_same_serialisation env hf v k hv hk u t hm ht

/-- C11, enum: a schema whose `enum` was parsed from the non-empty list `ks` accepts exactly
the values equal to a member of it. -/
theorem C11_enum (env : Env) (hf : FmtOK env.fmtF64) (s : Sub) (ks : List Json) (v : Json)
    (hk : ∀ k ∈ ks, k.WF) (hv : v.WF) (hne : ks ≠ []) (hs : s.enum.map some = ks.map env.marshal)
    (c : Ctx) (r : Result) (hr : checkEnum env s v c = .ok r) :
    r.valid = true ↔ ∃ k ∈ ks, SameVal v k := by
  rw [checkEnum_valid hr]
  have hse : s.enum ≠ [] := by
    intro h0; rw [h0] at hs
    cases ks with
    | nil => exact hne rfl
    | cons => simp at hs
  cases hm : env.marshal v with
  | none =>
    have : s.enum.length > 0 := List.length_pos_iff.2 hse
    simp [checkEnum, this, hm] at hr
  | some u =>
    unfold EnumRule
    constructor
    · rintro (h | ⟨t, ht, h⟩)
      · exact absurd h hse
      · have hmem : some t ∈ ks.map env.marshal := hs ▸ List.mem_map.2 ⟨t, ht, rfl⟩
        obtain ⟨k, hk1, hk2⟩ := List.mem_map.1 hmem
        rw [hm] at h
        exact ⟨k, hk1, (C11_same_serialisation env hf v k hv (hk k hk1) u t hm hk2).1 (Option.some.inj h)⟩
    · rintro ⟨k, hk1, h⟩
      have hmem : env.marshal k ∈ s.enum.map some := hs ▸ List.mem_map.2 ⟨k, hk1, rfl⟩
      obtain ⟨t, ht, hkt⟩ := List.mem_map.1 hmem
      refine .inr ⟨t, ht, ?_⟩
      rw [hm, (C11_same_serialisation env hf v k hv (hk k hk1) u t hm hkt.symm).2 h]

/-- C11, the float64 assumption on printing is satisfiable. -/
example : FmtOK Demo.env.fmtF64 := Demo.fmtOK
/-- Members in another order, and `1` written `1.0`. -/
example : SameVal (.obj [("a", Demo.int 1), ("b", .null)])
    (.obj [("b", .null), ("a", .num ⟨false, 1, [0], none⟩)]) := by
  have h1 : SameVal (Demo.int 1) (.num ⟨false, 1, [0], none⟩) :=
    .num ⟨false, 1, [], none⟩ _ (by decide +kernel)
  refine .obj _ _ (by clear h1; simp; tauto) ?_
  intro k x y hx hy
  simp only [List.mem_cons, Prod.mk.injEq, List.not_mem_nil, or_false] at hx hy
  rcases hx with ⟨rfl, rfl⟩ | ⟨rfl, rfl⟩ <;> rcases hy with ⟨hk, rfl⟩ | ⟨hk, rfl⟩
  · exact absurd hk (by decide)
  · exact h1
  · exact .null
  · exact absurd hk (by decide)

/-! ### C12 -/

/-- C12.  For integers of magnitude at most `2^53` the equality is exact numeric equality, up
to the sign of zero. -/
theorem C12_safe_integers (m n : NumLit) (a b : Int) (hm : m.val = a) (hn : n.val = b)
    (ha : a.natAbs ≤ 2 ^ 53) (hb : b.natAbs ≤ 2 ^ 53) :
    SameVal (.num m) (.num n) ↔ a = b ∧ (a = 0 → m.neg = n.neg) := by
  have mag : ∀ (n : NumLit) (z : Int), n.val = z → n.mag = z.natAbs := by
    intro n z hz
    have h0 := n.mag_nonneg
    have : n.mag = |(z : Rat)| := by
      unfold NumLit.val at hz
      cases hneg : n.neg <;> simp only [hneg, Bool.false_eq_true, if_true, if_false] at hz
      · rw [← hz, abs_of_nonneg h0]
      · rw [← hz, abs_neg, abs_of_nonneg h0]
    rw [this]
    simp [Nat.cast_natAbs]
  have hma := mag m a hm
  have hnb := mag n b hn
  have key : SameVal (.num m) (.num n) ↔ m.neg = n.neg ∧ (a.natAbs : Rat) = b.natAbs := by
    constructor
    · intro h
      cases h with
      | num _ _ h =>
        rw [toF64_int hma ha, toF64_int hnb hb] at h
        simpa using h
    · rintro ⟨h1, h2⟩
      exact .num _ _ (by rw [toF64_int hma ha, toF64_int hnb hb, h1, h2])
  rw [key]
  have hv : (a = b) ↔ m.val = n.val := by rw [hm, hn]; exact_mod_cast Iff.rfl
  rw [hv, NumLit.val_eq_iff, hma, hnb]
  have hz : ((a.natAbs : Rat) = 0) ↔ a = 0 := by
    rw [Nat.cast_eq_zero, Int.natAbs_eq_zero]
  rw [hz]
  tauto

/-- C12, beyond that range it is not: `9007199254740993` equals `9007199254740992`. -/
theorem C12_not_exact_beyond :
    SameVal (Demo.int 9007199254740993) (Demo.int 9007199254740992) ∧
    (9007199254740993 : Int) ≠ 9007199254740992 :=
  ⟨.num ⟨false, 9007199254740993, [], none⟩ ⟨false, 9007199254740992, [], none⟩ (by decide +kernel), by decide⟩

/-- C12, as a verdict: `{"const":9007199254740992}` accepts `9007199254740993`. -/
theorem C12_const_accepts_other (env : Env) (hf : FmtOK env.fmtF64) (s : Sub) (t : String)
    (ht : env.marshal (Demo.int 9007199254740992) = some t) (hs : s.const = some t) (c : Ctx) (r : Result)
    (hr : checkConst env s (Demo.int 9007199254740993) c = .ok r) : r.valid = true :=
  (C11_const env hf s _ _ (.num _) (.num _) t ht hs c r hr).2 C12_not_exact_beyond.1

example : NumLit.val ⟨false, 9007199254740992, [], none⟩ = (9007199254740992 : Int) ∧
    Int.natAbs 9007199254740992 ≤ 2 ^ 53 := ⟨by decide +kernel, by decide⟩

/-! ### C13 -/

/-- C13.  With `uniqueItems` the block is error-free exactly when no two elements at different
positions are equal. -/
theorem C13_unique_iff (env : Env) (hf : FmtOK env.fmtF64) (s : Sub) (xs : List Json) (hw : ∀ x ∈ xs, x.WF)
    (hu : s.uniqueItems = true) (c : Ctx) (r : Result) (hr : checkUnique env s xs c = .ok r) :
    r.valid = true ↔ ∀ (a b : Nat) x y, a < b → xs[a]? = some x → xs[b]? = some y → ¬ SameVal x y := by
  have hsome : ∀ x ∈ xs, ∃ t, env.marshal x = some t := by
    simp only [checkUnique, hu, if_true] at hr
    have : ∀ {l : List Json} {seen j r}, uniqueLoop env xs c seen j l = .ok r → ∀ x ∈ l, ∃ t, env.marshal x = some t := by
      intro l
      induction l with
      | nil => intro _ _ _ _ x hx; simp at hx
      | cons y ys ih =>
        intro seen j r h x hx
        rw [uniqueLoop] at h
        split at h
        · simp at h
        · rename_i t ht
          simp only [Exec.bind_ok, Exec.pure_ok] at h
          obtain ⟨rs, hrs, _⟩ := h
          simp only [List.mem_cons] at hx
          rcases hx with rfl | hx
          · exact ⟨t, ht⟩
          · exact ih hrs x hx
    exact this hr
  have hval : r.valid = true ↔ r.errors = [] := by simp [Result.valid]
  rw [hval]
  constructor
  · intro h0 a b x y hab hx hy hsv
    obtain ⟨t, ht⟩ := hsome x (List.mem_of_getElem? hx)
    obtain ⟨u, hu'⟩ := hsome y (List.mem_of_getElem? hy)
    have := (C11_same_serialisation env hf x y (hw x (List.mem_of_getElem? hx)) (hw y (List.mem_of_getElem? hy)) t u ht hu').2 hsv
    obtain ⟨a', ha'⟩ := C13_unique_complete env s xs c r hu hr a b x y hab hx hy (by rw [ht, hu', this])
    rw [h0] at ha'; simp at ha'
  · intro h
    cases he : r.errors with
    | nil => rfl
    | cons e es =>
      obtain ⟨_, a, b, x, y, hab, _, _, _, hx, hy, hxy⟩ := C13_unique_sound env s xs c r hr e (by simp [he])
      obtain ⟨t, ht⟩ := hsome x (List.mem_of_getElem? hx)
      obtain ⟨u, hu'⟩ := hsome y (List.mem_of_getElem? hy)
      rw [ht, hu', Option.some.injEq] at hxy
      exact absurd ((C11_same_serialisation env hf x y (hw x (List.mem_of_getElem? hx)) (hw y (List.mem_of_getElem? hy)) t u ht hu').1 hxy) (h a b x y hab hx hy)

/-- `[1, null, 1.0]` has a duplicate. -/
example : (match checkUnique Demo.env { doc := .null, draft := Draft7, uniqueItems := true }
    [Demo.int 1, .null, .num ⟨false, 1, [0], none⟩] ["(root)"] with
    | .ok r => r.errors.map (·.kind) == [.unique 0 2]
    | .error _ => false) = true := by decide +kernel

end GJS

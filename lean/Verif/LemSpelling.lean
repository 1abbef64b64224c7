import Verif.SpecNumber
import Verif.LemGoFmt
import Verif.SpecWell
import Verif.SpecWell
/-
Helper lemmas: documents that differ in spelling only.
-/
namespace GJS
open Spec

/-- `Respell` between documents whose names are distinct. -/
inductive Alike (env : Env) : Json → Json → Prop
  | null : Alike env .null .null
  | bool (b) : Alike env (.bool b) (.bool b)
  | str (s) : Alike env (.str s) (.str s)
  | num (m n) : m.val = n.val → m.neg = n.neg → env.ratOk m = env.ratOk n → Alike env (.num m) (.num n)
  | arr (xs ys : List Json) : xs.length = ys.length →
      (∀ (k : Nat) x y, xs[k]? = some x → ys[k]? = some y → Alike env x y) → Alike env (.arr xs) (.arr ys)
  | obj (a b : List (String × Json)) : (a.map Prod.fst).Nodup → (a.map Prod.fst).Perm (b.map Prod.fst) →
      (∀ k x y, (k, x) ∈ a → (k, y) ∈ b → Alike env x y) → Alike env (.obj a) (.obj b)

variable {env : Env}

theorem Alike.symm {v v'} (h : Alike env v v') : Alike env v' v := by
  induction h with
  | null => exact .null
  | bool => exact .bool _
  | str => exact .str _
  | num m n h1 h2 h3 => exact .num _ _ h1.symm h2.symm h3.symm
  | arr xs ys hl _ ih => exact .arr _ _ hl.symm fun k x y hx hy => ih k y x hy hx
  | obj a b hn hp _ ih => exact .obj _ _ (hp.nodup_iff.1 hn) hp.symm fun k x y hx hy => ih k y x hy hx

theorem Alike.wf {v v'} (h : Alike env v v') : v.WF := by
  induction h with
  | null => exact .null
  | bool => exact .bool _
  | str => exact .str _
  | num => exact .num _
  | arr xs ys hl _ ih =>
    refine .arr _ fun x hx => ?_
    obtain ⟨k, hk⟩ := List.mem_iff_getElem?.1 hx
    have hlt : k < ys.length := by rw [← hl]; exact (List.getElem?_eq_some_iff.1 hk).1
    exact ih k x ys[k] hk (List.getElem?_eq_getElem hlt)
  | obj a b hn hp _ ih =>
    refine .obj _ hn fun e he => ?_
    obtain ⟨y, hy⟩ := key_partner hp he
    exact ih e.1 e.2 y he hy

theorem alike_respell {v v'} (h : Alike env v v') : Respell env v v' := by
  induction h with
  | null => exact .null
  | bool => exact .bool _
  | str => exact .str _
  | num m n h1 h2 h3 => exact .num _ _ h1 h2 h3
  | arr xs ys hl _ ih => exact .arr _ _ hl ih
  | obj a b _ hp _ ih => exact .obj _ _ (fun k => hp.mem_iff) ih

theorem respell_alike {v v'} (h : Respell env v v') : v.WF → v'.WF → Alike env v v' := by
  induction h with
  | null => exact fun _ _ => .null
  | bool => exact fun _ _ => .bool _
  | str => exact fun _ _ => .str _
  | num m n h1 h2 h3 => exact fun _ _ => .num _ _ h1 h2 h3
  | arr xs ys hl _ ih =>
    rintro (_ | _ | _ | _ | ⟨_, h1⟩) (_ | _ | _ | _ | ⟨_, h2⟩)
    exact .arr _ _ hl fun k x y hx hy => ih k x y hx hy (h1 x (List.mem_of_getElem? hx)) (h2 y (List.mem_of_getElem? hy))
  | obj a b hk _ ih =>
    intro h1 h2
    cases h1 with | obj _ n1 w1 =>
    cases h2 with | obj _ n2 w2 =>
    exact .obj _ _ n1 ((List.perm_ext_iff_of_nodup n1 n2).2 hk) fun k x y hx hy => ih k x y hx hy (w1 _ hx) (w2 _ hy)

theorem alike_refl {v : Json} (h : v.WF) : Alike env v v := by
  induction h with
  | null => exact .null
  | bool => exact .bool _
  | str => exact .str _
  | num => exact .num _ _ rfl rfl rfl
  | arr xs _ ih =>
    refine .arr _ _ rfl fun k x y hx hy => ?_
    rw [hx] at hy; cases hy
    exact ih x (List.mem_of_getElem? hx)
  | obj a hn _ ih =>
    refine .obj _ _ hn (List.Perm.refl _) fun k x y hx hy => ?_
    cases mem_keys_eq hn hx hy
    exact ih (k, x) hx

/-- Arrays. -/
def AlikeL (env : Env) (xs ys : List Json) : Prop :=
  xs.length = ys.length ∧ ∀ (k : Nat) x y, xs[k]? = some x → ys[k]? = some y → Alike env x y

/-- Objects. -/
def AlikeO (env : Env) (a b : List (String × Json)) : Prop :=
  (a.map Prod.fst).Nodup ∧ (a.map Prod.fst).Perm (b.map Prod.fst) ∧ ∀ k x y, (k, x) ∈ a → (k, y) ∈ b → Alike env x y

theorem AlikeL.symm {xs ys} (h : AlikeL env xs ys) : AlikeL env ys xs :=
  ⟨h.1.symm, fun k x y hx hy => (h.2 k y x hy hx).symm⟩

theorem AlikeO.symm {a b} (h : AlikeO env a b) : AlikeO env b a :=
  ⟨h.2.1.nodup_iff.1 h.1, h.2.1.symm, fun k x y hx hy => (h.2.2 k y x hy hx).symm⟩

theorem AlikeL.at {xs ys} (h : AlikeL env xs ys) {k : Nat} {x} (hx : xs[k]? = some x) : ∃ y, ys[k]? = some y ∧ Alike env x y := by
  have hlt : k < ys.length := by rw [← h.1]; exact (List.getElem?_eq_some_iff.1 hx).1
  exact ⟨ys[k], List.getElem?_eq_getElem hlt, h.2 k x _ hx (List.getElem?_eq_getElem hlt)⟩

theorem AlikeL.mem {xs ys} (h : AlikeL env xs ys) {x} (hx : x ∈ xs) : ∃ y ∈ ys, Alike env x y := by
  obtain ⟨k, hk⟩ := List.mem_iff_getElem?.1 hx
  obtain ⟨y, hy, ha⟩ := h.at hk
  exact ⟨y, List.mem_of_getElem? hy, ha⟩

theorem AlikeL.nil_iff {xs ys} (h : AlikeL env xs ys) : xs = [] ↔ ys = [] := by
  rw [← List.length_eq_zero_iff, ← List.length_eq_zero_iff, h.1]

theorem AlikeL.str {xs ys} (h : AlikeL env xs ys) {s} (hx : Json.str s ∈ xs) : Json.str s ∈ ys := by
  obtain ⟨y, hy, ha⟩ := h.mem hx
  cases ha
  exact hy

theorem AlikeO.mem {a b} (h : AlikeO env a b) {k x} (hx : (k, x) ∈ a) : ∃ y, (k, y) ∈ b ∧ Alike env x y := by
  obtain ⟨y, hy⟩ := key_partner h.2.1 hx
  exact ⟨y, hy, h.2.2 k x y hx hy⟩

theorem AlikeO.kw {a b} (h : AlikeO env a b) {k x} (hx : Kw a k x) : ∃ y, Kw b k y ∧ Alike env x y := by
  obtain ⟨y, hy, ha⟩ := h.mem (lookup_some_mem hx)
  exact ⟨y, lookup_eq_some_of_mem h.symm.1 hy, ha⟩

theorem AlikeO.key {a b} (h : AlikeO env a b) {k} : k ∈ keysOf a ↔ k ∈ keysOf b := h.2.1.mem_iff

theorem AlikeO.length {a b} (h : AlikeO env a b) : a.length = b.length := by
  have := h.2.1.length_eq
  simpa using this

theorem alike_arr {xs y} (h : Alike env (.arr xs) y) : ∃ ys, y = .arr ys ∧ AlikeL env xs ys := by
  cases h with | arr _ ys h1 h2 => exact ⟨ys, rfl, h1, h2⟩

theorem alike_obj {xs y} (h : Alike env (.obj xs) y) : ∃ ys, y = .obj ys ∧ AlikeO env xs ys := by
  cases h with | obj _ ys h1 h2 h3 => exact ⟨ys, rfl, h1, h2, h3⟩

theorem alike_str {s y} (h : Alike env (.str s) y) : y = .str s := by cases h; rfl
theorem alike_bool {s y} (h : Alike env (.bool s) y) : y = .bool s := by cases h; rfl
theorem alike_num {n y} (h : Alike env (.num n) y) : ∃ m, y = .num m ∧ n.val = m.val ∧ n.neg = m.neg ∧ env.ratOk n = env.ratOk m := by
  cases h with | num _ m h1 h2 h3 => exact ⟨m, rfl, h1, h2, h3⟩

theorem alike_of_O {a b} (h : AlikeO env a b) : Alike env (.obj a) (.obj b) := .obj _ _ h.1 h.2.1 h.2.2

/-! ### Serialisation -/

theorem toF64_alike {m n : NumLit} (h1 : m.val = n.val) (h2 : m.neg = n.neg) : m.toF64 = n.toF64 := by
  have : m.mag = n.mag := by
    unfold NumLit.val at h1
    rw [h2] at h1
    split at h1
    · have := congrArg (fun x : Rat => -x) h1; simpa only [Rat.neg_neg] using this
    · exact h1
  unfold NumLit.toF64
  rw [this, h2]

theorem alike_sameVal {v v'} (h : Alike env v v') : SameVal v v' := by
  induction h with
  | null => exact .null
  | bool => exact .bool _
  | str => exact .str _
  | num m n h1 h2 _ => exact .num _ _ (toF64_alike h1 h2)
  | arr xs ys hl _ ih => exact .arr _ _ hl ih
  | obj a b _ hp _ ih => exact .obj _ _ (fun k => hp.mem_iff) ih

theorem canon_sameVal {v v'} (h : SameVal v v') (hw : v.WF) (hw' : v'.WF) : canon v = canon v' := by
  cases hc : canon v with
  | none =>
    cases hc' : canon v' with
    | none => rfl
    | some c =>
      obtain ⟨d, hd⟩ := canon_same (sameVal_symm h) ⟨c, hc'⟩
      rw [hc] at hd; cases hd
  | some c =>
    obtain ⟨d, hd⟩ := canon_same h ⟨c, hc⟩
    rw [hd, (canon_eq_iff v v' hw hw' hc hd).2 h]

theorem marshal_alike {v v'} (h : Alike env v v') : env.marshal v = env.marshal v' := by
  unfold Env.marshal marshalWithoutNumber
  rw [canon_sameVal (alike_sameVal h) h.wf h.symm.wf]

theorem hasType_alike {v v' t} (h : Alike env v v') (ht : HasType env v t) : HasType env v' t := by
  cases ht with
  | null => cases h; exact .null
  | bool b => cases h; exact .bool _
  | str s => cases h; exact .str _
  | arr xs => cases h; exact .arr _
  | obj xs => cases h; exact .obj _
  | num n => cases h; exact .num _
  | int n z h1 h2 => cases h with | num _ m e1 e2 e3 => exact .int _ z (e3 ▸ h1) (e1 ▸ h2)

/-! ### The rules -/

/-- The same answer for other spellings. -/
def SatAlike (env : Env) (sat sat' : SatD) : Prop :=
  ∀ D D' v v', Alike env D D' → Alike env v v' → (sat D v ↔ sat' D' v')

variable {sat sat' : SatD} {m m' : List (String × Json)} {v v' : Json} {d : Draft}

theorem SatAlike.symm (h : SatAlike env sat sat') : SatAlike env sat' sat :=
  fun D D' v v' h1 h2 => (h D' D v' v h1.symm h2.symm).symm

theorem dtype_alike (hm : AlikeO env m m') (hv : Alike env v v') (h : DType env m v) : DType env m' v' := by
  refine ⟨fun t ht => ?_, fun ts ht => ?_⟩
  · obtain ⟨x, hx, ha⟩ := hm.symm.kw ht
    cases alike_str ha
    exact hasType_alike hv (h.1 t hx)
  · obtain ⟨x, hx, ha⟩ := hm.symm.kw ht
    obtain ⟨ys, rfl, hl⟩ := alike_arr ha
    rcases h.2 ys hx with h | ⟨t, h1, h2⟩
    · exact .inl (hl.nil_iff.2 h)
    · exact .inr ⟨t, hl.symm.str h1, hasType_alike hv h2⟩

theorem danyOf_alike (hs : SatAlike env sat sat') (hm : AlikeO env m m') (hv : Alike env v v') (h : DAnyOf sat m v) : DAnyOf sat' m' v' := by
  intro Ds hD
  obtain ⟨x, hx, ha⟩ := hm.symm.kw hD
  obtain ⟨ys, rfl, hl⟩ := alike_arr ha
  rcases h ys hx with h | ⟨D, h1, h2⟩
  · exact .inl (hl.nil_iff.2 h)
  · obtain ⟨D', h3, h4⟩ := hl.symm.mem h1
    exact .inr ⟨D', h3, (hs _ _ _ _ h4 hv).1 h2⟩

theorem doneOf_alike (hs : SatAlike env sat sat') (hm : AlikeO env m m') (hv : Alike env v v') (h : DOneOf sat m v) : DOneOf sat' m' v' := by
  intro Ds hD
  obtain ⟨x, hx, ha⟩ := hm.symm.kw hD
  obtain ⟨ys, rfl, hl⟩ := alike_arr ha
  rcases h ys hx with h | ⟨k, D, h1, h2, h3⟩
  · exact .inl (hl.nil_iff.2 h)
  · obtain ⟨D', h4, h5⟩ := hl.symm.at h1
    refine .inr ⟨k, D', h4, (hs _ _ _ _ h5 hv).1 h2, fun k' E h6 h7 => ?_⟩
    obtain ⟨E', h8, h9⟩ := hl.at h6
    exact h3 k' E' h8 ((hs _ _ _ _ h9.symm hv).2 h7)

theorem dallOf_alike (hs : SatAlike env sat sat') (hm : AlikeO env m m') (hv : Alike env v v') (h : DAllOf sat m v) : DAllOf sat' m' v' := by
  intro Ds hD D hDs
  obtain ⟨x, hx, ha⟩ := hm.symm.kw hD
  obtain ⟨ys, rfl, hl⟩ := alike_arr ha
  obtain ⟨E, h1, h2⟩ := hl.mem hDs
  exact (hs _ _ _ _ h2.symm hv).1 (h ys hx E h1)

theorem dnot_alike (hs : SatAlike env sat sat') (hm : AlikeO env m m') (hv : Alike env v v') (h : DNot sat m v) : DNot sat' m' v' := by
  intro D hD hsat
  obtain ⟨x, hx, ha⟩ := hm.symm.kw hD
  exact h x hx ((hs _ _ _ _ ha.symm hv).2 hsat)

theorem ddeps_alike (hs : SatAlike env sat sat') (hm : AlikeO env m m') (hv : Alike env v v') (h : DDependencies sat m v) :
    DDependencies sat' m' v' := by
  intro ds kvs hD hkvs k D hkD hk
  subst hkvs
  obtain ⟨x, hx, ha⟩ := hm.symm.kw hD
  obtain ⟨ys, rfl, hl⟩ := alike_obj ha
  obtain ⟨kvs', rfl, ho⟩ := alike_obj hv.symm
  obtain ⟨E, h1, h2⟩ := hl.mem hkD
  have := h ys kvs' hx rfl k E h1 (ho.key.1 hk)
  cases h2 with
  | arr xs ys hl h3 =>
    have hl : AlikeL env xs ys := ⟨hl, h3⟩
    intro q hq
    exact ho.key.2 (this q (hl.str hq))
  | null => exact (hs _ _ _ _ .null hv).1 this
  | bool b => exact (hs _ _ _ _ (.bool b) hv).1 this
  | str b => exact (hs _ _ _ _ (.str b) hv).1 this
  | num a b e1 e2 e3 => exact (hs _ _ _ _ (Alike.num a b e1 e2 e3).symm hv).1 this
  | obj a b e1 e2 e3 => exact (hs _ _ _ _ (Alike.obj a b e1 e2 e3).symm hv).1 this

theorem dif_alike (hs : SatAlike env sat sat') (hm : AlikeO env m m') (hv : Alike env v v') (h : DIf sat d m v) : DIf sat' d m' v' := by
  intro hd I hI
  obtain ⟨x, hx, ha⟩ := hm.symm.kw hI
  obtain ⟨h1, h2⟩ := h hd x hx
  refine ⟨fun T hT hsat => ?_, fun T hT hsat => ?_⟩
  · obtain ⟨y, hy, hb⟩ := hm.symm.kw hT
    exact (hs _ _ _ _ hb.symm hv).1 (h1 y hy ((hs _ _ _ _ ha.symm hv).2 hsat))
  · obtain ⟨y, hy, hb⟩ := hm.symm.kw hT
    exact (hs _ _ _ _ hb.symm hv).1 (h2 y hy (fun h => hsat ((hs _ _ _ _ ha.symm hv).1 h)))

theorem valEq_alike {a a'} (hv : Alike env v v') (ha : Alike env a a') (h : ValEq env v a) : ValEq env v' a' := by
  obtain ⟨t, h1, h2⟩ := h
  exact ⟨t, marshal_alike hv ▸ h1, marshal_alike ha ▸ h2⟩

theorem dconst_alike (hm : AlikeO env m m') (hv : Alike env v v') (h : DConst env d m v) : DConst env d m' v' := by
  intro hd c hc
  obtain ⟨x, hx, ha⟩ := hm.symm.kw hc
  exact valEq_alike hv ha.symm (h hd x hx)

theorem denum_alike (hm : AlikeO env m m') (hv : Alike env v v') (h : DEnum env m v) : DEnum env m' v' := by
  intro cs hc
  obtain ⟨x, hx, ha⟩ := hm.symm.kw hc
  obtain ⟨ys, rfl, hl⟩ := alike_arr ha
  rcases h ys hx with h | ⟨c, h1, h2⟩
  · exact .inl (hl.nil_iff.2 h)
  · obtain ⟨c', h3, h4⟩ := hl.symm.mem h1
    exact .inr ⟨c', h3, valEq_alike hv h4 h2⟩

theorem dformat_alike (hf : FormatBlind env) (hm : AlikeO env m m') (hv : Alike env v v') (h : DFormat env m v) : DFormat env m' v' := by
  intro f hf'
  obtain ⟨x, hx, ha⟩ := hm.symm.kw hf'
  cases alike_str ha
  rw [← hf f v v' (alike_respell hv)]
  exact h f hx

theorem ditems_alike (hs : SatAlike env sat sat') (hm : AlikeO env m m') (hv : Alike env v v') (h : DItems sat m v) : DItems sat' m' v' := by
  intro xs I hxs hI
  subst hxs
  obtain ⟨x, hx, ha⟩ := hm.symm.kw hI
  obtain ⟨xs', rfl, ho⟩ := alike_arr hv.symm
  have := h xs' x rfl hx
  have single : ∀ D D', Alike env D D' → (∀ x ∈ xs', sat D x) → ∀ x ∈ xs, sat' D' x := by
    intro D D' hD h x hx
    obtain ⟨y, hy, hb⟩ := ho.mem hx
    exact (hs _ _ _ _ hD hb.symm).1 (h y hy)
  cases ha with
  | arr Ds' Ds hl h3 =>
    have hl : AlikeL env Ds' Ds := ⟨hl, h3⟩
    refine ⟨fun k D x hD hx => ?_, fun hne => ⟨fun hA => ?_, fun A hA k x hk hx => ?_⟩⟩
    · obtain ⟨E, hE, hDE⟩ := hl.at hD
      obtain ⟨y, hy, hxy⟩ := ho.at hx
      exact (hs _ _ _ _ hDE.symm hxy.symm).1 (this.1 k E y hE hy)
    · obtain ⟨B, hB, hAB⟩ := hm.symm.kw hA
      cases alike_bool hAB
      have := (this.2 (fun e => hne (hl.nil_iff.2 e))).1 hB
      rw [ho.1, hl.1]
      exact this
    · obtain ⟨B, hB, hAB⟩ := hm.symm.kw hA
      obtain ⟨B', rfl, _⟩ := alike_obj hAB
      obtain ⟨y, hy, hxy⟩ := ho.at hx
      exact (hs _ _ _ _ hAB.symm hxy.symm).1
        ((this.2 (fun e => hne (hl.nil_iff.2 e))).2 B' hB k y (by rw [← hl.1]; exact hk) hy)
  | null => exact single _ _ .null this
  | bool b => exact single _ _ (.bool b) this
  | str b => exact single _ _ (.str b) this
  | num a b e1 e2 e3 => exact single _ _ (Alike.num a b e1 e2 e3).symm this
  | obj a b e1 e2 e3 => exact single _ _ (Alike.obj a b e1 e2 e3).symm this

theorem dsize_alike (hm : AlikeO env m m') {mn mx n} (h : DSize m mn mx n) : DSize m' mn mx n := by
  refine ⟨fun q hq => ?_, fun q hq => ?_⟩
  · obtain ⟨x, hx, ha⟩ := hm.symm.kw hq
    obtain ⟨p, rfl, e, _⟩ := alike_num ha
    rw [e]; exact h.1 p hx
  · obtain ⟨x, hx, ha⟩ := hm.symm.kw hq
    obtain ⟨p, rfl, e, _⟩ := alike_num ha
    rw [e]; exact h.2 p hx

theorem darray_alike (hs : SatAlike env sat sat') (hm : AlikeO env m m') (hv : Alike env v v') (h : DArray env sat d m v) :
    DArray env sat' d m' v' := by
  intro xs hxs
  subst hxs
  obtain ⟨xs', rfl, ho⟩ := alike_arr hv.symm
  obtain ⟨h1, h2, h3⟩ := h xs' rfl
  refine ⟨?_, fun hu a b x y hab hx hy => ?_, fun hd D hD => ?_⟩
  · rw [ho.1]; exact dsize_alike hm h1
  · obtain ⟨u, hu', hb⟩ := hm.symm.kw hu
    cases alike_bool hb
    obtain ⟨x', hx', hxx⟩ := ho.at hx
    obtain ⟨y', hy', hyy⟩ := ho.at hy
    rw [marshal_alike hxx, marshal_alike hyy]
    exact h2 hu' a b x' y' hab hx' hy'
  · obtain ⟨E, hE, hDE⟩ := hm.symm.kw hD
    obtain ⟨x, hx, hsat⟩ := h3 hd E hE
    obtain ⟨y, hy, hxy⟩ := ho.symm.mem hx
    exact ⟨y, hy, (hs _ _ _ _ hDE.symm hxy).1 hsat⟩

theorem additional_alike (hm : AlikeO env m m') {k} (h : Additional env m k) : Additional env m' k := by
  refine ⟨fun ps hp => ?_, fun ps hp q hq => ?_⟩
  · obtain ⟨x, hx, ha⟩ := hm.symm.kw hp
    obtain ⟨ys, rfl, hl⟩ := alike_obj ha
    exact fun hk => h.1 ys hx (hl.key.1 hk)
  · obtain ⟨x, hx, ha⟩ := hm.symm.kw hp
    obtain ⟨ys, rfl, hl⟩ := alike_obj ha
    exact h.2 ys hx q (hl.key.1 hq)

theorem dobject_alike (hs : SatAlike env sat sat') (hm : AlikeO env m m') (hv : Alike env v v') (h : DObject env sat d m v) :
    DObject env sat' d m' v' := by
  intro kvs hk
  subst hk
  obtain ⟨kvs', rfl, ho⟩ := alike_obj hv.symm
  obtain ⟨h1, h2, h3, h4, h5, h6, h7⟩ := h kvs' rfl
  refine ⟨?_, fun qs hq q hqm => ?_, fun ps hp k D hkD x hx => ?_, fun ps hp q D hqD k x hx hre => ?_, fun hA k hk hadd => ?_,
    fun A hA k x hx hadd => ?_, fun hd D hD k hk => ?_⟩
  · rw [ho.length]; exact dsize_alike hm h1
  · obtain ⟨x, hx, ha⟩ := hm.symm.kw hq
    obtain ⟨ys, rfl, hl⟩ := alike_arr ha
    exact ho.key.2 (h2 ys hx q (hl.str hqm))
  · obtain ⟨x', hx', ha⟩ := hm.symm.kw hp
    obtain ⟨ys, rfl, hl⟩ := alike_obj ha
    obtain ⟨E, hE, hDE⟩ := hl.mem hkD
    obtain ⟨y, hy, hxy⟩ := ho.kw hx
    exact (hs _ _ _ _ hDE.symm hxy.symm).1 (h3 ys hx' k E hE y hy)
  · obtain ⟨x', hx', ha⟩ := hm.symm.kw hp
    obtain ⟨ys, rfl, hl⟩ := alike_obj ha
    obtain ⟨E, hE, hDE⟩ := hl.mem hqD
    obtain ⟨y, hy, hxy⟩ := ho.mem hx
    exact (hs _ _ _ _ hDE.symm hxy.symm).1 (h4 ys hx' q E hE k y hy hre)
  · obtain ⟨B, hB, hAB⟩ := hm.symm.kw hA
    cases alike_bool hAB
    exact h5 hB k (ho.key.1 hk) (additional_alike hm.symm hadd)
  · obtain ⟨B, hB, hAB⟩ := hm.symm.kw hA
    obtain ⟨B', rfl, _⟩ := alike_obj hAB
    obtain ⟨y, hy, hxy⟩ := ho.mem hx
    exact (hs _ _ _ _ hAB.symm hxy.symm).1 (h6 B' hB k y hy (additional_alike hm.symm hadd))
  · obtain ⟨E, hE, hDE⟩ := hm.symm.kw hD
    exact (hs _ _ _ _ hDE.symm (.str k)).1 (h7 hd E hE k (ho.key.1 hk))

theorem dstring_alike (hm : AlikeO env m m') (hv : Alike env v v') (h : DString env m v) : DString env m' v' := by
  intro t ht
  subst ht
  cases alike_str hv.symm
  obtain ⟨h1, h2⟩ := h t rfl
  refine ⟨dsize_alike hm h1, fun q hq => ?_⟩
  obtain ⟨x, hx, ha⟩ := hm.symm.kw hq
  cases alike_str ha
  exact h2 q hx

theorem dnumber_alike (hm : AlikeO env m m') (hv : Alike env v v') (h : DNumber env m v) : DNumber env m' v' := by
  intro n hn
  subst hn
  obtain ⟨p, rfl, e, _⟩ := alike_num hv.symm
  obtain ⟨h1, h2, h3, h4, h5, h6, h7⟩ := h p rfl
  have num : ∀ {k q}, Kw m' k (.num q) → ∃ r, Kw m k (.num r) ∧ q.val = r.val ∧ env.ratOk q = env.ratOk r := by
    intro k q hq
    obtain ⟨x, hx, ha⟩ := hm.symm.kw hq
    obtain ⟨r, rfl, e1, _, e3⟩ := alike_num ha
    exact ⟨r, hx, e1, e3⟩
  have tru : ∀ {k b}, Kw m' k (.bool b) → Kw m k (.bool b) := by
    intro k b hq
    obtain ⟨x, hx, ha⟩ := hm.symm.kw hq
    cases alike_bool ha
    exact hx
  refine ⟨fun q hq => ?_, fun q hq => ?_, fun q hq => ?_, fun q hq hb => ?_, fun q hq hb => ?_, fun q hq hr => ?_, fun q hq hr => ?_⟩ <;>
    obtain ⟨r, hr', e1, e2⟩ := num hq <;> rw [e, e1]
  · exact h1 r hr'
  · exact h2 r hr'
  · exact h3 r hr'
  · exact h4 r hr' (tru hb)
  · exact h5 r hr' (tru hb)
  · exact h6 r hr' (e2 ▸ hr)
  · exact h7 r hr' (e2 ▸ hr)

theorem dkeywords_alike (hf : FormatBlind env) (hs : SatAlike env sat sat') (hm : AlikeO env m m') (hv : Alike env v v')
    (h : DKeywords env sat d m v) : DKeywords env sat' d m' v' := by
  obtain ⟨h1, h2, h3, h4, h5, h6, h7, h8, h9, h10, h11, h12, h13, h14, h15⟩ := h
  exact ⟨dtype_alike hm hv h1, danyOf_alike hs hm hv h2, doneOf_alike hs hm hv h3, dallOf_alike hs hm hv h4, dnot_alike hs hm hv h5,
    ddeps_alike hs hm hv h6, dif_alike hs hm hv h7, dconst_alike hm hv h8, denum_alike hm hv h9, dformat_alike hf hm hv h10,
    ditems_alike hs hm hv h11, darray_alike hs hm hv h12, dobject_alike hs hm hv h13, dstring_alike hm hv h14, dnumber_alike hm hv h15⟩

end GJS

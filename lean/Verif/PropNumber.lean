import Verif.LemRoot
import Verif.LemNumber
import Verif.PropEqual
/-
Numbers and sizes: C09, C10, C20, C42, C44.
-/
namespace GJS
open Spec

/-- Close the keyword rules of absent keywords. -/
macro "rest_hold" ho:ident : tactic => `(tactic| (
  refine ⟨?_, ?_, ?_, ?_, ?_, ?_, ?_, ?_, ?_, ?_, ?_, ?_, ?_, ?_, ?_⟩
  on_goal 1 => try exact only_DType $ho (by decide)
  on_goal -1 => try exact only_DNumber $ho (by decide)
  all_goals try first
    | exact only_DAnyOf $ho (by decide) | exact only_DOneOf $ho (by decide) | exact only_DAllOf $ho (by decide)
    | exact only_DNot $ho (by decide) | exact only_DDependencies $ho (by decide) | exact only_DIf $ho (by decide)
    | exact only_DConst $ho (by decide) | exact only_DEnum $ho (by decide) | exact only_DFormat $ho (by decide)
    | exact only_DItems $ho (by decide) | exact only_DArray $ho (by decide) | exact only_DObject $ho (by decide)
    | exact only_DString $ho (by decide)))

/-! ### C09 -/

theorem inBounds_rw {w : World} {T : Prop} {b m m' env x} (hm : (Json.obj m).WF) (h : RwT w T b (.obj m) (.obj m')) :
    InBounds env m' x ↔ InBounds env m x := by
  have hn := fun k n hk => rw_kw (k := k) (v := .num n) hm h hk scalar_num
  have hb := fun k n hk => rw_kw (k := k) (v := .bool n) hm h hk scalar_bool
  unfold InBounds
  rw [forall_congr' fun q => imp_congr_left (hn "multipleOf" q (by simp)),
    forall_congr' fun q => imp_congr_left (hn "minimum" q (by simp)),
    forall_congr' fun q => imp_congr_left (hn "maximum" q (by simp)),
    forall_congr' fun q => imp_congr_left (hn "exclusiveMinimum" q (by simp)),
    forall_congr' fun q => imp_congr_left (hn "exclusiveMaximum" q (by simp)),
    hb "exclusiveMinimum" true (by simp), hb "exclusiveMaximum" true (by simp)]
  simp only [hn "minimum" _ (by simp : "minimum" ≠ "$ref"), hn "maximum" _ (by simp : "maximum" ≠ "$ref")]

/-- C09, soundness: whatever else a schema object says, a number it accepts is within its bounds,
compared exactly. -/
theorem C09_sound (w : World) (l : LState) (hw : Setting w l) (m : List (String × Json)) (hm : (Json.obj m).WF)
    (hr : "$ref" ∉ keysOf m) (n : NumLit) (h : Gives w l (.obj m) (.num n) true) : InBounds w.env m n.val := by
  obtain ⟨m', sat, h1, h2⟩ := gives_keywords hw hm hr h
  obtain ⟨_, _, _, _, _, _, _, _, _, _, _, _, _, _, h3⟩ := h2.1 rfl
  exact (inBounds_rw hm h1).1 (h3 n rfl)

/-- C09, exactness: a schema object with number keywords only accepts a number exactly if its
exact value is within the bounds. -/
theorem C09_exact (w : World) (l : LState) (hw : Setting w l) (m : List (String × Json)) (hm : (Json.obj m).WF)
    (ho : Only m numberKeywords) (n : NumLit) (b : Bool) (h : Gives w l (.obj m) (.num n) b) :
    b = true ↔ InBounds w.env m n.val := by
  obtain ⟨m', sat, h1, h2⟩ := gives_keywords hw hm (only_noRef ho (by decide)) h
  have ho := only_rw h1 ho
  rw [h2, ← inBounds_rw hm h1]
  constructor
  · rintro ⟨_, _, _, _, _, _, _, _, _, _, _, _, _, _, h3⟩
    exact h3 n rfl
  · intro h3
    rest_hold ho
    exact fun _ e => by cases e; exact h3

/-- C09: number keywords do not constrain other values. -/
theorem C09_not_number (w : World) (l : LState) (hw : Setting w l) (m : List (String × Json)) (hm : (Json.obj m).WF)
    (ho : Only m numberKeywords) (v : Json) (hv : ∀ n, v ≠ .num n) (b : Bool) (h : Gives w l (.obj m) v b) :
    b = true := by
  obtain ⟨m', sat, h1, h2⟩ := gives_keywords hw hm (only_noRef ho (by decide)) h
  have ho := only_rw h1 ho
  rw [h2]
  rest_hold ho
  exact fun n e => absurd e (hv n)

theorem sameBound_inBounds {env : Env} {m m' : List (String × Json)} {x : Rat}
    (hb : ∀ k ∈ numberKeywords, SameBound env (getKey k m) (getKey k m')) (h : InBounds env m x) : InBounds env m' x := by
  have num : ∀ k ∈ numberKeywords, ∀ q, Kw m' k (.num q) → ∃ q', Kw m k (.num q') ∧ q'.val = q.val ∧ env.ratOk q' = env.ratOk q := by
    intro k hk q hq
    have := hb k hk
    simp only [Kw] at hq ⊢
    rw [hq] at this
    cases hg : getKey k m with
    | none => rw [hg] at this; cases this
    | some y =>
      rw [hg] at this
      cases this with
      | num q' _ h1 h2 => exact ⟨q', rfl, h1, h2⟩
  have bool : ∀ k ∈ numberKeywords, ∀ q, Kw m' k (.bool q) → Kw m k (.bool q) := by
    intro k hk q hq
    have := hb k hk
    simp only [Kw] at hq ⊢
    rw [hq] at this
    cases hg : getKey k m with
    | none => rw [hg] at this; cases this
    | some y => rw [hg] at this; cases this; rfl
  obtain ⟨h1, h2, h3, h4, h5, h6, h7⟩ := h
  refine ⟨?_, ?_, ?_, ?_, ?_, ?_, ?_⟩
  · intro q hq; obtain ⟨q', e1, e2, _⟩ := num _ (by simp [numberKeywords]) q hq; rw [← e2]; exact h1 q' e1
  · intro q hq; obtain ⟨q', e1, e2, _⟩ := num _ (by simp [numberKeywords]) q hq; rw [← e2]; exact h2 q' e1
  · intro q hq; obtain ⟨q', e1, e2, _⟩ := num _ (by simp [numberKeywords]) q hq; rw [← e2]; exact h3 q' e1
  · intro q hq ht; obtain ⟨q', e1, e2, _⟩ := num _ (by simp [numberKeywords]) q hq
    rw [← e2]; exact h4 q' e1 (bool _ (by simp [numberKeywords]) _ ht)
  · intro q hq ht; obtain ⟨q', e1, e2, _⟩ := num _ (by simp [numberKeywords]) q hq
    rw [← e2]; exact h5 q' e1 (bool _ (by simp [numberKeywords]) _ ht)
  · intro q hq hr; obtain ⟨q', e1, e2, e3⟩ := num _ (by simp [numberKeywords]) q hq
    rw [← e2]; exact h6 q' e1 (e3.trans hr)
  · intro q hq hr; obtain ⟨q', e1, e2, e3⟩ := num _ (by simp [numberKeywords]) q hq
    rw [← e2]; exact h7 q' e1 (e3.trans hr)

theorem sameBound_symm {env : Env} {x y} (h : SameBound env x y) : SameBound env y x := by
  cases h with
  | none => exact .none
  | bool b => exact .bool b
  | num m n h1 h2 => exact .num n m h1.symm h2.symm

/-- C09, spelling: the verdict depends on the values of the instance and of the bounds only, not on
how they are spelled in the schema and in the instance. -/
theorem C09_spelling (w : World) (l l' : LState) (hw : Setting w l) (hw' : Setting w l') (m m' : List (String × Json))
    (hm : (Json.obj m).WF) (hm' : (Json.obj m').WF) (ho : Only m numberKeywords) (ho' : Only m' numberKeywords)
    (hb : ∀ k ∈ numberKeywords, SameBound w.env (getKey k m) (getKey k m')) (n n' : NumLit) (hn : n.val = n'.val)
    (b b' : Bool) (h : Gives w l (.obj m) (.num n) b) (h' : Gives w l' (.obj m') (.num n') b') : b = b' := by
  rw [Bool.eq_iff_iff, C09_exact w l hw m hm ho n b h, C09_exact w l' hw' m' hm' ho' n' b' h', hn]
  exact ⟨sameBound_inBounds hb, sameBound_inBounds fun k hk => sameBound_symm (hb k hk)⟩

/-- C09, spelling of instances: two instances that differ only in the spelling of numbers (and in
the order of members) get the same verdict from every compiled schema, at every depth. -/
theorem C09_instance_spelling (env : Env) (hf : FormatBlind env) (h : Heap) (root : Id) (x y : Json) (hx : x.WF) (hy : y.WF)
    (hxy : Respell env x y) (σ σ' : Sched) (n n' : Nat) (r r' : Result)
    (hr : validateDocument env σ h n root x = .ok r) (hr' : validateDocument env σ' h n' root y = .ok r') :
    r.valid = r'.valid := by
  obtain ⟨r1, h1, _, _, e1⟩ := C03_order_independent env σ σ h n (max n n') (Nat.le_max_left ..) root x r hr
  obtain ⟨r2, h2, _, _, e2⟩ := C03_order_independent env σ' σ' h n' (max n n') (Nat.le_max_right ..) root y r' hr'
  rw [e1, e2, Bool.eq_iff_iff, C02_verdict_unfold _ _ _ _ _ _ _ h1 (fun _ _ => True),
    C02_verdict_unfold _ _ _ _ _ _ _ h2 (fun _ _ => True)]
  exact respell_unfold hf h _ root x y ⟨hxy, hx, hy⟩

/-! ### C10 -/

theorem hasType_integer {env : Env} {v : Json} :
    HasType env v "integer" ↔ ∃ n, v = .num n ∧ env.ratOk n = true ∧ ∃ z : Int, n.val = z := by
  constructor
  · generalize ht : "integer" = t
    intro h
    cases h with
    | int n z h1 h2 => exact ⟨n, rfl, h1, z, h2⟩
    | _ => simp at ht
  · rintro ⟨n, rfl, h1, z, h2⟩; exact .int n z h1 h2

theorem hasType_number {env : Env} {v : Json} : HasType env v "number" ↔ ∃ n, v = .num n := by
  constructor
  · generalize ht : "number" = t
    intro h
    cases h with
    | num n => exact ⟨n, rfl⟩
    | _ => simp at ht
  · rintro ⟨n, rfl⟩; exact .num n

/-- A schema object with just a `type` that is one name. -/
theorem type_verdict {w : World} {l : LState} (hw : Setting w l) {m : List (String × Json)} (hm : (Json.obj m).WF)
    (ho : Only m ["type"]) {t : String} (ht : Kw m "type" (.str t)) {v : Json} {b : Bool} (h : Gives w l (.obj m) v b) :
    b = true ↔ HasType w.env v t := by
  obtain ⟨m', sat, h1, h2⟩ := gives_keywords hw hm (only_noRef ho (by decide)) h
  have ho := only_rw h1 ho
  have ht' := (rw_kw hm h1 (by simp) scalar_str).2 ht
  rw [h2]
  constructor
  · rintro ⟨⟨h3, _⟩, _⟩
    exact h3 t ht'
  · intro h3
    rest_hold ho
    refine ⟨fun t' e => ?_, fun ts e => ?_⟩
    · rw [Kw, ht'] at e; cases e; exact h3
    · rw [Kw, ht'] at e; cases e

/-- C10: with `"type": "integer"` a number is accepted exactly if its exact value is an integer,
however it is spelled (for numbers `big.Rat` can represent; others are rejected). -/
theorem C10_integer (w : World) (l : LState) (hw : Setting w l) (m : List (String × Json)) (hm : (Json.obj m).WF)
    (ho : Only m ["type"]) (ht : Kw m "type" (.str "integer")) (n : NumLit) (b : Bool) (h : Gives w l (.obj m) (.num n) b) :
    b = true ↔ w.env.ratOk n = true ∧ ∃ z : Int, n.val = z := by
  rw [type_verdict hw hm ho ht h, hasType_integer]
  simp

/-- C10: with `"type": "number"` every number is accepted. -/
theorem C10_number (w : World) (l : LState) (hw : Setting w l) (m : List (String × Json)) (hm : (Json.obj m).WF)
    (ho : Only m ["type"]) (ht : Kw m "type" (.str "number")) (n : NumLit) (b : Bool) (h : Gives w l (.obj m) (.num n) b) :
    b = true := by
  rw [type_verdict hw hm ho ht h, hasType_number]
  exact ⟨n, rfl⟩

/-- C10: values other than numbers are accepted by neither. -/
theorem C10_not_number (w : World) (l : LState) (hw : Setting w l) (m : List (String × Json)) (hm : (Json.obj m).WF)
    (ho : Only m ["type"]) (ht : Kw m "type" (.str "integer") ∨ Kw m "type" (.str "number")) (v : Json)
    (hv : ∀ n, v ≠ .num n) (b : Bool) (h : Gives w l (.obj m) v b) : b = false := by
  rw [← Bool.not_eq_true]
  rcases ht with ht | ht
  · rw [type_verdict hw hm ho ht h, hasType_integer]
    rintro ⟨n, e, _⟩; exact hv n e
  · rw [type_verdict hw hm ho ht h, hasType_number]
    rintro ⟨n, e⟩; exact hv n e

/-- C10, soundness: whatever else a schema object says, with `"type": "integer"` it accepts numbers
with an integer value only. -/
theorem C10_sound (w : World) (l : LState) (hw : Setting w l) (m : List (String × Json)) (hm : (Json.obj m).WF)
    (hr : "$ref" ∉ keysOf m) (ht : Kw m "type" (.str "integer")) (v : Json) (h : Gives w l (.obj m) v true) :
    ∃ n, v = .num n ∧ ∃ z : Int, n.val = z := by
  obtain ⟨m', sat, h1, h2⟩ := gives_keywords hw hm hr h
  obtain ⟨h3, _⟩ := h2.1 rfl
  obtain ⟨n, e, _, h4⟩ := hasType_integer.1 (h3.1 _ ((rw_kw hm h1 (by simp) scalar_str).2 ht))
  exact ⟨n, e, h4⟩

/-! ### C20 -/

theorem only_number {m ks} (ho : Only m ks) (h : ∀ k ∈ ks, k ∈ numberKeywords) : Only m numberKeywords :=
  fun k h1 h2 => h k (ho k h1 h2)

/-- C20: `{minimum: q, exclusiveMinimum: e}` accepts exactly the numbers above `q`, and `q` itself
if `e` is `false`. -/
theorem C20_minimum (w : World) (l : LState) (hw : Setting w l) (m : List (String × Json)) (hm : (Json.obj m).WF)
    (ho : Only m ["minimum", "exclusiveMinimum"]) (q : NumLit) (e : Bool) (h1 : Kw m "minimum" (.num q))
    (h2 : Kw m "exclusiveMinimum" (.bool e)) (n : NumLit) (b : Bool) (h : Gives w l (.obj m) (.num n) b) :
    b = true ↔ if e then q.val < n.val else q.val ≤ n.val := by
  rw [C09_exact w l hw m hm (only_number ho (by simp [numberKeywords])) n b h]
  simp only [InBounds, Kw, only_get ho (by decide : (assertions.contains "multipleOf" && _) = true),
    only_get ho (by decide : (assertions.contains "maximum" && _) = true),
    only_get ho (by decide : (assertions.contains "exclusiveMaximum" && _) = true), show getKey "minimum" m = _ from h1,
    show getKey "exclusiveMinimum" m = _ from h2]
  cases e <;> simp
  exact fun h => Rat.le_of_lt h

/-- C20: `{maximum: q, exclusiveMaximum: e}` accepts exactly the numbers below `q`, and `q` itself
if `e` is `false`. -/
theorem C20_maximum (w : World) (l : LState) (hw : Setting w l) (m : List (String × Json)) (hm : (Json.obj m).WF)
    (ho : Only m ["maximum", "exclusiveMaximum"]) (q : NumLit) (e : Bool) (h1 : Kw m "maximum" (.num q))
    (h2 : Kw m "exclusiveMaximum" (.bool e)) (n : NumLit) (b : Bool) (h : Gives w l (.obj m) (.num n) b) :
    b = true ↔ if e then n.val < q.val else n.val ≤ q.val := by
  rw [C09_exact w l hw m hm (only_number ho (by simp [numberKeywords])) n b h]
  simp only [InBounds, Kw, only_get ho (by decide : (assertions.contains "multipleOf" && _) = true),
    only_get ho (by decide : (assertions.contains "minimum" && _) = true),
    only_get ho (by decide : (assertions.contains "exclusiveMinimum" && _) = true), show getKey "maximum" m = _ from h1,
    show getKey "exclusiveMaximum" m = _ from h2]
  cases e <;> simp
  exact fun h => Rat.le_of_lt h

/-- C20: `{exclusiveMinimum: q}` accepts exactly the numbers above `q`. -/
theorem C20_exclusiveMinimum (w : World) (l : LState) (hw : Setting w l) (m : List (String × Json)) (hm : (Json.obj m).WF)
    (ho : Only m ["exclusiveMinimum"]) (q : NumLit) (h1 : Kw m "exclusiveMinimum" (.num q)) (hq : w.env.ratOk q = true)
    (n : NumLit) (b : Bool) (h : Gives w l (.obj m) (.num n) b) : b = true ↔ q.val < n.val := by
  rw [C09_exact w l hw m hm (only_number ho (by simp [numberKeywords])) n b h]
  simp [InBounds, Kw, only_get ho (by decide : (assertions.contains "multipleOf" && _) = true),
    only_get ho (by decide : (assertions.contains "maximum" && _) = true),
    only_get ho (by decide : (assertions.contains "minimum" && _) = true),
    only_get ho (by decide : (assertions.contains "exclusiveMaximum" && _) = true),
    show getKey "exclusiveMinimum" m = _ from h1, hq]

/-- C20: `{exclusiveMaximum: q}` accepts exactly the numbers below `q`. -/
theorem C20_exclusiveMaximum (w : World) (l : LState) (hw : Setting w l) (m : List (String × Json)) (hm : (Json.obj m).WF)
    (ho : Only m ["exclusiveMaximum"]) (q : NumLit) (h1 : Kw m "exclusiveMaximum" (.num q)) (hq : w.env.ratOk q = true)
    (n : NumLit) (b : Bool) (h : Gives w l (.obj m) (.num n) b) : b = true ↔ n.val < q.val := by
  rw [C09_exact w l hw m hm (only_number ho (by simp [numberKeywords])) n b h]
  simp [InBounds, Kw, only_get ho (by decide : (assertions.contains "multipleOf" && _) = true),
    only_get ho (by decide : (assertions.contains "maximum" && _) = true),
    only_get ho (by decide : (assertions.contains "minimum" && _) = true),
    only_get ho (by decide : (assertions.contains "exclusiveMinimum" && _) = true),
    show getKey "exclusiveMaximum" m = _ from h1, hq]

/-- C20: the two notations give the same verdict on every number. -/
theorem C20_same_minimum (w : World) (l l' : LState) (hw : Setting w l) (hw' : Setting w l') (m m' : List (String × Json))
    (hm : (Json.obj m).WF) (hm' : (Json.obj m').WF) (ho : Only m ["minimum", "exclusiveMinimum"])
    (ho' : Only m' ["exclusiveMinimum"]) (q : NumLit) (hq : w.env.ratOk q = true) (h1 : Kw m "minimum" (.num q))
    (h2 : Kw m "exclusiveMinimum" (.bool true)) (h3 : Kw m' "exclusiveMinimum" (.num q)) (n : NumLit) (b b' : Bool)
    (h : Gives w l (.obj m) (.num n) b) (h' : Gives w l' (.obj m') (.num n) b') : b = b' := by
  rw [Bool.eq_iff_iff, C20_minimum w l hw m hm ho q true h1 h2 n b h,
    C20_exclusiveMinimum w l' hw' m' hm' ho' q h3 hq n b' h']
  simp

@[inherit_doc C20_same_minimum]
theorem C20_same_maximum (w : World) (l l' : LState) (hw : Setting w l) (hw' : Setting w l') (m m' : List (String × Json))
    (hm : (Json.obj m).WF) (hm' : (Json.obj m').WF) (ho : Only m ["maximum", "exclusiveMaximum"])
    (ho' : Only m' ["exclusiveMaximum"]) (q : NumLit) (hq : w.env.ratOk q = true) (h1 : Kw m "maximum" (.num q))
    (h2 : Kw m "exclusiveMaximum" (.bool true)) (h3 : Kw m' "exclusiveMaximum" (.num q)) (n : NumLit) (b b' : Bool)
    (h : Gives w l (.obj m) (.num n) b) (h' : Gives w l' (.obj m') (.num n) b') : b = b' := by
  rw [Bool.eq_iff_iff, C20_maximum w l hw m hm ho q true h1 h2 n b h,
    C20_exclusiveMaximum w l' hw' m' hm' ho' q h3 hq n b' h']
  simp

/-! ### C42 -/

theorem sizeWithin_rw {w : World} {T : Prop} {b m m' mn mx size} (hm : (Json.obj m).WF) (h : RwT w T b (.obj m) (.obj m'))
    (h1 : mn ≠ "$ref") (h2 : mx ≠ "$ref") : DSize m' mn mx size ↔ SizeWithin m mn mx size := by
  unfold DSize SizeWithin
  rw [forall_congr' fun n => imp_congr_left (rw_kw (v := .num n) hm h h1 scalar_num),
    forall_congr' fun n => imp_congr_left (rw_kw (v := .num n) hm h h2 scalar_num)]

/-- C42, arrays: `minItems` and `maxItems` bound the number of elements, inclusively. -/
theorem C42_items (w : World) (l : LState) (hw : Setting w l) (m : List (String × Json)) (hm : (Json.obj m).WF)
    (ho : Only m ["minItems", "maxItems"]) (xs : List Json) (b : Bool) (h : Gives w l (.obj m) (.arr xs) b) :
    b = true ↔ SizeWithin m "minItems" "maxItems" xs.length := by
  obtain ⟨m', sat, h1, h2⟩ := gives_keywords hw hm (only_noRef ho (by decide)) h
  have ho := only_rw h1 ho
  rw [h2, ← sizeWithin_rw hm h1 (by simp) (by simp)]
  constructor
  · rintro ⟨_, _, _, _, _, _, _, _, _, _, _, h3, _⟩
    exact (h3 xs rfl).1
  · intro h3
    rest_hold ho
    intro ys e
    cases e
    refine ⟨h3, ?_, ?_⟩
    · intro e; rw [Kw, only_get ho (by decide)] at e; cases e
    · intro _ D e; rw [Kw, only_get ho (by decide)] at e; cases e

/-- C42, strings: `minLength` and `maxLength` bound the number of code points, inclusively. -/
theorem C42_length (w : World) (l : LState) (hw : Setting w l) (m : List (String × Json)) (hm : (Json.obj m).WF)
    (ho : Only m ["minLength", "maxLength"]) (cs : List Char) (b : Bool)
    (h : Gives w l (.obj m) (.str (String.ofList cs)) b) :
    b = true ↔ SizeWithin m "minLength" "maxLength" cs.length := by
  obtain ⟨m', sat, h1, h2⟩ := gives_keywords hw hm (only_noRef ho (by decide)) h
  have ho := only_rw h1 ho
  rw [h2, ← sizeWithin_rw hm h1 (by simp) (by simp)]
  constructor
  · rintro ⟨_, _, _, _, _, _, _, _, _, _, _, _, _, h3, _⟩
    simpa using (h3 _ rfl).1
  · intro h3
    rest_hold ho
    intro ys e
    cases e
    refine ⟨by simpa using h3, ?_⟩
    intro _ e; rw [Kw, only_get ho (by decide)] at e; cases e

/-- C42, objects: `minProperties` and `maxProperties` bound the number of different member names,
inclusively. -/
theorem C42_properties (w : World) (l : LState) (hw : Setting w l) (m : List (String × Json)) (hm : (Json.obj m).WF)
    (ho : Only m ["minProperties", "maxProperties"]) (kvs : List (String × Json)) (hv : (Json.obj kvs).WF)
    (ks : List String) (hk : ks.Nodup) (hks : ∀ k, k ∈ ks ↔ k ∈ keysOf kvs) (b : Bool)
    (h : Gives w l (.obj m) (.obj kvs) b) :
    b = true ↔ SizeWithin m "minProperties" "maxProperties" ks.length := by
  have hlen : ks.length = kvs.length := by
    have := ((List.perm_ext_iff_of_nodup hk (wfObj hv).1).2 hks).length_eq
    simpa using this
  rw [hlen]
  obtain ⟨m', sat, h1, h2⟩ := gives_keywords hw hm (only_noRef ho (by decide)) h
  have ho := only_rw h1 ho
  rw [h2, ← sizeWithin_rw hm h1 (by simp) (by simp)]
  constructor
  · rintro ⟨_, _, _, _, _, _, _, _, _, _, _, _, h3, _⟩
    exact (h3 _ rfl).1
  · intro h3
    rest_hold ho
    intro ys e
    cases e
    refine ⟨h3, ?_, ?_, ?_, ?_, ?_, ?_⟩
    · intro _ e; rw [Kw, only_get ho (by decide)] at e; cases e
    · intro _ e; rw [Kw, only_get ho (by decide)] at e; cases e
    · intro _ e; rw [Kw, only_get ho (by decide)] at e; cases e
    · intro e; rw [Kw, only_get ho (by decide)] at e; cases e
    · intro _ e; rw [Kw, only_get ho (by decide)] at e; cases e
    · intro _ _ e; rw [Kw, only_get ho (by decide)] at e; cases e

/-- C42, soundness: whatever else a schema object says, what it accepts has a size within its
bounds. -/
theorem C42_sound (w : World) (l : LState) (hw : Setting w l) (m : List (String × Json)) (hm : (Json.obj m).WF)
    (hr : "$ref" ∉ keysOf m) (v : Json) (h : Gives w l (.obj m) v true) :
    (∀ xs, v = .arr xs → SizeWithin m "minItems" "maxItems" xs.length) ∧
    (∀ cs, v = .str (String.ofList cs) → SizeWithin m "minLength" "maxLength" cs.length) ∧
    (∀ kvs, v = .obj kvs → SizeWithin m "minProperties" "maxProperties" kvs.length) := by
  obtain ⟨m', sat, h1, h2⟩ := gives_keywords hw hm hr h
  obtain ⟨_, _, _, _, _, _, _, _, _, _, _, h3, h4, h5, _⟩ := h2.1 rfl
  refine ⟨?_, ?_, ?_⟩
  · intro xs e; exact (sizeWithin_rw hm h1 (by simp) (by simp)).1 (h3 xs e).1
  · intro cs e
    have := (sizeWithin_rw hm h1 (by simp) (by simp)).1 (h5 _ e).1
    simpa using this
  · intro kvs e; exact (sizeWithin_rw hm h1 (by simp) (by simp)).1 (h4 kvs e).1

/-! ### C44: the sign of zero -/

theorem marshal_num {env : Env} {n : NumLit} : env.marshal (.num n) = n.toF64.map fun f => String.ofList (env.fmtF64 f).toList := by
  simp only [Env.marshal, marshalWithoutNumber, canon, Option.map_map]
  rfl

theorem valEq_num {env : Env} (hf : FmtOK env.fmtF64) {n c : NumLit} :
    ValEq env (.num n) (.num c) ↔ n.toF64 = c.toF64 ∧ n.toF64 ≠ none := by
  simp only [ValEq, marshal_num]
  cases h1 : n.toF64 with
  | none => simp
  | some f =>
    cases h2 : c.toF64 with
    | none => simp
    | some g =>
      simp only [Option.map_some, Option.some.injEq, String.ofList_toList, exists_eq_left', ne_eq, reduceCtorEq,
        not_false_eq_true, and_true]
      exact ⟨fun h => (hf.inj g f ⟨_, h2⟩ ⟨_, h1⟩ h).symm, fun h => by rw [h]⟩

/-- A number `const` accepts exactly the numbers that round to the same float64. -/
theorem C44_const_number (w : World) (l : LState) (hw : Setting w l) (hf : FmtOK w.env.fmtF64) (m : List (String × Json))
    (hm : (Json.obj m).WF) (ho : Only m ["const"]) (hd : Draft6 ≤ draftFor w l (.obj m)) (c n : NumLit)
    (hc : Kw m "const" (.num c)) (b : Bool) (h : Gives w l (.obj m) (.num n) b) :
    b = true ↔ n.toF64 = c.toF64 ∧ n.toF64 ≠ none := by
  obtain ⟨m', sat, h1, h2⟩ := gives_keywords hw hm (only_noRef ho (by decide)) h
  have ho := only_rw h1 ho
  have hc' := (rw_kw hm h1 (by simp) scalar_num).2 hc
  rw [h2, ← valEq_num hf]
  constructor
  · rintro ⟨_, _, _, _, _, _, _, h3, _⟩
    exact h3 hd _ hc'
  · intro h3
    rest_hold ho
    intro _ c' e
    rw [Kw, hc'] at e; cases e
    exact h3

/-- C44: a `const` that is zero accepts exactly the zeros of the same sign, however they are
spelled: `0` and `-0`, which every number keyword treats as equal, are different constants. -/
theorem C44_zero (w : World) (l : LState) (hw : Setting w l) (hf : FmtOK w.env.fmtF64) (m : List (String × Json))
    (hm : (Json.obj m).WF) (ho : Only m ["const"]) (hd : Draft6 ≤ draftFor w l (.obj m)) (c n : NumLit)
    (hc : Kw m "const" (.num c)) (h0 : c.val = 0) (hn : n.val = 0) (b : Bool) (h : Gives w l (.obj m) (.num n) b) :
    b = true ↔ n.neg = c.neg := by
  have z : ∀ q : NumLit, q.val = 0 → q.toF64 = some ⟨q.neg, 0⟩ := by
    intro q hq
    have : q.mag = (0 : Nat) := by
      unfold NumLit.val at hq
      split at hq
      · simpa using hq
      · simpa using hq
    simpa using toF64_int this (by decide)
  rw [C44_const_number w l hw hf m hm ho hd c n hc b h, z c h0, z n hn]
  simp

/-! ### Examples -/

namespace Demo

/-- Compile with a loader in state `l`, and validate. -/
def verdictFrom (l : LState) (D v : Json) : Option Bool :=
  match (compile (world []) Sched.id ⟨20, 20⟩ [] (.direct (some D)) l).1 with
  | .ok s =>
    match validateDocument env Sched.rev s.heap 20 s.root v with
    | .ok r => some r.valid
    | .error _ => none
  | .error _ => none

theorem gives_of {l : LState} {D v : Json} {b : Bool} (h : verdictFrom l D v = some b) : Gives (world []) l D v b := by
  unfold verdictFrom at h
  cases hc : compile (world []) Sched.id ⟨20, 20⟩ [] (.direct (some D)) l with
  | mk e l' =>
    rw [hc] at h
    cases e with
    | error => cases h
    | ok s =>
      simp only at h
      cases hv : validateDocument env Sched.rev s.heap 20 s.root v with
      | error => rw [hv] at h; cases h
      | ok r => rw [hv] at h; exact ⟨_, _, _, s, l', _, _, r, hc, hv, by simpa using h⟩

/-- A loader with a fixed draft. -/
def fixed (d : Draft) : LState := { draft := d, autoDetect := false }

theorem setting {d : Draft} : Setting (world []) (fixed d) where
  lawful := world_lawful (by intro k d h; simp [getKey] at h)
  pool := by intro k e h; simp [fixed, getKey] at h
  root := by decide

/-- 0.1, 0.10 and 1e-1 -/
def tenth1 : NumLit := ⟨false, 0, [1], none⟩
@[inherit_doc tenth1] def tenth2 : NumLit := ⟨false, 0, [1, 0], none⟩
@[inherit_doc tenth1] def tenth3 : NumLit := ⟨false, 1, [], some (-1)⟩

/-- `{"multipleOf": 0.1, "maximum": 1e2}` -/
def numDoc : List (String × Json) := [("multipleOf", .num tenth1), ("maximum", .num ⟨false, 1, [], some 2⟩)]

end Demo

open Demo

-- the premises of C09 hold for a document, and both verdicts occur
example : (Json.obj numDoc).WF ∧ Only numDoc numberKeywords :=
  ⟨.obj _ (by decide) (by simp [numDoc]; exact ⟨.num _, .num _⟩), by unfold Only; decide⟩
example : Gives (world []) (fixed Draft7) (.obj numDoc) (.num ⟨false, 99, [9], none⟩) true := gives_of (by decide +kernel)
example : Gives (world []) (fixed Draft7) (.obj numDoc) (.num ⟨false, 99, [9, 5], none⟩) false := gives_of (by decide +kernel)
example : Gives (world []) (fixed Draft7) (.obj numDoc) (.num ⟨false, 100, [1], none⟩) false := gives_of (by decide +kernel)
-- beyond float64: 10^30 + 1 is told from 10^30
example : Gives (world []) (fixed Draft7) (.obj [("minimum", .num ⟨false, 10 ^ 30 + 1, [], none⟩)])
    (.num ⟨false, 1, [], some 30⟩) false := gives_of (by decide +kernel)
-- spellings
example : tenth1 ≠ tenth2 ∧ tenth2 ≠ tenth3 ∧ tenth1.val = tenth2.val ∧ tenth2.val = tenth3.val := by decide +kernel
example : Respell env (.obj [("a", .num tenth1), ("b", .null)]) (.obj [("b", .null), ("a", .num tenth3)]) := by
  refine .obj _ _ (by intro k; simp [or_comm]) ?_
  intro k x y hx hy
  simp only [List.mem_cons, Prod.mk.injEq, List.not_mem_nil, or_false] at hx hy
  rcases hx with ⟨rfl, rfl⟩ | ⟨rfl, rfl⟩ <;> rcases hy with ⟨h, rfl⟩ | ⟨h, rfl⟩ <;> first | (simp at h; done) | skip
  · exact .num _ _ (by decide +kernel) rfl rfl
  · exact .null
example : FormatBlind env := fun _ _ _ _ => rfl
-- C10
example : Gives (world []) (fixed Draft7) (.obj [("type", .str "integer")]) (.num ⟨false, 1, [0], none⟩) true := gives_of (by decide +kernel)
example : Gives (world []) (fixed Draft7) (.obj [("type", .str "integer")]) (.num ⟨false, 15, [], some (-1)⟩) false := gives_of (by decide +kernel)
-- C20
example : Gives (world []) (fixed Draft4) (.obj [("minimum", int 3), ("exclusiveMinimum", .bool true)]) (int 3) false := gives_of (by decide +kernel)
example : Gives (world []) (fixed Draft4) (.obj [("minimum", int 3), ("exclusiveMinimum", .bool false)]) (int 3) true := gives_of (by decide +kernel)
example : Gives (world []) (fixed Draft6) (.obj [("exclusiveMinimum", int 3)]) (int 3) false := gives_of (by decide +kernel)
example : Gives (world []) (fixed Draft6) (.obj [("exclusiveMaximum", int 3)]) (int 2) true := gives_of (by decide +kernel)
-- C42: a string of two code points, four bytes
example : Gives (world []) (fixed Draft7) (.obj [("maxLength", int 2)]) (.str "éé") true := gives_of (by decide +kernel)
example : Gives (world []) (fixed Draft7) (.obj [("minItems", int 2), ("maxItems", int 2)]) (.arr [.null]) false := gives_of (by decide +kernel)
example : Gives (world []) (fixed Draft7) (.obj [("minProperties", int 1)]) (.obj [("a", .null)]) true := gives_of (by decide +kernel)
-- C44: equal values, different verdicts
example : Gives (world []) (fixed Draft7) (.obj [("const", int 0)]) (.num ⟨true, 0, [], none⟩) false := gives_of (by decide +kernel)
example : Gives (world []) (fixed Draft7) (.obj [("const", int 0)]) (.num ⟨false, 0, [0], none⟩) true := gives_of (by decide +kernel)
example : (⟨true, 0, [], none⟩ : NumLit).val = (⟨false, 0, [0], none⟩ : NumLit).val := by decide +kernel

end GJS

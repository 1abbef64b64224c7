import Verif.LemErrors
import Verif.Demo
/-
Properties of the reported errors: C07 (locations), C08 (required), C13 (uniqueItems),
C14 (best branch).
-/
namespace GJS
open Spec

/-! ### C07: error locations -/

theorem toString_nat_inj {a b : Nat} (h : toString a = toString b) : a = b := by
  have h : a.repr.toList = b.repr.toList := congrArg String.toList h
  rw [Nat.toList_repr, Nat.toList_repr] at h
  have := congrArg (Nat.ofDigitChars 10 · 0) h
  simpa [Nat.ofDigitChars_toDigits] using this

/-- In a document with distinct keys a path leads to at most one place. -/
theorem At_unique {v w w' : Json} {p : List String} (hv : v.WF) (h : At v p w) (h' : At v p w') : w' = w := by
  induction h with
  | here v => cases h'; rfl
  | elem xs k x w rest hx _ ih =>
    generalize hp : toString k :: rest = p at h'
    cases h' with
    | here => cases hp
    | elem _ k' x' _ rest' hx' h' =>
      rw [List.cons.injEq] at hp
      obtain ⟨h1, rfl⟩ := hp
      have := toString_nat_inj h1
      subst this
      rw [hx] at hx'; cases hx'
      cases hv with | arr _ hv => exact ih (hv _ (List.mem_of_getElem? hx)) h'
  | member kvs k x w rest hx _ ih =>
    cases h' with
    | member _ _ x' _ _ hx' h' =>
      cases hv with
      | obj _ hn hv =>
        have h1 := lookup_eq_some_of_mem hn hx
        have h2 := lookup_eq_some_of_mem hn hx'
        rw [h1] at h2; cases h2
        exact ih (hv _ hx) h'

/-- C07.  The context of every reported error starts at `(root)` and names, key by key and
index by index, exactly one value inside the instance; the error's value is that value, or
(additional property errors) the named member of it, or (below `propertyNames`) one of its
keys. -/
theorem C07_locations (env : Env) (σ : Sched) (h : Heap) (n : Nat) (root : Id) (v : Json) (hv : v.WF)
    (r : Result) (hr : validateDocument env σ h n root v = .ok r) (e : Err) (he : e ∈ r.errors) :
    ∃ path w, e.ctx = path.reverse ++ ["(root)"] ∧ At v path w ∧ (∀ w', At v path w' → w' = w) ∧
      (e.value = w ∨
       (∃ kvs k, w = .obj kvs ∧ e.kind = .additionalPropertyNotAllowed k ∧ (k, e.value) ∈ kvs) ∨
       (∃ kvs k, w = .obj kvs ∧ k ∈ kvs.map Prod.fst ∧ e.value = .str k)) := by
  obtain ⟨steps, w, h1, h2, h3⟩ := validateRecursive_loc n _ _ _ _ _ hr e he
  exact ⟨steps.reverse, w, by simpa [rootCtx] using h1, h2, fun w' h' => At_unique hv h2 h', h3⟩

/-- The error on the list whose second cell has no value is located below `next`. -/
example : ∃ r, validateDocument Demo.env Sched.id Demo.listHeap 10 0 Demo.listBad = .ok r ∧
    r.errors.map (fun e => (e.kind, e.ctx)) = [(.required "value", ["next", "(root)"])] :=
  ⟨_, rfl, by decide⟩

/-! ### C08: required -/

/-- C08.  Validating an object against a schema without in-place sub-schemas and without
`propertyNames` (and whose type admits objects) reports at the context of that object exactly
one 'required' error per missing name, in order, each naming the missing property, and none
for present names. -/
theorem C08_required (env : Env) (σ : Sched) (h : Heap) (n : Nat) (p : Path) (i : Id) (s : Sub)
    (kvs : List (String × Json)) (c : Ctx) (r : Result)
    (hs : h[i]? = some s) (hpass : s.pass = none) (hin : inPlace s = []) (hpn : s.propertyNames = none)
    (hty : s.types = [] ∨ "object" ∈ s.types)
    (hr : validateRecursive env σ h n p i (.obj kvs) c = .ok r) :
    r.errors.filter (fun e => match e.kind with | .required _ => decide (e.ctx = c) | _ => false) =
      (s.required.filter (fun q => decide (q ∉ kvs.map Prod.fst))).map fun q => ⟨.required q, c, .obj kvs⟩ := by
  cases n with
  | zero => simp [validateRecursive] at hr
  | succ n =>
    have href : s.refSchema = none := by
      simp only [inPlace, List.append_eq_nil_iff, Option.toList_eq_nil_iff] at hin
      exact hin.1.1.1.1.1.1.1.1
    have hte : typeError env s.types (.obj kvs) = none := by
      rw [typeError_none]
      rcases hty with hty | hty
      · exact .inl hty
      · exact .inr ⟨_, hty, .obj _⟩
    simp only [validateRecursive, validateStep, hs, hpass, href, hte, Exec.bind_ok, Exec.pure_ok] at hr
    obtain ⟨a, ha, rfl⟩ := hr
    have := validateNode_required (validateRecursive_loc n) hin hpn ha
    have e : (s.required.filter fun q => decide (q ∉ kvs.map Prod.fst)) =
        s.required.filter (fun q => !existsMapKey kvs q) := by
      congr 1; funext q
      by_cases hq : existsMapKey kvs q = true
      · have := existsMapKey_iff.1 hq; simp only [hq, this]; simp
      · have := fun h' => hq (existsMapKey_iff.2 h'); simp only [Bool.not_eq_true] at hq; simp only [hq]; simpa using this
    rw [e, ← this, Result.errors_append]
    simp only [tick, List.append_nil]
    rfl

example : inPlace { doc := .null, draft := Draft7, required := ["a", "b"] } = [] ∧
    ∃ r, validateRecursive Demo.env Sched.id [{ doc := .null, draft := Draft7, required := ["a", "b"] }] 3 [] 0
      (.obj [("b", .null)]) ["x", "(root)"] = .ok r ∧ r.errors.length = 1 := ⟨rfl, _, rfl, by decide⟩

/-! ### C13: uniqueItems -/

/-- C13.  A 'unique' error always names positions `a < b` of two elements with the same
serialisation. -/
theorem C13_unique_sound (env : Env) (s : Sub) (xs : List Json) (c : Ctx) (r : Result)
    (hr : checkUnique env s xs c = .ok r) (e : Err) (he : e ∈ r.errors) :
    s.uniqueItems = true ∧ ∃ a b x y, a < b ∧ e.kind = .unique a b ∧ e.ctx = c ∧ e.value = .arr xs ∧
      xs[a]? = some x ∧ xs[b]? = some y ∧ env.marshal x = env.marshal y := by
  unfold checkUnique at hr
  split at hr
  · exact ⟨by assumption, uniqueLoop_sound hr (by simp) (by simp) e he⟩
  · simp at hr; subst hr; simp at he

/-- C13.  Every element equal to an earlier one is reported. -/
theorem C13_unique_complete (env : Env) (s : Sub) (xs : List Json) (c : Ctx) (r : Result)
    (hu : s.uniqueItems = true) (hr : checkUnique env s xs c = .ok r) (a b : Nat) (x y : Json)
    (hab : a < b) (hx : xs[a]? = some x) (hy : xs[b]? = some y) (hxy : env.marshal x = env.marshal y) :
    ∃ a', ⟨.unique a' b, c, .arr xs⟩ ∈ r.errors := by
  simp only [checkUnique, hu, if_true] at hr
  exact uniqueLoop_complete hr (by simp) (by simp) a b x y hab (Nat.zero_le _) hx hy hxy

example : ∃ r, checkUnique Demo.env { doc := .null, draft := Draft7, uniqueItems := true }
    [.str "a", .str "b", .str "a"] ["(root)"] = .ok r ∧ r.errors.map (·.kind) = [.unique 0 2] :=
  ⟨_, rfl, by decide⟩

/-! ### C14: best branch -/

/-- `best` is the first result of maximal score in `rs`. -/
def FirstBest (rs : List Result) (best : Result) : Prop :=
  ∃ k : Nat, rs[k]? = some best ∧ (∀ r ∈ rs, r.score ≤ best.score) ∧
    ∀ (j : Nat) r, j < k → rs[j]? = some r → r.score < best.score

/-- C14, anyOf.  When the branches all fail, with results `rs`, the reported errors start with
the anyOf error followed by all the errors of the first branch of maximal score. -/
theorem C14_anyOf (env : Env) (σ : Sched) (h : Heap) (n : Nat) (p : Path) (i : Id) (s : Sub) (v : Json)
    (c : Ctx) (r : Result) (rs : List Result)
    (hs : h[i]? = some s) (hpass : s.pass = none) (href : s.refSchema = none) (hty : TypeRule env s.types v)
    (hne : s.anyOf ≠ []) (hlen : rs.length = s.anyOf.length)
    (hrs : ∀ (k : Nat) j b, s.anyOf[k]? = some j → rs[k]? = some b →
      validateRecursive env σ h n (k :: 1 :: p) j v c = .ok b ∧ b.valid = false)
    (hr : validateRecursive env σ h (n + 1) p i v c = .ok r) :
    ∃ best rest, FirstBest rs best ∧ r.errors = ⟨.numberAnyOf, c, v⟩ :: best.errors ++ rest := by
  have hloop := anyOfLoop_pick (run := fun k i => validateRecursive env σ h n (k :: 1 :: p) i v c)
    (k := 0) (best := none) hlen (fun k j b hj hb => by simpa using hrs k j b hj hb)
  have hrsne : rs ≠ [] := by
    intro h0; subst h0; simp at hlen; exact hne (List.length_eq_zero_iff.1 hlen.symm)
  obtain ⟨b, hb, hb'⟩ := pick_none hrsne
  have hany : checkAnyOf (validateRecursive env σ h n) p s v c = .ok (addErr .numberAnyOf c v ++ b) := by
    have : s.anyOf.length > 0 := List.length_pos_iff.2 hne
    simp only [checkAnyOf, this, if_true, hloop, hb]
    rfl
  obtain ⟨a, ha, rfl⟩ := validateRecursive_node hs hpass href hty hr
  obtain ⟨r1, rest, h1, h2⟩ := validateNode_prefix ha
  simp only [validateSchema, hany, Exec.bind_ok, Exec.pure_ok] at h1
  obtain ⟨_, h0, _, _, _, _, _, _, _, _, _, _, rfl⟩ := h1
  cases h0
  rw [Result.errors_append, h2]
  simp only [Result.errors_append, addErr, List.append_assoc, List.cons_append, List.nil_append]
  exact ⟨b, _, hb', rfl⟩

/-- C14, oneOf without match.  When the branches all fail, the reported errors contain the
oneOf error followed by all the errors of the first branch of maximal score. -/
theorem C14_oneOf_none (env : Env) (σ : Sched) (h : Heap) (n : Nat) (p : Path) (i : Id) (s : Sub) (v : Json)
    (c : Ctx) (r : Result) (rs : List Result)
    (hs : h[i]? = some s) (hpass : s.pass = none) (href : s.refSchema = none) (hty : TypeRule env s.types v)
    (hne : s.oneOf ≠ []) (hlen : rs.length = s.oneOf.length)
    (hrs : ∀ (k : Nat) j b, s.oneOf[k]? = some j → rs[k]? = some b →
      validateRecursive env σ h n (k :: 2 :: p) j v c = .ok b ∧ b.valid = false)
    (hr : validateRecursive env σ h (n + 1) p i v c = .ok r) :
    ∃ best pre rest, FirstBest rs best ∧ r.errors = pre ++ ⟨.numberOneOf, c, v⟩ :: best.errors ++ rest := by
  have hloop := oneOfLoop_pick (run := fun k i => validateRecursive env σ h n (k :: 2 :: p) i v c)
    (k := 0) (best := none) hlen (fun k j b hj hb => by simpa using hrs k j b hj hb)
  have hrsne : rs ≠ [] := by
    intro h0; subst h0; simp at hlen; exact hne (List.length_eq_zero_iff.1 hlen.symm)
  obtain ⟨b, hb, hb'⟩ := pick_none hrsne
  have hone : checkOneOf (validateRecursive env σ h n) p s v c = .ok (addErr .numberOneOf c v ++ b) := by
    have : s.oneOf.length > 0 := List.length_pos_iff.2 hne
    simp only [checkOneOf, this, if_true, hloop, hb]
    rfl
  obtain ⟨a, ha, rfl⟩ := validateRecursive_node hs hpass href hty hr
  obtain ⟨r1, rest, h1, h2⟩ := validateNode_prefix ha
  simp only [validateSchema, hone, Exec.bind_ok, Exec.pure_ok] at h1
  obtain ⟨a1, _, _, h0, _, _, _, _, _, _, _, _, rfl⟩ := h1
  cases h0
  rw [Result.errors_append, h2]
  simp only [Result.errors_append, addErr, List.append_assoc, List.cons_append, List.nil_append]
  exact ⟨b, a1.errors, _, hb', rfl⟩

/-- C14, oneOf with several matches.  If the branches at two different positions accept the
value, the oneOf block contributes the oneOf error and nothing else. -/
theorem C14_oneOf_many (rec : Rec) (p : Path) (s : Sub) (v : Json) (c : Ctx) (r : Result)
    (k₁ k₂ : Nat) (i₁ i₂ : Id) (r₁ r₂ : Result) (hk : k₁ ≠ k₂)
    (h₁ : s.oneOf[k₁]? = some i₁) (h₂ : s.oneOf[k₂]? = some i₂)
    (hr₁ : rec (k₁ :: 2 :: p) i₁ v c = .ok r₁) (hr₂ : rec (k₂ :: 2 :: p) i₂ v c = .ok r₂)
    (hv₁ : r₁.valid = true) (hv₂ : r₂.valid = true)
    (hr : checkOneOf rec p s v c = .ok r) : r = addErr .numberOneOf c v := by
  have hpos : s.oneOf.length > 0 := by
    have := (List.getElem?_eq_some_iff.1 h₁).1; omega
  simp only [checkOneOf, hpos, if_true, Exec.bind_ok] at hr
  obtain ⟨⟨nb, best⟩, hl, hr⟩ := hr
  have mono : ∀ {l : List Id} {k nb best o}, oneOfLoop (fun k i => rec (k :: 2 :: p) i v c) k l nb best = .ok o →
      nb ≤ o.1 ∧ ∀ (j : Nat) i r, l[j]? = some i → rec ((k + j) :: 2 :: p) i v c = .ok r → r.valid = true →
        nb + 1 ≤ o.1 := by
    intro l
    induction l with
    | nil => intro k nb best o h; simp [oneOfLoop] at h; subst h; simp
    | cons x xs ih =>
      intro k nb best o h
      simp only [oneOfLoop, Exec.bind_ok] at h
      obtain ⟨r, hr, h⟩ := h
      split at h
      · rename_i hvr
        have := ih h
        refine ⟨by omega, fun j i r' _ _ _ => by omega⟩
      · rename_i hvr
        have key : ∀ {best}, oneOfLoop (fun k i => rec (k :: 2 :: p) i v c) (k + 1) xs nb best = .ok o →
            nb ≤ o.1 ∧ ∀ (j : Nat) i r, (x :: xs)[j]? = some i → rec ((k + j) :: 2 :: p) i v c = .ok r →
              r.valid = true → nb + 1 ≤ o.1 := by
          intro best h
          have := ih h
          refine ⟨this.1, fun j i r' hj hr' hv' => ?_⟩
          cases j with
          | zero => simp at hj; subst hj; rw [Nat.add_zero, hr] at hr'; cases hr'; exact absurd hv' hvr
          | succ j =>
            exact this.2 j i r' (by simpa using hj) (by rw [show k + 1 + j = k + (j + 1) by omega]; exact hr') hv'
        split at h
        · exact key h
        · exact key h
  have two : ∀ {l : List Id} {k nb best o}, oneOfLoop (fun k i => rec (k :: 2 :: p) i v c) k l nb best = .ok o →
      ∀ (a b : Nat) i j ra rb, a < b → l[a]? = some i → l[b]? = some j →
        rec ((k + a) :: 2 :: p) i v c = .ok ra → rec ((k + b) :: 2 :: p) j v c = .ok rb →
        ra.valid = true → rb.valid = true → nb + 2 ≤ o.1 := by
    intro l
    induction l with
    | nil => intro k nb best o h a b i j ra rb _ hi; simp at hi
    | cons x xs ih =>
      intro k nb best o h a b i j ra rb hab hi hj hra hrb hva hvb
      simp only [oneOfLoop, Exec.bind_ok] at h
      obtain ⟨r, hr, h⟩ := h
      obtain ⟨b, rfl⟩ : ∃ b', b = b' + 1 := ⟨b - 1, by omega⟩
      have hrb' : rec ((k + 1 + b) :: 2 :: p) j v c = .ok rb := by
        rw [show k + 1 + b = k + (b + 1) by omega]; exact hrb
      cases a with
      | zero =>
        simp at hi; subst hi
        rw [Nat.add_zero, hr] at hra; cases hra
        simp only [hva, if_true] at h
        have := (mono h).2 b j rb (by simpa using hj) hrb' hvb
        omega
      | succ a =>
        have hra' : rec ((k + 1 + a) :: 2 :: p) i v c = .ok ra := by
          rw [show k + 1 + a = k + (a + 1) by omega]; exact hra
        have key : ∀ {nb best}, oneOfLoop (fun k i => rec (k :: 2 :: p) i v c) (k + 1) xs nb best = .ok o → nb + 2 ≤ o.1 :=
          fun h => ih h a b i j ra rb (by omega) (by simpa using hi) (by simpa using hj) hra' hrb' hva hvb
        split at h
        · have := key h; omega
        · split at h
          · exact key h
          · exact key h
  have h2 : 2 ≤ nb := by
    rcases Nat.lt_or_gt_of_ne hk with hlt | hlt
    · have := two hl k₁ k₂ i₁ i₂ r₁ r₂ hlt h₁ h₂ (by simpa using hr₁) (by simpa using hr₂) hv₁ hv₂
      simpa using this
    · have := two hl k₂ k₁ i₂ i₁ r₂ r₁ hlt h₂ h₁ (by simpa using hr₂) (by simpa using hr₁) hv₂ hv₁
      simpa using this
  have hb1 : (nb != 1) = true := by simp; omega
  have hb0 : (nb == 0) = false := by simp; omega
  simp [hb1, hb0] at hr
  exact hr.symm

/-- C14, contains.  When no element of a non-empty array matches, the contains block
contributes the contains error followed by the errors of the first element of maximal
score. -/
theorem C14_contains (rec : Rec) (p : Path) (s : Sub) (xs : List Json) (c : Ctx) (i : Id) (rs : List Result)
    (hi : s.contains = some i) (hne : xs ≠ []) (hlen : rs.length = xs.length)
    (hrs : ∀ (k : Nat) x b, xs[k]? = some x → rs[k]? = some b →
      rec (k :: 12 :: p) i x (toString k :: c) = .ok b ∧ b.valid = false) :
    ∃ best, FirstBest rs best ∧ checkContains rec p s xs c = .ok (addErr .contains c (.arr xs) ++ best) := by
  have hloop := containsLoop_pick (run := fun k x => rec (k :: 12 :: p) i x (toString k :: c))
    (k := 0) (best := none) hlen (fun k j b hj hb => by simpa using hrs k j b hj hb)
  have hrsne : rs ≠ [] := by
    intro h0; subst h0; simp at hlen; exact hne (List.length_eq_zero_iff.1 hlen.symm)
  obtain ⟨b, hb, hb'⟩ := pick_none hrsne
  refine ⟨b, hb', ?_⟩
  simp only [checkContains, hi, hloop, hb]
  rfl

/-- Two failing branches: the second one matched more and is reported. -/
example : ∃ r, validateDocument Demo.env Sched.id
    [ { doc := .null, draft := Draft7, anyOf := [1, 2] },
      { doc := .null, draft := Draft7, types := ["string"] },
      { doc := .null, draft := Draft7, types := ["object"], required := ["a", "b"] } ] 5 0
    (.obj [("b", .null)]) = .ok r ∧ r.errors.map (·.kind) = [.numberAnyOf, .required "a"] :=
  ⟨_, rfl, by decide⟩

end GJS

import Verif.Context
import Verif.SpecContext
import Verif.PropErrors
/-
Contexts: C36.
-/
namespace GJS
open Spec

theorem joined_snoc {d y : List Char} : ∀ {xs : List (List Char)}, xs ≠ [] → joined d (xs ++ [y]) = joined d xs ++ d ++ y
  | [], h => absurd rfl h
  | [x], _ => by simp [joined]
  | x :: x' :: r, _ => by
    have := joined_snoc (d := d) (y := y) (xs := x' :: r) (by simp)
    simp only [List.cons_append] at this ⊢
    simp only [joined, this, List.append_assoc]

/-- The delimiter in force. -/
def Spec.delimiter : List String → String
  | [] => "."
  | d :: _ => d

theorem ctxWrite_eq (del : List String) : ∀ (c : Ctx) (buf : String), c ≠ [] →
    (ctxWrite del c buf).toList = buf.toList ++ joined (delimiter del).toList (c.reverse.map String.toList)
  | [], _, h => absurd rfl h
  | [x], buf, _ => by simp [ctxWrite, joined]
  | x :: y :: r, buf, _ => by
    have ih := ctxWrite_eq del (y :: r) buf (by simp)
    rw [ctxWrite.eq_def]
    simp only [ne_eq, reduceCtorEq, not_false_eq_true, if_true, String.toList_append, ih]
    have : ((x :: y :: r : List String).reverse.map String.toList) = ((y :: r : List String).reverse.map String.toList) ++ [x.toList] := by simp
    rw [this, joined_snoc (by simp)]
    cases del <;> simp [delimiter]

/-- C36: the text of a context is the path from the root, joined by the delimiter. -/
theorem C36_string (del : List String) (c : Ctx) (hc : c ≠ []) :
    ∃ s, ctxString del c = .ok s ∧ s.toList = joined (delimiter del).toList (c.reverse.map String.toList) := by
  cases c with
  | nil => exact absurd rfl hc
  | cons x r => exact ⟨_, rfl, by simpa using ctxWrite_eq del (x :: r) "" hc⟩

/-- C36: a nil context panics. -/
theorem C36_nil (del : List String) : ctxString del [] = .error .panic := rfl

theorem ctxWrite_size : ∀ (c : Ctx) (buf : String), (ctxWrite [] c buf).utf8ByteSize = buf.utf8ByteSize + ctxStringLen c
  | [], _ => rfl
  | [x], buf => by simp [ctxWrite, ctxStringLen]
  | x :: y :: r, buf => by
    have ih := ctxWrite_size (y :: r) buf
    rw [ctxWrite, ctxStringLen]
    simp only [ne_eq, reduceCtorEq, not_false_eq_true, if_true, String.utf8ByteSize_append, ih]
    have : ".".utf8ByteSize = 1 := by decide
    omega

/-- C36: with the default delimiter the length computed in advance is the length of the text, in
bytes. -/
theorem C36_length (c : Ctx) (s : String) (h : ctxString [] c = .ok s) : s.utf8ByteSize = ctxStringLen c := by
  cases c with
  | nil => cases h
  | cons x r =>
    cases h
    have := ctxWrite_size (x :: r) ""
    simpa using this

theorem stripPrefix_append (p l : List Char) : stripPrefix p (p ++ l) = some l := by
  induction p with
  | nil => rfl
  | cons c p ih => simpa [stripPrefix] using ih

theorem stripPrefix_some {p l r : List Char} (h : stripPrefix p l = some r) : l = p ++ r := by
  induction p generalizing l with
  | nil => simp only [stripPrefix, Option.some.injEq] at h; simp [h]
  | cons c p ih =>
    cases l with
    | nil => cases h
    | cons d l =>
      simp only [stripPrefix] at h
      split at h
      · rename_i e; subst e; rw [ih h]; rfl
      · cases h

/-- C36: below the root, `Field` is the dotted path from the root; at the root it is `(root)`. -/
theorem C36_field (ks : List String) :
    ∃ s, fieldOf (ks.reverse ++ ["(root)"]) = .ok s ∧
      s.toList = if ks = [] then "(root)".toList else joined ['.'] (ks.map String.toList) := by
  obtain ⟨s, h1, h2⟩ := C36_string [] (ks.reverse ++ ["(root)"]) (by simp)
  refine ⟨_, by simp only [fieldOf, h1]; rfl, ?_⟩
  have hd : (delimiter []).toList = ['.'] := by simp [delimiter]
  rw [hd] at h2
  cases ks with
  | nil =>
    have : s = "(root)" := by
      apply String.toList_inj.1; rw [h2]; rfl
    subst this
    simp
    decide
  | cons k r =>
    have e : s.toList = (rootProperty ++ ".").toList ++ joined ['.'] ((k :: r).map String.toList) := by
      rw [h2]
      simp [joined, rootProperty]
    unfold trimPrefix
    rw [e, stripPrefix_append]
    simp

/-- C36: for any context, also one that does not begin at the root, `Field` is the text of the context without `(root).` at
its front, or all of it if that is not at its front. -/
theorem C36_field_any (c : Ctx) (s : String) (h : ctxString [] c = .ok s) :
    ∃ f, fieldOf c = .ok f ∧
      ((s.toList = "(root).".toList ++ f.toList) ∨ ((¬ ∃ t, s.toList = "(root).".toList ++ t) ∧ f = s)) := by
  refine ⟨_, by simp only [fieldOf, h]; rfl, ?_⟩
  have e : (rootProperty ++ ".").toList = "(root).".toList := by decide
  unfold trimPrefix
  rw [e]
  cases hp : stripPrefix "(root).".toList s.toList with
  | some r => left; rw [stripPrefix_some hp]; simp
  | none =>
    right
    refine ⟨?_, rfl⟩
    rintro ⟨t, ht⟩
    rw [ht, stripPrefix_append] at hp
    cases hp

example : fieldOf ["b", "a"] = .ok "a.b" := by rfl
example : fieldOf ["b", "(root)x"] = .ok "(root)x.b" := by rfl

/-- A text without the delimiter. -/
def Spec.Dotless (k : String) : Prop := '.' ∉ k.toList

theorem split_dot {a b a' b' : List Char} (ha : '.' ∉ a) (ha' : '.' ∉ a') (h : a ++ '.' :: b = a' ++ '.' :: b') :
    a = a' ∧ b = b' := by
  induction a generalizing a' with
  | nil =>
    cases a' with
    | nil => simpa using h
    | cons c a' => simp only [List.nil_append, List.cons_append, List.cons.injEq] at h; exact absurd (h.1 ▸ List.mem_cons_self) ha'
  | cons c a ih =>
    cases a' with
    | nil => simp only [List.nil_append, List.cons_append, List.cons.injEq] at h; exact absurd (h.1 ▸ List.mem_cons_self) ha
    | cons c' a' =>
      simp only [List.cons_append, List.cons.injEq] at h
      obtain ⟨e1, e2⟩ := ih (fun x => ha (List.mem_cons_of_mem _ x)) (fun x => ha' (List.mem_cons_of_mem _ x)) h.2
      exact ⟨by rw [h.1, e1], e2⟩

theorem joined_inj : ∀ {xs ys : List (List Char)}, xs ≠ [] → ys ≠ [] → (∀ x ∈ xs, '.' ∉ x) → (∀ y ∈ ys, '.' ∉ y) →
    joined ['.'] xs = joined ['.'] ys → xs = ys
  | [], _, h, _, _, _, _ => absurd rfl h
  | _, [], _, h, _, _, _ => absurd rfl h
  | [x], [y], _, _, _, _, h => by simpa [joined] using h
  | [x], y :: y' :: r, _, _, hx, hy, h => by
    simp only [joined, List.append_assoc, List.cons_append, List.nil_append] at h
    exact absurd (by rw [h]; simp : '.' ∈ x) (hx x (by simp))
  | x :: x' :: r, [y], _, _, hx, hy, h => by
    simp only [joined, List.append_assoc, List.cons_append, List.nil_append] at h
    exact absurd (by rw [← h]; simp : '.' ∈ y) (hy y (by simp))
  | x :: x' :: r, y :: y' :: r', _, _, hx, hy, h => by
    simp only [joined, List.append_assoc, List.cons_append, List.nil_append] at h
    obtain ⟨e1, e2⟩ := split_dot (hx x (by simp)) (hy y (by simp)) h
    have := joined_inj (xs := x' :: r) (ys := y' :: r') (by simp) (by simp) (fun z hz => hx z (List.mem_cons_of_mem _ hz))
      (fun z hz => hy z (List.mem_cons_of_mem _ hz)) e2
    rw [e1, this]

/-- C36: contexts with keys without dots have different texts. -/
theorem C36_injective (c c' : Ctx) (hc : ∀ k ∈ c, Dotless k) (hc' : ∀ k ∈ c', Dotless k) (s : String)
    (h : ctxString [] c = .ok s) (h' : ctxString [] c' = .ok s) : c = c' := by
  have ne : c ≠ [] := by rintro rfl; cases h
  have ne' : c' ≠ [] := by rintro rfl; cases h'
  obtain ⟨t, e1, e2⟩ := C36_string [] c ne
  obtain ⟨t', e1', e2'⟩ := C36_string [] c' ne'
  rw [h] at e1; cases e1
  rw [h'] at e1'; cases e1'
  have hd : (delimiter []).toList = ['.'] := by simp [delimiter]
  rw [hd] at e2 e2'
  have hn : ∀ c : Ctx, (∀ k ∈ c, Dotless k) → ∀ x ∈ c.reverse.map String.toList, '.' ∉ x := by
    intro c hc x hx
    obtain ⟨k, hk, rfl⟩ := List.mem_map.1 hx
    exact hc k (by simpa using hk)
  have := joined_inj (by simpa using ne) (by simpa using ne') (hn c hc) (hn c' hc') (e2.symm.trans e2')
  exact List.reverse_inj.1 ((List.map_inj_right fun _ _ h => String.toList_inj.1 h).1 this)

/-- C36: keys with dots collide: the members `a.b` of the root and `b` of `a` have the same text
and field. -/
theorem C36_collision :
    ctxString [] ["a.b", "(root)"] = ctxString [] ["b", "a", "(root)"] ∧ fieldOf ["a.b", "(root)"] = fieldOf ["b", "a", "(root)"] ∧
    (["a.b", "(root)"] : Ctx) ≠ ["b", "a", "(root)"] := by
  refine ⟨rfl, rfl, by decide⟩

/-- C36: the field of the root is the field of a member named `(root)`. -/
theorem C36_root_collision : fieldOf ["(root)"] = fieldOf ["(root)", "(root)"] := rfl

/-- C36: apart from that, fields tell paths with keys without dots apart. -/
theorem C36_field_injective (ks ks' : List String) (hk : ∀ k ∈ ks, Dotless k) (hk' : ∀ k ∈ ks', Dotless k)
    (h1 : ks ≠ []) (h2 : ks' ≠ []) (h : fieldOf (ks.reverse ++ ["(root)"]) = fieldOf (ks'.reverse ++ ["(root)"])) : ks = ks' := by
  obtain ⟨s, e1, e2⟩ := C36_field ks
  obtain ⟨s', e1', e2'⟩ := C36_field ks'
  rw [e1, e1'] at h; cases h
  rw [if_neg h1] at e2
  rw [if_neg h2] at e2'
  have hn : ∀ c : List String, (∀ k ∈ c, Dotless k) → ∀ x ∈ c.map String.toList, '.' ∉ x := by
    intro c hc x hx
    obtain ⟨k, hk, rfl⟩ := List.mem_map.1 hx
    exact hc k hk
  have := joined_inj (by simpa using h1) (by simpa using h2) (hn ks hk) (hn ks' hk') (e2.symm.trans e2')
  exact (List.map_inj_right fun _ _ h => String.toList_inj.1 h).1 this

example : fieldOf ["0", "tags", "(root)"] = .ok "tags.0" := rfl
example : ctxString ["/"] ["0", "tags", "(root)"] = .ok "(root)/tags/0" := rfl
example : Dotless "tags" ∧ ¬ Dotless "a.b" := by unfold Dotless; decide

/-- C36: the `Field` of a reported error is the dotted path of the place in the document it is
about, `(root)` for the document itself. -/
theorem C36_errors (env : Env) (σ : Sched) (h : Heap) (n : Nat) (root : Id) (v : Json) (hv : v.WF)
    (r : Result) (hr : validateDocument env σ h n root v = .ok r) (e : Err) (he : e ∈ r.errors) :
    ∃ path w s, At v path w ∧ fieldOf e.ctx = .ok s ∧
      s.toList = if path = [] then "(root)".toList else joined ['.'] (path.map String.toList) := by
  obtain ⟨path, w, h1, h2, -⟩ := C07_locations env σ h n root v hv r hr e he
  obtain ⟨s, h3, h4⟩ := C36_field path
  exact ⟨path, w, s, h2, by rw [h1]; exact h3, h4⟩

/-- The error on the list whose second cell has no value has the field `next`. -/
example : ∃ r, validateDocument Demo.env Sched.id Demo.listHeap 10 0 Demo.listBad = .ok r ∧
    r.errors.map (fun e => fieldOf e.ctx) = [.ok "next"] :=
  ⟨_, rfl, rfl⟩

end GJS

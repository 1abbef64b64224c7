import Verif.LemFold
/-
Search with derivatives finds what is there, and rules for expressions without assertions.
-/
namespace GJS.Rx
open Spec

theorem mt_eps {b e l} : Mt eps b l e ↔ l = [] := by
  constructor
  · intro h; cases h; rfl
  · rintro rfl; exact .eps b e

theorem mt_seq {x y b l e} : Mt (seq x y) b l e ↔ ∃ l1 l2, l = l1 ++ l2 ∧ Mt x b l1 (e && l2.isEmpty) ∧ Mt y (b && l1.isEmpty) l2 e := by
  constructor
  · intro h
    cases h with
    | seq _ _ _ l1 l2 _ h1 h2 => exact ⟨l1, l2, rfl, h1, h2⟩
  · rintro ⟨l1, l2, rfl, h1, h2⟩; exact .seq _ _ _ _ _ _ h1 h2

theorem mt_alt {x y b l e} : Mt (alt x y) b l e ↔ Mt x b l e ∨ Mt y b l e := by
  constructor
  · intro h
    cases h with
    | left _ _ _ _ _ h => exact .inl h
    | right _ _ _ _ _ h => exact .inr h
  · rintro (h | h)
    · exact .left _ _ _ _ _ h
    · exact .right _ _ _ _ _ h

theorem mt_cls {neg fold rs b l e} : Mt (cls neg fold rs) b l e ↔ ∃ c, l = [c] ∧ inClass neg fold rs c = true := by
  constructor
  · intro h
    cases h with
    | cls _ _ _ _ c _ h => exact ⟨c, rfl, (inClass_iff ..).2 h⟩
  · rintro ⟨c, rfl, h⟩; exact .cls _ _ _ _ _ _ ((inClass_iff ..).1 h)

/-- A match of a repetition that is not empty begins with one that is not empty. -/
theorem mt_star_cons {x b c l e} : Mt (star x) b (c :: l) e ↔
    ∃ l1 l2, l = l1 ++ l2 ∧ Mt x b (c :: l1) (e && l2.isEmpty) ∧ Mt (star x) false l2 e := by
  constructor
  · intro h
    generalize hr : star x = r at h
    generalize hl : c :: l = l' at h
    induction h with
    | more y b l1 l2 e h1 h2 _ ih =>
      cases hr
      cases l1 with
      | nil =>
        simp only [List.isEmpty_nil, Bool.and_true, List.nil_append] at hl ih ⊢
        exact ih trivial hl
      | cons a l1 =>
        cases hl
        exact ⟨l1, l2, rfl, h1, by simpa using h2⟩
    | none => cases hl
    | _ => cases hr
  · rintro ⟨l1, l2, rfl, h1, h2⟩
    exact .more x b (c :: l1) l2 e h1 (by simpa using h2)

theorem nullable_iff (r : Rx) (b e : Bool) : r.nullable b e = true ↔ Mt r b [] e := by
  induction r generalizing b e with
  | void => simp [nullable]; intro h; cases h
  | eps => simp [nullable, mt_eps]
  | first =>
    constructor
    · intro h; simp only [nullable] at h; subst h; exact .first e
    · intro h; cases h; rfl
  | last =>
    constructor
    · intro h; simp only [nullable] at h; subst h; exact .last b
    · intro h; cases h; rfl
  | cls => simp [nullable, mt_cls]
  | seq x y ihx ihy =>
    simp only [nullable, Bool.and_eq_true, ihx, ihy, mt_seq]
    constructor
    · rintro ⟨h1, h2⟩; exact ⟨[], [], rfl, by simpa using h1, by simpa using h2⟩
    · rintro ⟨l1, l2, h, h1, h2⟩
      obtain ⟨rfl, rfl⟩ := List.append_eq_nil_iff.1 h.symm
      exact ⟨by simpa using h1, by simpa using h2⟩
  | alt x y ihx ihy => simp only [nullable, Bool.or_eq_true, ihx, ihy, mt_alt]
  | star x _ => simp only [nullable, true_iff]; exact .none x b e

theorem deriv_iff (r : Rx) (b e : Bool) (c : Char) (l : List Char) : Mt (r.deriv b c) false l e ↔ Mt r b (c :: l) e := by
  induction r generalizing l e with
  | void => exact ⟨fun h => (by cases h), fun h => (by cases h)⟩
  | eps => exact ⟨fun h => (by cases h), fun h => (by cases h)⟩
  | first => exact ⟨fun h => (by cases h), fun h => (by cases h)⟩
  | last => exact ⟨fun h => (by cases h), fun h => (by cases h)⟩
  | cls neg fold rs =>
    simp only [deriv]
    split
    · next h =>
      rw [mt_eps, mt_cls]
      constructor
      · rintro rfl; exact ⟨c, rfl, h⟩
      · rintro ⟨_, h, -⟩; cases h; rfl
    · next h =>
      rw [mt_cls]
      constructor
      · intro h; cases h
      · rintro ⟨_, h', h''⟩; cases h'; exact absurd h'' h
  | seq x y ihx ihy =>
    have key : Mt (seq x y) b (c :: l) e ↔ (∃ l1 l2, l = l1 ++ l2 ∧ Mt x b (c :: l1) (e && l2.isEmpty) ∧ Mt y false l2 e) ∨
        (Mt x b [] false ∧ Mt y b (c :: l) e) := by
      rw [mt_seq]
      constructor
      · rintro ⟨l1, l2, h, h1, h2⟩
        cases l1 with
        | nil =>
          simp only [List.nil_append] at h
          subst h
          exact .inr ⟨by simpa using h1, by simpa using h2⟩
        | cons a l1 =>
          simp only [List.cons_append, List.cons.injEq] at h
          obtain ⟨rfl, rfl⟩ := h
          exact .inl ⟨l1, l2, rfl, h1, by simpa using h2⟩
      · rintro (⟨l1, l2, rfl, h1, h2⟩ | ⟨h1, h2⟩)
        · exact ⟨c :: l1, l2, rfl, h1, by simpa using h2⟩
        · exact ⟨[], c :: l, rfl, by simpa using h1, by simpa using h2⟩
    have hs : Mt (seq (x.deriv b c) y) false l e ↔ ∃ l1 l2, l = l1 ++ l2 ∧ Mt x b (c :: l1) (e && l2.isEmpty) ∧ Mt y false l2 e := by
      rw [mt_seq]
      simp only [ihx, Bool.false_and]
    rw [key]
    simp only [deriv]
    split
    · next h =>
      rw [mt_alt, hs, ihy]
      rw [nullable_iff] at h
      simp [h]
    · next h =>
      rw [hs]
      rw [nullable_iff] at h
      simp [h]
  | alt x y ihx ihy => simp only [deriv, mt_alt, ihx, ihy]
  | star x ih =>
    rw [mt_star_cons]
    simp only [deriv, mt_seq, ih, Bool.false_and]

theorem here_iff (r : Rx) (b : Bool) (l : List Char) : r.here b l = true ↔ ∃ mid post, l = mid ++ post ∧ Mt r b mid post.isEmpty := by
  induction l generalizing r b with
  | nil =>
    simp only [here, nullable_iff]
    constructor
    · intro h; exact ⟨[], [], rfl, h⟩
    · rintro ⟨mid, post, h, h1⟩
      obtain ⟨rfl, rfl⟩ := List.append_eq_nil_iff.1 h.symm
      exact h1
  | cons c l ih =>
    simp only [here, Bool.or_eq_true, nullable_iff, ih, deriv_iff]
    constructor
    · rintro (h | ⟨mid, post, rfl, h⟩)
      · exact ⟨[], c :: l, rfl, h⟩
      · exact ⟨c :: mid, post, rfl, h⟩
    · rintro ⟨mid, post, h, h1⟩
      cases mid with
      | nil => simp only [List.nil_append] at h; subst h; exact .inl h1
      | cons a mid =>
        simp only [List.cons_append, List.cons.injEq] at h
        obtain ⟨rfl, rfl⟩ := h
        exact .inr ⟨mid, post, rfl, h1⟩

theorem later_iff (r : Rx) (b : Bool) (l : List Char) : r.later b l = true ↔
    ∃ pre mid post, l = pre ++ (mid ++ post) ∧ Mt r (b && pre.isEmpty) mid post.isEmpty := by
  induction l generalizing b with
  | nil =>
    simp only [later, here_iff]
    constructor
    · rintro ⟨mid, post, h, h1⟩; exact ⟨[], mid, post, h, by simpa using h1⟩
    · rintro ⟨pre, mid, post, h, h1⟩
      obtain ⟨rfl, h'⟩ := List.append_eq_nil_iff.1 h.symm
      exact ⟨mid, post, h'.symm, by simpa using h1⟩
  | cons c l ih =>
    simp only [later, Bool.or_eq_true, here_iff, ih, Bool.false_and]
    constructor
    · rintro (⟨mid, post, h, h1⟩ | ⟨pre, mid, post, rfl, h1⟩)
      · exact ⟨[], mid, post, h, by simpa using h1⟩
      · exact ⟨c :: pre, mid, post, rfl, by simpa using h1⟩
    · rintro ⟨pre, mid, post, h, h1⟩
      cases pre with
      | nil => exact .inl ⟨mid, post, h, by simpa using h1⟩
      | cons a pre =>
        simp only [List.cons_append, List.cons.injEq] at h
        obtain ⟨rfl, rfl⟩ := h
        exact .inr ⟨pre, mid, post, rfl, by simpa using h1⟩

theorem later_found (r : Rx) (l : List Char) : r.later true l = true ↔ Found r l := by
  rw [later_iff]; simp only [Bool.true_and]; rfl

/-! Expressions without assertions -/

/-- The expression matches exactly the texts with `P`, wherever they are. -/
def Is (r : Rx) (P : List Char → Prop) : Prop := ∀ b e l, Mt r b l e ↔ P l

/-- The same for expressions that end with `$`. -/
def IsE (r : Rx) (P : List Char → Prop) : Prop := ∀ b e l, Mt r b l e ↔ e = true ∧ P l

theorem Is.eps : Is eps (· = []) := fun _ _ _ => mt_eps

theorem Is.cls (neg fold rs) : Is (cls neg fold rs) (fun l => ∃ c, l = [c] ∧ inClass neg fold rs c = true) := fun _ _ _ => mt_cls

theorem Is.seq {x y P Q} (hx : Is x P) (hy : Is y Q) : Is (seq x y) (fun l => ∃ l1 l2, l = l1 ++ l2 ∧ P l1 ∧ Q l2) := by
  intro b e l
  rw [mt_seq]
  simp only [hx _ _ _, hy _ _ _]

theorem IsE.seq {x y P Q} (hx : Is x P) (hy : IsE y Q) : IsE (seq x y) (fun l => ∃ l1 l2, l = l1 ++ l2 ∧ P l1 ∧ Q l2) := by
  intro b e l
  rw [mt_seq]
  simp only [hx _ _ _, hy _ _ _]
  constructor
  · rintro ⟨l1, l2, h, h1, h2, h3⟩; exact ⟨h2, l1, l2, h, h1, h3⟩
  · rintro ⟨h2, l1, l2, h, h1, h3⟩; exact ⟨l1, l2, h, h1, h2, h3⟩

theorem Is.alt {x y P Q} (hx : Is x P) (hy : Is y Q) : Is (alt x y) (fun l => P l ∨ Q l) := by
  intro b e l
  rw [mt_alt, hx, hy]

theorem Is.congr {x P Q} (hx : Is x P) (h : ∀ l, P l ↔ Q l) : Is x Q := fun b e l => (hx b e l).trans (h l)
theorem IsE.congr {x P Q} (hx : IsE x P) (h : ∀ l, P l ↔ Q l) : IsE x Q := fun b e l => by rw [hx b e l, h l]

/-- Concatenations of texts with `P`. -/
inductive Many (P : List Char → Prop) : List Char → Prop
  | nil : Many P []
  | cons (l m) : P l → Many P m → Many P (l ++ m)

theorem Is.star {x P} (hx : Is x P) : Is (star x) (Many P) := by
  intro b e l
  constructor
  · intro h
    generalize hr : Rx.star x = r at h
    induction h with
    | none => exact .nil
    | more y b l m e h1 h2 _ ih => cases hr; exact .cons l m ((hx _ _ _).1 h1) (ih rfl)
    | _ => cases hr
  · intro h
    induction h generalizing b e with
    | nil => exact .none x b e
    | cons l m h1 _ ih => exact .more x b l m e ((hx _ _ _).2 h1) (ih _ _)

theorem Many.single {P : Char → Prop} {l : List Char} : Many (fun l => ∃ c, l = [c] ∧ P c) l ↔ ∀ c ∈ l, P c := by
  constructor
  · intro h
    induction h with
    | nil => simp
    | cons l m h _ ih =>
      obtain ⟨c, rfl, hc⟩ := h
      intro d hd
      rcases List.mem_cons.1 hd with rfl | hd
      · exact hc
      · exact ih d hd
  · intro h
    induction l with
    | nil => exact .nil
    | cons c l ih => exact .cons [c] l ⟨c, rfl, h c (List.mem_cons_self ..)⟩ (ih fun d hd => h d (List.mem_cons_of_mem _ hd))

theorem Is.rep {x} {P : Char → Prop} (hx : Is x (fun l => ∃ c, l = [c] ∧ P c)) (n : Nat) :
    Is (rep x n) (fun l => l.length = n ∧ ∀ c ∈ l, P c) := by
  induction n with
  | zero =>
    refine Is.eps.congr fun l => ?_
    constructor
    · rintro rfl; simp
    · rintro ⟨h, -⟩; exact List.length_eq_zero_iff.1 h
  | succ n ih =>
    refine (hx.seq ih).congr fun l => ?_
    constructor
    · rintro ⟨_, l2, rfl, ⟨c, rfl, hc⟩, h2, h3⟩
      refine ⟨by simp [h2], fun d hd => ?_⟩
      rcases List.mem_cons.1 hd with rfl | hd
      · exact hc
      · exact h3 d hd
    · rintro ⟨h1, h2⟩
      cases l with
      | nil => cases h1
      | cons c l => exact ⟨[c], l, rfl, ⟨c, rfl, h2 c (List.mem_cons_self ..)⟩, by simpa using h1, fun d hd => h2 d (List.mem_cons_of_mem _ hd)⟩

theorem Is.upTo {x} {P : Char → Prop} (hx : Is x (fun l => ∃ c, l = [c] ∧ P c)) (n : Nat) :
    Is (upTo x n) (fun l => l.length ≤ n ∧ ∀ c ∈ l, P c) := by
  induction n with
  | zero =>
    refine Is.eps.congr fun l => ?_
    constructor
    · rintro rfl; simp
    · rintro ⟨h, -⟩; exact List.length_eq_zero_iff.1 (by omega)
  | succ n ih =>
    refine (Is.eps.alt (hx.seq ih)).congr fun l => ?_
    constructor
    · rintro (rfl | ⟨_, l2, rfl, ⟨c, rfl, hc⟩, h2, h3⟩)
      · simp
      refine ⟨by simp [h2], fun d hd => ?_⟩
      rcases List.mem_cons.1 hd with rfl | hd
      · exact hc
      · exact h3 d hd
    · rintro ⟨h1, h2⟩
      cases l with
      | nil => exact .inl rfl
      | cons c l => exact .inr ⟨[c], l, rfl, ⟨c, rfl, h2 c (List.mem_cons_self ..)⟩, by simpa using h1, fun d hd => h2 d (List.mem_cons_of_mem _ hd)⟩

/-- `$` at the end. -/
theorem IsE.last : IsE (.seq .last .eps) (· = []) := by
  intro b e l
  rw [mt_seq]
  constructor
  · rintro ⟨l1, l2, rfl, h1, h2⟩
    rw [mt_eps] at h2
    subst h2
    generalize he : (e && ([] : List Char).isEmpty) = e' at h1
    cases h1
    exact ⟨by simpa using he, rfl⟩
  · rintro ⟨rfl, rfl⟩
    exact ⟨[], [], rfl, .last b, .eps _ _⟩

/-- A pattern between `^` and `$` is found in a text exactly when it matches the whole text. -/
theorem IsE.found {x P} (hx : IsE x P) (l : List Char) : Found (.seq .first x) l ↔ P l := by
  constructor
  · rintro ⟨pre, mid, post, rfl, h⟩
    obtain ⟨l1, l2, rfl, h1, h2⟩ := mt_seq.1 h
    generalize hp : pre.isEmpty = pe at h1
    cases h1
    obtain ⟨he, h3⟩ := (hx _ _ _).1 h2
    rw [List.isEmpty_iff] at hp he
    subst hp he
    simpa using h3
  · intro h
    exact ⟨[], l, [], by simp, mt_seq.2 ⟨[], l, rfl, .first _, (hx _ _ _).2 ⟨rfl, h⟩⟩⟩

end GJS.Rx

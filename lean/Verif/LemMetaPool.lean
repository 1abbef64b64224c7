import Verif.LemLoader
import Verif.LemIds
import Verif.LemAcceptRoot
import Verif.SpecMetaWorld
import Verif.DemoCheck
import Verif.PropText
/-
Helper lemmas: rewriting as a function, and the meta-schemas under it.
-/
namespace GJS
open Spec

mutual
/-- Rewriting when no identifier is taken, as a function. -/
def absRefs (w : World) (b : String) : Json → Json
  | .arr xs => .arr (absL w b xs)
  | .obj m => .obj (absM w (scopeOf w b m) m)
  | v => v
/-- ... of the elements of a list -/
def absL (w : World) (b : String) : List Json → List Json
  | [] => []
  | x :: xs => absRefs w b x :: absL w b xs
/-- ... of the members of an object -/
def absM (w : World) (b : String) : List (String × Json) → List (String × Json)
  | [] => []
  | (k, .obj c) :: r =>
    (k, if k = "const" ∨ k = "enum" then .obj c
        else if k = "properties" ∨ k = "dependencies" ∨ k = "patternProperties" then .obj (absV w b c)
        else .obj (absM w (scopeOf w b c) c)) :: absM w b r
  | (k, .arr xs) :: r =>
    (k, if k = "const" ∨ k = "enum" then .arr xs
        else if k = "properties" ∨ k = "dependencies" ∨ k = "patternProperties" then .arr xs
        else .arr (absL w b xs)) :: absM w b r
  | (k, .str t) :: r => (k, .str (if k = "$ref" then ((w.norm t).bind (w.inherits b)).getD t else t)) :: absM w b r
  | (k, v) :: r => (k, v) :: absM w b r
/-- ... of the values of a map of schemas -/
def absV (w : World) (b : String) : List (String × Json) → List (String × Json)
  | [] => []
  | (k, x) :: r => (k, absRefs w b x) :: absV w b r
end

/-- One member. -/
def absMember (w : World) (b k : String) (v : Json) : Json :=
  if k = "const" ∨ k = "enum" then v
  else if k = "properties" ∨ k = "dependencies" ∨ k = "patternProperties" then
    match v with
    | .obj c => .obj (c.map fun e => (e.1, absRefs w b e.2))
    | v => v
  else
    match v with
    | .str t => .str (if k = "$ref" then ((w.norm t).bind (w.inherits b)).getD t else t)
    | v => absRefs w b v

section
variable {w : World}

theorem absL_eq {b} : ∀ {xs}, absL w b xs = xs.map (absRefs w b)
  | [] => by simp [absL]
  | x :: xs => by rw [absL, absL_eq, List.map_cons]

theorem absV_eq {b} : ∀ {c}, absV w b c = c.map fun e => (e.1, absRefs w b e.2)
  | [] => by simp [absV]
  | (k, x) :: r => by rw [absV, absV_eq, List.map_cons]

theorem absM_eq {b} : ∀ {m}, absM w b m = m.map fun e => (e.1, absMember w b e.1 e.2)
  | [] => by simp [absM]
  | (k, v) :: r => by
    rw [List.map_cons, ← absM_eq (m := r)]
    unfold absMember
    cases v <;> simp only [absM, absRefs, absL_eq, absV_eq] <;> (repeat' split) <;> simp_all

theorem map_of_pointwise {F : String × Json → Json} : ∀ {m m' : List (String × Json)}, m.map Prod.fst = m'.map Prod.fst →
    (∀ (i : Nat) k v v', m[i]? = some (k, v) → m'[i]? = some (k, v') → v' = F (k, v)) → m' = m.map fun e => (e.1, F e)
  | [], [], _, _ => rfl
  | [], _ :: _, h, _ => by simp at h
  | _ :: _, [], h, _ => by simp at h
  | (k, v) :: m, (k', v') :: m', h, hp => by
    simp only [List.map_cons, List.cons.injEq] at h
    obtain ⟨rfl, h⟩ := h
    rw [List.map_cons, ← map_of_pointwise h fun i a b c h1 h2 => hp (i + 1) a b c (by simpa using h1) (by simpa using h2),
      hp 0 k v v' (by simp) (by simp)]

theorem list_of_pointwise {F : Json → Json} : ∀ {xs ys : List Json}, xs.length = ys.length →
    (∀ (i : Nat) x y, xs[i]? = some x → ys[i]? = some y → y = F x) → ys = xs.map F
  | [], [], _, _ => rfl
  | [], _ :: _, h, _ => by simp at h
  | _ :: _, [], h, _ => by simp at h
  | x :: xs, y :: ys, h, hp => by
    simp only [List.length_cons, Nat.add_right_cancel_iff] at h
    rw [List.map_cons, ← list_of_pointwise h fun i a b h1 h2 => hp (i + 1) a b (by simpa using h1) (by simpa using h2),
      hp 0 x y (by simp) (by simp)]

/-- Rewriting when no identifier is taken yields `absRefs`. -/
theorem rwStrict_eq {b D D'} (h : RwStrict w b D D') : D' = absRefs w b D := by
  refine RwT.rec (motive_1 := fun b D D' _ => D' = absRefs w b D)
    (motive_2 := fun b k v v' _ => v' = absMember w b k v) ?_ ?_ ?_ ?_ ?_ ?_ ?_ ?_ ?_ ?_ h
  · intro b v h1 h2
    cases v with
    | arr xs => exact absurd rfl (h1 xs)
    | obj m => exact absurd rfl (h2 m)
    | _ => simp only [absRefs]
  · intro b xs ys hl _ ih
    rw [absRefs, absL_eq, ← list_of_pointwise hl ih]
  · intro b m m' hk _ ih
    rw [absRefs, absM_eq, ← map_of_pointwise hk ih]
  · intro _ _ _ h _; exact h.elim
  · intro b k v h
    unfold absMember
    unfold Literal at h
    rw [if_pos h]
  · intro b t t' h
    unfold absMember
    simp [h]
  · intro b t h
    unfold absMember
    simp [h]
  · intro b k c c' h hk _ ih
    unfold absMember
    have h1 : ¬ (k = "const" ∨ k = "enum") := fun hl => literal_not_map hl h
    unfold SchemaMap at h
    rw [if_neg h1, if_pos h]
    simp only
    rw [← map_of_pointwise (F := fun e => absRefs w b e.2) hk ih]
  · intro b k v h hc
    unfold absMember
    have h1 : ¬ (k = "const" ∨ k = "enum") := fun hl => literal_not_map hl h
    unfold SchemaMap at h
    rw [if_neg h1, if_pos h]
    cases v with
    | obj c => exact absurd rfl (hc c)
    | _ => rfl
  · intro b k v v' h1 h2 h3 _ ih
    unfold absMember
    unfold Literal at h1
    unfold SchemaMap at h2
    rw [if_neg h1, if_neg h2]
    cases v with
    | str t =>
      simp only
      rw [if_neg fun e => h3 e t rfl, ih]; simp only [absRefs]
    | _ => exact ih

/-! ### The meta-schemas -/

variable {u : String}

theorem part_eq (h : MetaWorld w u) : ∀ s ∈ Meta.names,
    (w.norm ("#/definitions/" ++ s)).bind (w.inherits u) = some (Meta.part u s) := h.inside.2

theorem abs_doc4 (h : MetaWorld w u) (hu : u = "http://json-schema.org/draft-04/schema") :
    absRefs w u (Meta.doc Draft4) = Meta.absolute u Draft4 ∧ idsIn w u (Meta.doc Draft4) = [u] := by
  have hi : w.norm "http://json-schema.org/draft-04/schema#" = some u := by rw [← h.hash, hu]; rfl
  have p1 := h.inside.1
  have p2 := part_eq h
  simp only [Meta.names, List.mem_cons, List.not_mem_nil, or_false, forall_eq_or_imp, forall_eq, String.reduceAppend] at p2
  constructor
  · simp [Meta.doc, Meta.absolute, Meta.docAt, Meta.draft4At, Meta.defs4, Meta.props4, Meta.typ, Meta.num, Meta.ref,
      absRefs, absM, absL, absV, scopeOf, idOf, getKey, List.lookup, hi, h.self.2.2.1, p1, p2]
  · simp [Meta.doc, Meta.docAt, Meta.draft4At, Meta.defs4, Meta.props4, Meta.typ, Meta.num, Meta.ref,
      idsIn, idsInM, idsInL, idsInV, absId, idOf, getKey, List.lookup, hi, h.self.2.2.1]

theorem abs_doc6 (h : MetaWorld w u) (hu : u = "http://json-schema.org/draft-06/schema") :
    absRefs w u (Meta.doc Draft6) = Meta.absolute u Draft6 ∧ idsIn w u (Meta.doc Draft6) = [u] := by
  have hi : w.norm "http://json-schema.org/draft-06/schema#" = some u := by rw [← h.hash, hu]; rfl
  have p1 := h.inside.1
  have p2 := part_eq h
  simp only [Meta.names, List.mem_cons, List.not_mem_nil, or_false, forall_eq_or_imp, forall_eq, String.reduceAppend] at p2
  constructor
  · simp [Meta.doc, Meta.absolute, Meta.docAt, Draft4, Draft6, Meta.draft6At, Meta.defs6, Meta.props6, Meta.typ, Meta.num, Meta.ref,
      absRefs, absM, absL, absV, scopeOf, idOf, getKey, List.lookup, hi, h.self.2.2.1, p1, p2]
  · simp [Meta.doc, Meta.docAt, Draft4, Draft6, Meta.draft6At, Meta.defs6, Meta.props6, Meta.typ, Meta.num, Meta.ref,
      idsIn, idsInM, idsInL, idsInV, absId, idOf, getKey, List.lookup, hi, h.self.2.2.1]

theorem abs_doc7 (h : MetaWorld w u) (hu : u = "http://json-schema.org/draft-07/schema") :
    absRefs w u (Meta.doc Draft7) = Meta.absolute u Draft7 ∧ idsIn w u (Meta.doc Draft7) = [u] := by
  have hi : w.norm "http://json-schema.org/draft-07/schema#" = some u := by rw [← h.hash, hu]; rfl
  have p1 := h.inside.1
  have p2 := part_eq h
  simp only [Meta.names, List.mem_cons, List.not_mem_nil, or_false, forall_eq_or_imp, forall_eq, String.reduceAppend] at p2
  constructor
  · simp [Meta.doc, Meta.absolute, Meta.docAt, Draft4, Draft6, Draft7, Meta.draft7At, Meta.defs6, Meta.props7, Meta.typ, Meta.num, Meta.ref,
      absRefs, absM, absL, absV, scopeOf, idOf, getKey, List.lookup, hi, h.self.2.2.1, p1, p2]
  · simp [Meta.doc, Meta.docAt, Draft4, Draft6, Draft7, Meta.draft7At, Meta.defs6, Meta.props7, Meta.typ, Meta.num, Meta.ref,
      idsIn, idsInM, idsInL, idsInV, absId, idOf, getKey, List.lookup, hi, h.self.2.2.1]

theorem abs_doc (h : MetaWorld w u) {d} (hk : Known u d) :
    absRefs w u (Meta.doc d) = Meta.absolute u d ∧ idsIn w u (Meta.doc d) = [u] := by
  rcases hk with ⟨hu, rfl⟩ | ⟨hu, rfl⟩ | ⟨hu, rfl⟩
  · exact abs_doc4 h hu
  · exact abs_doc6 h hu
  · exact abs_doc7 h hu

/-! ### Everything within a value -/

mutual
/-- A test on everything within a value. -/
def allWithin (f : Json → Bool) : Json → Bool
  | .arr xs => f (.arr xs) && allWithinL f xs
  | .obj m => f (.obj m) && allWithinM f m
  | v => f v
/-- ... in a list -/
def allWithinL (f : Json → Bool) : List Json → Bool
  | [] => true
  | x :: xs => allWithin f x && allWithinL f xs
/-- ... among members -/
def allWithinM (f : Json → Bool) : List (String × Json) → Bool
  | [] => true
  | (_, x) :: xs => allWithin f x && allWithinM f xs
end

theorem allWithinL_iff {f} : ∀ {xs}, allWithinL f xs = true ↔ ∀ x ∈ xs, allWithin f x = true
  | [] => by simp [allWithinL]
  | x :: xs => by simp [allWithinL, allWithinL_iff]

theorem allWithinM_iff {f} : ∀ {m}, allWithinM f m = true ↔ ∀ e ∈ m, allWithin f e.2 = true
  | [] => by simp [allWithinM]
  | (k, x) :: xs => by simp [allWithinM, allWithinM_iff]

theorem allWithin_self {f D} (h : allWithin f D = true) : f D = true := by
  cases D <;> simp_all [allWithin]

theorem allWithin_of {f D x} (hx : Within D x) : allWithin f D = true → f x = true := by
  induction hx with
  | self D => exact allWithin_self
  | elem xs y x hy _ ih =>
    intro h
    rw [allWithin, Bool.and_eq_true, allWithinL_iff] at h
    exact ih (h.2 _ hy)
  | member m k y x hy _ ih =>
    intro h
    rw [allWithin, Bool.and_eq_true, allWithinM_iff] at h
    exact ih (h.2 _ hy)

/-- Numbers are 0 or 1. -/
def bitB : Json → Bool
  | .num n => n == ⟨false, 0, [], none⟩ || n == ⟨false, 1, [], none⟩
  | _ => true

/-- A `$ref` has one of these texts. -/
def refsB (A : List String) : Json → Bool
  | .obj m =>
    match getKey "$ref" m with
    | some (.str t) => A.contains t
    | _ => true
  | _ => true

theorem known_numsRat (h : MetaWorld w u) {d} (hk : Known u d) : NumsRat w.env (Meta.doc d) := by
  have hb : allWithin bitB (Meta.doc d) = true := by
    rcases hk with ⟨_, rfl⟩ | ⟨_, rfl⟩ | ⟨_, rfl⟩ <;> decide +kernel
  intro n hn
  have := allWithin_of hn hb
  simp only [bitB, Bool.or_eq_true, beq_iff_eq] at this
  rcases this with rfl | rfl
  · exact h.zero
  · exact h.one

/-- The references in the meta-schema at `u`. -/
def metaRefs (u : String) (d : Draft) : List String :=
  u :: (Meta.defs d (Meta.ref u) fun s => Meta.ref (Meta.part u s)).map fun x => Meta.part u x.1

theorem known_refs {d} (hk : Known u d) {m t} (hm : Within (Meta.absolute u d) (.obj m)) (ht : Kw m "$ref" (.str t)) :
    t ∈ metaRefs u d := by
  have hb : allWithin (refsB (metaRefs u d)) (Meta.absolute u d) = true := by
    rcases hk with ⟨rfl, rfl⟩ | ⟨rfl, rfl⟩ | ⟨rfl, rfl⟩ <;> decide +kernel
  have := allWithin_of hm hb
  unfold Kw at ht
  simpa [refsB, ht] using this

theorem known_wf {d} (hk : Known u d) : (Meta.doc d).WF := by
  rcases hk with ⟨_, rfl⟩ | ⟨_, rfl⟩ | ⟨_, rfl⟩ <;> exact Demo.wf_of _ (by decide +kernel)

theorem known_text {d} (hk : Known u d) : Text.decode Text.maxDepth (utf8 (getMetaSchema u)) = .ok (Meta.doc d) := by
  rcases hk with ⟨rfl, rfl⟩ | ⟨rfl, rfl⟩ | ⟨rfl, rfl⟩
  · exact C54_draft4
  · exact C54_draft6
  · exact C54_draft7

theorem known_load (h : MetaWorld w u) {d} (hk : Known u d) {n f r D} (hr : w.base r = u)
    (hl : loadReference w n f r = some D) : D = Meta.doc d := by
  unfold loadReference at hl
  cases hn : w.norm r with
  | none => rw [hn] at hl; cases hl
  | some r' =>
    rw [hn] at hl
    have e1 := (h.base_norm r r' hn).trans hr
    have e2 := h.web r' e1
    simp only [e1, e2, Bool.false_eq_true, if_false] at hl
    unfold loadFromHTTP at hl
    rw [h.decode] at hl
    obtain hd := known_text hk
    have hne : (getMetaSchema u != "") = true := by
      rw [bne_iff_ne]
      intro e
      rw [e] at hd
      cases (show Text.decode Text.maxDepth (utf8 "") = .error .eof from rfl).symm.trans hd
    rw [hd, if_pos hne] at hl
    cases hl
    rfl

theorem known_declared (h : MetaWorld w u) {d} (hk : Known u d) :
    declaredDraft w (Meta.doc d) = some d ∧ declaredDraft w (Meta.absolute u d) = some d := by
  have hh := h.hash
  rcases hk with ⟨rfl, rfl⟩ | ⟨rfl, rfl⟩ | ⟨rfl, rfl⟩ <;> simp only [String.reduceAppend] at hh <;>
    constructor <;>
    simp [declaredDraft, Meta.doc, Meta.absolute, Meta.docAt, Draft4, Draft6, Meta.draft4At, Meta.draft6At, Meta.draft7At, getKey, List.lookup, hh] <;>
    decide +kernel

/-! ### The pool -/

theorem known_ne {d} (hk : Known u d) : u ≠ "" := by
  rcases hk with ⟨rfl, _⟩ | ⟨rfl, _⟩ | ⟨rfl, _⟩ <;> decide

theorem clean_main {d} (h : MetaWorld w u) {l : LState} (hc : Clean w u d l) {e} (he : getKey u l.pool = some e) :
    e.doc = Meta.absolute u d ∧ (e.draft = none ∨ e.draft = some d) := by
  obtain ⟨h1, h2⟩ := hc u e h.self.2.1 he
  rw [h.self.2.2.2] at h1
  exact ⟨(Option.some.inj h1).symm, h2⟩

theorem detectDraft_is {D : Json} {l l' : LState} {o} (h : detectDraft w D l = (.ok o, l')) : o = none ∨ o = declaredDraft w D := by
  unfold detectDraft at h
  obtain ⟨x, l1, h1, h⟩ := M.bind_ok.1 h
  split at h
  · obtain ⟨y, l2, h2, h⟩ := M.bind_ok.1 h
    rw [M.pure_ok] at h
    rw [← h.1]; exact .inr (parseSchemaURL_ok h2)
  · rw [M.pure_ok] at h
    exact .inl h.1.symm

/-- Other documents leave the entries at `u` alone. -/
theorem clean_foreign {σ : Sched} {d p D ref pooled} {l : LState} (hc : Clean w u d l) (hD : D.WF) (hf : Foreign w u D)
    (hr : w.base ref ≠ u) : Clean w u d (parseReferences w σ p D ref pooled l).2 := by
  have h1 := (parseReferences_keys (w := w) (σ := σ) (S := fun k => w.base k ≠ u) (l0 := l) (p := p) (ref := ref) (pooled := pooled)
    (hf ref hr) (fun _ => hr) hD l (fun k hk => .inl hk)).1
  have h2 := (parseReferences_tri (W := False) (w := w) (σ := σ) (p := p) (doc := D) (ref := ref)
      (pooled := pooled) (l0 := l) False.elim False.elim).1.keeps
  intro k e hb he
  rcases h1 k (by rw [he]; simp) with hk | hk
  · cases hx : getKey k l.pool with
    | none => exact absurd hx hk
    | some e0 =>
      have := h2 k e0 hx
      rw [he] at this
      cases this
      exact hc k e hb hx
  · exact absurd hb hk

theorem known_obj {d} (hk : Known u d) : ∃ m, Meta.doc d = .obj m := by
  rcases hk with ⟨_, rfl⟩ | ⟨_, rfl⟩ | ⟨_, rfl⟩ <;> exact ⟨_, rfl⟩

theorem known_read (h : MetaWorld w u) {d} (hk : Known u d) : SchemaRead w (Meta.doc d) := by
  intro m v hm hv
  have hd := (known_declared h hk).1
  rw [hm] at hd
  unfold Kw at hv
  simp only [declaredDraft, hv] at hd
  cases v with
  | str t => exact ⟨t, rfl, by intro e; simp [e] at hd⟩
  | _ => cases hd

theorem meta_runs {σ : Sched} {d p} {l : LState} (h : MetaWorld w u) (hk : Known u d) (hu : getKey u l.pool = none) :
    ∃ x l', parseReferences w σ p (Meta.doc d) u true l = (.ok x, l') := by
  obtain ⟨o, l1, h1⟩ := (detectDraft_iff (w := w) (l := l) (D := Meta.doc d)).2 fun _ => ⟨.inr (known_obj hk), known_read h hk⟩
  have e1 := detectDraft_still.ok h1
  subst e1
  obtain ⟨x, l2, h2⟩ := ((rewrite_total (σ := σ) h.inherits (Meta.doc d).size p u (Meta.doc d) (known_numsRat h hk) (Nat.le_refl _)
    (draft := o)).iff l1).2 trivial
  refine ⟨x, { l2 with pool := putKey u ⟨x.1, o⟩ l2.pool }, ?_⟩
  unfold parseReferences
  refine M.bind_ok.2 ⟨false, l1, inPool_ok.2 ⟨rfl, (existsMapKey_false.2 hu).symm⟩, ?_⟩
  simp only [Bool.and_false, Bool.false_eq_true, if_false]
  exact M.bind_ok.2 ⟨o, l1, h1, M.bind_ok.2 ⟨x, l2, h2, M.bind_ok.2 ⟨(), _, rfl, rfl⟩⟩⟩

/-- The meta-schema goes where it belongs. -/
theorem clean_meta {σ : Sched} {d p} {l : LState} (h : MetaWorld w u) (hk : Known u d) (hc : Clean w u d l)
    (hu : getKey u l.pool = none) : Clean w u d (parseReferences w σ p (Meta.doc d) u true l).2 := by
  obtain ⟨a1, a2⟩ := abs_doc h hk
  have h1 := (parseReferences_keys (w := w) (σ := σ) (S := fun k => k = u) (l0 := l) (p := p) (ref := u) (pooled := true)
    (by rw [a2]; simp) (fun _ => rfl) (known_wf hk) l (fun k hk => .inl hk)).1
  have h2 := (parseReferences_tri (W := False) (w := w) (σ := σ) (p := p) (doc := Meta.doc d) (ref := u)
      (pooled := true) (l0 := l) False.elim False.elim).1.keeps
  cases hx : parseReferences w σ p (Meta.doc d) u true l with
  | mk r l' =>
    rw [hx] at h1 h2
    cases r with
    | error e =>
      obtain ⟨x, l', h0⟩ := meta_runs (σ := σ) (p := p) h hk hu
      rw [h0] at hx; cases hx
    | ok x =>
      obtain ⟨dr, hd, hg⟩ := (parseReferences_pooled hu).1 _ _ hx
      have hs : x.1 = Meta.absolute u d := by
        rcases parseReferences_strict (known_wf hk) (by rw [a2]; simp) (by rw [a2]; simpa using hu) hx with ⟨_, _, _, h⟩ | h
        · rw [existsMapKey_false.2 hu] at h; cases h
        · rw [rwStrict_eq h, a1]
      intro k e hb he
      rcases h1 k (by rw [he]; simp) with hk' | hk'
      · cases hy : getKey k l.pool with
        | none => exact absurd hy hk'
        | some e0 =>
          have := h2 k e0 hy
          rw [he] at this
          cases this
          exact hc k e hb hy
      · have hk' : k = u := hk'
        subst hk'
        rw [hg] at he
        cases he
        refine ⟨by rw [h.self.2.2.2, hs], ?_⟩
        rw [← (known_declared h hk).1]
        exact detectDraft_is hd

theorem clean_get {σ : Sched} {d p ref} (hw : Lawful w) (h : MetaWorld w u) (hk : Known u d) (hA : Apart w u) :
    Tri (Clean w u d) (getDocument w σ p ref) (fun _ => True) := by
  intro l hc
  refine ⟨?_, fun _ _ _ => trivial⟩
  unfold getDocument
  rw [M.bind_def, poolGet_ok.2 ⟨rfl, rfl⟩]
  simp only
  cases h1 : getKey ref l.pool with
  | some e => exact hc
  | none =>
    simp only
    rw [M.bind_def, poolGet_ok.2 ⟨rfl, rfl⟩]
    simp only
    cases h2 : getKey (w.base ref) l.pool with
    | some e =>
      simp only [getCached, M.bind_def]
      cases hp : w.pointer ref e.doc with
      | none =>
        have : pointerGet w ref e.doc l = (.error (.err (.pointer ref)), l) := by unfold pointerGet; rw [hp]; rfl
        rw [this]; exact hc
      | some d0 =>
        have : pointerGet w ref e.doc l = (.ok d0, l) := pointerGet_ok.2 ⟨rfl, hp⟩
        rw [this]
        simp only [putPool_run, M.pure_def]
        intro k e' hb he
        by_cases hkr : k = ref
        · subst hkr
          simp only [getKey_putKey_self, Option.some.injEq] at he
          subst he
          rw [hb] at h2
          obtain ⟨g1, g2⟩ := clean_main h hc h2
          rw [g1] at hp
          exact ⟨hp, g2⟩
        · simp only [getKey_putKey_ne hkr] at he
          exact hc k e' hb he
    | none =>
      simp only
      unfold getRemote
      split
      · exact hc
      · rw [M.bind_def]
        unfold fetch
        simp only
        cases hl : loadReference w l.clock l.factory ref with
        | none => exact hc
        | some D =>
          simp only
          have key : Clean w u d (parseReferences w σ p D (w.base ref) true { l with log := l.log ++ [(l.factory, ref)] }).2 := by
            by_cases hb : w.base ref = u
            · rw [known_load h hk hb hl, hb]
              exact clean_meta h hk hc (by rw [← hb]; exact h2)
            · exact clean_foreign hc (loadReference_wf hw hl) (hA _ _ _ _ hb hl) (by rw [h.base]; exact hb)
          have key2 : Clean w u d (parseReferencesIgnore w σ p D (w.base ref) { l with log := l.log ++ [(l.factory, ref)] }).2 := by
            unfold parseReferencesIgnore
            split <;> rename_i hx <;> rw [hx] at key <;> exact key
          rw [M.bind_def]
          cases hx : parseReferencesIgnore w σ p D (w.base ref) { l with log := l.log ++ [(l.factory, ref)] } with
          | mk r l2 =>
            rw [hx] at key2
            cases r with
            | error e => exact key2
            | ok D2 =>
              simp only
              have st : Still (do
                  let draft ← schemaDraftIgnore w D2
                  let d ← pointerGet w ref D2
                  return (⟨d, draft⟩ : PoolDoc) : M LState PoolDoc) :=
                .bind schemaDraftIgnore_still fun _ => .bind pointerGet_still fun _ => .pure
              rw [st l2]
              exact key2

/-- The entries at `u` stay what they should be. -/
theorem clean_inv {σ : Sched} {d} (hw : Lawful w) (h : MetaWorld w u) (hk : Known u d) (hA : Apart w u) :
    LoaderInv w σ (Clean w u d) (fun _ => False) (fun _ => True) (fun D => D.WF ∧ Foreign w u D) (fun r => w.base r ≠ u) where
  get := fun _ _ => .of_tri (clean_get hw h hk hA)
  refs := fun _ _ _ _ hr hD => .of_tri fun _ hl => ⟨clean_foreign hl hD.1 hD.2 hr, fun _ _ _ => trivial⟩
  raw := fun _ _ => trivial
  own := fun _ _ h => h
  factory := fun _ _ h => h
  validate := fun _ _ h => h
  err := fun _ h => h
  fuel := id
  docs := docsFine_trivial

theorem clean_refsOK (hw : Lawful w) (h : MetaWorld w u) (hA : Apart w u) : RefsOK w (fun D => D.WF ∧ Foreign w u D) :=
  fun _ _ s _ hn hl => ⟨loadReference_wf hw hl, hA _ _ s _ (by rw [← h.base_norm _ _ hn]; exact h.root) hl⟩

end
end GJS

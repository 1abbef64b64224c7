import Verif.SpecInPlace
import Verif.LemPanic
import Verif.LemRewrite
import Verif.LemRaw
/-
Helper lemmas: rewriting in place gives what rewriting of immutable documents gives.
-/
namespace GJS.Mem
open GJS

/-! ### Trees -/

theorem Tree.jsonL_map : ∀ xs : List Tree, Tree.jsonL xs = xs.map Tree.json
  | [] => rfl
  | x :: xs => by rw [Tree.jsonL, Tree.jsonL_map xs]; rfl

theorem Tree.jsonM_map : ∀ m : List (String × Tree), Tree.jsonM m = m.map fun e => (e.1, e.2.json)
  | [] => rfl
  | (k, x) :: m => by rw [Tree.jsonM, Tree.jsonM_map m]; rfl

theorem Tree.valL_map : ∀ xs : List Tree, Tree.valL xs = xs.map Tree.val
  | [] => rfl
  | x :: xs => by rw [Tree.valL, Tree.valL_map xs]; rfl

theorem Tree.labelsL_map : ∀ xs : List Tree, Tree.labelsL xs = xs.flatMap Tree.labels
  | [] => rfl
  | x :: xs => by rw [Tree.labelsL, Tree.labelsL_map xs]; rfl

theorem Tree.labelsM_map : ∀ m : List (String × Tree), Tree.labelsM m = m.flatMap fun e => e.2.labels
  | [] => rfl
  | (k, x) :: m => by rw [Tree.labelsM, Tree.labelsM_map m]; rfl

theorem Node.label {t a m} (h : Node t a m) : a ∈ t.labels := by
  induction h with
  | here a m => simp [Tree.labels]
  | elem xs x a m hx _ ih =>
    rw [Tree.labels, Tree.labelsL_map]
    exact List.mem_flatMap.2 ⟨x, hx, ih⟩
  | member b ms k x a m hx _ ih =>
    rw [Tree.labels, Tree.labelsM_map]
    exact List.mem_cons_of_mem _ (List.mem_flatMap.2 ⟨(k, x), hx, ih⟩)

/-- Only the addresses of the document matter. -/
theorem Holds.frame {h h' : Cells} {t} (H : Holds h t) (e : ∀ a ∈ t.labels, h' a = h a) : Holds h' t :=
  fun a m n => (e a n.label).trans (H a m n)

theorem Holds.elem {h xs x} (H : Holds h (.arr xs)) (hx : x ∈ xs) : Holds h x := fun a m n => H a m (.elem _ _ _ _ hx n)

theorem Holds.member {h a m k x} (H : Holds h (.obj a m)) (hx : (k, x) ∈ m) : Holds h x :=
  fun b ms n => H b ms (.member _ _ _ _ _ _ hx n)

theorem Holds.cell {h a m} (H : Holds h (.obj a m)) : h a = m.map fun e => (e.1, e.2.val) := H a m (.here _ _)

theorem holds_obj {h a m} (h1 : h a = m.map fun e => (e.1, e.2.val)) (h2 : ∀ k x, (k, x) ∈ m → Holds h x) :
    Holds h (.obj a m) := by
  intro b ms n
  cases n with
  | here => exact h1
  | member _ _ k x _ _ hx n => exact h2 k x hx _ _ n

theorem holds_arr {h xs} (h2 : ∀ x ∈ xs, Holds h x) : Holds h (.arr xs) := by
  intro b ms n
  cases n with
  | elem _ x _ _ hx n => exact h2 x hx _ _ n

theorem Stored.mono {h ok ok' v D} (H : Stored h ok v D) (e : ∀ a, ok a → ok' a) : Stored h ok' v D := by
  obtain ⟨t, h1, h2, h3, h4⟩ := H
  exact ⟨t, h1, h2, h3, fun a ha => e a (h4 a ha)⟩

theorem Stored.frame {h h' ok v D} (H : Stored h ok v D) (e : ∀ a, ok a → h' a = h a) : Stored h' ok v D := by
  obtain ⟨t, h1, h2, h3, h4⟩ := H
  exact ⟨t, h1, h2, h3.frame fun a ha => e a (h4 a ha), h4⟩

/-! ### Simulation -/

/-- Both end in the same way, with results and states related by `R`, and not with an error. -/
def Sim (x : Except Fail α × State) (y : Except Fail β × LState) (R : α → State → β → LState → Prop) : Prop :=
  match x, y with
  | (.ok a, s), (.ok b, l) => R a s b l
  | (.error f, _), (.error g, _) => f = g ∧ ∀ e, f ≠ .err e
  | _, _ => False

theorem Sim.mono {x : Except Fail α × State} {y : Except Fail β × LState} {R R' : α → State → β → LState → Prop} (h : Sim x y R)
    (e : ∀ a s b l, R a s b l → R' a s b l) : Sim x y R' := by
  obtain ⟨x, s⟩ := x
  obtain ⟨y, l⟩ := y
  cases x <;> cases y <;> simp only [Sim] at h ⊢
  · exact h
  · exact e _ _ _ _ h

theorem Sim.bind {x : M State α} {y : M LState β} {f : α → M State α'} {g : β → M LState β'} {s l}
    {R : α → State → β → LState → Prop} {R' : α' → State → β' → LState → Prop} (h : Sim (x s) (y l) R)
    (k : ∀ a s' b l', R a s' b l' → Sim (f a s') (g b l') R') : Sim ((x >>= f) s) ((y >>= g) l) R' := by
  rw [M.bind_def, M.bind_def]
  cases hx : x s with
  | mk r s' =>
    cases hy : y l with
    | mk r' l' =>
      rw [hx, hy] at h
      cases r <;> cases r' <;> simp only [Sim] at h ⊢
      · exact h
      · exact k _ _ _ _ h

theorem Sim.into {x : Except Fail α × State} {y : M LState β} {g : β → β'} {l} {R : α → State → β → LState → Prop}
    {R' : α → State → β' → LState → Prop} (h : Sim x (y l) R) (k : ∀ a s b l, R a s b l → R' a s (g b) l) :
    Sim x ((y >>= fun b => pure (g b)) l) R' := by
  rw [M.bind_def]
  obtain ⟨r, s'⟩ := x
  cases hy : y l with
  | mk r' l' =>
    rw [hy] at h
    cases r <;> cases r' <;> simp only [Sim, M.pure_def] at h ⊢
    · exact h
    · exact k _ _ _ _ h

theorem Sim.ret {a : α} {b : β} {s l} {R : α → State → β → LState → Prop} (h : R a s b l) :
    Sim ((pure a : M State α) s) ((pure b : M LState β) l) R := h

theorem Sim.panic {s l} {R : α → State → β → LState → Prop} :
    Sim ((M.fail .panic : M State α) s) ((M.fail .panic : M LState β) l) R := ⟨rfl, by simp⟩

/-- Same result, states as before. -/
def Still (s : State) (l : LState) (a : α) (s' : State) (b : α) (l' : LState) : Prop := a = b ∧ s' = s ∧ l' = l

theorem isKind_sim {env : Env} {t : Tree} {ks s l} : Sim (isKind env t.val ks s) (GJS.isKind env t.json ks l) (Still s l) := by
  cases t with
  | num n =>
    simp only [Tree.val, Tree.json, isKind, GJS.isKind]
    split
    · exact .ret ⟨rfl, rfl, rfl⟩
    · exact .panic
  | _ => exact Sim.ret ⟨rfl, rfl, rfl⟩

theorem getKey_val {k : String} {m : List (String × Tree)} :
    getKey k (m.map fun e => (e.1, e.2.val)) = (getKey k m).map Tree.val := getKey_map k m

theorem getKey_json {k : String} {m : List (String × Tree)} :
    getKey k (m.map fun e => (e.1, e.2.json)) = (getKey k m).map Tree.json := getKey_map k m

theorem idText_sim {w : World} {m : List (String × Tree)} {s l} :
    Sim (idText w (m.map fun e => (e.1, e.2.val)) s) (GJS.idText w (m.map fun e => (e.1, e.2.json)) l) (Still s l) := by
  unfold idText GJS.idText
  have e : (if existsMapKey (m.map fun e => (e.1, e.2.val)) "id" then "id" else "$id") =
      (if existsMapKey (m.map fun e => (e.1, e.2.json)) "id" then "id" else "$id") := by
    simp only [existsMapKey, getKey_val, getKey_json, Option.isSome_map]
  simp only [e, getKey_val, getKey_json]
  cases getKey _ m with
  | none => exact .ret ⟨rfl, rfl, rfl⟩
  | some t =>
    simp only [Option.map_some]
    refine .bind isKind_sim ?_
    rintro b _ _ _ ⟨rfl, rfl, rfl⟩
    cases t <;> cases b <;> exact Sim.ret ⟨rfl, rfl, rfl⟩

theorem idScope_sim {w : World} {ref : String} {o : Option String} {s l} :
    Sim (idScope w ref o s) (idScope w ref o l) (Still s l) := by
  unfold idScope
  cases o with
  | none => exact .ret ⟨rfl, rfl, rfl⟩
  | some t =>
    simp only
    cases w.norm t with
    | none => exact .ret ⟨rfl, rfl, rfl⟩
    | some r =>
      simp only
      cases w.inherits ref r with
      | none => exact .panic
      | some k => exact .ret ⟨rfl, rfl, rfl⟩

/-! ### Agreement while a document is being rewritten -/

/-- As `Agree`, with entries under the keys `P` still to be completed. -/
structure Mid (P : String → Prop) (ok : Nat → Prop) (s : State) (l : LState) : Prop where
  auto : s.autoDetect = l.autoDetect
  factory : s.factory = l.factory
  log : s.log = l.log
  own : s.own = l.own
  none : ∀ k, getKey k s.pool = none ↔ getKey k l.pool = none
  some : ∀ k, ¬ P k → ∀ e, getKey k l.pool = some e → ∃ v, getKey k s.pool = some ⟨v, e.draft⟩ ∧ Stored s.mem ok v e.doc

theorem Mid.mono {P ok ok' s l} (h : Mid P ok s l) (e : ∀ a, ok a → ok' a) : Mid P ok' s l :=
  { h with some := fun k hk d hd => by obtain ⟨v, h1, h2⟩ := h.some k hk d hd; exact ⟨v, h1, h2.mono e⟩ }

/-- A rewritten part of a document. -/
structure Done (t t' : Tree) (s s' : State) : Prop where
  val : t'.val = t.val
  labels : t'.labels = t.labels
  holds : Holds s'.mem t'
  frame : ∀ a, a ∉ t.labels → s'.mem a = s.mem a
  next : s'.next = s.next
  keeps : ∀ k e, getKey k s.pool = some e → getKey k s'.pool = some e

theorem Done.same {t s} (h : Holds s.mem t) : Done t t s s := ⟨rfl, rfl, h, fun _ _ => rfl, rfl, fun _ _ h => h⟩

theorem inPool_sim {P ok s l k} (h : Mid P ok s l) : Sim (inPool k s) (GJS.inPool k l) (Still s l) := by
  refine Sim.ret ⟨?_, rfl, rfl⟩
  have := h.none k
  simp only [existsMapKey]
  cases h1 : getKey k s.pool <;> cases h2 : getKey k l.pool <;> simp_all

theorem taken_sim {P ok s l o} (h : Mid P ok s l) : Sim (taken o s) (GJS.taken o l) fun b s' b' l' =>
    Still s l b s' b' l' ∧ (b = false → ∀ k, o = some k → getKey k s.pool = none) := by
  cases o with
  | none => exact Sim.ret ⟨⟨rfl, rfl, rfl⟩, by simp⟩
  | some k =>
    have := inPool_sim h (k := k)
    simp only [taken, GJS.taken]
    unfold inPool GJS.inPool at this ⊢
    simp only [M.bind_def, M.get, M.pure_def, Sim] at this ⊢
    refine ⟨this, fun hb k' hk => ?_⟩
    cases hk
    exact existsMapKey_false.1 hb

/-- One entry more in both pools. -/
theorem Mid.put {P ok s l k v D dr} (h : Mid P ok s l) (hv : ¬ P k → Stored s.mem ok v D) :
    Mid P ok { s with pool := putKey k ⟨v, dr⟩ s.pool } { l with pool := putKey k ⟨D, dr⟩ l.pool } where
  auto := h.auto
  factory := h.factory
  log := h.log
  own := h.own
  none := by
    intro k'
    by_cases e : k' = k
    · subst e; simp [getKey_putKey_self]
    · simp only [getKey_putKey_ne e]; exact h.none k'
  some := by
    intro k' hk e he
    by_cases e' : k' = k
    · subst e'
      simp only [getKey_putKey_self, Option.some.injEq] at he
      subst he
      exact ⟨v, getKey_putKey_self, hv hk⟩
    · simp only [getKey_putKey_ne e'] at he ⊢
      exact h.some k' hk e he

/-- A key becomes pending. -/
theorem Mid.pend {P P' : String → Prop} {ok s l} (h : Mid P ok s l) (e : ∀ k, P k → P' k) : Mid P' ok s l :=
  { h with some := fun k hk => h.some k fun hp => hk (e k hp) }

/-- Nothing pending any more. -/
theorem Mid.pend' {P P' : String → Prop} {ok s l} (h : Mid P' ok s l) (e : ∀ k, P' k → P k) : Mid P ok s l := h.pend e

/-! ### Loops -/

theorem map_replaceKey {α β : Type} {f : α → β} {k : String} {v : α} {m : List (String × α)} :
    (replaceKey k v m).map (fun e => (e.1, f e.2)) = replaceKey k (f v) (m.map fun e => (e.1, f e.2)) := by
  simp only [replaceKey, List.map_map]
  apply List.map_congr_left
  intro e _
  simp only [Function.comp]
  split <;> rfl

/-- Replacing a member by one with the same image changes nothing. -/
theorem map_replace_same {β : Type} {f : Tree → β} {k : String} {x x' : Tree} : ∀ {m : List (String × Tree)},
    (m.map Prod.fst).Nodup → (k, x) ∈ m → f x' = f x →
    (replaceKey k x' m).map (fun e => (e.1, f e.2)) = m.map fun e => (e.1, f e.2) := by
  intro m hn hx hf
  simp only [replaceKey, List.map_map]
  apply List.map_congr_left
  intro e he
  simp only [Function.comp]
  split
  · rename_i h
    have h : e.1 = k := by simpa using h
    obtain ⟨k', y⟩ := e
    have h : k' = k := h
    subst h
    have := (getKey_of_mem hn he).symm.trans (getKey_of_mem hn hx)
    cases this
    rw [hf]
  · rfl

theorem labels_replace {k : String} {x x' : Tree} {m : List (String × Tree)} (hn : (m.map Prod.fst).Nodup) (hx : (k, x) ∈ m)
    (hl : x'.labels = x.labels) : Tree.labelsM (replaceKey k x' m) = Tree.labelsM m := by
  have := congrArg (fun z => z.flatMap Prod.snd) (map_replace_same (f := Tree.labels) hn hx hl)
  simpa only [Tree.labelsM_map, List.flatMap_map] using this

theorem labels_apart {k k' : String} {x y : Tree} {m : List (String × Tree)} (hl : (Tree.labelsM m).Nodup) (hx : (k, x) ∈ m)
    (hy : (k', y) ∈ m) (hk : k' ≠ k) {b} (hb : b ∈ y.labels) : b ∉ x.labels := by
  have inM : ∀ {m : List (String × Tree)} {k x}, (k, x) ∈ m → ∀ b ∈ x.labels, b ∈ Tree.labelsM m := fun h b hb => by
    rw [Tree.labelsM_map]; exact List.mem_flatMap.2 ⟨_, h, hb⟩
  induction m with
  | nil => cases hx
  | cons e m ih =>
    obtain ⟨k0, z⟩ := e
    rw [Tree.labelsM, List.nodup_append] at hl
    obtain ⟨h1, h2, h3⟩ := hl
    intro hb'
    simp only [List.mem_cons, Prod.mk.injEq] at hx hy
    rcases hx with ⟨rfl, rfl⟩ | hx <;> rcases hy with ⟨rfl, rfl⟩ | hy
    · exact hk rfl
    · exact h3 b hb' b (inM hy b hb) rfl
    · exact h3 b hb b (inM hx b hb') rfl
    · exact ih h2 hx hy hb'

/-- What one step of a loop does to the part `t`. -/
def Step (P : String → Prop) (f : Val → M State Unit) (g : Json → M LState Json) (t : Tree) : Prop :=
  ∀ (ok : Nat → Prop) s l, (∀ a ∈ t.labels, ok a) → Holds s.mem t → Mid P (fun a => ok a ∧ a ∉ t.labels) s l →
    Sim (f t.val s) (g t.json l) fun _ s' D l' => ∃ t', t'.json = D ∧ Done t t' s s' ∧ Mid P ok s' l'

/-- Members of a map that are in memory. -/
structure Members (a : Nat) (m : List (String × Tree)) (s : State) : Prop where
  cell : s.mem a = m.map fun e => (e.1, e.2.val)
  parts : ∀ k x, (k, x) ∈ m → Holds s.mem x

theorem range_sim {P : String → Prop} {a : Nat} {f : Nat → String → Val → M State Unit} {g : Nat → String → Json → M LState Json} :
    ∀ {rest : List (String × Tree)} {i : Nat} {m : List (String × Tree)} {ok : Nat → Prop} {s : State} {l : LState},
    (m.map Prod.fst).Nodup → (rest.map Prod.fst).Nodup → (∀ e ∈ rest, e ∈ m) → (Tree.labelsM rest).Nodup → a ∉ Tree.labelsM m →
    (∀ i k t, (k, t) ∈ rest → Step P (f i k) (g i k) t) → (∀ b ∈ Tree.labelsM rest, ok b) →
    (Tree.labelsM m).Nodup →
    Members a m s → Mid P (fun b => ok b ∧ b ∉ Tree.labelsM rest) s l →
    Sim (rangeMap a f i (rest.map Prod.fst) s) (rangeKV g i (rest.map fun e => (e.1, e.2.json)) (m.map fun e => (e.1, e.2.json)) l)
      fun _ s' D l' => ∃ m', D = m'.map (fun e => (e.1, e.2.json)) ∧ m'.map (fun e => (e.1, e.2.val)) = m.map (fun e => (e.1, e.2.val)) ∧
        Tree.labelsM m' = Tree.labelsM m ∧ Members a m' s' ∧ (∀ b, b ∉ Tree.labelsM rest → s'.mem b = s.mem b) ∧ s'.next = s.next ∧
        (∀ k e, getKey k s.pool = some e → getKey k s'.pool = some e) ∧ Mid P ok s' l' := by
  intro rest
  induction rest with
  | nil =>
    intro i m ok s l _ _ _ _ _ _ _ _ hm hs
    exact Sim.ret ⟨m, rfl, rfl, rfl, hm, fun _ _ => rfl, rfl, fun _ _ h => h, hs.mono fun _ h => h.1⟩
  | cons e rest ih =>
    obtain ⟨k, x⟩ := e
    intro i m ok s l hn hr hsub hl ha hf hok hd hm hs
    have hx : (k, x) ∈ m := hsub _ (by simp)
    simp only [List.map_cons, List.nodup_cons] at hr
    rw [Tree.labelsM, List.nodup_append] at hl
    obtain ⟨l1, l2, l3⟩ := hl
    have hx' : ∀ b ∈ x.labels, b ∈ Tree.labelsM m := fun b hb => by
      rw [Tree.labelsM_map]; exact List.mem_flatMap.2 ⟨_, hx, hb⟩
    have get : getKey k (s.mem a) = some x.val := by
      rw [hm.cell, getKey_val, getKey_of_mem hn hx]; rfl
    have unf : rangeMap a f i (k :: rest.map Prod.fst) s = (f i k x.val >>= fun _ => rangeMap a f (i + 1) (rest.map Prod.fst)) s := by
      simp only [rangeMap, readMap, M.get, M.bind_def, M.pure_def, get]
    simp only [List.map_cons]
    rw [unf]
    simp only [rangeKV]
    have first := hf i k x (by simp) (fun b => ok b ∧ b ∉ Tree.labelsM rest) s l
      (fun b hb => ⟨hok b (by rw [Tree.labelsM]; exact List.mem_append_left _ hb), fun hb' => l3 b hb b hb' rfl⟩)
      (hm.parts k x hx)
      (hs.mono fun b hb => ⟨⟨hb.1, fun h => hb.2 (by rw [Tree.labelsM]; exact List.mem_append_right _ h)⟩,
        fun h => hb.2 (by rw [Tree.labelsM]; exact List.mem_append_left _ h)⟩)
    refine Sim.bind first ?_
    rintro _ s1 D l1 ⟨x', rfl, dn, hs1⟩
    have hmem : ∀ k' y, (k', y) ∈ replaceKey k x' m → (k' = k ∧ y = x') ∨ (k' ≠ k ∧ (k', y) ∈ m) := by
      intro k' y h
      by_cases e : k' = k
      · subst e
        rcases mem_replaceKey h with h1 | h1
        · left
          have := (getKey_of_mem (by rw [keys_replaceKey]; exact hn) h)
          have h2 : getKey k' (replaceKey k' x' m) = some x' := by
            refine getKey_of_mem (by rw [keys_replaceKey]; exact hn) ?_
            simp only [replaceKey, List.mem_map]
            exact ⟨_, hx, by simp⟩
          rw [h2] at this
          cases this
          exact ⟨rfl, rfl⟩
        · cases h1; exact .inl ⟨rfl, rfl⟩
      · right
        rcases mem_replaceKey h with h1 | h1
        · exact ⟨e, h1⟩
        · cases h1; exact absurd rfl e
    have eqv := map_replace_same (f := Tree.val) hn hx dn.val
    have eql := labels_replace hn hx dn.labels
    have hm1 : Members a (replaceKey k x' m) s1 := by
      refine ⟨?_, ?_⟩
      · rw [dn.frame a fun h => ha (hx' a h), hm.cell, eqv]
      · intro k' y hy
        rcases hmem k' y hy with ⟨_, rfl⟩ | ⟨h1, h2⟩
        · exact dn.holds
        · exact (hm.parts k' y h2).frame fun b hb => dn.frame b (labels_apart hd hx h2 h1 hb)
    have next := ih (i := i + 1) (m := replaceKey k x' m) (ok := ok) (s := s1) (l := l1) (by rw [keys_replaceKey]; exact hn) hr.2
      (fun e he => by
        obtain ⟨k', y⟩ := e
        have hk : k' ≠ k := fun e => hr.1 (List.mem_map.2 ⟨_, he, e⟩)
        simp only [replaceKey, List.mem_map]
        exact ⟨_, hsub _ (List.mem_cons_of_mem _ he), by simp [hk]⟩)
      l2 (by rw [eql]; exact ha) (fun i k t h => hf i k t (List.mem_cons_of_mem _ h))
      (fun b hb => hok b (by rw [Tree.labelsM]; exact List.mem_append_right _ hb)) (by rw [eql]; exact hd) hm1 hs1
    rw [map_replaceKey] at next
    refine next.mono ?_
    rintro _ s2 D l2 ⟨m', h1, h2, h3, h4, h5, h6, h7, h8⟩
    refine ⟨m', h1, h2.trans eqv, h3.trans eql, h4, fun b hb => ?_, h6.trans dn.next, fun k e h => h7 k e (dn.keeps k e h), h8⟩
    rw [Tree.labelsM, List.mem_append, not_or] at hb
    rw [h5 b hb.2, dn.frame b hb.1]

theorem slice_sim {P : String → Prop} {f : Nat → Val → M State Unit} {g : Nat → Json → M LState Json} :
    ∀ {xs : List Tree} {i : Nat} {ok : Nat → Prop} {s : State} {l : LState}, (Tree.labelsL xs).Nodup →
    (∀ i, ∀ t ∈ xs, Step P (f i) (g i) t) → (∀ b ∈ Tree.labelsL xs, ok b) → (∀ x ∈ xs, Holds s.mem x) →
    Mid P (fun b => ok b ∧ b ∉ Tree.labelsL xs) s l →
    Sim (rangeSlice f i (Tree.valL xs) s) (mapL g i (Tree.jsonL xs) l)
      fun _ s' D l' => ∃ ys, D = Tree.jsonL ys ∧ Tree.valL ys = Tree.valL xs ∧ Tree.labelsL ys = Tree.labelsL xs ∧
        (∀ y ∈ ys, Holds s'.mem y) ∧ (∀ b, b ∉ Tree.labelsL xs → s'.mem b = s.mem b) ∧ s'.next = s.next ∧
        (∀ k e, getKey k s.pool = some e → getKey k s'.pool = some e) ∧ Mid P ok s' l' := by
  intro xs
  induction xs with
  | nil =>
    intro i ok s l _ _ _ hm hs
    exact Sim.ret ⟨[], rfl, rfl, rfl, by simp, fun _ _ => rfl, rfl, fun _ _ h => h, hs.mono fun _ h => h.1⟩
  | cons x xs ih =>
    intro i ok s l hl hf hok hm hs
    rw [Tree.labelsL, List.nodup_append] at hl
    obtain ⟨l1, l2, l3⟩ := hl
    simp only [Tree.valL, Tree.jsonL, rangeSlice, mapL]
    have first := hf i x (by simp) (fun b => ok b ∧ b ∉ Tree.labelsL xs) s l
      (fun b hb => ⟨hok b (by rw [Tree.labelsL]; exact List.mem_append_left _ hb), fun hb' => l3 b hb b hb' rfl⟩)
      (hm x (by simp))
      (hs.mono fun b hb => ⟨⟨hb.1, fun h => hb.2 (by rw [Tree.labelsL]; exact List.mem_append_right _ h)⟩,
        fun h => hb.2 (by rw [Tree.labelsL]; exact List.mem_append_left _ h)⟩)
    have inL : ∀ y ∈ xs, ∀ b ∈ y.labels, b ∈ Tree.labelsL xs := fun y hy b hb => by
      rw [Tree.labelsL_map]; exact List.mem_flatMap.2 ⟨_, hy, hb⟩
    refine Sim.bind first ?_
    rintro _ s1 D l1' ⟨x', rfl, dn, hs1⟩
    have hm1 : ∀ y ∈ xs, Holds s1.mem y := fun y hy =>
      (hm y (List.mem_cons_of_mem _ hy)).frame fun b hb => dn.frame b fun h => l3 b h b (inL y hy b hb) rfl
    have next := ih (i := i + 1) (ok := ok) (s := s1) (l := l1') l2 (fun i t h => hf i t (List.mem_cons_of_mem _ h))
      (fun b hb => hok b (by rw [Tree.labelsL]; exact List.mem_append_right _ hb)) hm1 hs1
    refine Sim.into next ?_
    rintro _ s2 Ds l2' ⟨ys, rfl, h2, h3, h4, h5, h6, h7, h8⟩
    refine ⟨x' :: ys, rfl, by rw [Tree.valL, dn.val, h2], by rw [Tree.labelsL, Tree.labelsL, dn.labels, h3], ?_, ?_,
      h6.trans dn.next, fun k e h => h7 k e (dn.keeps k e h), h8⟩
    · intro y hy
      simp only [List.mem_cons] at hy
      rcases hy with rfl | hy
      · exact dn.holds.frame fun b hb => h5 b fun h => l3 b (dn.labels ▸ hb) b h rfl
      · exact h4 y hy
    · intro b hb
      rw [Tree.labelsL, List.mem_append, not_or] at hb
      rw [h5 b hb.2, dn.frame b hb.1]

/-! ### One level -/

theorem Step.const {P t} : Step P (fun _ => pure ()) (fun v => pure v) t := fun _ _ _ _ hh hm =>
  Sim.ret ⟨t, rfl, .same hh, hm.mono fun _ h => h.1⟩

theorem wf_tree {a m} (h : (Tree.obj a m).json.WF) : (m.map Prod.fst).Nodup ∧ ∀ k x, (k, x) ∈ m → x.json.WF := by
  rw [Tree.json] at h
  cases h with
  | obj _ h1 h2 =>
    rw [Tree.jsonM_map] at h1 h2
    refine ⟨by simpa [List.map_map, Function.comp_def] using h1, fun k x hx => ?_⟩
    exact h2 (k, x.json) (List.mem_map.2 ⟨_, hx, rfl⟩)

/-- A whole map, the members gone through in some order. -/
theorem map_sim {P : String → Prop} {σ : Sched} (hσ : Natural σ) {q : Path} {a : Nat} {f : Nat → String → Val → M State Unit}
    {g : Nat → String → Json → M LState Json} {m : List (String × Tree)} {ok : Nat → Prop} {s : State} {l : LState}
    (hn : (m.map Prod.fst).Nodup) (hl : (a :: Tree.labelsM m).Nodup) (hf : ∀ i k t, (k, t) ∈ m → Step P (f i k) (g i k) t)
    (hok : ∀ b ∈ Tree.labelsM m, ok b) (hm : Holds s.mem (.obj a m)) (hs : Mid P (fun b => ok b ∧ b ∉ Tree.labelsM m) s l) :
    Sim (rangeMap a f 0 ((σ.order q (m.map fun e => (e.1, e.2.val))).map Prod.fst) s)
      (rangeKV g 0 (σ.order q (m.map fun e => (e.1, e.2.json))) (m.map fun e => (e.1, e.2.json)) l)
      fun _ s' D l' => ∃ m', D = m'.map (fun e => (e.1, e.2.json)) ∧ Done (.obj a m) (.obj a m') s s' ∧ Mid P ok s' l' := by
  have hp := σ.perm q m
  have hpl : (Tree.labelsM (σ.order q m)).Perm (Tree.labelsM m) := by
    rw [Tree.labelsM_map, Tree.labelsM_map]
    exact hp.flatMap_right _
  rw [List.nodup_cons] at hl
  have := range_sim (P := P) (a := a) (f := f) (g := g) (rest := σ.order q m) (i := 0) (m := m) (ok := ok) (s := s) (l := l) hn
    ((hp.map Prod.fst).nodup_iff.2 hn) (fun e he => hp.mem_iff.1 he) (hpl.nodup_iff.2 hl.2) hl.1
    (fun i k t h => hf i k t (hp.mem_iff.1 h)) (fun b hb => hok b (hpl.mem_iff.1 hb)) hl.2
    ⟨hm.cell, fun k x h => hm.member h⟩ (hs.mono fun b hb => ⟨hb.1, fun h => hb.2 (hpl.mem_iff.1 h)⟩)
  rw [hσ, hσ, List.map_map]
  refine Sim.mono this ?_
  rintro _ s' D l' ⟨m', h1, h2, h3, h4, h5, h6, h7, h8⟩
  refine ⟨m', h1, ⟨rfl, by rw [Tree.labels, Tree.labels, h3], holds_obj h4.cell h4.parts, ?_, h6, h7⟩, h8⟩
  intro b hb
  rw [Tree.labels, List.mem_cons, not_or] at hb
  exact h5 b fun h => hb.2 (hpl.mem_iff.1 h)

theorem rewriteMember_sim {P : String → Prop} {σ : Sched} (hσ : Natural σ) {rec : Path → String → Val → M State Unit}
    {rec' : Path → String → Json → M LState Json} {p : Path} {b k : String} {t : Tree} (hw : t.json.WF) (hl : t.labels.Nodup)
    (h1 : ∀ p b, Step P (rec p b) (rec' p b) t)
    (h2 : ∀ a m k x, t = .obj a m → (k, x) ∈ m → ∀ p b, Step P (rec p b) (rec' p b) x) :
    Step P (rewriteMember σ rec p b k) (GJS.rewriteMember σ rec' p b k) t := by
  intro ok s l hok hh hm
  unfold rewriteMember GJS.rewriteMember
  split
  · exact Step.const ok s l hok hh hm
  · split
    · cases t with
      | obj c m =>
        rw [Tree.val, Tree.json, Tree.jsonM_map]
        simp only
        have unf : ∀ (F : List (String × Val) → M State Unit), (readMap c >>= F) s = F (m.map fun e => (e.1, e.2.val)) s := by
          intro F
          simp only [readMap, M.get, M.bind_def, M.pure_def, hh.cell]
        rw [unf]
        rw [Tree.labels] at hok hm hl
        refine Sim.into (map_sim (P := P) hσ (q := 53 :: p) (a := c) (f := fun j _ x => rec (j :: 54 :: p) b x)
          (g := fun j _ x => rec' (j :: 54 :: p) b x) (ok := ok) (wf_tree hw).1 hl (fun i k t h => h2 c m k t rfl h _ _)
          (fun b hb => hok b (List.mem_cons_of_mem _ hb)) hh ?_) ?_
        · exact hm.mono fun b hb => ⟨hb.1, fun h => hb.2 (List.mem_cons_of_mem _ h)⟩
        · rintro _ s' D l' ⟨m', rfl, h3, h4⟩
          exact ⟨.obj c m', by rw [Tree.json, Tree.jsonM_map], h3, h4⟩
      | _ => exact Step.const ok s l hok hh hm
    · exact h1 p b ok s l hok hh hm

theorem register_sim {P ok s l o} {v : Val} {D : Json} {dr : Option Draft} (h : Mid P ok s l) :
    Sim (register o ⟨v, dr⟩ s) (GJS.register o ⟨D, dr⟩ l) fun _ s' _ l' => s'.mem = s.mem ∧ s'.next = s.next ∧
      Mid (fun k => P k ∨ o = some k) ok s' l' ∧ (∀ k, o = some k → getKey k s'.pool = some ⟨v, dr⟩) ∧
      ∀ k e, o ≠ some k → getKey k s.pool = some e → getKey k s'.pool = some e := by
  cases o with
  | none => exact Sim.ret ⟨rfl, rfl, h.pend fun k hk => .inl hk, by simp, fun k e _ h => h⟩
  | some k =>
    refine ⟨rfl, rfl, ?_, ?_, ?_⟩
    · exact (h.pend fun k hk => .inl hk).put fun hn => absurd (.inr rfl) hn
    · rintro k' hk; cases hk; exact getKey_putKey_self
    · intro k' e hk he
      have : k' ≠ k := fun e => hk (by rw [e])
      exact (getKey_putKey_ne this).trans he

theorem rewriteRef_sim {w : World} {P : String → Prop} {ok : Nat → Prop} {s l b a} {m : List (String × Tree)} (hn : (m.map Prod.fst).Nodup)
    (hl : (a :: Tree.labelsM m).Nodup) (hh : Holds s.mem (.obj a m)) (hm : Mid P (fun b => ok b ∧ b ∉ a :: Tree.labelsM m) s l) :
    Sim (rewriteRef w b a s) (GJS.rewriteRef w b (m.map fun e => (e.1, e.2.json)) l) fun _ s' D l' =>
      ∃ m', D = m'.map (fun e => (e.1, e.2.json)) ∧ m'.map Prod.fst = m.map Prod.fst ∧ Done (.obj a m) (.obj a m') s s' ∧
        (∀ k x, (k, x) ∈ m' → (k, x) ∈ m ∨ ∃ t, x = .str t) ∧ Mid P (fun b => ok b ∧ b ∉ a :: Tree.labelsM m) s' l' := by
  unfold rewriteRef GJS.rewriteRef
  have unf : ∀ (F : List (String × Val) → M State Unit), (readMap a >>= F) s = F (m.map fun e => (e.1, e.2.val)) s := by
    intro F
    simp only [readMap, M.get, M.bind_def, M.pure_def, hh.cell]
  rw [unf]
  simp only [getKey_val, getKey_json]
  have same : ∀ l', l' = l → ∃ m', m.map (fun e => (e.1, e.2.json)) = m'.map (fun e => (e.1, e.2.json)) ∧
      m'.map Prod.fst = m.map Prod.fst ∧ Done (.obj a m) (.obj a m') s s ∧
      (∀ k x, (k, x) ∈ m' → (k, x) ∈ m ∨ ∃ t, x = .str t) ∧ Mid P (fun b => ok b ∧ b ∉ a :: Tree.labelsM m) s l' := by
    rintro _ rfl
    exact ⟨m, rfl, rfl, .same hh, fun k x h => .inl h, hm⟩
  cases hr : getKey "$ref" m with
  | none => exact Sim.ret (same _ rfl)
  | some t =>
    simp only [Option.map_some]
    refine Sim.bind isKind_sim ?_
    rintro x _ _ _ ⟨rfl, rfl, rfl⟩
    cases t with
    | str t =>
      cases x with
      | false => exact Sim.ret (same _ rfl)
      | true =>
        simp only [Tree.val, Tree.json]
        cases (w.norm t).bind (w.inherits b) with
        | none => exact Sim.ret (same _ rfl)
        | some u =>
          have hx := lookup_some_mem hr
          have hlab : Tree.labelsM (replaceKey "$ref" (.str u) m) = Tree.labelsM m := labels_replace hn hx rfl
          have hne : ∀ k y, (k, y) ∈ m → a ∉ y.labels := fun k y hy h => by
            rw [List.nodup_cons, Tree.labelsM_map] at hl
            exact hl.1 (List.mem_flatMap.2 ⟨_, hy, h⟩)
          refine ⟨replaceKey "$ref" (.str u) m, by rw [map_replaceKey]; rfl, keys_replaceKey, ⟨rfl, ?_, ?_, ?_, rfl, fun _ _ h => h⟩, ?_, ?_⟩
          · rw [Tree.labels, Tree.labels, hlab]
          · refine holds_obj ?_ ?_
            · simp only [Cells.set, if_true]
              rw [hh.cell, map_replaceKey]; rfl
            · intro k y hy
              rcases mem_replaceKey hy with h | h
              · exact (hh.member h).frame fun c hc => by
                  have : c ≠ a := fun e => hne k y h (e ▸ hc)
                  simp [Cells.set, this]
              · cases h; intro c ms n; cases n
          · intro c hc
            have : c ≠ a := fun e => hc (by rw [e, Tree.labels]; simp)
            simp [Cells.set, this]
          · intro k y hy
            rcases mem_replaceKey hy with h | h
            · exact .inl h
            · cases h; exact .inr ⟨u, rfl⟩
          · exact { hm with
              some := fun k hk e he => by
                obtain ⟨v, h1, h2⟩ := hm.some k hk e he
                refine ⟨v, h1, h2.frame fun c hc => ?_⟩
                have : c ≠ a := fun e => hc.2 (by rw [e]; simp)
                simp [Cells.set, this] }
    | _ => cases x <;> exact Sim.ret (same _ rfl)

/-! ### The recursion -/

theorem nodup_part {α : Type} {f : α → List Nat} : ∀ {xs : List α} {x}, (xs.flatMap f).Nodup → x ∈ xs → (f x).Nodup := by
  intro xs
  induction xs with
  | nil => intro x _ h; cases h
  | cons y ys ih =>
    intro x h hx
    rw [List.flatMap_cons, List.nodup_append] at h
    simp only [List.mem_cons] at hx
    rcases hx with rfl | hx
    · exact h.1
    · exact ih h.2.1 hx

theorem Step.mono {P t} {f f' : Val → M State Unit} {g g' : Json → M LState Json} (h : Step P f g t) (e1 : f = f') (e2 : g = g') :
    Step P f' g' t := e1 ▸ e2 ▸ h

theorem rewrite_sim {w : World} {σ : Sched} (hσ : Natural σ) {draft : Option Draft} : ∀ {n n' : Nat} {t : Tree} {p : Path} {ref : String}
    {P : String → Prop} {ok : Nat → Prop} {s : State} {l : LState}, t.json.size ≤ n → t.json.size ≤ n' → t.json.WF → t.labels.Nodup →
    (∀ a ∈ t.labels, ok a) → Holds s.mem t → Mid P (fun a => ok a ∧ a ∉ t.labels) s l →
    Sim (rewrite w σ draft n p ref t.val s) (GJS.rewrite w σ draft n' p ref t.json l)
      fun o s' D l' => o = D.2 ∧ ∃ t', t'.json = D.1 ∧ Done t t' s s' ∧ Mid P ok s' l' := by
  intro n
  induction n with
  | zero => intro n' t p ref P ok s l h; have := t.json.size_pos; omega
  | succ n ih =>
    intro n' t p ref P ok s l h1 h2 hw hl hok hh hm
    cases n' with
    | zero => have := t.json.size_pos; omega
    | succ n' =>
    -- the recursive calls
    have again : ∀ {x : Tree} {P : String → Prop} (q : Path) (b : String), x.json.size ≤ n → x.json.size ≤ n' → x.json.WF → x.labels.Nodup →
        Step P (fun v => do let _ ← rewrite w σ draft n q b v; return ())
          (fun v => do let y ← GJS.rewrite w σ draft n' q b v; return y.1) x := by
      intro x P q b g1 g2 g3 g4 ok s l g5 g6 g7
      refine Sim.bind (ih g1 g2 g3 g4 g5 g6 g7) ?_
      rintro o s' D l' ⟨_, h⟩
      exact Sim.ret h
    have same : Sim ((pure none : M State (Option CErr)) s) ((pure (t.json, none) : M LState (Json × Option CErr)) l)
        fun o s' D l' => o = D.2 ∧ ∃ t', t'.json = D.1 ∧ Done t t' s s' ∧ Mid P ok s' l' :=
      Sim.ret ⟨rfl, t, rfl, .same hh, hm.mono fun _ h => h.1⟩
    cases t with
    | arr xs =>
      simp only [Tree.val, Tree.json, rewrite, GJS.rewrite]
      rw [Tree.labels] at hl hok hm
      refine Sim.bind (slice_sim (P := P) (ok := ok) hl (fun i x hx => ?_) hok (fun x hx => hh.elem hx) hm) ?_
      · have hx' : x.json ∈ Tree.jsonL xs := by rw [Tree.jsonL_map]; exact List.mem_map_of_mem hx
        have hs := Json.size_lt_of_mem hx'
        have hwx : x.json.WF := by
          rw [Tree.json] at hw
          cases hw with
          | arr _ h => exact h _ hx'
        have hlx : x.labels.Nodup := by
          rw [Tree.labelsL_map] at hl
          exact nodup_part hl hx
        rw [Tree.json] at h1 h2
        exact again _ _ (by omega) (by omega) hwx hlx
      · rintro _ s' D l' ⟨ys, rfl, g2, g3, g4, g5, g6, g7, g8⟩
        exact Sim.ret ⟨rfl, .arr ys, rfl, ⟨by rw [Tree.val, Tree.val, g2], by rw [Tree.labels, Tree.labels, g3], holds_arr g4,
          fun a ha => g5 a (by rw [Tree.labels] at ha; exact ha), g6, g7⟩, g8⟩
    | obj a m =>
      obtain ⟨hn, hwm⟩ := wf_tree hw
      rw [Tree.labels] at hl hok hm
      simp only [Tree.val, Tree.json, Tree.jsonM_map, rewrite, GJS.rewrite, rewriteObj]
      have unf : ∀ (F : List (String × Val) → M State (Option CErr)), (readMap a >>= F) s = F (m.map fun e => (e.1, e.2.val)) s := by
        intro F
        simp only [readMap, M.get, M.bind_def, M.pure_def, hh.cell]
      rw [unf]
      refine Sim.bind idText_sim ?_
      rintro id _ _ _ ⟨rfl, rfl, rfl⟩
      refine Sim.bind idScope_sim ?_
      rintro sc _ _ _ ⟨rfl, rfl, rfl⟩
      refine Sim.bind (taken_sim hm) ?_
      rintro tk s l _ ⟨⟨rfl, rfl, rfl⟩, hfree⟩
      cases tk with
      | true =>
        simp only [if_true]
        exact Sim.ret ⟨rfl, .obj a m, by rw [Tree.json, Tree.jsonM_map], .same hh, hm.mono fun _ h => h.1⟩
      | false =>
        simp only [Bool.false_eq_true, if_false]
        refine Sim.bind (register_sim (v := .map a) (D := .obj (m.map fun e => (e.1, e.2.json))) (dr := draft) hm) ?_
        rintro _ s1 _ l1 ⟨e1, e2, hm1, k1, k2⟩
        have hh1 : Holds s1.mem (.obj a m) := by rw [e1]; exact hh
        refine Sim.bind (rewriteRef_sim (ok := ok) hn hl hh1 hm1) ?_
        rintro _ s2 D l2 ⟨m1, rfl, hk, dn1, hm1', hm2⟩
        have eql : Tree.labelsM m1 = Tree.labelsM m := by
          have := dn1.labels
          rw [Tree.labels, Tree.labels] at this
          exact (List.cons.inj this).2
        have unf2 : ∀ (F : List (String × Val) → M State (Option CErr)), (readMap a >>= F) s2 = F (m1.map fun e => (e.1, e.2.val)) s2 := by
          intro F
          simp only [readMap, M.get, M.bind_def, M.pure_def, dn1.holds.cell]
        rw [unf2]
        have sizes : ∀ k x, (k, x) ∈ m → x.json.size + 1 < (Tree.obj a m).json.size := fun k x hx => by
          rw [Tree.json, Tree.jsonM_map]
          exact Json.size_lt_of_mem_kv (List.mem_map.2 ⟨_, hx, rfl⟩)
        refine Sim.bind (map_sim (ok := ok) hσ (by rw [hk]; exact hn) (by rw [eql]; exact hl) (fun i k x hx => ?_)
          (fun b hb => hok b (List.mem_cons_of_mem _ (eql ▸ hb))) dn1.holds
          (hm2.mono fun b hb => ⟨hb.1, fun h => hb.2 (List.mem_cons_of_mem _ (eql ▸ h))⟩)) ?_
        · rcases hm1' k x hx with hx | ⟨u, rfl⟩
          · have hs := sizes k x hx
            have hlx : x.labels.Nodup := by
              rw [List.nodup_cons, Tree.labelsM_map] at hl
              exact nodup_part (f := fun e : String × Tree => e.2.labels) hl.2 hx
            refine rewriteMember_sim hσ (hwm k x hx) hlx (fun q b => again q b (by omega) (by omega) (hwm k x hx) hlx) ?_
            rintro c ms k' y rfl hy q b
            have hs' : y.json.size + 1 < (Tree.obj c ms).json.size := by
              rw [Tree.json, Tree.jsonM_map]
              exact Json.size_lt_of_mem_kv (List.mem_map.2 ⟨_, hy, rfl⟩)
            refine again q b (by omega) (by omega) ((wf_tree (hwm k _ hx)).2 k' y hy) ?_
            rw [Tree.labels, List.nodup_cons, Tree.labelsM_map] at hlx
            exact nodup_part (f := fun e : String × Tree => e.2.labels) hlx.2 hy
          · refine rewriteMember_sim hσ (.str u) (by simp [Tree.labels]) (fun q b => ?_) (by rintro c ms k' y h; cases h)
            have : k ∈ m.map Prod.fst := hk ▸ List.mem_map.2 ⟨_, hx, rfl⟩
            obtain ⟨⟨k', y⟩, hy, _⟩ := List.mem_map.1 this
            have hs := sizes k' y hy
            have := y.json.size_pos
            exact again q b (by simp only [Tree.json, Json.size]; omega) (by simp only [Tree.json, Json.size]; omega) (.str u) (by simp [Tree.labels])
        · rintro _ s3 D l3 ⟨m2, rfl, dn2, hm3⟩
          have keep : ∀ k e, getKey k s1.pool = some e → getKey k s3.pool = some e := fun k e h => dn2.keeps k e (dn1.keeps k e h)
          have labs : (Tree.obj a m2).labels = a :: Tree.labelsM m := by rw [dn2.labels, Tree.labels, eql]
          have dn : Done (.obj a m) (.obj a m2) s s3 := by
            refine ⟨rfl, by rw [labs, Tree.labels], dn2.holds, fun b hb => ?_, ?_, fun k e h => ?_⟩
            · rw [dn2.frame b (by rw [dn1.labels]; exact hb), dn1.frame b hb, e1]
            · rw [dn2.next, dn1.next, e2]
            · refine keep k e (k2 k e (fun ho => ?_) h)
              rw [hfree rfl k ho] at h
              cases h
          have fin : Mid P ok s3 { l3 with pool := match sc.2 with
              | some k => putKey k ⟨.obj (m2.map fun e => (e.1, e.2.json)), draft⟩ l3.pool
              | none => l3.pool } := by
            cases ho : sc.2 with
            | none => exact hm3.pend' (fun k hk => by rcases hk with h | h; exact h; rw [ho] at h; cases h)
            | some k =>
              refine { hm3 with none := fun k' => ?_, some := fun k' hk' e he => ?_ }
              · by_cases e : k' = k
                · subst e
                  simp only [getKey_putKey_self]
                  simp [keep k' _ (k1 k' ho)]
                · simp only [getKey_putKey_ne e]; exact hm3.none k'
              · by_cases e' : k' = k
                · subst e'
                  simp only [getKey_putKey_self, Option.some.injEq] at he
                  subst he
                  exact ⟨_, keep k' _ (k1 k' ho), .obj a m2, rfl, by rw [Tree.json, Tree.jsonM_map], dn2.holds,
                    fun b hb => hok b (labs ▸ hb)⟩
                · simp only [getKey_putKey_ne e'] at he
                  refine hm3.some k' (fun h => ?_) e he
                  rcases h with h | h
                  · exact hk' h
                  · rw [ho] at h; cases h; exact e' rfl
          have run : (GJS.register sc.2 ⟨.obj (m2.map fun e => (e.1, e.2.json)), draft⟩ >>= fun _ =>
              (pure (.obj (m2.map fun e => (e.1, e.2.json)), none) : M LState (Json × Option CErr))) l3 =
              (.ok (.obj (m2.map fun e => (e.1, e.2.json)), none), { l3 with pool := match sc.2 with
              | some k => putKey k ⟨.obj (m2.map fun e => (e.1, e.2.json)), draft⟩ l3.pool
              | none => l3.pool }) := by
            cases sc.2 <;> rfl
          rw [run]
          exact ⟨rfl, .obj a m2, by rw [Tree.json, Tree.jsonM_map], dn, fin⟩
    | _ => exact same

/-! ### The entry points -/

/-- Both do not change anything and give the same. -/
def Reads (x : M State α) (y : M LState α) (s : State) (l : LState) : Prop := ∃ r, x s = (r, s) ∧ y l = (r, l)

theorem Reads.ret {a : α} {s l} : Reads (pure a) (pure a) s l := ⟨.ok a, rfl, rfl⟩

theorem Reads.fail {f : Fail} {s l} : Reads (M.fail f : M State α) (M.fail f) s l := ⟨.error f, rfl, rfl⟩

theorem Reads.bind {x : M State α} {y : M LState α} {f : α → M State β} {g : α → M LState β} {s l} (h : Reads x y s l)
    (k : ∀ a, Reads (f a) (g a) s l) : Reads (x >>= f) (y >>= g) s l := by
  obtain ⟨r, h1, h2⟩ := h
  cases r with
  | error e => exact ⟨.error e, by rw [M.bind_def, h1], by rw [M.bind_def, h2]⟩
  | ok a =>
    obtain ⟨r, h3, h4⟩ := k a
    exact ⟨r, by rw [M.bind_def, h1]; exact h3, by rw [M.bind_def, h2]; exact h4⟩

theorem isKind_reads {env : Env} {t : Tree} {ks s l} : Reads (isKind env t.val ks) (GJS.isKind env t.json ks) s l := by
  cases t with
  | num n =>
    simp only [Tree.val, Tree.json, isKind, GJS.isKind]
    split
    · exact .ret
    · exact .fail
  | _ => exact Reads.ret

theorem parseSchemaURL_reads {w : World} {t : Tree} {s l} (hh : Holds s.mem t) :
    Reads (parseSchemaURL w t.val) (GJS.parseSchemaURL w t.json) s l := by
  unfold parseSchemaURL GJS.parseSchemaURL
  refine .bind isKind_reads fun b => ?_
  cases b with
  | true => exact .ret
  | false =>
    simp only [Bool.false_eq_true, if_false]
    refine .bind isKind_reads fun b => ?_
    cases b with
    | false => exact .fail
    | true =>
      simp only [Bool.not_true, Bool.false_eq_true, if_false]
      cases t with
      | obj a m =>
        simp only [Tree.val, Tree.json, Tree.jsonM_map, getKey_json]
        have unf : ∀ (F : List (String × Val) → M State (String × Option Draft)),
            (readMap a >>= F) s = F (m.map fun e => (e.1, e.2.val)) s := by
          intro F
          simp only [readMap, M.get, M.bind_def, M.pure_def, hh.cell]
        unfold Reads
        rw [unf]
        change Reads _ _ s l
        simp only [getKey_val]
        cases getKey "$schema" m with
        | none => exact .ret
        | some t =>
          simp only [Option.map_some]
          refine .bind isKind_reads fun b => ?_
          cases b with
          | false => exact .fail
          | true =>
            simp only [Bool.not_true, Bool.false_eq_true, if_false]
            cases t with
            | str t =>
              simp only [Tree.val, Tree.json]
              cases w.norm t with
              | none => exact .fail
              | some u => exact .ret
            | _ => exact .fail
      | _ => exact .fail

theorem detectDraft_reads {w : World} {t : Tree} {s l} (hh : Holds s.mem t) (ha : s.autoDetect = l.autoDetect) :
    Reads (detectDraft w t.val) (GJS.detectDraft w t.json) s l := by
  have unf : ∀ (F : State → M State (Option Draft)), (M.get >>= F) s = F s s := fun _ => rfl
  have unf' : ∀ (F : LState → M LState (Option Draft)), (M.get >>= F) l = F l l := fun _ => rfl
  unfold detectDraft GJS.detectDraft Reads
  rw [unf, unf', ha]
  change Reads _ _ s l
  cases l.autoDetect with
  | false => exact .ret
  | true =>
    simp only [if_true]
    exact .bind (parseSchemaURL_reads hh) fun _ => .ret

theorem parseReferences_sim {w : World} {σ : Sched} (hσ : Natural σ) {n : Nat} {p : Path} {t : Tree} {ref : String} {pooled : Bool}
    {ok : Nat → Prop} {s : State} {l : LState} (hn : t.json.size ≤ n) (hw : t.json.WF) (hl : t.labels.Nodup)
    (hok : ∀ a ∈ t.labels, ok a) (hh : Holds s.mem t) (ha : Agree (fun a => ok a ∧ a ∉ t.labels) s l) :
    Outcome (fun s' l' => s' = s ∧ l' = l) (parseReferences w σ n p t.val ref pooled s) (GJS.parseReferences w σ p t.json ref pooled l)
      fun o s' D l' => o = D.2 ∧ (∃ t', t'.json = D.1 ∧ Becomes t t' s s') ∧ Agree ok s' l' := by
  have hm : Mid (fun _ => False) (fun a => ok a ∧ a ∉ t.labels) s l := { ha with some := fun k _ => ha.some k }
  have back : ∀ {s l}, Mid (fun _ => False) ok s l → Agree ok s l := fun h => { h with some := fun k => h.some k id }
  unfold parseReferences GJS.parseReferences
  have he : existsMapKey s.pool ref = existsMapKey l.pool ref := by
    have := ha.none ref
    simp only [existsMapKey]
    cases h1 : getKey ref s.pool <;> cases h2 : getKey ref l.pool <;> simp_all
  have unf : ∀ (F : Bool → M State (Option CErr)), (inPool ref >>= F) s = F (existsMapKey l.pool ref) s := by
    intro F; simp only [inPool, M.get, M.bind_def, M.pure_def, he]
  have unf' : ∀ (F : Bool → M LState (Json × Option CErr)), (GJS.inPool ref >>= F) l = F (existsMapKey l.pool ref) l := by
    intro F; simp only [GJS.inPool, M.get, M.bind_def, M.pure_def]
  rw [unf, unf']
  cases hb : pooled && existsMapKey l.pool ref with
  | true =>
    simp only [if_true]
    exact ⟨rfl, ⟨t, rfl, rfl, rfl, hh, fun _ _ => rfl, rfl⟩, back (hm.mono fun _ h => h.1)⟩
  | false =>
    simp only [Bool.false_eq_true, if_false]
    obtain ⟨r, h1, h2⟩ := detectDraft_reads (w := w) (t := t) (l := l) hh ha.auto
    rw [M.bind_def, M.bind_def, h1, h2]
    cases r with
    | error f => exact ⟨rfl, fun e _ => ⟨rfl, rfl⟩⟩
    | ok draft =>
      simp only
      have R := rewrite_sim (w := w) hσ (draft := draft) (p := p) (ref := ref) (P := fun _ => False) (ok := ok) (s := s) (l := l) hn
        (Nat.le_refl _) hw hl hok hh hm
      rw [M.bind_def, M.bind_def]
      cases hx : rewrite w σ draft n p ref t.val s with
      | mk r s' =>
        cases hy : GJS.rewrite w σ draft t.json.size p ref t.json l with
        | mk r' l' =>
          rw [hx, hy] at R
          cases r with
          | error f =>
            cases r' with
            | error g => exact ⟨R.1, fun e h => absurd h (R.2 e)⟩
            | ok D => exact R.elim
          | ok o =>
            cases r' with
            | error g => exact R.elim
            | ok D =>
              obtain ⟨R1, t', R2, R3, R4⟩ := R
              have B : ∀ s2 : State, s2.mem = s'.mem → s2.next = s'.next → ∃ t', t'.json = D.1 ∧ Becomes t t' s s2 := fun s2 e1 e2 =>
                ⟨t', R2, R3.val, R3.labels, by rw [e1]; exact R3.holds, by rw [e1]; exact R3.frame, by rw [e2]; exact R3.next⟩
              cases pooled with
              | false => exact ⟨R1, B s' rfl rfl, back R4⟩
              | true =>
                exact ⟨R1, B _ rfl rfl, back (R4.put fun _ => ⟨t', R3.val, R2, R3.holds, fun a h => hok a (R3.labels ▸ h)⟩)⟩

/-! ### Loading -/

/-- `t` is new in memory. -/
structure Fresh (D : Json) (t : Tree) (s s' : State) : Prop where
  json : t.json = D
  holds : Holds s'.mem t
  nodup : t.labels.Nodup
  range : ∀ a ∈ t.labels, s.next ≤ a ∧ a < s'.next
  next : s.next ≤ s'.next
  frame : ∀ a, a < s.next → s'.mem a = s.mem a
  rest : s' = { s with mem := s'.mem, next := s'.next }

theorem Fresh.leaf {D t s} (h1 : t.json = D) (h2 : t.labels = []) (h3 : ∀ a m, ¬ Node t a m) : Fresh D t s s :=
  ⟨h1, fun a m n => absurd n (h3 a m), by simp [h2], by simp [h2], Nat.le_refl _, fun _ _ => rfl, rfl⟩

mutual
theorem alloc_ok : ∀ (D : Json) (s : State), ∃ t s', alloc D s = (.ok t.val, s') ∧ Fresh D t s s'
  | .null, s => ⟨.null, s, rfl, .leaf rfl rfl (by rintro a m ⟨⟩)⟩
  | .bool b, s => ⟨.bool b, s, rfl, .leaf rfl rfl (by rintro a m ⟨⟩)⟩
  | .num n, s => ⟨.num n, s, rfl, .leaf rfl rfl (by rintro a m ⟨⟩)⟩
  | .str t, s => ⟨.str t, s, rfl, .leaf rfl rfl (by rintro a m ⟨⟩)⟩
  | .arr xs, s => by
    obtain ⟨ts, s', h, h1, h2, h3, h4, h5, h6, h7⟩ := allocL_ok xs s
    refine ⟨.arr ts, s', by rw [alloc, M.bind_def, h]; rfl, by rw [Tree.json, h1], holds_arr h2, h3, h4, h5, h6, h7⟩
  | .obj m, s => by
    obtain ⟨ts, s', h, h1, h2, h3, h4, h5, h6, h7⟩ := allocM_ok m s
    have hne : s'.next ∉ Tree.labelsM ts := fun hm => absurd (h4 _ hm).2 (Nat.lt_irrefl _)
    refine ⟨.obj s'.next ts, { s' with mem := s'.mem.set s'.next (ts.map fun e => (e.1, e.2.val)), next := s'.next + 1 }, ?_, ?_⟩
    · rw [alloc, M.bind_def, h]; rfl
    · refine ⟨by rw [Tree.json, h1], holds_obj (by simp [Cells.set]) ?_, ?_, ?_, Nat.le_succ_of_le h5, ?_, ?_⟩
      · intro k x hx
        refine (h2 k x hx).frame fun a ha => ?_
        have : a ≠ s'.next := fun e => hne (by rw [Tree.labelsM_map]; exact List.mem_flatMap.2 ⟨_, hx, e ▸ ha⟩)
        simp [Cells.set, this]
      · rw [Tree.labels, List.nodup_cons]; exact ⟨hne, h3⟩
      · intro a ha
        rw [Tree.labels, List.mem_cons] at ha
        rcases ha with rfl | ha
        · exact ⟨h5, Nat.lt_succ_self _⟩
        · exact ⟨(h4 a ha).1, Nat.lt_succ_of_lt (h4 a ha).2⟩
      · intro a ha
        have : a ≠ s'.next := by omega
        simp only [Cells.set, this, if_false]
        exact h6 a ha
      · rw [h7]
theorem allocL_ok : ∀ (xs : List Json) (s : State), ∃ ts s', allocL xs s = (.ok (Tree.valL ts), s') ∧ Tree.jsonL ts = xs ∧
    (∀ t ∈ ts, Holds s'.mem t) ∧ (Tree.labelsL ts).Nodup ∧ (∀ a ∈ Tree.labelsL ts, s.next ≤ a ∧ a < s'.next) ∧ s.next ≤ s'.next ∧
    (∀ a, a < s.next → s'.mem a = s.mem a) ∧ s' = { s with mem := s'.mem, next := s'.next }
  | [], s => ⟨[], s, rfl, rfl, by simp, by simp [Tree.labelsL], by simp [Tree.labelsL], Nat.le_refl _, fun _ _ => rfl, rfl⟩
  | x :: xs, s => by
    obtain ⟨t, s1, h, f⟩ := alloc_ok x s
    obtain ⟨ts, s2, g, g1, g2, g3, g4, g5, g6, g7⟩ := allocL_ok xs s1
    refine ⟨t :: ts, s2, ?_, by rw [Tree.jsonL, f.json, g1], ?_, ?_, ?_, Nat.le_trans f.next g5, ?_, ?_⟩
    · rw [allocL, M.bind_def, h]; simp only; rw [M.bind_def, g]; rfl
    · intro y hy
      simp only [List.mem_cons] at hy
      rcases hy with rfl | hy
      · exact f.holds.frame fun a ha => g6 a (f.range a ha).2
      · exact g2 y hy
    · rw [Tree.labelsL, List.nodup_append]
      refine ⟨f.nodup, g3, fun a ha b hb e => ?_⟩
      have := (f.range a ha).2
      have := (g4 b hb).1
      omega
    · intro a ha
      rw [Tree.labelsL, List.mem_append] at ha
      rcases ha with ha | ha
      · have := f.range a ha; omega
      · have := g4 a ha; have := f.next; omega
    · intro a ha
      rw [g6 a (by have := f.next; omega), f.frame a ha]
    · rw [g7, f.rest]
theorem allocM_ok : ∀ (m : List (String × Json)) (s : State), ∃ ts s', allocM m s = (.ok (ts.map fun e => (e.1, e.2.val)), s') ∧
    Tree.jsonM ts = m ∧ (∀ k t, (k, t) ∈ ts → Holds s'.mem t) ∧ (Tree.labelsM ts).Nodup ∧
    (∀ a ∈ Tree.labelsM ts, s.next ≤ a ∧ a < s'.next) ∧ s.next ≤ s'.next ∧
    (∀ a, a < s.next → s'.mem a = s.mem a) ∧ s' = { s with mem := s'.mem, next := s'.next }
  | [], s => ⟨[], s, rfl, rfl, by simp, by simp [Tree.labelsM], by simp [Tree.labelsM], Nat.le_refl _, fun _ _ => rfl, rfl⟩
  | (k, x) :: m, s => by
    obtain ⟨t, s1, h, f⟩ := alloc_ok x s
    obtain ⟨ts, s2, g, g1, g2, g3, g4, g5, g6, g7⟩ := allocM_ok m s1
    refine ⟨(k, t) :: ts, s2, ?_, by rw [Tree.jsonM, f.json, g1], ?_, ?_, ?_, Nat.le_trans f.next g5, ?_, ?_⟩
    · rw [allocM, M.bind_def, h]; simp only; rw [M.bind_def, g]; rfl
    · intro k' y hy
      simp only [List.mem_cons, Prod.mk.injEq] at hy
      rcases hy with ⟨rfl, rfl⟩ | hy
      · exact f.holds.frame fun a ha => g6 a (f.range a ha).2
      · exact g2 k' y hy
    · rw [Tree.labelsM, List.nodup_append]
      refine ⟨f.nodup, g3, fun a ha b hb e => ?_⟩
      have := (f.range a ha).2
      have := (g4 b hb).1
      omega
    · intro a ha
      rw [Tree.labelsM, List.mem_append] at ha
      rcases ha with ha | ha
      · have := f.range a ha; omega
      · have := g4 a ha; have := f.next; omega
    · intro a ha
      rw [g6 a (by have := f.next; omega), f.frame a ha]
    · rw [g7, f.rest]
end

theorem Outcome.bind {E : State → LState → Prop} {x : M State α} {y : M LState β} {f : α → M State α'} {g : β → M LState β'} {s l}
    {R : α → State → β → LState → Prop} {R' : α' → State → β' → LState → Prop} (h : Outcome E (x s) (y l) R)
    (k : ∀ a s' b l', R a s' b l' → Outcome E (f a s') (g b l') R') : Outcome E ((x >>= f) s) ((y >>= g) l) R' := by
  rw [M.bind_def, M.bind_def]
  cases hx : x s with
  | mk r s' =>
    cases hy : y l with
    | mk r' l' =>
      rw [hx, hy] at h
      cases r <;> cases r' <;> simp only [Outcome] at h ⊢
      · exact h
      · exact k _ _ _ _ h

theorem Agree.mono {ok ok' s l} (h : Agree ok s l) (e : ∀ a, ok a → ok' a) : Agree ok' s l :=
  { h with some := fun k d hd => by obtain ⟨v, h1, h2⟩ := h.some k d hd; exact ⟨v, h1, h2.mono e⟩ }

theorem Agree.frame {ok s l mem next} (h : Agree ok s l) (e : ∀ a, ok a → mem a = s.mem a) :
    Agree ok { s with mem := mem, next := next } l :=
  { h with some := fun k d hd => by obtain ⟨v, h1, h2⟩ := h.some k d hd; exact ⟨v, h1, h2.frame e⟩ }

theorem After.refl {s l} (h : Agree (fun a => a < s.next) s l) : After s s l := ⟨h, Nat.le_refl _, fun _ _ => rfl⟩

theorem pointerGet_sim {w : World} {look} (hl : Looks w look) {r : String} {ok : Nat → Prop} {s l v D} (h : Stored s.mem ok v D)
    {E : State → LState → Prop} (hE : E s l) :
    Outcome E (pointerGet look r v s) (GJS.pointerGet w r D l) fun v' s' D' l' => Stored s.mem ok v' D' ∧ s' = s ∧ l' = l := by
  have := hl r s.mem ok v D h
  simp only [pointerGet, GJS.pointerGet, M.get, M.bind_def]
  cases h1 : look r s.mem v <;> cases h2 : w.pointer r D <;> rw [h1, h2] at this <;> simp only at this ⊢
  · exact ⟨rfl, fun _ _ => hE⟩
  · exact ⟨this, rfl, rfl⟩

theorem Agree.put {ok s l k v D dr} (h : Agree ok s l) (hv : Stored s.mem ok v D) :
    Agree ok { s with pool := putKey k ⟨v, dr⟩ s.pool } { l with pool := putKey k ⟨D, dr⟩ l.pool } :=
  have hm : Mid (fun _ => False) ok s l := { h with some := fun k _ => h.some k }
  { hm.put fun _ => hv with some := fun k => (hm.put (k := _) (dr := dr) fun _ => hv).some k id }

theorem fetch_sim {w : World} {r : String} {s l} (ha : Agree (fun a => a < s.next) s l) :
    Outcome (After s) (fetch w r s) (GJS.fetch w r l) fun v s' D l' =>
      loadReference w l.clock l.factory r = some D ∧ s.next ≤ s'.next ∧ (∀ a, a < s.next → s'.mem a = s.mem a) ∧
      ∃ t, t.val = v ∧ t.json = D ∧ Holds s'.mem t ∧ t.labels.Nodup ∧ (∀ a ∈ t.labels, s.next ≤ a ∧ a < s'.next) ∧
        Agree (fun a => a < s'.next ∧ a ∉ t.labels) s' l' := by
  have e : s.log.length + s.own.length = l.clock := by rw [ha.log, ha.own]; rfl
  have hA : Agree (fun a => a < s.next) { s with log := s.log ++ [(s.factory, r)] } { l with factory := s.factory, log := l.log ++ [(s.factory, r)] } :=
    { ha with factory := rfl, log := by simp only [ha.log] }
  simp only [fetch, GJS.fetch, e, ← ha.factory]
  cases h : loadReference w l.clock s.factory r with
  | none =>
    simp only
    exact ⟨rfl, fun _ _ => ⟨hA, Nat.le_refl _, fun _ _ => rfl⟩⟩
  | some D =>
    simp only
    obtain ⟨t, s', h1, f⟩ := alloc_ok D { s with log := s.log ++ [(s.factory, r)] }
    rw [h1]
    refine ⟨rfl, f.next, f.frame, t, rfl, f.json, f.holds, f.nodup, f.range, ?_⟩
    rw [f.rest]
    refine (hA.frame f.frame).mono fun a h => ⟨Nat.lt_of_lt_of_le h f.next, fun ht => ?_⟩
    have := (f.range a ht).1
    simp only at this
    omega

theorem getRemote_sim {w : World} {look} (hL : Looks w look) {σ : Sched} (hσ : Natural σ) {n : Nat} {p : Path} {r : String} {s : State} {l : LState}
    (hD : ∀ D, loadReference w l.clock l.factory r = some D → D.WF ∧ D.size ≤ n) (ha : Agree (fun a => a < s.next) s l) :
    Outcome (After s) (getRemote w look σ n p r s) (GJS.getRemote w σ p r l)
      fun e s' e' l' => e.draft = e'.draft ∧ Stored s'.mem (fun a => a < s'.next) e.doc e'.doc ∧ After s s' l' := by
  unfold getRemote GJS.getRemote
  cases hc : w.canonical r with
  | false => exact ⟨rfl, fun _ _ => .refl ha⟩
  | true =>
    simp only [Bool.not_true, Bool.false_eq_true, if_false]
    refine .bind (fetch_sim ha) fun v s1 D l1 ⟨h1, h2, h3, t, h4, h5, h6, h7, h8, h9⟩ => ?_
    subst h4 h5
    obtain ⟨hw, hn⟩ := hD _ h1
    have S := parseReferences_sim (w := w) hσ (p := p) (ref := w.base r) (pooled := true) hn hw h7 (fun a h => (h8 a h).2) h6 h9
    have S' : Outcome (After s) (parseReferencesIgnore w σ n p t.val (w.base r) s1) (GJS.parseReferencesIgnore w σ p t.json (w.base r) l1)
        fun _ s2 D l2 => (∃ t', t'.json = D ∧ Becomes t t' s1 s2) ∧ Agree (fun a => a < s1.next) s2 l2 := by
      unfold parseReferencesIgnore GJS.parseReferencesIgnore
      cases hx : parseReferences w σ n p t.val (w.base r) true s1 with
      | mk a s2 =>
        cases hy : GJS.parseReferences w σ p t.json (w.base r) true l1 with
        | mk b l2 =>
          rw [hx, hy] at S
          cases a with
          | ok a =>
            cases b with
            | ok b => exact S.2
            | error g => exact S.elim
          | error f =>
            cases b with
            | ok b => exact S.elim
            | error g =>
              obtain ⟨rfl, S2⟩ := S
              cases f with
              | err e =>
                obtain ⟨rfl, rfl⟩ := S2 e rfl
                exact ⟨⟨t, rfl, rfl, rfl, h6, fun _ _ => rfl, rfl⟩, h9.mono fun _ h => h.1⟩
              | panic => exact ⟨rfl, by simp⟩
              | fuel => exact ⟨rfl, by simp⟩
    refine .bind S' fun _ s2 D l2 ⟨⟨t', e1, B⟩, A⟩ => ?_
    subst e1
    have hAft : After s s2 l2 := by
      refine ⟨by rw [B.next]; exact A, by rw [B.next]; exact h2, fun a h => ?_⟩
      rw [B.frame a fun hm => ?_, h3 a h]
      have := (h8 a hm).1
      omega
    rw [← B.val]
    have R : Outcome (After s) (schemaDraftIgnore w t'.val s2) (GJS.schemaDraftIgnore w t'.json l2) fun d s3 d' l3 => d = d' ∧ s3 = s2 ∧ l3 = l2 := by
      obtain ⟨x, x1, x2⟩ := parseSchemaURL_reads (w := w) (t := t') (l := l2) B.holds
      simp only [schemaDraftIgnore, GJS.schemaDraftIgnore, x1, x2]
      cases x with
      | ok x => exact ⟨rfl, rfl, rfl⟩
      | error f =>
        cases f with
        | err e => exact ⟨rfl, rfl, rfl⟩
        | panic => exact ⟨rfl, by simp⟩
        | fuel => exact ⟨rfl, by simp⟩
    refine .bind R ?_
    rintro d s3 _ _ ⟨rfl, rfl, rfl⟩
    have hS : Stored s3.mem (fun a => a < s3.next) t'.val t'.json := ⟨t', rfl, rfl, B.holds, fun a h => by
      rw [B.next]; exact (h8 a (B.labels ▸ h)).2⟩
    refine .bind (pointerGet_sim hL hS hAft) ?_
    rintro v _ D _ ⟨h, rfl, rfl⟩
    exact ⟨rfl, h, hAft⟩

theorem getDocument_sim {w : World} {look} (hL : Looks w look) {σ : Sched} (hσ : Natural σ) {n : Nat} {p : Path} {r : String} {s : State} {l : LState}
    (hD : ∀ D, loadReference w l.clock l.factory r = some D → D.WF ∧ D.size ≤ n) (ha : Agree (fun a => a < s.next) s l) :
    Outcome (After s) (getDocument w look σ n p r s) (GJS.getDocument w σ p r l)
      fun e s' e' l' => e.draft = e'.draft ∧ Stored s'.mem (fun a => a < s'.next) e.doc e'.doc ∧ After s s' l' := by
  unfold getDocument GJS.getDocument
  have unf : ∀ k (F : Option Entry → M State Entry), (poolGet k >>= F) s = F (getKey k s.pool) s := by
    intro k F; simp only [poolGet, M.get, M.bind_def, M.pure_def]
  have unf' : ∀ k (F : Option PoolDoc → M LState PoolDoc), (GJS.poolGet k >>= F) l = F (getKey k l.pool) l := by
    intro k F; simp only [GJS.poolGet, M.get, M.bind_def, M.pure_def]
  rw [unf, unf']
  cases h : getKey r l.pool with
  | some e =>
    obtain ⟨v, h1, h2⟩ := ha.some r e h
    rw [h1]
    exact ⟨rfl, h2, .refl ha⟩
  | none =>
    rw [(ha.none r).2 h]
    simp only
    rw [unf, unf']
    cases h' : getKey (w.base r) l.pool with
    | none =>
      rw [(ha.none _).2 h']
      exact getRemote_sim hL hσ hD ha
    | some e =>
      obtain ⟨v, h1, h2⟩ := ha.some _ e h'
      rw [h1]
      simp only [getCached]
      refine .bind (pointerGet_sim hL h2 (.refl ha)) ?_
      rintro v _ D _ ⟨h3, rfl, rfl⟩
      exact ⟨rfl, h3, ha.put h3, Nat.le_refl _, fun _ _ => rfl⟩

/-! ### Trees are determined by their documents and addresses -/

mutual
theorem labels_length : ∀ t t' : Tree, t.json = t'.json → t.labels.length = t'.labels.length
  | .null, t', h => by cases t' <;> simp_all [Tree.json, Tree.labels]
  | .bool _, t', h => by cases t' <;> simp_all [Tree.json, Tree.labels]
  | .num _, t', h => by cases t' <;> simp_all [Tree.json, Tree.labels]
  | .str _, t', h => by cases t' <;> simp_all [Tree.json, Tree.labels]
  | .arr xs, t', h => by
    cases t' with
    | arr ys => rw [Tree.json, Tree.json] at h; injection h with h; exact labelsL_length xs ys h
    | _ => simp [Tree.json] at h
  | .obj a m, t', h => by
    cases t' with
    | obj b m' =>
      rw [Tree.json, Tree.json] at h; injection h with h
      rw [Tree.labels, Tree.labels, List.length_cons, List.length_cons, labelsM_length m m' h]
    | _ => simp [Tree.json] at h
theorem labelsL_length : ∀ xs ys : List Tree, Tree.jsonL xs = Tree.jsonL ys → (Tree.labelsL xs).length = (Tree.labelsL ys).length
  | [], ys, h => by cases ys <;> simp_all [Tree.jsonL]
  | x :: xs, ys, h => by
    cases ys with
    | nil => simp [Tree.jsonL] at h
    | cons y ys =>
      rw [Tree.jsonL, Tree.jsonL] at h
      injection h with h1 h2
      rw [Tree.labelsL, Tree.labelsL, List.length_append, List.length_append, labels_length x y h1, labelsL_length xs ys h2]
theorem labelsM_length : ∀ xs ys : List (String × Tree), Tree.jsonM xs = Tree.jsonM ys → (Tree.labelsM xs).length = (Tree.labelsM ys).length
  | [], ys, h => by cases ys <;> simp_all [Tree.jsonM]
  | (k, x) :: xs, ys, h => by
    cases ys with
    | nil => simp [Tree.jsonM] at h
    | cons y ys =>
      obtain ⟨k', y⟩ := y
      rw [Tree.jsonM, Tree.jsonM] at h
      injection h with h1 h2
      injection h1 with _ h1
      rw [Tree.labelsM, Tree.labelsM, List.length_append, List.length_append, labels_length x y h1, labelsM_length xs ys h2]
end

mutual
theorem tree_ext : ∀ {t t' : Tree}, t.json = t'.json → t.labels = t'.labels → t = t'
  | .null, t', h, _ => by cases t' <;> simp_all [Tree.json]
  | .bool _, t', h, _ => by cases t' <;> simp_all [Tree.json]
  | .num _, t', h, _ => by cases t' <;> simp_all [Tree.json]
  | .str _, t', h, _ => by cases t' <;> simp_all [Tree.json]
  | .arr xs, t', h, hl => by
    cases t' with
    | arr ys => rw [Tree.json, Tree.json] at h; injection h with h; rw [treeL_ext h hl]
    | _ => simp [Tree.json] at h
  | .obj a m, t', h, hl => by
    cases t' with
    | obj b m' =>
      rw [Tree.json, Tree.json] at h; injection h with h
      rw [Tree.labels, Tree.labels] at hl
      injection hl with h1 h2
      rw [h1, treeM_ext h h2]
    | _ => simp [Tree.json] at h
theorem treeL_ext : ∀ {xs ys : List Tree}, Tree.jsonL xs = Tree.jsonL ys → Tree.labelsL xs = Tree.labelsL ys → xs = ys
  | [], ys, h, _ => by cases ys <;> simp_all [Tree.jsonL]
  | x :: xs, ys, h, hl => by
    cases ys with
    | nil => simp [Tree.jsonL] at h
    | cons y ys =>
      rw [Tree.jsonL, Tree.jsonL] at h
      injection h with h1 h2
      rw [Tree.labelsL, Tree.labelsL] at hl
      obtain ⟨g1, g2⟩ := List.append_inj hl (labels_length x y h1)
      rw [tree_ext h1 g1, treeL_ext h2 g2]
theorem treeM_ext : ∀ {xs ys : List (String × Tree)}, Tree.jsonM xs = Tree.jsonM ys → Tree.labelsM xs = Tree.labelsM ys → xs = ys
  | [], ys, h, _ => by cases ys <;> simp_all [Tree.jsonM]
  | (k, x) :: xs, ys, h, hl => by
    cases ys with
    | nil => simp [Tree.jsonM] at h
    | cons y ys =>
      obtain ⟨k', y⟩ := y
      rw [Tree.jsonM, Tree.jsonM] at h
      injection h with h1 h2
      injection h1 with h0 h1
      rw [Tree.labelsM, Tree.labelsM] at hl
      obtain ⟨g1, g2⟩ := List.append_inj hl (labels_length x y h1)
      rw [h0, tree_ext h1 g1, treeM_ext h2 g2]
end

mutual
theorem node_of_label : ∀ {t : Tree} {a}, a ∈ t.labels → ∃ m, Node t a m
  | .null, a, h => by simp [Tree.labels] at h
  | .bool _, a, h => by simp [Tree.labels] at h
  | .num _, a, h => by simp [Tree.labels] at h
  | .str _, a, h => by simp [Tree.labels] at h
  | .arr xs, a, h => by
    obtain ⟨x, hx, m, hm⟩ := node_of_labelL (xs := xs) h
    exact ⟨m, .elem _ _ _ _ hx hm⟩
  | .obj b m, a, h => by
    rw [Tree.labels, List.mem_cons] at h
    rcases h with rfl | h
    · exact ⟨m, .here _ _⟩
    · obtain ⟨k, x, hx, m', hm⟩ := node_of_labelM (m := m) h
      exact ⟨m', .member _ _ _ _ _ _ hx hm⟩
theorem node_of_labelL : ∀ {xs : List Tree} {a}, a ∈ Tree.labelsL xs → ∃ x ∈ xs, ∃ m, Node x a m
  | [], a, h => by simp [Tree.labelsL] at h
  | x :: xs, a, h => by
    rw [Tree.labelsL, List.mem_append] at h
    rcases h with h | h
    · obtain ⟨m, hm⟩ := node_of_label (t := x) h; exact ⟨x, by simp, m, hm⟩
    · obtain ⟨y, hy, m, hm⟩ := node_of_labelL (xs := xs) h; exact ⟨y, by simp [hy], m, hm⟩
theorem node_of_labelM : ∀ {m : List (String × Tree)} {a}, a ∈ Tree.labelsM m → ∃ k x, (k, x) ∈ m ∧ ∃ m', Node x a m'
  | [], a, h => by simp [Tree.labelsM] at h
  | (k, x) :: xs, a, h => by
    rw [Tree.labelsM, List.mem_append] at h
    rcases h with h | h
    · obtain ⟨m, hm⟩ := node_of_label (t := x) h; exact ⟨k, x, by simp, m, hm⟩
    · obtain ⟨k', y, hy, m, hm⟩ := node_of_labelM (m := xs) h; exact ⟨k', y, by simp [hy], m, hm⟩
end

theorem rw_wf {w : World} {T : Prop} {b D D'} (hD : D.WF) (h : Spec.RwT w T b D D') : D'.WF :=
  wf_unblank _ (by rw [rw_blank h]; exact wf_blank _ hD)

end GJS.Mem

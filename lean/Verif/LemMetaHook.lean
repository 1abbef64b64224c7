import Verif.SpecMetaReturn
import Verif.LemMetaReturn
import Verif.PropTerm
import Verif.PropGap
/-
Helper lemmas: a loader that checks against built-in meta-schemas does not run out of fuel.
-/
namespace GJS
open Spec

/-! ### `$schema` survives rewriting -/

/-- The text `t` stands under `$schema` somewhere in the document. -/
def Decl (D : Json) (t : String) : Prop := ∃ m, Within D (.obj m) ∧ ("$schema", .str t) ∈ m

theorem decl_arr {xs t} : Decl (.arr xs) t ↔ ∃ x ∈ xs, Decl x t := by
  constructor
  · rintro ⟨m, h, hm⟩
    cases h with
    | elem _ y _ hy h => exact ⟨y, hy, m, h, hm⟩
  · rintro ⟨x, hx, m, h, hm⟩
    exact ⟨m, .elem _ _ _ hx h, hm⟩

theorem decl_obj {c t} : Decl (.obj c) t ↔ ("$schema", .str t) ∈ c ∨ ∃ k v, (k, v) ∈ c ∧ Decl v t := by
  constructor
  · rintro ⟨m, h, hm⟩
    cases h with
    | self => exact .inl hm
    | member _ k y _ hy h => exact .inr ⟨k, y, hy, m, h, hm⟩
  · rintro (h | ⟨k, v, hv, m, h, hm⟩)
    · exact ⟨c, .self _, h⟩
    · exact ⟨m, .member _ _ _ _ hv h, hm⟩

theorem at_key {c c' : List (String × Json)} (hk : c.map Prod.fst = c'.map Prod.fst) {k v'} (h : (k, v') ∈ c') :
    ∃ (i : Nat) (v : Json), c[i]? = some (k, v) ∧ c'[i]? = some (k, v') := by
  obtain ⟨i, hi⟩ := List.getElem?_of_mem h
  have e : (c.map Prod.fst)[i]? = (c'.map Prod.fst)[i]? := by rw [hk]
  rw [List.getElem?_map, List.getElem?_map, hi] at e
  cases hx : c[i]? with
  | none => rw [hx] at e; cases e
  | some kv =>
    rw [hx] at e
    obtain ⟨k1, v⟩ := kv
    simp only [Option.map_some, Option.some.injEq] at e
    subst e
    exact ⟨i, v, hx, hi⟩

theorem rw_decl {w : World} {T : Prop} {base : String} {D D' : Json} (h : RwT w T base D D') :
    (∀ t, D' = .str t → D = .str t) ∧ ∀ t, Decl D' t → Decl D t := by
  refine RwT.rec (motive_1 := fun _ D D' _ => (∀ t, D' = .str t → D = .str t) ∧ ∀ t, Decl D' t → Decl D t)
    (motive_2 := fun _ k v v' _ => (k = "$schema" → ∀ t, v' = .str t → v = .str t) ∧ ∀ t, Decl v' t → Decl v t)
    ?_ ?_ ?_ ?_ ?_ ?_ ?_ ?_ ?_ ?_ h
  · intro _ v _ _; exact ⟨fun _ h => h, fun _ h => h⟩
  · intro base xs ys hlen _ ih
    refine ⟨fun t h => by (cases h), fun t h => ?_⟩
    obtain ⟨y, hy, hd⟩ := decl_arr.1 h
    obtain ⟨i, hi⟩ := List.getElem?_of_mem hy
    have hx : i < xs.length := by
      have := (List.getElem?_eq_some_iff.1 hi).1
      omega
    exact decl_arr.2 ⟨xs[i], List.getElem_mem hx, (ih i xs[i] y (List.getElem?_eq_getElem hx) hi).2 t hd⟩
  · intro base m m' hk _ ih
    refine ⟨fun t h => by (cases h), fun t h => decl_obj.2 ?_⟩
    rcases decl_obj.1 h with h | ⟨k, v', h, hd⟩
    · obtain ⟨i, v, h1, h2⟩ := at_key hk h
      have e := (ih i _ v _ h1 h2).1 rfl t rfl
      subst e
      exact .inl (List.mem_of_getElem? h1)
    · obtain ⟨i, v, h1, h2⟩ := at_key hk h
      exact .inr ⟨k, v, List.mem_of_getElem? h1, (ih i _ v _ h1 h2).2 t hd⟩
  · intros; exact ⟨fun _ h => h, fun _ h => h⟩
  · intros; exact ⟨fun _ _ h => h, fun _ h => h⟩
  · intro base t t' _
    refine ⟨fun h => absurd h (by decide), fun t h => ?_⟩
    obtain ⟨m, h, _⟩ := h
    cases h
  · intros; exact ⟨fun _ _ h => h, fun _ h => h⟩
  · intro base k c c' _ hk _ ih
    refine ⟨fun _ t h => by (cases h), fun t h => decl_obj.2 ?_⟩
    rcases decl_obj.1 h with h | ⟨k, v', h, hd⟩
    · obtain ⟨i, v, h1, h2⟩ := at_key hk h
      have e := (ih i _ v _ h1 h2).1 t rfl
      subst e
      exact .inl (List.mem_of_getElem? h1)
    · obtain ⟨i, v, h1, h2⟩ := at_key hk h
      exact .inr ⟨k, v, List.mem_of_getElem? h1, (ih i _ v _ h1 h2).2 t hd⟩
  · intros; exact ⟨fun _ _ h => h, fun _ h => h⟩
  · intro base k v v' _ _ _ _ ih; exact ⟨fun _ => ih.1, ih.2⟩

/-- A well-formed document that names built-in meta-schemas only. -/
def Plain (w : World) (D : Json) : Prop := D.WF ∧ BuiltInSchema w D

section
variable {w : World} {σ : Sched}

theorem Plain.within {D x} (h : Plain w D) (hx : Within D x) : Plain w x :=
  ⟨wf_within hx h.1, fun m t u h1 h2 h3 => h.2 m t u (within_trans hx h1) h2 h3⟩

theorem plain_closed : RwClosed w (fun _ D => Plain w D) (Plain w) where
  wf := fun _ _ h => h.1
  elem := fun _ _ _ h hx => h.within (within_elem hx)
  member := fun _ _ k v h hx _ _ => h.within (within_member (kv := (k, v)) hx)
  inMap := fun _ _ k c n x h hc _ hx =>
    h.within (within_trans (within_member (kv := (k, .obj c)) hc) (within_member (kv := (n, x)) hx))
  str := fun _ _ _ _ => ⟨.str _, fun _ _ _ h => by cases h⟩
  done := fun _ _ _ h hr => ⟨wf_unblank _ (by rw [rw_blank hr]; exact wf_blank _ h.1), fun m t u h1 h2 h3 => by
    obtain ⟨m', h4, h5⟩ := (rw_decl hr).2 t ⟨m, h1, h2⟩
    exact h.2 m' t u h4 h5 h3⟩
  raw := fun _ _ h => h

/-- All documents in the pool are plain. -/
theorem plain_inv (hp : PointersInside w) (hb : ∀ n f s D, loadReference w n f s = some D → Plain w D) :
    LoaderInv w σ (PoolAll (Plain w)) (fun _ => False) (Plain w) where
  get := fun _ _ => .of_tri (getDocument_all plain_closed (fun _ _ hD hd => hD.within (hp _ _ _ hd)) fun n f d hd => hb n f _ d hd)
  refs := fun _ _ _ _ _ hD => .of_tri (parseReferences_all plain_closed hD)
  own := fun _ _ h => h
  factory := fun _ _ h => h
  validate := fun _ _ h => h
  err := fun _ h => h
  fuel := id
  docs := docsFine_of (fun _ _ _ h hk => h.within (within_get hk)) (fun _ _ h hk => h.within (within_member hk))
    fun _ _ h hk => h.within (within_elem hk)

theorem plain_root (hb : BuiltInSchema w D) {l : LState} {u} (hd : Drafted l.draft) (hm : MetaRef w l D u) :
    MetaFor w l D u ∧ ∃ d, Known u d := by
  rcases hm with hm | ⟨_, h1, h2⟩
  · refine ⟨hm, ?_⟩
    cases hm with
    | declared m t _ _ e hk hn hne =>
      subst e
      rcases hb m t u (.self _) (lookup_some_mem hk) hn with h | h
      · exact absurd h hne
      · exact h
    | default _ _ _ hk => exact ⟨_, hk⟩
  · rcases hd with hd | ⟨u', hd⟩
    · exact absurd hd h1
    · exact absurd hd (h2 u')

theorem metaSchemaURL_noFuel {doc} : Avoid IsFuel (metaSchemaURL w doc) := by
  unfold metaSchemaURL
  refine .bind ?_ fun s => .bind .get fun l => ?_
  · unfold detectedURL
    refine .bind .get fun l => ?_
    split
    · exact .bind parseSchemaURL_noFuel fun _ => .pure
    · exact .pure
  · split
    · split <;> exact .pure
    · exact .pure

/-! ### The loader -/

variable {L : List (String × Json)} {S : Nat} {rs : List String}

/-- The state of a loader all of whose documents are in the set and plain. -/
structure MHeld (w : World) (L : List (String × Json)) (S : Nat) (rs : List String) (l : LState) : Prop where
  fine : PoolAll (PoolFine w S (Refs w L rs)) l
  plain : PoolAll (Plain w) l
  clean : ∀ u d, Known u d → Clean w u d l
  draft : Drafted l.draft

theorem MHeld.of {x : M LState α} {Q1 Q2 Q4 : α → Prop} {Q3 : String → α → Prop} (h1 : Safe (PoolAll (PoolFine w S (Refs w L rs))) IsFuel x Q1)
    (h2 : Safe (PoolAll (Plain w)) (fun _ => False) x Q2)
    (h3 : ∀ u d, Known u d → Safe (Clean w u d) (fun _ => False) x (Q3 u))
    (h4 : ∀ l, Safe (SameSettings l) (fun _ => False) x Q4) : Safe (MHeld w L S rs) IsFuel x (fun a => Q1 a ∧ Q2 a ∧
      ∀ u d, Known u d → Q3 u a) := by
  intro l hl
  refine ⟨⟨(h1 l hl.fine).1, (h2 l hl.plain).1, fun u d hk => (h3 u d hk l (hl.clean u d hk)).1, ?_⟩,
    fun a l' h => ⟨(h1 l hl.fine).2.1 a l' h, (h2 l hl.plain).2.1 a l' h,
      fun u d hk => (h3 u d hk l (hl.clean u d hk)).2.1 a l' h⟩, (h1 l hl.fine).2.2⟩
  rw [((h4 l) l ⟨rfl, rfl⟩).1.2]
  exact hl.draft

/-- What is known of the world. -/
structure Surroundings (w : World) (L : List (String × Json)) (S : Nat) (rs : List String) : Prop where
  lawful : Lawful w
  bounded : Bounded w L S rs
  metas : BuiltInsOnly w L

variable {fuel : Fuel}

theorem Surroundings.brings (h : Surroundings w L S rs) {n f s D} (hl : loadReference w n f s = some D) : Plain w D :=
  ⟨loadReference_wf h.lawful hl, h.metas.texts _ _ _ _ hl⟩

theorem Surroundings.inv (h : Surroundings w L S rs) : LoaderInv w σ (PoolAll (Plain w)) (fun _ => False) (Plain w) :=
  plain_inv h.bounded.pointer fun _ _ _ _ hl => h.brings hl

theorem Surroundings.refs (h : Surroundings w L S rs) : RefsOK w (Plain w) := fun _ _ _ _ _ hl => h.brings hl

theorem Surroundings.arg (h : Surroundings w L S rs) {a} (ha : ∀ D, a = .direct (some D) → Plain w D) : ArgOK w (Plain w) a := by
  cases a with
  | direct o => rintro d rfl; exact ha d rfl
  | reference s f => exact fun n d hl => h.brings hl

theorem validateMetaschema_held (h : Surroundings w L S rs) (hn : rs.length * (S + 1) + S ≤ fuel.parse)
    (hv : S * (Flat.depth + 1) + Flat.depth < fuel.validate) {p D} (hD : PoolFine w S (Refs w L rs) D) (hP : Plain w D) :
    Safe (MHeld w L S rs) IsFuel (validateMetaschema w σ fuel p D) (fun _ => True) := by
  intro l hl
  have key : PoolAll (PoolFine w S (Refs w L rs)) (validateMetaschema w σ fuel p D l).2 ∧
      ∀ e l', validateMetaschema w σ fuel p D l = (.error e, l') → ¬ IsFuel e := by
    unfold validateMetaschema
    rw [M.bind_def]
    cases h1 : metaSchemaURL w D l with
    | mk r l1 =>
    cases r with
    | error e =>
      have e1 : l1 = l := by rw [← metaSchemaURL_still (w := w) (doc := D) l, h1]
      subst e1
      refine ⟨hl.fine, fun e' l' he => ?_⟩
      cases he
      exact metaSchemaURL_noFuel _ _ _ h1
    | ok o =>
      have e1 := metaSchemaURL_still.ok h1
      subst e1
      cases o with
      | none => exact ⟨hl.fine, fun e l' he => by cases he⟩
      | some u =>
        obtain ⟨hM, d, hk⟩ := plain_root hP.2 hl.draft (metaSchemaURL_ref h1)
        obtain ⟨hm, hA, hu⟩ := h.metas.metas u d hk
        have hcov : Covered w L (.compile (.reference u 0)) := by
          intro ref hr
          have hr : w.norm u = some ref := hr
          rw [hm.self.1] at hr
          cases hr
          refine ⟨fun e => absurd e (known_ne hk), fun _ n f D' hl => ?_⟩
          rw [known_load hm hk hm.self.2.1 hl, hm.self.2.1]
          exact hu
        simp only
        rw [M.bind_def]
        simp only [M.modify]
        rw [M.bind_def]
        have off : Off (PoolFine w S (Refs w L rs)) { l1 with validate := false } := ⟨rfl, hl.fine⟩
        obtain ⟨a1, _, a3⟩ := compileG_fuel (σ := σ) h.bounded hn (hook := fun _ _ => return ()) (p := 63 :: p) hcov _ off
        have c := (compileInner_safe (σ := σ) (fuel := fuel) (p := 63 :: p) (a := .reference u 0) (clean_inv h.lawful hm hk hA)
          (fun e n D hld => clean_refsOK h.lawful hm hA n 0 u D e hld) hm.root { l1 with validate := false } (hl.clean u d hk)).1
        cases h3 : compileInner w σ fuel (63 :: p) (.reference u 0) { l1 with validate := false } with
        | mk r l3 =>
        rw [h3] at c
        have h3' : compileG w σ fuel (fun _ _ => return ()) (63 :: p) (.reference u 0) { l1 with validate := false } = (r, l3) := h3
        rw [h3'] at a1
        cases r with
        | error e =>
          refine ⟨a1.2, fun e' l' he => ?_⟩
          cases he
          exact a3 _ _ h3'
        | ok s =>
          simp only
          rw [M.bind_def]
          simp only [M.modify]
          refine ⟨?_, fun e l' he => ?_⟩
          · rw [checkDocument_still]
            exact a1.2
          obtain ⟨M, k1, _, g⟩ := compileInner_good (a := .reference u 0) (l := { l1 with validate := false }) h.lawful (fun k e he => (hl.plain k e he).1) (by intro D h; cases h) h3
          have c3 : Clean w u d l3 := c
          have eM := meta_root hm hk c3 k1
          subst eM
          rw [meta_draft hm hk hM (by exact ⟨rfl, rfl⟩)] at g
          have hsz : D.size * (Flat.depth + 1) + Flat.depth < fuel.validate := by
            have := Nat.mul_le_mul_right (Flat.depth + 1) hD.1
            omega
          have := good_ends (σ := σ) hm hk c3 g hsz
          unfold checkDocument at he
          cases hr : validateDocument w.env σ s.heap fuel.validate s.root D with
          | ok r =>
            rw [hr] at he
            simp only at he
            cases hv : r.valid with
            | true => rw [hv] at he; simp [M.pure_def] at he
            | false => rw [hv] at he; cases he; exact errFine_fuel _
          | error e =>
            rw [hr] at he this
            cases e with
            | panic => cases he; exact panicFine_fuel
            | fuel => exact absurd rfl this
  have settle : ∀ u d, Known u d → _ := fun u d hk => (validateMetaschema_safe (σ := σ) (fuel := fuel) (p := p) (doc := D)
    (clean_inv h.lawful (h.metas.metas u d hk).1 hk (h.metas.metas u d hk).2.1) id
    (clean_refsOK h.lawful (h.metas.metas u d hk).1 (h.metas.metas u d hk).2.1) trivial (h.metas.metas u d hk).1.root l (hl.clean u d hk)).1
  refine ⟨⟨key.1, (validateMetaschema_safe h.inv id h.refs hP trivial l hl.plain).1, settle, ?_⟩, fun _ _ _ => trivial, key.2⟩
  rw [((validateMetaschema_safe (settings_inv w σ l) id (fun _ _ _ _ _ _ => trivial) trivial) l ⟨rfl, rfl⟩).1.2]
  exact hl.draft

theorem compile_held (h : Surroundings w L S rs) (hn : rs.length * (S + 1) + S ≤ fuel.parse)
    (hv : S * (Flat.depth + 1) + Flat.depth < fuel.validate) {p a} (ha : Allowed w L (.compile a)) :
    Safe (MHeld w L S rs) IsFuel (compile w σ fuel p a) (fun _ => True) := by
  have hd : ∀ D, a = .direct (some D) → Plain w D := fun D e =>
    ⟨(ha.2.1 _ _ (.inl ⟨rfl, rfl⟩) D e).1, ha.2.2 D e⟩
  unfold compile compileG
  split
  · exact .err (errFine_fuel _)
  · rename_i ref hr
    obtain ⟨h1, h2⟩ := ha.1 ref hr
    refine .bind (.modify fun l hl => ⟨hl.fine, hl.plain, hl.clean, hl.draft⟩) fun _ _ => .bind
      (MHeld.of (rootDocument_fuel h.bounded h1 h2) (rootDocument_safe h.inv fun _ => h.arg hd) (Q3 := fun _ _ => True)
        (fun u d hk => rootDocument_safe (clean_inv h.lawful (h.metas.metas u d hk).1 hk (h.metas.metas u d hk).2.1)
          (fun e => argOK_compile h.lawful (h.metas.metas u d hk).1 (h.metas.metas u d hk).2.1 (ha.2.1 u d hk) (e ▸ hr))
          (h.metas.metas u d hk).1.root)
        fun l => rootDocument_safe (settings_inv w σ l) fun _ => argOK_true) fun doc hd =>
      .bind (whenValidate_safe (validateMetaschema_held h hn hv hd.1 hd.2.1)) fun _ _ => .bind rootDraft_fuel fun dr _ => ?_
    exact (MHeld.of (runParse_fuel (fun r hr => hr.1) (leads h.bounded) hn hd.1) (runParse_safe h.inv hd.2.1) (Q3 := fun _ _ => True)
      (fun u d hk => runParse_safe (clean_inv h.lawful (h.metas.metas u d hk).1 hk (h.metas.metas u d hk).2.1) trivial)
      fun l => runParse_safe (settings_inv w σ l) trivial).mono fun _ _ => trivial

/-- Adding a document with base `ref`. -/
theorem add_held (h : Surroundings w L S rs) (hn : rs.length * (S + 1) + S ≤ fuel.parse)
    (hv : S * (Flat.depth + 1) + Flat.depth < fuel.validate) {q q' a ref pooled} (h1 : ∀ D, Loads w a D → (ref, D) ∈ L)
    (hF : ∀ u d, Known u d → ForeignArg w u a ∧ w.base ref ≠ u) (hS : ∀ D, a = .direct (some D) → BuiltInSchema w D) :
    Safe (MHeld w L S rs) IsFuel (do
      let doc ← loadJSON w a
      whenValidate (validateMetaschema w σ fuel q doc)
      let x ← parseReferences w σ q' doc ref pooled
      let _ ← failIf x
      return ()) (fun _ => True) := by
  have hd : ∀ D, a = .direct (some D) → Plain w D := fun D e => ⟨((hF _ _ (.inl ⟨rfl, rfl⟩)).1.1 D e).1, hS D e⟩
  have C : ∀ u d, Known u d → LoaderInv w σ (Clean w u d) (fun _ => False) (fun _ => True) (fun D => D.WF ∧ Foreign w u D)
      (fun r => w.base r ≠ u) := fun u d hk => clean_inv h.lawful (h.metas.metas u d hk).1 hk (h.metas.metas u d hk).2.1
  refine .bind (MHeld.of (loadJSON_fuel h1) (loadJSON_safe (σ := σ) h.inv (h.arg hd))
      (fun u d hk => loadJSON_safe (C u d hk) (argOK_foreign h.lawful (h.metas.metas u d hk).2.1 (hF u d hk).1))
      fun l => loadJSON_safe (settings_inv w σ l) argOK_true) fun doc hdoc => ?_
  obtain ⟨d1, d2, d3⟩ := hdoc
  refine .bind (whenValidate_safe (validateMetaschema_held h hn hv ((h.bounded.fine _ _ d1).2 _ (.inl rfl)) d2)) fun _ _ => ?_
  refine .bind (MHeld.of (Q3 := fun _ _ => True) (parseReferences_fuel h.bounded d1) (h.inv.refs _ _ _ _ trivial d2)
      (fun u d hk => (C u d hk).refs _ _ _ _ (hF u d hk).2 (d3 u d hk)) fun l => (settings_inv w σ l).refs _ _ _ _ trivial trivial)
    fun x hx => .bind (failIf_safe errFine_fuel (N := fun _ => True) trivial) fun _ _ => .pure trivial

theorem addSchema_held (h : Surroundings w L S rs) (hn : rs.length * (S + 1) + S ≤ fuel.parse)
    (hv : S * (Flat.depth + 1) + Flat.depth < fuel.validate) {p url a} (ha : Allowed w L (.addSchema url a)) :
    Safe (MHeld w L S rs) IsFuel (addSchema w σ fuel p url a) (fun _ => True) := by
  unfold addSchema
  split
  · exact .err (errFine_fuel _)
  · rename_i ref hr
    refine add_held h hn hv (ha.1 ref · hr) (fun u d hk => ⟨(ha.2.1 u d hk).1, ?_⟩) ha.2.2
    rw [(h.metas.metas u d hk).1.base_norm _ _ hr]
    exact (ha.2.1 u d hk).2

theorem op_held (h : Surroundings w L S rs) (hn : rs.length * (S + 1) + S ≤ fuel.parse)
    (hv : S * (Flat.depth + 1) + Flat.depth < fuel.validate) {p o} (ho : Allowed w L o) :
    Safe (MHeld w L S rs) IsFuel (o.run w σ fuel p) (fun _ => True) := by
  cases o with
  | addSchema url a => exact .bind (addSchema_held h hn hv ho) fun _ _ => .pure trivial
  | addSchemas as =>
    refine .bind (Q := fun _ => True) ?_ fun _ _ => .pure trivial
    unfold addSchemas
    refine .bind (.mapL' fun k a hm => ?_) fun _ _ => .pure trivial
    exact add_held h hn hv (ho.1 a hm) (fun u d hk => ⟨ho.2.1 u d hk a hm, (h.metas.metas u d hk).1.root⟩)
      fun D e => ho.2.2 D (e ▸ hm)
  | compile a => exact .bind (compile_held h hn hv ho) fun _ _ => .pure trivial
  | setAutoDetect b => exact .bind (.modify fun l hl => ⟨hl.fine, hl.plain, hl.clean, hl.draft⟩) fun _ _ => .pure trivial
  | setValidate b => exact .bind (.modify fun l hl => ⟨hl.fine, hl.plain, hl.clean, hl.draft⟩) fun _ _ => .pure trivial
  | setDraft d => exact .bind (.modify fun l hl => ⟨hl.fine, hl.plain, hl.clean, ho⟩) fun _ _ => .pure trivial

theorem runOps_held (h : Surroundings w L S rs) (hn : rs.length * (S + 1) + S ≤ fuel.parse)
    (hv : S * (Flat.depth + 1) + Flat.depth < fuel.validate) : ∀ {os k l}, (∀ o ∈ os, Allowed w L o) → MHeld w L S rs l →
      ∀ r ∈ (runOps w σ fuel k os l).1, r ≠ .error .fuel := by
  intro os
  induction os with
  | nil => intro k l _ _; simp [runOps]
  | cons o os ih =>
    intro k l ho hl
    obtain ⟨h1, _, h3⟩ := op_held (σ := σ) (p := [k]) h hn hv (ho o (by simp)) l hl
    simp only [runOps]
    refine List.forall_mem_cons.2 ⟨?_, ih (fun o h => ho o (by simp [h])) h1⟩
    intro he
    exact h3 .fuel (o.run w σ fuel [k] l).2 (by rw [← he]) rfl

end
end GJS

import Verif.LemMetaHook
import Verif.PropReturn
/-
C75: with `Validate` on, a loader that meets the built-in meta-schemas only comes back from every operation.
-/
namespace GJS
open Spec

/-- C75.  For every finite set of documents closed under references there is a bound on the nesting of calls that no
operation of any history exceeds, `Validate` on or off, as long as no document names a meta-schema of its own. -/
theorem C75_history (w : World) (hw : Lawful w) (hp : PointersInside w) (L : List (String × Json)) (hL : ClosedSet w L)
    (hB : BuiltInsOnly w L) :
    ∃ n, ∀ (σ : Sched) (fuel : Fuel) (os : List Op), n ≤ fuel.parse → n ≤ fuel.validate → (∀ o ∈ os, Allowed w L o) →
      ∀ r ∈ (runOps w σ fuel 0 os newSchemaLoader).1, r ≠ .error .fuel := by
  obtain ⟨S, rs, h⟩ := closed_bounded hp hL
  refine ⟨rs.length * (S + 1) + S + (S * (Flat.depth + 1) + Flat.depth + 1), fun σ fuel os h1 h2 ho => ?_⟩
  exact runOps_held ⟨hw, h, hB⟩ (by omega) (by omega) ho
    ⟨fun k e he => by (cases he), fun k e he => by (cases he), fun u d _ k e _ he => by (cases he), .inl rfl⟩

/-- A loader with documents of the set, none of which names a meta-schema of its own or claims to be a built-in one. -/
structure Spec.Ready (w : World) (L : List (String × Json)) (l : LState) : Prop where
  pool : PoolFrom w L l
  wf : PoolWF l
  texts : PoolAll (BuiltInSchema w) l
  clean : ∀ u d, Known u d → Clean w u d l
  draft : Drafted l.draft

theorem Spec.Ready.mheld {w : World} {L S rs} (h : Bounded w L S rs) {l} (hl : Ready w L l) : MHeld w L S rs l :=
  ⟨poolFrom_fine h hl.pool, fun k e he => ⟨hl.wf k e he, hl.texts k e he⟩, hl.clean, hl.draft⟩

/-- C75 for one `Compile`, on a loader in any such state. -/
theorem C75_compile (w : World) (hw : Lawful w) (hp : PointersInside w) (L : List (String × Json)) (hL : ClosedSet w L)
    (hB : BuiltInsOnly w L) :
    ∃ n, ∀ (σ : Sched) (fuel : Fuel) (p : Path) (a : LoaderArg) (l : LState), n ≤ fuel.parse → n ≤ fuel.validate →
      Ready w L l → Allowed w L (.compile a) → (compile w σ fuel p a l).1 ≠ .error .fuel := by
  obtain ⟨S, rs, h⟩ := closed_bounded hp hL
  refine ⟨rs.length * (S + 1) + S + (S * (Flat.depth + 1) + Flat.depth + 1), fun σ fuel p a l h1 h2 hl ha he => ?_⟩
  exact (compile_held (σ := σ) (fuel := fuel) (p := p) ⟨hw, h, hB⟩ (by omega) (by omega) ha l (hl.mheld h)).2.2 .fuel (compile w σ fuel p a l).2 (by rw [← he]) rfl

/-- C75, exactly what `Compile` accepts with `Validate` on: documents without references that have the shape of their
meta-schema and where nothing is left to complain about.  C59 says what the errors are; here a schema is returned. -/
theorem C75_accept (w : World) (hs : Standard w) (hf : FmtOK w.env.fmtF64) (h0 : w.norm "#" = some "")
    (hre : ∀ t, w.env.isFormat "regex" (.str t) = true → w.env.reOk t = true) (hb : Brings w (HarmlessF64 w.env))
    (L : List (String × Json)) (hL : ClosedSet w L) (hB : BuiltInsOnly w L) :
    ∃ n, ∀ (σ : Sched) (fuel : Fuel) (p : Path) (l : LState) (D : Json) (u : String) (d : Draft), n ≤ fuel.parse → n ≤ fuel.validate →
      Ready w L l → PoolAll (HarmlessF64 w.env) l → l.validate = true → Allowed w L (.compile (.direct (some D))) →
      HarmlessF64 w.env D → NoRef D → Free w l D → (l.autoDetect = true → SchemaRead w D) →
      Known u d → MetaFor w l D u → (∀ r, w.base r = u → w.canonical r = true) →
      ((∃ s, (compile w σ fuel p (.direct (some D)) l).1 = .ok s) ↔ MetaValid w.env d D ∧ Everywhere d (Leftover w d) D) := by
  have e : Fine w.env True = HarmlessF64 w.env := funext fun D => propext fine_true
  have hw : Lawful w := lawful_of (V := True) hs (by rw [e]; exact hb)
  obtain ⟨S, rs, h⟩ := closed_bounded hs.pointer hL
  refine ⟨rs.length * (S + 1) + S + (S * (Flat.depth + 1) + Flat.depth + 1),
    fun σ fuel p l D u d h1 h2 hl hh hv ha hD hn hF hsr hk hM hcan => ?_⟩
  obtain ⟨hm, hA, _⟩ := hB.metas u d hk
  obtain ⟨hDw, hDf⟩ := ha.2.1 u d hk D rfl
  have hsz : D.size ≤ S := by
    have : ("", D) ∈ L := (ha.1 "" h0).1 rfl D rfl
    exact ((h.fine _ _ this).2 _ (.inl rfl)).1
  constructor
  · rintro ⟨s, hx⟩
    exact C59_accepted w hw hf h0 u d hm hk hA σ fuel p l _ s hl.wf (hl.clean u d hk) hv D hDw hDf hn hM (by omega) (Prod.ext hx rfl)
  · rintro ⟨hV, hX⟩
    have g1 := C59_accept w hw hf h0 hre u d hm hk hA hcan σ fuel p l hl.wf (hl.clean u d hk) D hDw hDf hn hM hsr hF hV hX
    have g2 : (compile w σ fuel p (.direct (some D)) l).1 ≠ .error .fuel := fun he =>
      (compile_held (σ := σ) (fuel := fuel) (p := p) ⟨hw, h, hB⟩ (by omega) (by omega) ha l (hl.mheld h)).2.2 .fuel (compile w σ fuel p (.direct (some D)) l).2
        (by rw [← he]) rfl
    have g3 : (compile w σ fuel p (.direct (some D)) l).1 ≠ .error .panic := fun he =>
      (compile_noPanic (V := True) (σ := σ) (fuel := fuel) (p := p) (a := .direct (some D)) hs (by rw [e]; exact hb) trivial
        (fun _ => by rw [e]; intro d hd; cases hd; exact hD) l (by rw [e]; exact hh)).2.2 .panic
        (compile w σ fuel p (.direct (some D)) l).2 (by rw [← he]) rfl
    cases hx : (compile w σ fuel p (.direct (some D)) l).1 with
    | ok s => exact ⟨s, rfl⟩
    | error f =>
      cases f with
      | err e => exact absurd hx (g1 e)
      | panic => exact absurd hx g3
      | fuel => exact absurd hx g2

/-! ### A meta-schema of one's own -/

namespace Demo
/-- A document that names its own meta-schema, and this meta-schema: a reference to itself. -/
def ownMeta : Json := .obj [("$schema", .str "m")]
@[inherit_doc ownMeta] def ownWorld : World := world [("m", .obj [("$ref", .str "#")])]
@[inherit_doc ownMeta] def checking : LState := { newSchemaLoader with validate := true }
/-- Lack of fuel, as a test. -/
def fuelB : Except Fail α → Bool
  | .error .fuel => true
  | _ => false
theorem fuel_of {x : Except Fail α} (h : fuelB x = true) : x = .error .fuel := by
  cases x with
  | ok _ => cases h
  | error e => cases e <;> first | rfl | cases h
end Demo

open Demo

/-- The state in which `ownMeta` is checked, and in which its meta-schema is compiled. -/
def Demo.ownState : LState := (rootDocument ownWorld .id [] (.direct (some ownMeta)) "" { checking with factory := 0 }).2
@[inherit_doc ownState] def Demo.ownOff : LState := { ownState with validate := false }

theorem own_root : rootDocument ownWorld .id [] (.direct (some ownMeta)) "" { checking with factory := 0 } = (.ok ownMeta, ownState) := by
  refine Prod.ext ?_ rfl
  rfl

theorem own_url : metaSchemaURL ownWorld ownMeta ownState = (.ok (some "m"), ownState) := Prod.ext rfl (metaSchemaURL_still _)

theorem own_compiles : okB (compileInner ownWorld .id ⟨1, 0⟩ [63] (.reference "m" 0) ownOff) = true := by decide +kernel

theorem own_loops (σ : Sched) (n : Nat) (v : Json) :
    validateDocument ownWorld.env σ (outOf _ own_compiles).heap n (outOf _ own_compiles).root v = .error .fuel := by
  rw [show (outOf _ own_compiles).root = 0 by decide +kernel]
  refine C05_ref_chain_diverges ownWorld.env σ _ (fun k => match k with | 0 => 0 | _ + 1 => 1) (fun k => ?_) n v
  have get : ∀ (i : Nat) j, ((outOf _ own_compiles).heap[i]?.map fun (s : Sub) => (s.pass, s.refSchema)) = some (none, some j) →
      ∃ s, (outOf _ own_compiles).heap[i]? = some s ∧ s.pass = none ∧ s.refSchema = some j := by
    intro i j h
    obtain ⟨s, h1, h2⟩ := Option.map_eq_some_iff.1 h
    cases h2' : s.pass with
    | none => exact ⟨s, h1, h2', (Prod.mk.inj h2).2⟩
    | some b => rw [h2'] at h2; cases h2
  cases k with
  | zero => exact get 0 1 (by decide +kernel)
  | succ k => exact get 1 1 (by decide +kernel)

theorem own_inner (fuel : Fuel) : fuelB (compileInner ownWorld .id fuel [63] (.reference "m" 0) ownOff).1 = true ∨
    compileInner ownWorld .id fuel [63] (.reference "m" 0) ownOff =
      (.ok (outOf _ own_compiles), (compileInner ownWorld .id ⟨1, 0⟩ [63] (.reference "m" 0) ownOff).2) := by
  obtain ⟨n, v⟩ := fuel
  show fuelB (compileInner ownWorld .id ⟨n, 0⟩ [63] (.reference "m" 0) ownOff).1 = true ∨
    compileInner ownWorld .id ⟨n, 0⟩ [63] (.reference "m" 0) ownOff = _
  rcases Nat.eq_zero_or_pos n with rfl | hn
  · exact .inl (by decide +kernel)
  · obtain ⟨k, rfl⟩ := Nat.exists_eq_add_of_le hn
    refine .inr ?_
    rw [← out_eq own_compiles]
    rcases (compileG_below (w := ownWorld) (σ := .id) (n := 1) (k := k) (v := 0) (p := [63]) (a := .reference "m" 0)).run ownOff with h | h
    · have := own_compiles
      unfold okB compileInner at this
      rw [h] at this
      cases this
    · exact h.symm

theorem own_check (fuel : Fuel) : (validateMetaschema ownWorld .id fuel [] ownMeta ownState).1 = .error .fuel := by
  unfold validateMetaschema
  refine fst_ok ownState (some "m") own_url ?_
  refine fst_ok ownOff () rfl ?_
  rcases own_inner fuel with h | h
  · exact fst_error (fuel_of h)
  · refine fst_ok _ _ h (fst_ok _ () rfl ?_)
    unfold checkDocument
    rw [own_loops]
    rfl

/-- C75, why only the built-in meta-schemas: a document that names as its meta-schema a document that is a reference to
itself compiles with `Validate` off, and keeps `Compile` from ever coming back with `Validate` on. -/
theorem C75_own_meta_schema :
    (newSchema ownWorld .id ⟨1, 0⟩ (.direct (some ownMeta))).isOk = true ∧
    ∀ fuel : Fuel, (compile ownWorld .id fuel [] (.direct (some ownMeta)) checking).1 = .error .fuel := by
  refine ⟨by decide +kernel, fun fuel => ?_⟩
  have href : (LoaderArg.direct (some ownMeta)).ref ownWorld = some "" := by decide +kernel
  unfold compile compileG
  rw [href]
  refine fst_ok { checking with factory := 0 } () rfl (fst_ok ownState ownMeta own_root (fst_error ?_))
  unfold whenValidate
  refine fst_ok ownState ownState rfl ?_
  rw [if_pos (by decide +kernel)]
  exact own_check fuel

/-! ### The hypotheses can be met -/

namespace Demo
/-- The documents of the world without documents: the built-in meta-schemas, and the document itself. -/
def builtIns : List (String × Json) :=
  [("http://json-schema.org/draft-04/schema", Meta.doc 4), ("http://json-schema.org/draft-06/schema", Meta.doc 6),
    ("http://json-schema.org/draft-07/schema", Meta.doc 7)]

theorem builtIns_known {u d} (hk : Known u d) : (u, Meta.doc d) ∈ builtIns := by
  rcases hk with ⟨rfl, rfl⟩ | ⟨rfl, rfl⟩ | ⟨rfl, rfl⟩ <;> simp [builtIns]

theorem builtIns_load {n f s D} (h : loadReference (webWorld []) n f s = some D) :
    ∃ d, Known (baseOf s) d ∧ D = Meta.doc d := by
  rw [web_load] at h
  by_cases hg : getMetaSchema (baseOf s) = ""
  · rw [web_other hg] at h; cases h
  · obtain ⟨d, hk⟩ := (C40_meta _).1 hg
    rw [web_known hk] at h
    cases h
    exact ⟨d, hk, rfl⟩

mutual
/-- The texts under `$schema` in a document. -/
def declares7 : Json → List String
  | .arr xs => declaredL xs
  | .obj m => declaredM m
  | _ => []
@[inherit_doc declares7] def declaredL : List Json → List String
  | [] => []
  | x :: xs => declares7 x ++ declaredL xs
@[inherit_doc declares7] def declaredM : List (String × Json) → List String
  | [] => []
  | (k, .str t) :: m => (if k = "$schema" then [t] else []) ++ declaredM m
  | (_, x) :: m => declares7 x ++ declaredM m
end

theorem declaredL_mem {xs : List Json} {x t} (hx : x ∈ xs) (h : t ∈ declares7 x) : t ∈ declaredL xs := by
  induction xs with
  | nil => cases hx
  | cons y ys ih =>
    rw [declaredL, List.mem_append]
    cases hx with
    | head => exact .inl h
    | tail _ hx => exact .inr (ih hx)

theorem declaredM_mem {m : List (String × Json)} {k x t} (hx : (k, x) ∈ m) (h : t ∈ declares7 x) : t ∈ declaredM m := by
  induction m with
  | nil => cases hx
  | cons y ys ih =>
    obtain ⟨k', y⟩ := y
    cases hx with
    | head => cases x <;> first | (simp only [declaredM, List.mem_append]; exact .inl h) | simp [declares7] at h
    | tail _ hx => cases y <;> (simp only [declaredM, List.mem_append]; exact .inr (ih hx))

theorem declaredM_self {m : List (String × Json)} {t} (hx : ("$schema", .str t) ∈ m) : t ∈ declaredM m := by
  induction m with
  | nil => cases hx
  | cons y ys ih =>
    obtain ⟨k', y⟩ := y
    cases hx with
    | head => simp [declaredM]
    | tail _ hx => cases y <;> (simp only [declaredM, List.mem_append]; exact .inr (ih hx))

theorem declared_within {D m t} (h : Within D (.obj m)) (hm : ("$schema", .str t) ∈ m) : t ∈ declares7 D := by
  generalize hx : Json.obj m = x at h
  induction h with
  | self => subst hx; exact declaredM_self hm
  | elem xs y x hy _ ih => exact declaredL_mem hy (ih hx)
  | member c k y x hy _ ih => exact declaredM_mem hy (ih hx)

theorem builtIn_of {docs D} (h : (declares7 D).all (fun t => normOf t == "" || builtIns.any (fun e => e.1 == normOf t)) = true) :
    BuiltInSchema (webWorld docs) D := by
  intro m t u hm ht hn
  have hn : some (normOf t) = some u := hn
  cases hn
  have := List.all_eq_true.1 h t (declared_within hm ht)
  simp only [builtIns, List.any_cons, List.any_nil, Bool.or_false, Bool.or_eq_true, beq_iff_eq] at this
  rcases this with h | h | h | h
  · exact .inl h
  · exact .inr ⟨4, .inl ⟨h.symm, rfl⟩⟩
  · exact .inr ⟨6, .inr (.inl ⟨h.symm, rfl⟩)⟩
  · exact .inr ⟨7, .inr (.inr ⟨h.symm, rfl⟩)⟩

theorem plain_foreign (u : String) : Foreign (webWorld []) u plain := by
  intro b _ k h; simp [plain, int, idsIn, idsInM, absId, idOf, getKey, List.lookup] at h

theorem builtIns_only : BuiltInsOnly (webWorld []) (builtIns ++ [("", plain)]) where
  metas := fun u d hk => ⟨webWorld_meta [] hk, webWorld_apart (by intro k D h; cases h), List.mem_append_left _ (builtIns_known hk)⟩
  texts := by
    intro n f s D h
    obtain ⟨d, hk, rfl⟩ := builtIns_load h
    rcases hk with ⟨_, rfl⟩ | ⟨_, rfl⟩ | ⟨_, rfl⟩ <;> exact builtIn_of (by decide +kernel)

theorem builtIns_closed : ClosedSet (webWorld []) (builtIns ++ [("", plain)]) where
  wf := by
    intro b D h
    simp only [builtIns, List.cons_append, List.nil_append, List.mem_cons, Prod.mk.injEq, List.not_mem_nil, or_false] at h
    rcases h with ⟨_, rfl⟩ | ⟨_, rfl⟩ | ⟨_, rfl⟩ | ⟨_, rfl⟩ <;> exact wf_of _ (by decide +kernel)
  refs := by
    intro _ _ _ r _ _ _ n f D h
    obtain ⟨d, hk, rfl⟩ := builtIns_load h
    exact List.mem_append_left _ (builtIns_known hk)

theorem plain_allowed : Allowed (webWorld []) (builtIns ++ [("", plain)]) (.compile (.direct (some plain))) := by
  refine ⟨fun ref hr => ⟨fun _ D hD => ?_, fun hne => ?_⟩, fun u d _ D h => ?_, fun D h => ?_⟩
  · cases (show some plain = some D from hD)
    exact List.mem_append_right _ (List.mem_singleton.2 rfl)
  · exact absurd (Option.some.inj ((show (LoaderArg.direct (some plain)).ref (webWorld []) = some "" by decide +kernel).symm.trans hr)).symm hne
  · cases h; exact ⟨wf_of _ (by decide +kernel), plain_foreign u⟩
  · cases h; exact builtIn_of (by decide +kernel)

mutual
/-- Executable test: all numbers fit a float64. -/
def f64B : Json → Bool
  | .num n => n.toF64.isSome
  | .arr xs => f64ListB xs
  | .obj m => f64MembersB m
  | _ => true
@[inherit_doc f64B] def f64ListB : List Json → Bool
  | [] => true
  | x :: xs => f64B x && f64ListB xs
@[inherit_doc f64B] def f64MembersB : List (String × Json) → Bool
  | [] => true
  | (_, x) :: m => f64B x && f64MembersB m
end

theorem f64ListB_mem {xs : List Json} {x} (h : f64ListB xs = true) (hx : x ∈ xs) : f64B x = true := by
  induction xs with
  | nil => cases hx
  | cons y ys ih =>
    simp only [f64ListB, Bool.and_eq_true] at h
    cases hx with
    | head => exact h.1
    | tail _ hx => exact ih h.2 hx

theorem f64MembersB_mem {m : List (String × Json)} {k x} (h : f64MembersB m = true) (hx : (k, x) ∈ m) : f64B x = true := by
  induction m with
  | nil => cases hx
  | cons y ys ih =>
    obtain ⟨k', y⟩ := y
    simp only [f64MembersB, Bool.and_eq_true] at h
    cases hx with
    | head => exact h.1
    | tail _ hx => exact ih h.2 hx

theorem f64_of {D} (h : f64B D = true) : NumsF64 D := by
  intro n hn
  generalize hx : Json.num n = x at hn
  induction hn with
  | self => subst hx; intro e; simp [f64B, e] at h
  | elem xs y x hy _ ih => exact ih (f64ListB_mem (by simpa [f64B] using h) hy) hx
  | member m k y x hy _ ih => exact ih (f64MembersB_mem (by simpa [f64B] using h) hy) hx

theorem webWorld_standard : Standard (webWorld []) where
  inherits := (world_standard []).inherits
  pointer := (world_standard []).pointer
  decode := (webWorld_lawful (docs := []) (by intro k d h; cases h)).decode

/-- The built-in meta-schemas are harmless. -/
theorem webWorld_brings : Brings (webWorld []) (HarmlessF64 env) := by
  refine ⟨fun _ _ _ _ h => by (cases h), fun _ _ _ h => by (cases h), fun u D h => ?_⟩
  by_cases hg : getMetaSchema u = ""
  · rw [hg] at h
    have h : (Text.decode Text.maxDepth (utf8 "")).toOption = some D := h
    have e : (Text.decode Text.maxDepth (utf8 "")).toOption = none := rfl
    rw [e] at h
    cases h
  · obtain ⟨d, hk⟩ := (C40_meta _).1 hg
    rw [(webWorld_meta [] hk).decode, known_text hk] at h
    cases h
    rcases hk with ⟨_, rfl⟩ | ⟨_, rfl⟩ | ⟨_, rfl⟩ <;>
      exact ⟨wf_of _ (by decide +kernel), tame_of (by decide +kernel), f64_of (by decide +kernel)⟩

theorem checking_ready (L : List (String × Json)) : Ready (webWorld []) L checking :=
  ⟨fun k e h => by (cases h), fun k e h => by (cases h), fun k e h => by (cases h), fun u d _ k e _ h => by (cases h), .inl rfl⟩

end Demo

/-- `plain` has the shape of the meta-schema of draft 7, and nothing is left to complain about. -/
theorem Demo.plain_shape : MetaValid env Draft7 plain ∧ Everywhere Draft7 (Leftover (webWorld []) Draft7) plain := by
  obtain ⟨s, l', h⟩ := ok_of (x := compile (webWorld []) .id ⟨200, 200⟩ [] (.direct (some plain)) knowing) (by decide +kernel)
  refine C59_accepted (webWorld []) (webWorld_lawful (by intro k d h; cases h)) Demo.fmtOK (by decide) u7 Draft7 (webWorld_meta [] known7)
    known7 (webWorld_apart (by intro k D h; cases h)) .id ⟨200, 200⟩ [] knowing _ _ ?_ knowing_clean rfl plain
    (wf_of _ (by decide +kernel)) (plain_foreign u7) (noRef_of _ (by decide +kernel)) (.declared _ _ _ rfl rfl rfl rfl (by decide))
    (by decide +kernel) h
  intro k e h
  have := lookup_some_mem h
  simp only [knowing, List.mem_singleton, Prod.mk.injEq] at this
  rw [this.2]
  exact wf_of _ (by decide +kernel)

-- the hypotheses of C75 hold for a document of draft 7 and a new loader with `Validate` on, which therefore returns a schema
example : ∃ n, ∀ (σ : Sched) (fuel : Fuel), n ≤ fuel.parse → n ≤ fuel.validate →
    ∃ s, (compile (webWorld []) σ fuel [] (.direct (some plain)) checking).1 = .ok s := by
  obtain ⟨n, hn⟩ := C75_accept (webWorld []) webWorld_standard Demo.fmtOK (by decide +kernel) (fun _ _ => rfl) webWorld_brings _
    builtIns_closed builtIns_only
  refine ⟨n, fun σ fuel h1 h2 => (hn σ fuel [] checking plain u7 Draft7 h1 h2 (checking_ready _) (by intro k e h; cases h) rfl plain_allowed
    ⟨wf_of _ (by decide +kernel), tame_of (by decide +kernel), f64_of (by decide +kernel)⟩ (noRef_of _ (by decide +kernel))
    ⟨by decide +kernel, by intro m t u k h1 h2; cases h1; cases h2⟩ ?_ known7 (.declared _ _ _ rfl rfl rfl rfl (by decide)) ?_).2 plain_shape⟩
  · intro _ m v h1 h2; cases h1; cases h2; exact ⟨_, rfl, by decide +kernel⟩
  · intro r h
    have h : baseOf r = u7 := h
    show (baseOf r != "") = true
    rw [h]; decide

end GJS

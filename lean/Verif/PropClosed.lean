import Verif.LemClosed
import Verif.PropDraft
import Verif.PropTrim
import Verif.PropPanic
import Verif.DemoMeta
import Verif.DemoCheck
/-
C63: what closed documents mean, whatever the order in which they are compiled.
-/
namespace GJS
open Spec

/-- C63.  `Compile` of a closed document does not fetch anything, and adds to the loader the document,
the schemas in it that declare identifiers, and parts the references select, under the references. -/
theorem C63_no_fetch (w : World) (l l' : LState) (hw : Setting w l) (hq : Idling l) (D0 : Json) (hD : D0.WF) (d : Draft)
    (hc : Closed w l d D0) (σ : Sched) (fuel : Fuel) (p : Path) (s : Schema)
    (h : compile w σ fuel p (.direct (some D0)) l = (.ok s, l')) :
    l'.log = [] ∧ (∀ k e, Place w l D0 k e → getKey k l'.pool = some e) ∧
      ∀ k e, getKey k l'.pool = some e → StandsFor w l D0 k e.draft e.doc := by
  obtain ⟨D, _, H, _⟩ := closed_compile hw hq hD hc h
  exact ⟨H.log, H.places, fun k e hk => H.stands hk⟩

/-- C63.  The verdict of a schema compiled from a closed document, recursive or not, is that of the
keyword rules under one draft, every reference standing for the one document it leads to. -/
theorem C63_meaning (w : World) (hb : ∀ r, w.base (w.base r) = w.base r) (l : LState) (hw : Setting w l) (hq : Idling l)
    (D0 : Json) (hD : D0.WF) (hc : Closed w l (draftFor w l D0) D0) (v : Json) (b : Bool) (h : Gives w l D0 v b) :
    ∃ D n0, RwStrict w "" D0 D ∧ ∀ n, n0 ≤ n → ∀ resolve, Follows w l (draftFor w l D0) D0 resolve →
      ∀ P, b = true ↔ docUnfold w.env resolve P n (draftFor w l D0) D v := by
  obtain ⟨σ, fuel, p, s, l', σ', n0, r, h1, hv, rfl⟩ := h
  obtain ⟨D, hst, H, g⟩ := closed_compile hw hq hD hc h1
  refine ⟨D, n0, hst, fun n hle resolve hf P => ?_⟩
  obtain ⟨r', hr', _, _, e⟩ := C03_order_independent _ σ' σ' _ _ _ hle _ _ _ hv
  rw [e, C02_verdict_unfold _ _ _ _ _ _ _ hr' (satNode s.heap P), g.unfold P n, g.root.satNode]
  exact closed_meaning hb H hc hst g hf P n v

/-- There is a reading of the references. -/
theorem follows_exists (w : World) (l : LState) (d : Draft) (D0 : Json) (hc : Closed w l d D0) :
    ∃ resolve, Follows w l d D0 resolve := by
  classical
  refine ⟨fun t => if h : ∃ X, ∃ m u o, Met w l D0 (.obj m) ∧ Kw m "$ref" (.str t) ∧ w.norm t = some u ∧ StandsFor w l D0 u o X
    then some (d, h.choose) else none, ?_⟩
  intro m t u o X h1 h2 h3 h4
  have h : ∃ X, ∃ m u o, Met w l D0 (.obj m) ∧ Kw m "$ref" (.str t) ∧ w.norm t = some u ∧ StandsFor w l D0 u o X :=
    ⟨X, m, u, o, h1, h2, h3, h4⟩
  simp only [dif_pos h]
  obtain ⟨m', u', o', g1, g2, g3, g4⟩ := h.choose_spec
  rw [h3] at g3
  cases g3
  rw [hc.one u ⟨m, t, h1, h2, h3⟩ _ _ _ _ h4 g4]

/-- C63.  Compiling the same closed document twice, in loaders in the same state, gives the same verdict
on every instance, whatever the order of iteration over maps while compiling and validating. -/
theorem C63_deterministic (w : World) (hb : ∀ r, w.base (w.base r) = w.base r) (l : LState) (hw : Setting w l) (hq : Idling l)
    (D0 : Json) (hD : D0.WF) (hc : Closed w l (draftFor w l D0) D0) (v : Json) (b b' : Bool) (h : Gives w l D0 v b)
    (h' : Gives w l D0 v b') : b = b' := by
  obtain ⟨res, hf⟩ := follows_exists w l _ D0 hc
  obtain ⟨D, n, hs, k⟩ := C63_meaning w hb l hw hq D0 hD hc v b h
  obtain ⟨D', n', hs', k'⟩ := C63_meaning w hb l hw hq D0 hD hc v b' h'
  rw [rwStrict_eq hs] at k
  rw [rwStrict_eq hs'] at k'
  rw [Bool.eq_iff_iff, k _ (Nat.le_max_left n n') res hf fun _ _ _ => True, k' _ (Nat.le_max_right n n') res hf fun _ _ _ => True]

/-- C63 for self-contained documents: in every loader that knows nothing under their URLs, they mean
the same. -/
theorem C63_self_meaning (w : World) (hb : ∀ r, w.base (w.base r) = w.base r)
    (hp : ∀ r D d, w.pointer r D = some d → Within D d) (D0 : Json) (hD : D0.WF) (hs : SelfContained w D0)
    (l : LState) (hw : Setting w l) (hq : Idling l) (he : Elsewhere w l D0) (v : Json) (b : Bool) (h : Gives w l D0 v b) :
    ∃ D n0, RwStrict w "" D0 D ∧ ∀ n, n0 ≤ n → ∀ resolve, SelfFollows w (draftFor w l D0) D0 resolve →
      ∀ P, b = true ↔ docUnfold w.env resolve P n (draftFor w l D0) D v := by
  obtain ⟨D, n0, h1, h2⟩ := C63_meaning w hb l hw hq D0 hD (hs.closed hp he) v b h
  exact ⟨D, n0, h1, fun n hn res hf => h2 n hn res (hf.follows hp hs he)⟩

theorem selfFollows_exists (w : World) (d : Draft) (D0 : Json) (hs : SelfContained w D0) :
    ∃ resolve, SelfFollows w d D0 resolve := by
  classical
  refine ⟨fun t => if h : ∃ X, ∃ u, HasRef w D0 t ∧ w.norm t = some u ∧ OwnStands w D0 u X
    then some (d, h.choose) else none, ?_⟩
  intro t u X h1 h2 h3
  have h : ∃ X, ∃ u, HasRef w D0 t ∧ w.norm t = some u ∧ OwnStands w D0 u X := ⟨X, u, h1, h2, h3⟩
  simp only [dif_pos h]
  obtain ⟨u', g1, g2, g3⟩ := h.choose_spec
  rw [h2] at g2
  cases g2
  rw [hs.one t u h1 h2 _ _ h3 g3]

/-- C63 for self-contained documents: two loaders that read the document under the same draft and know
nothing under its URLs, whatever else they know, give the same verdict on every instance. -/
theorem C63_everywhere (w : World) (hb : ∀ r, w.base (w.base r) = w.base r)
    (hp : ∀ r D d, w.pointer r D = some d → Within D d) (D0 : Json) (hD : D0.WF) (hs : SelfContained w D0)
    (l l' : LState) (hw : Setting w l) (hw' : Setting w l') (hq : Idling l) (hq' : Idling l') (he : Elsewhere w l D0)
    (he' : Elsewhere w l' D0) (hd : draftFor w l D0 = draftFor w l' D0) (v : Json) (b b' : Bool) (h : Gives w l D0 v b)
    (h' : Gives w l' D0 v b') : b = b' := by
  obtain ⟨res, hf⟩ := selfFollows_exists w (draftFor w l D0) D0 hs
  obtain ⟨D, n, hs1, k⟩ := C63_self_meaning w hb hp D0 hD hs l hw hq he v b h
  obtain ⟨D', n', hs2, k'⟩ := C63_self_meaning w hb hp D0 hD hs l' hw' hq' he' v b' h'
  rw [rwStrict_eq hs1] at k
  rw [rwStrict_eq hs2, ← hd] at k'
  rw [Bool.eq_iff_iff, k _ (Nat.le_max_left n n') res hf fun _ _ _ => True, k' _ (Nat.le_max_right n n') res hf fun _ _ _ => True]

/-- Documents without identifiers whose references are all of the form `#...` are self-contained; a reference
stands for what its JSON pointer selects in the document. -/
theorem local_self {w : World} (h0 : ∀ D, w.pointer "" D = some D) {D0 : Json}
    (hi : idsIn w "" D0 = []) (hr : ∀ t u, HasRef w D0 t → w.norm t = some u → w.base u = "") :
    SelfContained w D0 ∧ (∀ l : LState, (∀ k e, getKey k l.pool = some e → k ≠ "" ∧ w.base k ≠ "") → Elsewhere w l D0) ∧
      ∀ u X D, RwStrict w "" D0 D → OwnStands w D0 u X → w.pointer u D = some X := by
  have own : ∀ {k X}, Own w D0 k X → k = "" ∧ RwStrict w "" D0 X := by
    intro k X h
    have := own_ids h
    rw [hi] at this
    have hk : k = "" := by simpa using this
    rcases h with h | ⟨h, _⟩
    · exact h
    · exact absurd hk h
  have stands : ∀ u X D, RwStrict w "" D0 D → OwnStands w D0 u X → w.pointer u D = some X := by
    intro u X D hD h
    cases h with
    | whole _ h =>
      obtain ⟨rfl, hX⟩ := own h
      rw [h0, rwStrict_eq hD, rwStrict_eq hX]
    | part Y _ h hx =>
      rw [rwStrict_eq hD, ← rwStrict_eq (own h).2, hx]
  obtain ⟨D', hD'⟩ := rw_exists (w := w) (T := False) D0 ""
  refine ⟨⟨by rw [hi]; exact .nil, fun t u ht hn => ?_, fun t u ht hn X X' h h' => ?_⟩, ?_, stands⟩
  · exact ⟨D', .inl ⟨hr t u ht hn, hD'⟩⟩
  · exact Option.some.inj ((stands u X D' hD' h).symm.trans (stands u X' D' hD' h'))
  · exact fun l he k e hk X => ⟨fun h => (he k e hk).1 (own h).1, fun h => (he k e hk).2 (own h).1⟩

/-- C63 for documents without identifiers whose references are all of the form `#...`: the verdict is
that of the keyword rules, where a reference stands for what its JSON pointer selects in the document. -/
theorem C63_local (w : World) (hb : ∀ r, w.base (w.base r) = w.base r)
    (hp : ∀ r D d, w.pointer r D = some d → Within D d) (h0 : ∀ D, w.pointer "" D = some D) (D0 : Json) (hD : D0.WF)
    (hi : idsIn w "" D0 = []) (hr : ∀ t u, HasRef w D0 t → w.norm t = some u → w.base u = "")
    (l : LState) (hw : Setting w l) (hq : Idling l) (he : ∀ k e, getKey k l.pool = some e → k ≠ "" ∧ w.base k ≠ "")
    (v : Json) (b : Bool) (h : Gives w l D0 v b) :
    ∃ D n0, RwStrict w "" D0 D ∧ ∀ n, n0 ≤ n → ∀ P, b = true ↔
      docUnfold w.env (fun t => (w.norm t).bind fun u => (w.pointer u D).map fun X => (draftFor w l D0, X)) P n
        (draftFor w l D0) D v := by
  obtain ⟨hs, hel, stands⟩ := local_self h0 hi hr
  obtain ⟨D, n0, h1, h2⟩ := C63_self_meaning w hb hp D0 hD hs l hw hq (hel l he) v b h
  refine ⟨D, n0, h1, fun n hn P => h2 n hn _ ?_ P⟩
  intro t u X _ hn hx
  simp only [hn, Option.bind_some, stands u X D h1 hx, Option.map_some]

namespace Demo

/-- A recursive schema with identifiers. -/
def family : Json := .obj
  [ ("$id", .str "http://h/tree.json"),
    ("definitions", .obj [("name", .obj [("$id", .str "http://h/name.json"), ("type", .str "string"), ("minLength", int 1)])]),
    ("type", .str "object"),
    ("properties", .obj [("name", .obj [("$ref", .str "http://h/name.json")]), ("nick", .obj [("$ref", .str "#/definitions/name")]),
      ("children", .obj [("type", .str "array"), ("items", .obj [("$ref", .str "#")])])]),
    ("required", .arr [.str "name"]) ]

/-- The loader after its references were made absolute. -/
def familyPool : LState := (parseReferences (world []) Sched.id [] family "" true newSchemaLoader).2

theorem family_wf : family.WF := wf_of _ (by decide +kernel)

theorem family_refs {t} (h : HasRef (world []) family t) :
    t ∈ ["http://h/name.json", "http://h/tree.json#/definitions/name", "http://h/tree.json"] := by
  obtain ⟨D, m, h1, h2, h3⟩ := h
  rw [rwStrict_eq h1] at h2
  have := allWithin_of (f := refsB ["http://h/name.json", "http://h/tree.json#/definitions/name", "http://h/tree.json"]) h2
    (by decide +kernel)
  unfold Kw at h3
  simpa [refsB, h3] using this

theorem family_self : SelfContained (world []) family := by
  have hi : idsIn (world []) "" family = ["http://h/tree.json", "http://h/name.json"] := by decide +kernel
  have hd : (idsIn (world []) "" family).Nodup := by rw [hi]; decide
  have run : ∃ x l', parseReferences (world []) Sched.id [] family "" true newSchemaLoader = (.ok x, l') ∧ x.2 = none := ⟨_, _, rfl, rfl⟩
  refine ⟨hd, ?_, ?_⟩
  · intro t u ht hn
    have own : ∀ k, k ∈ idsIn (world []) "" family → ∃ Y, Own (world []) family k Y := by
      intro k hk
      obtain ⟨b, m, h1, h2⟩ := ids_schemaAt _ (Nat.le_refl _) hk
      exact own_declared h1 (declares_iff.2 h2)
    apply own
    rw [hi]
    have := family_refs ht
    simp only [List.mem_cons, List.not_mem_nil, or_false] at this
    rcases this with rfl | rfl | rfl <;> cases hn <;> decide
  · intro t u ht hn X X' h h'
    obtain ⟨x, l', h1, h2⟩ := run
    have hl : l' = familyPool := by unfold familyPool; rw [h1]
    have f := ownStands_found family_wf hd (by simp [newSchemaLoader, getKey]) h1 h2 h
    have f' := ownStands_found family_wf hd (by simp [newSchemaLoader, getKey]) h1 h2 h'
    have := family_refs ht
    rw [hl] at f f'
    have ht2 : (getKey u familyPool.pool).map PoolDoc.doc = none ∨
        (getKey u familyPool.pool).map PoolDoc.doc =
        ((getKey ((world []).base u) familyPool.pool).map PoolDoc.doc).bind ((world []).pointer u) := by
      simp only [List.mem_cons, List.not_mem_nil, or_false] at this
      rcases this with rfl | rfl | rfl <;> cases hn
      · right; rfl
      · left; rfl
      · right; rfl
    rcases ht2 with e | e
    · rw [e] at f f'
      simp only [reduceCtorEq, false_or] at f f'
      exact Option.some.inj (f.symm.trans f')
    · rw [e] at f f'
      simp only [or_self] at f f'
      exact Option.some.inj (f.symm.trans f')

/-- Another document, which refers to itself. -/
def selfish : Json := .obj [("definitions", .obj [("x", .obj [("type", .str "integer")])]), ("type", .str "object"),
  ("additionalProperties", .obj [("$ref", .str "#")])]

/-- The other document, references made absolute. -/
def otherAbs : Json := .obj [("definitions", .obj [("x", .obj [("type", .str "integer")])]), ("type", .str "object"),
  ("additionalProperties", .obj [("$ref", .str "http://h/other.json")])]

/-- A loader that knows the other document. -/
def informed : LState := (addSchema (world []) Sched.id ⟨20, 20⟩ [] "http://h/other.json" (.direct (some selfish)) newSchemaLoader).2

theorem informed_pool : informed.pool = [("http://h/other.json", ⟨otherAbs, none⟩)] := by rfl

theorem informed_get {k e} (h : getKey k informed.pool = some e) : k = "http://h/other.json" ∧ e = ⟨otherAbs, none⟩ := by
  rw [informed_pool] at h
  simp only [getKey, List.lookup] at h
  split at h
  · rename_i hk; cases h; exact ⟨by simpa using hk, rfl⟩
  · cases h

theorem informed_setting : Setting (world []) informed where
  lawful := world_lawful (by intro k d h; simp [getKey] at h)
  pool := by
    intro k e h
    rw [(informed_get h).2]
    exact wf_of _ (by decide +kernel)
  root := by decide

theorem new_setting : Setting (world []) newSchemaLoader where
  lawful := world_lawful (by intro k d h; simp [getKey] at h)
  pool := by intro k e h; simp [newSchemaLoader, getKey] at h
  root := by decide

theorem family_elsewhere : Elsewhere (world []) informed family := by
  intro k e h X
  obtain ⟨rfl, _⟩ := informed_get h
  have hi : idsIn (world []) "" family = ["http://h/tree.json", "http://h/name.json"] := by decide +kernel
  have hb : (world []).base "http://h/other.json" = "http://h/other.json" := by decide +kernel
  rw [hb]
  have : ¬ Own (world []) family "http://h/other.json" X := by
    intro ho
    have := own_ids ho
    rw [hi] at this
    revert this; decide
  exact ⟨this, this⟩

/-- Documents that refer to the other one. -/
structure Asks (D : Json) : Prop where
  ids : idsIn (world []) "" D = []
  abs : absRefs (world []) "" D = D
  refs : allWithin (refsB ["http://h/other.json", "http://h/other.json#/definitions/x"]) D = true

section
variable {D0 : Json} (ha : Asks D0)
include ha

theorem Asks.own {k X} (h : Own (world []) D0 k X) : k = "" := by
  have := own_ids h
  rw [ha.ids] at this
  simpa using this

theorem Asks.stands {u o X} (hu : u = "http://h/other.json" ∨ u = "http://h/other.json#/definitions/x")
    (h : StandsFor (world []) informed D0 u o X) : o = none ∧ (world []).pointer u otherAbs = some X := by
  have hb : (world []).base u = "http://h/other.json" := by rcases hu with rfl | rfl <;> decide +kernel
  cases h with
  | whole e hp =>
    cases hp with
    | own X hX => have := ha.own hX; subst this; rcases hu with hu | hu <;> simp at hu
    | before _ _ _ hk =>
      obtain ⟨rfl, rfl⟩ := informed_get hk
      exact ⟨rfl, rfl⟩
  | part e _ hp hx =>
    rw [hb] at hp
    cases hp with
    | own X hX => have := ha.own hX; simp at this
    | before _ _ _ hk =>
      obtain ⟨_, rfl⟩ := informed_get hk
      exact ⟨rfl, hx⟩

theorem Asks.texts {t m} (h : Within D0 (.obj m) ∨ Within otherAbs (.obj m)) (hk : Kw m "$ref" (.str t)) :
    t = "http://h/other.json" ∨ t = "http://h/other.json#/definitions/x" := by
  have : refsB ["http://h/other.json", "http://h/other.json#/definitions/x"] (.obj m) = true := by
    rcases h with h | h
    · exact allWithin_of h ha.refs
    · exact allWithin_of h (by decide +kernel)
  unfold Kw at hk
  simpa [refsB, hk] using this

theorem Asks.reach {X} (h : Met (world []) informed D0 X) : Within D0 X ∨ Within otherAbs X := by
  induction h with
  | root D h =>
    left
    rw [rwStrict_eq h, ha.abs]
    exact .self _
  | inside D x _ hx ih =>
    rcases ih with ih | ih
    · exact .inl (within_trans ih hx)
    · exact .inr (within_trans ih hx)
  | ref m t u o X _ hk hn hs ih =>
    right
    have ht := ha.texts ih hk
    have hu : u = t := by rcases ht with rfl | rfl <;> cases hn <;> decide +kernel
    subst hu
    exact (world_standard []).pointer _ _ _ (ha.stands ht hs).2

theorem Asks.to {u} (h : RefersTo (world []) informed D0 u) :
    u = "http://h/other.json" ∨ u = "http://h/other.json#/definitions/x" := by
  obtain ⟨m, t, h1, h2, h3⟩ := h
  rcases ha.texts (ha.reach h1) h2 with rfl | rfl <;> cases h3
  · left; decide +kernel
  · right; decide +kernel

theorem Asks.closed (d : Draft) : Closed (world []) informed d D0 where
  distinct := by rw [ha.ids]; exact .nil
  new := by
    intro b m k h1 h2
    have := schemaAt_ids h1 rfl (declares_iff.1 h2)
    rw [ha.ids] at this
    cases this
  known := by
    intro u h
    refine ⟨⟨otherAbs, none⟩, .inr (.before _ ?_ ?_ ?_)⟩
    · rcases ha.to h with rfl | rfl <;> decide +kernel
    · intro b m h1 h2
      have := schemaAt_ids h1 rfl (declares_iff.1 h2)
      rw [ha.ids] at this
      cases this
    · rcases ha.to h with rfl | rfl <;> rfl
  one := by
    intro u h o o' X X' g g'
    have a := (ha.stands (ha.to h) g).2
    have b := (ha.stands (ha.to h) g').2
    exact Option.some.inj (a.symm.trans b)
  draft := by
    intro u h x X g
    cases (ha.stands (ha.to h) g).1

theorem Asks.root : RwStrict (world []) "" D0 D0 := by
  obtain ⟨E, hE⟩ := rw_exists (w := world []) (T := False) D0 ""
  have : E = D0 := (rwStrict_eq hE).trans ha.abs
  exact this ▸ hE

/-- What the references stand for. -/
def askRes (d : Draft) (t : String) : Option (Draft × Json) :=
  if t = "http://h/other.json" then some (d, otherAbs)
  else if t = "http://h/other.json#/definitions/x" then some (d, .obj [("type", .str "integer")]) else none

theorem Asks.follows (d : Draft) : Follows (world []) informed d D0 (askRes d) := by
  intro m t u o X h1 h2 h3 h4
  have ht := ha.texts (ha.reach h1) h2
  have hu : u = t := by rcases ht with rfl | rfl <;> cases h3 <;> decide +kernel
  subst hu
  have := (ha.stands ht h4).2
  rcases ht with rfl | rfl
  · cases this; rfl
  · cases this; rfl

end

/-- A document that refers to the other one. -/
def asking : Json := .obj [("properties", .obj [("a", .obj [("$ref", .str "http://h/other.json#/definitions/x")]),
  ("b", .obj [("$ref", .str "http://h/other.json")])])]

theorem asking_asks : Asks asking := ⟨by decide +kernel, by rfl, by decide +kernel⟩

theorem asking_closed : Closed (world []) informed (draftFor (world []) informed asking) asking := asking_asks.closed _

end Demo

/-! The hypotheses of `C63_self_meaning` and `C63_everywhere` for a recursive document, in two loaders, and the verdicts. -/
example (v : Json) (b b' : Bool) (h : Gives (Demo.world []) newSchemaLoader Demo.family v b)
    (h' : Gives (Demo.world []) Demo.informed Demo.family v b') : b = b' :=
  C63_everywhere (Demo.world []) Demo.baseOf_idem (Demo.world_standard []).pointer Demo.family Demo.family_wf Demo.family_self
    newSchemaLoader Demo.informed Demo.new_setting Demo.informed_setting ⟨rfl, rfl⟩ ⟨rfl, rfl⟩
    (by intro k e h; simp [newSchemaLoader, getKey] at h) Demo.family_elsewhere rfl v b b' h h'
example : Gives (Demo.world []) newSchemaLoader Demo.family Demo.tree true := Demo.gives_verdictOf (by decide +kernel)
example : Gives (Demo.world []) Demo.informed Demo.family Demo.treeBad false := Demo.gives_verdictOf (by decide +kernel)

/-! The hypotheses of `C63_local` for a recursive document. -/
example : idsIn (Demo.world []) "" Demo.treeDoc = [] := by decide +kernel
example (t u : String) (h : HasRef (Demo.world []) Demo.treeDoc t) (hn : (Demo.world []).norm t = some u) :
    (Demo.world []).base u = "" := by
  obtain ⟨D, m, h1, h2, h3⟩ := h
  rw [rwStrict_eq h1] at h2
  have := allWithin_of (f := refsB ["", "#/definitions/name"]) h2 (by decide +kernel)
  unfold Kw at h3
  have : t = "" ∨ t = "#/definitions/name" := by simpa [refsB, h3] using this
  rcases this with rfl | rfl <;> cases hn <;> decide +kernel
example (D : Json) : (Demo.world []).pointer "" D = some D := by rfl
example : Gives (Demo.world []) newSchemaLoader Demo.treeDoc Demo.treeBad false := Demo.gives_verdictOf (by decide +kernel)

/-! The hypotheses of `C63_no_fetch`, `C63_meaning` and `C63_deterministic` for a document that refers to another one. -/
example (v : Json) (b b' : Bool) (h : Gives (Demo.world []) Demo.informed Demo.asking v b)
    (h' : Gives (Demo.world []) Demo.informed Demo.asking v b') : b = b' :=
  C63_deterministic (Demo.world []) Demo.baseOf_idem Demo.informed Demo.informed_setting ⟨rfl, rfl⟩ Demo.asking
    (Demo.wf_of _ (by decide +kernel)) Demo.asking_closed v b b' h h'
example : Gives (Demo.world []) Demo.informed Demo.asking (.obj [("a", Demo.int 1), ("b", .obj [("c", .obj [])])]) true :=
  Demo.gives_verdictOf (by decide +kernel)
example : Gives (Demo.world []) Demo.informed Demo.asking (.obj [("b", .obj [("c", .str "x")])]) false :=
  Demo.gives_verdictOf (by decide +kernel)

end GJS

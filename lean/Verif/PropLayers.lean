import Verif.LemLayers
import Verif.PropClosed
import Verif.PropLaws
import Verif.PropSpelling
import Verif.PropDeref
import Verif.LemInPlace
/-
C70: laws for schemas with references, recursive ones included.
-/
namespace GJS
open Spec

/-- C70.  The verdict on a closed document is what every high enough layer says of it, in every sequence
of layers for what the references stand for. -/
theorem C70_layers (w : World) (hb : ∀ r, w.base (w.base r) = w.base r) (l : LState) (hw : Setting w l) (hq : Idling l)
    (D0 : Json) (hD : D0.WF) (hc : Closed w l (draftFor w l D0) D0) (v : Json) (b : Bool) (h : Gives w l D0 v b) :
    ∃ D n0, RwStrict w "" D0 D ∧ ∀ resolve, Follows w l (draftFor w l D0) D0 resolve →
      ∀ R S, Layers w.env R resolve S → ∀ k, n0 ≤ k → (b = true ↔ S k (draftFor w l D0) D v) := by
  obtain ⟨σ, fuel, p, s, l', σ', n0, r, h1, hv, rfl⟩ := h
  obtain ⟨D, hst, H, g⟩ := closed_compile hw hq hD hc h1
  refine ⟨D, n0, hst, fun resolve hf R S hS k hk => ?_⟩
  have hres : ∀ (i : Nat) (nd : Sub) m t, s.heap[i]? = some nd → nd.doc = .obj m → Kw m "$ref" (.str t) → resolveIn w s.heap s.refs t = resolve t := by
    intro i nd m t hi hm ht
    have hr := (compiled_reach hb H hc hst (g.made i nd hi)).2
    rw [hm] at hr
    obtain ⟨u, o, X, h1, h2, h3⟩ := closed_resolve hb H hc hst g ⟨i, hm ▸ Stat.of hi⟩ ht
    rw [h3, hf m t u o X hr ht h1 h2]
  have : r.valid = true ↔ satNode s.heap (S k) s.root v := g.layers hS hres σ' n0 k hk _ _ _ _ _ hv
  rw [this, g.root.satNode]

/-- C70.  Two closed documents that come from each other by laws, by members that ask for nothing and by replacing
references that do not go round in circles by what they stand for, and whose other references stand for documents that do,
give the same verdict on every instance. -/
theorem C70_verdict (w : World) (hb : ∀ r, w.base (w.base r) = w.base r) (l l' : LState) (hw : Setting w l) (hw' : Setting w l')
    (hq : Idling l) (hq' : Idling l') (D0 D0' : Json) (hD : D0.WF) (hD' : D0'.WF) (hd : draftFor w l D0 = draftFor w l' D0')
    (hc : Closed w l (draftFor w l D0) D0) (hc' : Closed w l' (draftFor w l' D0') D0')
    (resolve resolve' : String → Option (Draft × Json)) (hf : Follows w l (draftFor w l D0) D0 resolve)
    (hf' : Follows w l' (draftFor w l' D0') D0' resolve') (R : String → Prop) (hg : Grounded R resolve) (hm : Matched R resolve resolve')
    (D D' : Json) (hst : RwStrict w "" D0 D) (hst' : RwStrict w "" D0' D') (h : Rewrites R resolve (draftFor w l D0) D D')
    (v : Json) (b b' : Bool) (hv : Gives w l D0 v b) (hv' : Gives w l' D0' v b') : b = b' := by
  obtain ⟨E, n, h1, h2⟩ := C70_layers w hb l hw hq D0 hD hc v b hv
  obtain ⟨E', n', h1', h2'⟩ := C70_layers w hb l' hw' hq' D0' hD' hc' v b' hv'
  have hE : E = D := (rwStrict_eq h1).trans (rwStrict_eq hst).symm
  have hE' : E' = D' := (rwStrict_eq h1').trans (rwStrict_eq hst').symm
  subst hE hE'
  obtain ⟨N, rank, hg⟩ := hg
  have same : ∀ t, R t → resolve t = resolve' t := fun t hR => (hm t).elim id fun ⟨h, _⟩ => absurd hR h
  have hg' : ∀ t, R t → rank t < N ∧ ∀ d X t', resolve' t = some (d, X) → HasText X t' → R t' → rank t' < rank t :=
    fun t hR => same t hR ▸ hg t hR
  rw [Bool.eq_iff_iff, h2 resolve hf R _ (layersFrom_layers hg) _ (Nat.le_max_left n n'),
    h2' resolve' hf' R _ (layersFrom_layers hg') _ (Nat.le_max_right n n'), ← hd]
  exact layers_rewrites hg hm _ _ _ _ h v

/-- C70 for documents without identifiers whose references are all of the form `#...`: a reference stands for what its
JSON pointer selects in the document. -/
theorem C70_local (w : World) (hb : ∀ r, w.base (w.base r) = w.base r)
    (hp : ∀ r D d, w.pointer r D = some d → Within D d) (h0 : ∀ D, w.pointer "" D = some D)
    (l l' : LState) (hw : Setting w l) (hw' : Setting w l') (hq : Idling l) (hq' : Idling l')
    (he : ∀ k e, getKey k l.pool = some e → k ≠ "" ∧ w.base k ≠ "") (he' : ∀ k e, getKey k l'.pool = some e → k ≠ "" ∧ w.base k ≠ "")
    (D0 D0' : Json) (hD : D0.WF) (hD' : D0'.WF) (hi : idsIn w "" D0 = []) (hi' : idsIn w "" D0' = [])
    (hr : ∀ t u, HasRef w D0 t ∨ HasRef w D0' t → w.norm t = some u → w.base u = "") (d : Draft)
    (hd : draftFor w l D0 = d) (hd' : draftFor w l' D0' = d)
    (D D' : Json) (hst : RwStrict w "" D0 D) (hst' : RwStrict w "" D0' D')
    (resolve : String → Option (Draft × Json)) (hres : ∀ t u, HasRef w D0 t ∨ HasRef w D0' t → w.norm t = some u →
      resolve t = (w.pointer u D).map fun X => (d, X))
    (R : String → Prop) (hg : Grounded R resolve)
    (hm : ∀ t u, HasRef w D0 t ∨ HasRef w D0' t → w.norm t = some u → w.pointer u D = w.pointer u D' ∨
      (¬ R t ∧ ∃ X X', w.pointer u D = some X ∧ w.pointer u D' = some X' ∧ Rewrites R resolve d X X'))
    (h : Rewrites R resolve d D D') (v : Json) (b b' : Bool) (hv : Gives w l D0 v b) (hv' : Gives w l' D0' v b') : b = b' := by
  classical
  subst hd
  obtain ⟨hs, hel, stands⟩ := local_self h0 hi fun t u ht => hr t u (.inl ht)
  obtain ⟨hs', hel', stands'⟩ := local_self h0 hi' fun t u ht => hr t u (.inr ht)
  have hf : SelfFollows w (draftFor w l D0) D0 resolve := by
    intro t u X ht hn hx
    rw [hres t u (.inl ht) hn, stands u X D hst hx]; rfl
  let resolve' : String → Option (Draft × Json) := fun t =>
    if HasRef w D0 t ∨ HasRef w D0' t then
      match w.norm t with
      | some u => (w.pointer u D').map fun X => (draftFor w l D0, X)
      | none => resolve t
    else resolve t
  have hf' : SelfFollows w (draftFor w l' D0') D0' resolve' := by
    intro t u X ht hn hx
    simp only [resolve']
    rw [if_pos (.inr ht), hn]
    simp only [stands' u X D' hst' hx, Option.map_some, hd']
  have hM : Matched R resolve resolve' := by
    intro t
    by_cases ht : HasRef w D0 t ∨ HasRef w D0' t
    · cases hn : w.norm t with
      | none => left; simp only [resolve']; rw [if_pos ht, hn]
      | some u =>
        have e : resolve' t = (w.pointer u D').map fun X => (draftFor w l D0, X) := by
          simp only [resolve']; rw [if_pos ht, hn]
        rw [e, hres t u ht hn]
        rcases hm t u ht hn with h | ⟨h1, X, X', h2, h3, h4⟩
        · left; rw [h]
        · exact .inr ⟨h1, _, X, X', by rw [h2]; rfl, by rw [h3]; rfl, h4⟩
    · left; simp only [resolve']; rw [if_neg ht]
  exact C70_verdict w hb l l' hw hw' hq hq' D0 D0' hD hD' hd'.symm (hs.closed hp (hel l he)) (hs'.closed hp (hel' l' he')) resolve resolve'
    (hf.follows hp hs (hel l he)) (hf'.follows hp hs' (hel' l' he')) R hg hM D D' hst hst' h v b b' hv hv'

/-- C70, spelling: two spellings of a closed document, whose references stand for spellings of the same documents,
give the same verdict on two spellings of an instance. -/
theorem C70_spelling (w : World) (hb : ∀ r, w.base (w.base r) = w.base r) (hfb : FormatBlind w.env) (l l' : LState)
    (hw : Setting w l) (hw' : Setting w l') (hq : Idling l) (hq' : Idling l') (D0 D0' : Json) (hD : D0.WF) (hD' : D0'.WF)
    (hd : draftFor w l D0 = draftFor w l' D0') (hc : Closed w l (draftFor w l D0) D0) (hc' : Closed w l' (draftFor w l' D0') D0')
    (resolve resolve' : String → Option (Draft × Json)) (hf : Follows w l (draftFor w l D0) D0 resolve)
    (hf' : Follows w l' (draftFor w l' D0') D0' resolve') (hr : ∀ t, (resolve t = none ∧ resolve' t = none) ∨
      ∃ d X X', resolve t = some (d, X) ∧ resolve' t = some (d, X') ∧ X.WF ∧ X'.WF ∧ Respell w.env X X')
    (D D' : Json) (hst : RwStrict w "" D0 D) (hst' : RwStrict w "" D0' D') (h : Respell w.env D D')
    (v v' : Json) (hwv : v.WF) (hwv' : v'.WF) (hsv : Respell w.env v v') (b b' : Bool) (hv : Gives w l D0 v b) (hv' : Gives w l' D0' v' b') :
    b = b' := by
  obtain ⟨E, n, h1, h2⟩ := C63_meaning w hb l hw hq D0 hD hc v b hv
  obtain ⟨E', n', h1', h2'⟩ := C63_meaning w hb l' hw' hq' D0' hD' hc' v' b' hv'
  have hE : E = D := (rwStrict_eq h1).trans (rwStrict_eq hst).symm
  have hE' : E' = D' := (rwStrict_eq h1').trans (rwStrict_eq hst').symm
  subst hE hE'
  rw [Bool.eq_iff_iff, h2 _ (Nat.le_max_left n n') resolve hf fun _ _ _ => True,
    h2' _ (Nat.le_max_right n n') resolve' hf' fun _ _ _ => True, ← hd]
  refine docUnfold_alike2 hfb _ (fun _ _ _ _ _ _ _ => Iff.rfl) resolve resolve' (fun t => ?_) _ _ _ _ _ _
    (respell_alike h (Mem.rw_wf hD hst) (Mem.rw_wf hD' hst')) (respell_alike hsv hwv hwv')
  rcases hr t with h | ⟨d, X, X', g1, g2, g3, g4, g5⟩
  · exact .inl h
  · exact .inr ⟨d, X, X', g1, g2, respell_alike g5 g3 g4⟩

namespace Demo

/-- A recursive schema, and the same with the name inlined and the list of children said otherwise. -/
def treeNamed (name children : Json) : Json := .obj
  [ ("definitions", .obj [("name", nameDef)]), ("type", .str "object"),
    ("properties", .obj [("name", name), ("children", .obj [("items", children)])]) ]
where nameDef : Json := .obj [("type", .str "string"), ("minLength", int 1)]

def treeOne : Json := treeNamed (.obj [("$ref", .str "#/definitions/name")]) (.obj [("$ref", .str "")])
def treeTwo : Json := treeNamed treeNamed.nameDef (all [.obj [("$ref", .str "")]])

/-- What its references stand for. -/
def treeRes (d : Draft) : String → Option (Draft × Json) := fun t =>
  if t = "" then some (d, treeOne) else if t = "#/definitions/name" then some (d, treeNamed.nameDef) else none

def nameOnly (t : String) : Prop := t = "#/definitions/name"

theorem nameOnly_grounded (d : Draft) : Grounded nameOnly (treeRes d) := by
  refine ⟨1, fun _ => 0, fun t ht => ⟨Nat.zero_lt_one, ?_⟩⟩
  cases ht
  intro d' X t' h ⟨m, h1, h2⟩
  simp [treeRes] at h
  obtain ⟨_, rfl⟩ := h
  have := allWithin_of (f := refsB []) h1 (by decide +kernel)
  unfold Kw at h2
  simp [refsB, h2] at this

theorem treeOne_two (d : Draft) : Rewrites nameOnly (treeRes d) d treeOne treeTwo := by
  refine .trans _ (treeNamed treeNamed.nameDef (.obj [("$ref", .str "")])) _ ?_ ?_
  · exact .map [("definitions", .obj [("name", treeNamed.nameDef)]), ("type", .str "object")] [] "properties" [] _ "name" _ _ (by decide)
      (.inline _ "#/definitions/name" _ rfl rfl (by rfl))
  · exact .map [("definitions", .obj [("name", treeNamed.nameDef)]), ("type", .str "object")] [] "properties"
      [("name", treeNamed.nameDef)] [] "children" _ _ (by decide)
      (.one [] [] "items" _ _ (by decide) (.symm _ _ (.law _ _ (.single "allOf" _ (by decide)))))

theorem tree_refs {D t} (hD : D = treeOne ∨ D = treeTwo) (h : HasRef (world []) D t) : t = "" ∨ t = "#/definitions/name" := by
  obtain ⟨E, m, h1, h2, h3⟩ := h
  rw [rwStrict_eq h1] at h2
  have := allWithin_of (f := refsB ["", "#/definitions/name"]) h2 (by rcases hD with rfl | rfl <;> decide +kernel)
  unfold Kw at h3
  simpa [refsB, h3] using this

theorem tree_abs {D} (hD : D = treeOne ∨ D = treeTwo) : RwStrict (world []) "" D D := by
  obtain ⟨E, hE⟩ := rw_exists (w := world []) (T := False) D ""
  have : E = D := (rwStrict_eq hE).trans (by rcases hD with rfl | rfl <;> rfl)
  exact this ▸ hE

/-- Every hypothesis of `C70_local` holds for them. -/
theorem trees_same (v : Json) (b b' : Bool) (h : Gives (world []) newSchemaLoader treeOne v b)
    (h' : Gives (world []) newSchemaLoader treeTwo v b') : b = b' := by
  have ref : ∀ t u, HasRef (world []) treeOne t ∨ HasRef (world []) treeTwo t → (world []).norm t = some u →
      (t = "" ∧ u = "") ∨ (t = "#/definitions/name" ∧ u = "#/definitions/name") := by
    intro t u ht hn
    have : t = "" ∨ t = "#/definitions/name" := ht.elim (tree_refs (.inl rfl)) (tree_refs (.inr rfl))
    rcases this with rfl | rfl
    · left; cases hn; exact ⟨rfl, by decide +kernel⟩
    · right; cases hn; exact ⟨rfl, by decide +kernel⟩
  refine C70_local (world []) baseOf_idem (world_standard []).pointer (fun _ => rfl) newSchemaLoader newSchemaLoader new_setting new_setting
    ⟨rfl, rfl⟩ ⟨rfl, rfl⟩ (by intro k e h; simp [newSchemaLoader, getKey] at h) (by intro k e h; simp [newSchemaLoader, getKey] at h)
    treeOne treeTwo (wf_of _ (by decide +kernel)) (wf_of _ (by decide +kernel)) (by decide +kernel) (by decide +kernel)
    ?_ _ rfl rfl treeOne treeTwo (tree_abs (.inl rfl)) (tree_abs (.inr rfl)) (treeRes _) ?_ nameOnly (nameOnly_grounded _) ?_ (treeOne_two _) v b b' h h'
  · intro t u ht hn
    rcases ref t u ht hn with ⟨_, rfl⟩ | ⟨_, rfl⟩ <;> decide +kernel
  · intro t u ht hn
    rcases ref t u ht hn with ⟨rfl, rfl⟩ | ⟨rfl, rfl⟩ <;> rfl
  · intro t u ht hn
    rcases ref t u ht hn with ⟨rfl, rfl⟩ | ⟨rfl, rfl⟩
    · exact .inr ⟨by unfold nameOnly; decide, treeOne, treeTwo, rfl, rfl, treeOne_two _⟩
    · exact .inl rfl

/-- A document that refers to another one, and the same spelled in another way. -/
def askingA : Json := .obj [("properties", .obj [("a", .obj [("$ref", .str "http://h/other.json#/definitions/x")])]), ("minProperties", int 1)]
def askingB : Json := .obj [("minProperties", int 1), ("properties", .obj [("a", .obj [("$ref", .str "http://h/other.json#/definitions/x")])])]

theorem askingA_asks : Asks askingA := ⟨by decide +kernel, by rfl, by decide +kernel⟩
theorem askingB_asks : Asks askingB := ⟨by decide +kernel, by rfl, by decide +kernel⟩

theorem respell_refl {D : Json} (h : D.WF) : Respell env D D := alike_respell (alike_refl h)

theorem respell_asking : Respell env askingA askingB := by
  refine .obj _ _ (by intro k; simp [or_comm]) ?_
  intro k x y hx hy
  simp only [List.mem_cons, Prod.mk.injEq, List.not_mem_nil, or_false] at hx hy
  rcases hx with ⟨rfl, rfl⟩ | ⟨rfl, rfl⟩ <;> rcases hy with ⟨h, rfl⟩ | ⟨h, rfl⟩ <;> first | (simp at h; done) | skip
  · exact respell_refl (wf_of _ (by decide +kernel))
  · exact respell_refl (wf_of _ (by decide +kernel))

/-- Every hypothesis of `C70_spelling` holds for them, and for `1` and `1.0`. -/
theorem askings_same (b b' : Bool) (h : Gives (world []) informed askingA (.obj [("a", int 1)]) b)
    (h' : Gives (world []) informed askingB (.obj [("a", .num ⟨false, 1, [0], none⟩)]) b') : b = b' := by
  refine C70_spelling (world []) baseOf_idem (fun _ _ _ _ => rfl) informed informed informed_setting informed_setting ⟨rfl, rfl⟩ ⟨rfl, rfl⟩
    askingA askingB (wf_of _ (by decide +kernel)) (wf_of _ (by decide +kernel)) rfl (askingA_asks.closed _) (askingB_asks.closed _)
    (askRes _) (askRes _) (askingA_asks.follows _) (askingB_asks.follows _) ?_ askingA askingB askingA_asks.root askingB_asks.root respell_asking
    _ _ (wf_of _ (by decide +kernel)) (wf_of _ (by decide +kernel)) ?_ b b' h h'
  · intro t
    unfold askRes
    split
    · exact .inr ⟨_, _, _, rfl, rfl, wf_of _ (by decide +kernel), wf_of _ (by decide +kernel), respell_refl (wf_of _ (by decide +kernel))⟩
    · split
      · exact .inr ⟨_, _, _, rfl, rfl, wf_of _ (by decide +kernel), wf_of _ (by decide +kernel), respell_refl (wf_of _ (by decide +kernel))⟩
      · exact .inl ⟨rfl, rfl⟩
  · refine .obj _ _ (by intro k; simp) ?_
    intro k x y hx hy
    simp only [List.mem_cons, Prod.mk.injEq, List.not_mem_nil, or_false] at hx hy
    obtain ⟨_, rfl⟩ := hx
    obtain ⟨_, rfl⟩ := hy
    exact .num _ _ (by decide +kernel) rfl rfl

/-- Every hypothesis of `C70_verdict` holds for a document that refers to another one and the same with the reference
replaced by what it stands for. -/
theorem inquiring_verdict (v : Json) (b b' : Bool) (h : Gives (world []) informed inquiring v b) (h' : Gives (world []) informed inquired v b') :
    b = b' := by
  have ha : Asks inquired := ⟨by decide +kernel, by rfl, by decide +kernel⟩
  refine C70_verdict (world []) baseOf_idem informed informed informed_setting informed_setting ⟨rfl, rfl⟩ ⟨rfl, rfl⟩ inquiring inquired
    (wf_of _ (by decide +kernel)) (wf_of _ (by decide +kernel)) rfl (inquiring_asks.closed _) (ha.closed _) (askRes _) (askRes _)
    (inquiring_asks.follows _) (ha.follows _) (fun t => t = "http://h/other.json#/definitions/x") ⟨1, fun _ => 0, ?_⟩ (fun _ => .inl rfl)
    inquiring inquired inquiring_asks.root ha.root ?_ v b b' h h'
  · rintro t rfl
    refine ⟨Nat.zero_lt_one, ?_⟩
    intro d' X t' h ⟨m, h1, h2⟩
    simp [askRes] at h
    obtain ⟨_, rfl⟩ := h
    have := allWithin_of (f := refsB []) h1 (by decide +kernel)
    unfold Kw at h2
    simp [refsB, h2] at this
  · exact .map [] [] "properties" [] [] "a" _ _ (by decide) (.inline _ "http://h/other.json#/definitions/x" _ rfl rfl (by rfl))

def leaf (n : String) : Json := .obj [("name", .str n)]

end Demo

/-! Both verdicts occur. -/
example : Gives (Demo.world []) newSchemaLoader Demo.treeOne (.obj [("children", .arr [Demo.leaf "x", .obj [("children", .arr [Demo.leaf ""])]])]) false :=
  Demo.gives_verdictOf (by decide +kernel)
example : Gives (Demo.world []) newSchemaLoader Demo.treeTwo (.obj [("children", .arr [Demo.leaf "x", .obj [("children", .arr [Demo.leaf "y"])]])]) true :=
  Demo.gives_verdictOf (by decide +kernel)

end GJS

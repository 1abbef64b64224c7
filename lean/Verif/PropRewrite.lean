import Verif.LemStrict
import Verif.LemHistory
import Verif.DemoWorld
/-
C29, C43: what adding a document to a loader does to the document.
-/
namespace GJS
open Spec

theorem addSchema_ok {w : World} {σ : Sched} {fuel : Fuel} {p : Path} {url : String} {D : Json} {l l' : LState}
    (h : addSchema w σ fuel p url (.direct (some D)) l = (.ok (), l')) :
    ∃ ref l1 x draft, w.norm url = some ref ∧ whenValidate (validateMetaschema w σ fuel p D) l = (.ok (), l1) ∧
      parseReferences w σ (64 :: p) D ref true l1 = (.ok x, l') ∧ x.2 = none ∧
      getKey ref l'.pool = some ⟨x.1, draft⟩ := by
  unfold addSchema at h
  cases hn : w.norm url with
  | none => rw [hn] at h; simp at h
  | some ref =>
    rw [hn] at h
    simp only at h
    obtain ⟨doc, s1, h1, h'⟩ := M.bind_ok.1 h; clear h
    simp only [loadJSON, Prod.mk.injEq, Except.ok.injEq] at h1
    obtain ⟨rfl, rfl⟩ := h1
    obtain ⟨_, s2, h2, h⟩ := M.bind_ok.1 h'; clear h'
    obtain ⟨x, s3, h3, h'⟩ := M.bind_ok.1 h; clear h
    obtain ⟨y, s4, h4, h⟩ := M.bind_ok.1 h'; clear h'
    rw [M.pure_ok] at h
    obtain ⟨rfl, _, hx⟩ := failIf_ok h4
    obtain ⟨_, rfl⟩ := h
    have hfree : getKey ref s2.pool = none := by
      cases hk : getKey ref s2.pool with
      | none => rfl
      | some e =>
        have hin : inPool ref s2 = (.ok true, s2) := inPool_ok.2 ⟨rfl, by simp [existsMapKey, hk]⟩
        simp only [parseReferences, M.bind_def, hin, Bool.and_true, if_true, M.pure_def, Prod.mk.injEq,
          Except.ok.injEq] at h3
        rw [← h3.1] at hx
        cases hx
    obtain ⟨draft, _, h5⟩ := (parseReferences_pooled hfree).1 _ _ h3
    exact ⟨ref, s2, x, draft, rfl, h2, h3, hx, h5⟩

/-- C29.  After a successful `AddSchema` the loader holds, under the URL, the document with its
references made absolute and nothing else changed; only schemas that declare an identifier may
have been left out. -/
theorem C29_stored (w : World) (σ : Sched) (fuel : Fuel) (p : Path) (url : String) (D : Json) (hD : D.WF)
    (l l' : LState) (h : addSchema w σ fuel p url (.direct (some D)) l = (.ok (), l')) :
    ∃ ref e, w.norm url = some ref ∧ getKey ref l'.pool = some e ∧ Rw w ref D e.doc := by
  obtain ⟨ref, l1, x, draft, h1, _, h3, h4, h5⟩ := addSchema_ok h
  refine ⟨ref, _, h1, h5, ?_⟩
  rcases parseReferences_rw hD h3 with ⟨_, hs⟩ | hrw
  · rw [h4] at hs; cases hs
  · exact hrw

/-- C29, nothing left out.  If moreover `Validate` is off and the identifiers declared in the
document are distinct and new to the loader, all its references are made absolute. -/
theorem C29_stored_strict (w : World) (σ : Sched) (fuel : Fuel) (p : Path) (url : String) (D : Json) (hD : D.WF)
    (l l' : LState) (hv : l.validate = false) (ref : String) (hr : w.norm url = some ref)
    (hi : (idsIn w ref D).Nodup) (hf : ∀ k ∈ idsIn w ref D, getKey k l.pool = none)
    (h : addSchema w σ fuel p url (.direct (some D)) l = (.ok (), l')) :
    ∃ e, getKey ref l'.pool = some e ∧ RwStrict w ref D e.doc := by
  obtain ⟨ref', l1, x, draft, h1, h2, h3, h4, h5⟩ := addSchema_ok h
  rw [hr] at h1
  cases h1
  simp only [whenValidate, M.bind_def, M.get, hv, Bool.false_eq_true, if_false, M.pure_def, Prod.mk.injEq, true_and] at h2
  subst h2
  refine ⟨_, h5, ?_⟩
  rcases parseReferences_strict hD hi hf h3 with ⟨_, hs, _⟩ | hrw
  · rw [h4] at hs; cases hs
  · exact hrw

namespace Demo
mutual
/-- Equality of documents, member order included. -/
def same : Json → Json → Bool
  | .str a, .str b => a == b
  | .arr xs, .arr ys => sameL xs ys
  | .obj m, .obj m' => sameM m m'
  | _, _ => false
/-- ... of lists -/
def sameL : List Json → List Json → Bool
  | [], [] => true
  | x :: xs, y :: ys => same x y && sameL xs ys
  | _, _ => false
/-- ... of members -/
def sameM : List (String × Json) → List (String × Json) → Bool
  | [], [] => true
  | (k, x) :: xs, (k', y) :: ys => k == k' && same x y && sameM xs ys
  | _, _ => false
end
/-- A document with references in and out of schema positions, and two identifiers. -/
def refDoc : Json := .obj [
  ("$id", .str "b"),
  ("properties", .obj [("$ref", .obj [("$ref", .str "#/x")]), ("const", .obj [("$ref", .str "c")])]),
  ("const", .obj [("$ref", .str "#/x")]),
  ("enum", .arr [.obj [("$ref", .str "#/x")]]),
  ("not", .obj [("$id", .str "d"), ("items", .arr [.obj [("$ref", .str "#")]])])]
/-- The same, rewritten. -/
def refDoc' : Json := .obj [
  ("$id", .str "b"),
  ("properties", .obj [("$ref", .obj [("$ref", .str "b#/x")]), ("const", .obj [("$ref", .str "c")])]),
  ("const", .obj [("$ref", .str "#/x")]),
  ("enum", .arr [.obj [("$ref", .str "#/x")]]),
  ("not", .obj [("$id", .str "d"), ("items", .arr [.obj [("$ref", .str "d")]])])]
end Demo

/-- The hypotheses of `C29_stored_strict` hold and the outcome is what one expects. -/
example : idsIn (Demo.world []) "a" Demo.refDoc = ["b", "d"] ∧
    (addSchema (Demo.world []) Sched.id ⟨20, 20⟩ [] "a" (.direct (some Demo.refDoc)) newSchemaLoader).1.isOk = true ∧
    ((getKey "a" (addSchema (Demo.world []) Sched.id ⟨20, 20⟩ [] "a" (.direct (some Demo.refDoc)) newSchemaLoader).2.pool).map
      (fun e => Demo.same e.doc Demo.refDoc')) = some true := by decide +kernel

/-! ### In terms of positions -/

namespace Spec

/-- One step down in a document. -/
inductive Move where
  | key (k : String)
  | idx (i : Nat)
deriving DecidableEq

/-- The value at a position. -/
def valueAt : List Move → Json → Option Json
  | [], D => some D
  | .key k :: π, .obj m => (getKey k m).bind (valueAt π)
  | .idx i :: π, .arr xs => (xs[i]?).bind (valueAt π)
  | _ :: _, _ => none

/-- Same kind of value with the same keys or the same number of elements; equal if scalar, except
that strings are not compared. -/
def SameForm : Json → Json → Prop
  | .obj m, .obj m' => m.map Prod.fst = m'.map Prod.fst
  | .arr xs, .arr ys => xs.length = ys.length
  | .str _, .str _ => True
  | a, b => a = b

end Spec

theorem sameForm_refl (D : Json) : SameForm D D := by
  cases D <;> simp [SameForm]

theorem getKey_index {k : String} {v : α} {m : List (String × α)} (h : getKey k m = some v) :
    ∃ j : Nat, m[j]? = some (k, v) := by
  have hm : (k, v) ∈ m := by
    induction m with
    | nil => simp [getKey] at h
    | cons e m ih =>
      obtain ⟨k', v'⟩ := e
      simp only [getKey, List.lookup_cons] at h
      split at h
      · rename_i hk
        have : k = k' := by simpa using hk
        subst this; cases h; simp
      · exact List.mem_cons_of_mem _ (ih h)
  exact List.mem_iff_getElem?.1 hm

/-- Corresponding members of two maps with the same keys. -/
theorem getKey_corr {k : String} {v : Json} {m m' : List (String × Json)} (hk : m.map Prod.fst = m'.map Prod.fst)
    (hn : (m.map Prod.fst).Nodup) (h : getKey k m = some v) :
    ∃ (j : Nat) (v' : Json), m[j]? = some (k, v) ∧ m'[j]? = some (k, v') ∧ getKey k m' = some v' := by
  obtain ⟨j, hj⟩ := getKey_index h
  have e : (m.map Prod.fst)[j]? = some k := by rw [List.getElem?_map, hj]; rfl
  rw [hk, List.getElem?_map] at e
  cases hj' : m'[j]? with
  | none => rw [hj'] at e; cases e
  | some kv =>
    obtain ⟨k', v'⟩ := kv
    rw [hj'] at e
    cases e
    exact ⟨j, v', hj, hj', getKey_of_mem (hk ▸ hn) (List.mem_of_getElem? hj')⟩

theorem elem_corr {i : Nat} {v : Json} {xs ys : List Json} (hl : xs.length = ys.length) (h : xs[i]? = some v) :
    ∃ v', ys[i]? = some v' := by
  have : i < ys.length := by
    rw [← hl]
    exact (List.getElem?_eq_some_iff.1 h).1
  exact ⟨ys[i], by simp [this]⟩

/-- What positions of a rewritten document hold. -/
theorem rw_positions {w : World} {T : Prop} : ∀ (n : Nat) (π : List Move), π.length ≤ n →
    (∀ base D D' v, D.WF → RwT w T base D D' → valueAt π D = some v →
      ∃ v', valueAt π D' = some v' ∧ SameForm v v' ∧ (π.getLast? ≠ some (.key "$ref") → ∀ t, v = .str t → v' = v)) ∧
    (∀ base k D D' v, D.WF → RwMemberT w T base k D D' → valueAt π D = some v →
      ∃ v', valueAt π D' = some v' ∧ SameForm v v' ∧
        ((Move.key k :: π).getLast? ≠ some (.key "$ref") → ∀ t, v = .str t → v' = v)) := by
  intro n
  induction n with
  | zero =>
    intro π hπ
    have : π = [] := List.eq_nil_of_length_eq_zero (by omega)
    subst this
    constructor
    · intro base D D' v hD h hv
      simp only [valueAt, Option.some.injEq] at hv ⊢
      subst hv
      refine ⟨D', rfl, ?_, ?_⟩
      · cases h with
        | scalar _ _ => exact sameForm_refl _
        | arr _ _ _ hl _ => exact hl
        | obj _ _ _ hl _ => exact hl
        | taken => exact sameForm_refl _
      · rintro _ t rfl
        cases h; rfl
    · intro base k D D' v hD h hv
      simp only [valueAt, Option.some.injEq] at hv ⊢
      subst hv
      refine ⟨D', rfl, ?_, ?_⟩
      · cases h with
        | literal => exact sameForm_refl _
        | ref => trivial
        | badRef => exact sameForm_refl _
        | map _ _ _ _ _ hl _ => exact hl
        | noMap => exact sameForm_refl _
        | sub _ _ _ _ _ _ _ h =>
          cases h with
          | scalar _ _ => exact sameForm_refl _
          | arr _ _ _ hl _ => exact hl
          | obj _ _ _ hl _ => exact hl
          | taken => exact sameForm_refl _
      · rintro hlast t rfl
        cases h with
        | literal => rfl
        | ref => simp at hlast
        | badRef => rfl
        | noMap => rfl
        | sub _ _ _ _ _ _ _ h => cases h; rfl
  | succ n ih =>
    intro π hπ
    cases π with
    | nil => exact ih [] (by simp)
    | cons s π =>
      have ihπ := ih π (by simpa using hπ)
      have main : ∀ base D D' v, D.WF → RwT w T base D D' → valueAt (s :: π) D = some v →
          ∃ v', valueAt (s :: π) D' = some v' ∧ SameForm v v' ∧
            ((s :: π).getLast? ≠ some (.key "$ref") → ∀ t, v = .str t → v' = v) := by
        intro base D D' v hD h hv
        cases h with
        | scalar => exact ⟨v, hv, sameForm_refl _, fun _ _ _ => rfl⟩
        | taken => exact ⟨v, hv, sameForm_refl _, fun _ _ _ => rfl⟩
        | arr _ xs ys hl hxy =>
          cases s with
          | key k => simp [valueAt] at hv
          | idx i =>
            simp only [valueAt] at hv ⊢
            obtain ⟨x, hx, hv⟩ := Option.bind_eq_some_iff.1 hv
            obtain ⟨y, hy⟩ := elem_corr hl hx
            obtain ⟨v', h1, h2, h3⟩ := ihπ.1 base x y v (wf_arr hD x (List.mem_of_getElem? hx)) (hxy i x y hx hy) hv
            refine ⟨v', by rw [hy]; exact h1, h2, ?_⟩
            intro hlast
            apply h3
            cases π with
            | nil => simp
            | cons s' π => simpa using hlast
        | obj _ m m' hk hm =>
          cases s with
          | idx i => simp [valueAt] at hv
          | key k =>
            simp only [valueAt] at hv ⊢
            obtain ⟨x, hx, hv⟩ := Option.bind_eq_some_iff.1 hv
            obtain ⟨j, y, hj, hj', hy⟩ := getKey_corr hk (wf_nodup hD) hx
            obtain ⟨v', h1, h2, h3⟩ := ihπ.2 _ k x y v (wf_get hD hx) (hm j k x y hj hj') hv
            exact ⟨v', by rw [hy]; exact h1, h2, h3⟩
      refine ⟨main, ?_⟩
      intro base k D D' v hD h hv
      have same : valueAt (s :: π) D' = some v → ∃ v', valueAt (s :: π) D' = some v' ∧ SameForm v v' ∧
        ((Move.key k :: s :: π).getLast? ≠ some (.key "$ref") → ∀ t, v = .str t → v' = v) :=
        fun h => ⟨v, h, sameForm_refl _, fun _ _ _ => rfl⟩
      cases h with
      | literal => exact same hv
      | ref => simp [valueAt] at hv
      | badRef => exact same hv
      | noMap => exact same hv
      | map _ _ c c' _ hk hc =>
        cases s with
        | idx i => simp [valueAt] at hv
        | key n' =>
          simp only [valueAt] at hv ⊢
          obtain ⟨x, hx, hv⟩ := Option.bind_eq_some_iff.1 hv
          obtain ⟨j, y, hj, hj', hy⟩ := getKey_corr hk (wf_nodup hD) hx
          obtain ⟨v', h1, h2, h3⟩ := ihπ.1 base x y v (wf_get hD hx) (hc j n' x y hj hj') hv
          refine ⟨v', by rw [hy]; exact h1, h2, ?_⟩
          intro hlast
          cases π with
          | nil => exact h3 (by simp)
          | cons s' π => exact h3 (by simpa using hlast)
      | sub _ _ _ _ _ _ _ h =>
        obtain ⟨v', h1, h2, h3⟩ := main base D D' v hD h hv
        refine ⟨v', h1, h2, ?_⟩
        intro hlast
        exact h3 (by simpa using hlast)

/-- C29 by positions: at every position of the document the stored document has a value of the
same form, and a string that changes is the value of a member called `$ref`. -/
theorem C29_only_ref_strings (w : World) (σ : Sched) (fuel : Fuel) (p : Path) (url : String) (D : Json) (hD : D.WF)
    (l l' : LState) (h : addSchema w σ fuel p url (.direct (some D)) l = (.ok (), l')) :
    ∃ ref e, w.norm url = some ref ∧ getKey ref l'.pool = some e ∧
      ∀ π v, valueAt π D = some v → ∃ v', valueAt π e.doc = some v' ∧ SameForm v v' ∧
        (π.getLast? ≠ some (.key "$ref") → ∀ t, v = .str t → v' = v) := by
  obtain ⟨ref, e, h1, h2, h3⟩ := C29_stored w σ fuel p url D hD l l' h
  exact ⟨ref, e, h1, h2, fun π v hv => (rw_positions π.length π (Nat.le_refl _)).1 ref D e.doc v hD h3 hv⟩

/-- A rewritten schema object. -/
theorem rw_obj {w : World} {T : Prop} {base m D'} (h : RwT w T base (.obj m) D') :
    (T ∧ D' = .obj m) ∨ ∃ m', D' = .obj m' ∧ m.map Prod.fst = m'.map Prod.fst ∧
      ∀ (i : Nat) k v v', m[i]? = some (k, v) → m'[i]? = some (k, v') → RwMemberT w T (scopeOf w base m) k v v' := by
  generalize hE : Json.obj m = E at h
  cases h with
  | scalar _ _ _ h => exact absurd hE.symm (h m)
  | arr => cases hE
  | obj _ m0 m' hk hm => cases hE; exact .inr ⟨m', rfl, hk, hm⟩
  | taken _ m0 t ht _ => cases hE; exact .inl ⟨ht, rfl⟩

/-- Members of a rewritten schema object. -/
theorem rw_member {w : World} {T : Prop} {base m D'} {k v} (hD : (Json.obj m).WF) (h : RwT w T base (.obj m) D')
    (hk : getKey k m = some v) :
    (T ∧ D' = .obj m) ∨ ∃ m' v', D' = .obj m' ∧ getKey k m' = some v' ∧ RwMemberT w T (scopeOf w base m) k v v' := by
  rcases rw_obj h with h | ⟨m', h1, h2, h3⟩
  · exact .inl h
  · obtain ⟨j, y, hj, hj', hy⟩ := getKey_corr h2 (wf_nodup hD) hk
    exact .inr ⟨m', y, h1, hy, h3 j k v y hj hj'⟩

theorem rwMember_literal {w : World} {T : Prop} {base k v v'} (h : RwMemberT w T base k v v') (hk : Literal k) : v' = v := by
  have h1 : k ≠ "$ref" := by rcases hk with rfl | rfl <;> simp
  have h2 : ¬ SchemaMap k := by rcases hk with rfl | rfl <;> simp [SchemaMap]
  cases h with
  | literal => rfl
  | ref => contradiction
  | badRef => rfl
  | map _ _ _ _ h => contradiction
  | noMap => rfl
  | sub _ _ _ _ h => contradiction

theorem rwMember_map {w : World} {T : Prop} {base k c v'} (h : RwMemberT w T base k (.obj c) v') (hk : SchemaMap k) :
    ∃ c', v' = .obj c' ∧ c.map Prod.fst = c'.map Prod.fst ∧
      ∀ (i : Nat) n x x', c[i]? = some (n, x) → c'[i]? = some (n, x') → RwT w T base x x' := by
  have h2 : ¬ Literal k := by rcases hk with rfl | rfl | rfl <;> simp [Literal]
  generalize hE : Json.obj c = E at h
  cases h with
  | literal _ _ _ h => contradiction
  | ref => cases hE
  | badRef => cases hE
  | map _ _ _ c' _ h3 h4 => cases hE; exact ⟨c', rfl, h3, h4⟩
  | noMap _ _ _ _ h => exact absurd hE.symm (h c)
  | sub _ _ _ _ _ h => contradiction

theorem rwMember_sub {w : World} {T : Prop} {base k v v'} (h : RwMemberT w T base k v v') (h1 : ¬ Literal k)
    (h2 : ¬ SchemaMap k) (h3 : k ≠ "$ref") : RwT w T base v v' := by
  cases h with
  | literal _ _ _ h => contradiction
  | ref => contradiction
  | badRef => contradiction
  | map _ _ _ _ h => contradiction
  | noMap _ _ _ h => contradiction
  | sub _ _ _ _ _ _ _ h => exact h

theorem rwMember_ref {w : World} {T : Prop} {base t a v'} (h : RwMemberT w T base "$ref" (.str t) v')
    (ha : (w.norm t).bind (w.inherits base) = some a) : v' = .str a := by
  generalize hk : "$ref" = k at h
  generalize hE : Json.str t = E at h
  cases h with
  | literal _ _ _ h => subst hk; simp [Literal] at h
  | ref _ t0 t' h => cases hE; rw [ha] at h; cases h; rfl
  | badRef _ t0 h => cases hE; rw [ha] at h; cases h
  | map => cases hE
  | noMap _ _ _ h => subst hk; simp [SchemaMap] at h
  | sub _ _ _ _ _ _ h => exact absurd hE.symm (h hk.symm t)

/-- C29, literals: `const` and `enum` of a rewritten schema object are as they were, whatever they
contain. -/
theorem C29_literals (w : World) (base : String) (m : List (String × Json)) (D' : Json) (hD : (Json.obj m).WF)
    (h : Rw w base (.obj m) D') (k : String) (hk : k = "const" ∨ k = "enum") (v : Json) (hv : getKey k m = some v) :
    ∃ m', D' = .obj m' ∧ getKey k m' = some v := by
  rcases rw_member hD h hv with ⟨_, rfl⟩ | ⟨m', v', rfl, h1, h2⟩
  · exact ⟨m, rfl, hv⟩
  · exact ⟨m', rfl, by rw [h1, rwMember_literal h2 hk]⟩

/-- C29, names: a member of a map of named schemas is a schema and not a keyword: a string there,
even under the name `$ref`, is left alone. -/
theorem C29_names (w : World) (base : String) (m : List (String × Json)) (D' : Json) (hD : (Json.obj m).WF)
    (h : Rw w base (.obj m) D') (k : String) (hk : SchemaMap k) (c : List (String × Json))
    (hv : getKey k m = some (.obj c)) (n t : String) (hn : getKey n c = some (.str t)) :
    ∃ m' c', D' = .obj m' ∧ getKey k m' = some (.obj c') ∧ getKey n c' = some (.str t) := by
  have hc := wf_get hD hv
  rcases rw_member hD h hv with ⟨_, rfl⟩ | ⟨m', v', rfl, h1, h2⟩
  · exact ⟨m, c, rfl, hv, hn⟩
  · obtain ⟨c', rfl, hks, hcc⟩ := rwMember_map h2 hk
    obtain ⟨j, y, hj, hj', hy⟩ := getKey_corr hks (wf_nodup hc) hn
    refine ⟨m', c', rfl, h1, ?_⟩
    rw [hy]
    have := hcc j n (.str t) y hj hj'
    cases this
    rfl

/-- C29, references: when nothing is left out, the `$ref` of a schema object is the absolute
reference, relative to the identifier of the object and the base outside it. -/
theorem C29_references (w : World) (base : String) (m : List (String × Json)) (D' : Json) (hD : (Json.obj m).WF)
    (h : RwStrict w base (.obj m) D') (t u a : String) (hv : getKey "$ref" m = some (.str t))
    (hu : w.norm t = some u) (ha : w.inherits (scopeOf w base m) u = some a) :
    ∃ m', D' = .obj m' ∧ getKey "$ref" m' = some (.str a) := by
  rcases rw_member hD h hv with ⟨hf, _⟩ | ⟨m', v', rfl, h1, h2⟩
  · exact hf.elim
  · exact ⟨m', rfl, by rw [h1, rwMember_ref h2 (by rw [hu]; exact ha)]⟩

/-! ### C43: the name of a definition matters -/

/-- C43, positive part: a definition with any other name is rewritten like every schema. -/
theorem C43_other_names (w : World) (base : String) (m : List (String × Json)) (D' : Json) (hD : (Json.obj m).WF)
    (h : RwStrict w base (.obj m) D') (c : List (String × Json)) (hv : getKey "definitions" m = some (.obj c))
    (n : String) (x : Json) (hn : getKey n c = some x) (h1 : ¬ Literal n) (h2 : ¬ SchemaMap n) (h3 : n ≠ "$ref") :
    ∃ m' c' x', D' = .obj m' ∧ getKey "definitions" m' = some (.obj c') ∧ getKey n c' = some x' ∧
      RwStrict w (scopeOf w (scopeOf w base m) c) x x' := by
  rcases rw_member hD h hv with ⟨hf, _⟩ | ⟨m', v', rfl, g1, g2⟩
  · exact hf.elim
  · have g3 := rwMember_sub g2 (by simp [Literal]) (by simp [SchemaMap]) (by simp)
    rcases rw_member (wf_get hD hv) g3 hn with ⟨hf, _⟩ | ⟨c', x', rfl, k1, k2⟩
    · exact hf.elim
    · exact ⟨m', c', x', rfl, g1, k1, rwMember_sub k2 h1 h2 h3⟩

namespace Demo
/-- A document that uses a definition, of the given name, that refers to another one. -/
def named (n : String) : Json := .obj [
  ("definitions", .obj [(n, .obj [("$ref", .str "#/definitions/i")]), ("i", .obj [])]),
  ("$ref", .str ("#/definitions/" ++ n))]
/-- Whether the document compiles when loaded from `a`. -/
def compiles (D : Json) : Bool :=
  (compile (world [("a", D)]) Sched.id ⟨20, 20⟩ [] (.reference "a" 0) newSchemaLoader).1.isOk
end Demo

/-- C43.  Renaming a definition, along with the references to it, can make `Compile` fail: the
reference inside a definition called `const` is not made absolute. -/
theorem C43_const_definition : Demo.compiles (Demo.named "konst") = true ∧ Demo.compiles (Demo.named "const") = false ∧
    Demo.compiles (Demo.named "enum") = false ∧ Demo.compiles (Demo.named "properties") = false := by
  decide +kernel

end GJS

import Verif.SpecReject
import Verif.LemAccept
import Verif.LemCompile
import Verif.LemMeta
/-
Helper lemmas: the errors of the compiler are justified.
-/
namespace GJS
open Spec

/-- A schema reached from `D0` has a fault that is reported as `e`. -/
def Blamed (w : World) (d0 : Draft) (D0 : Json) (l : LState) (e : CErr) : Prop :=
  ∃ d' D', Compiled w l d0 D0 d' D' ∧ Malformed w l d' D' e

/-- The errors of `x`, run while the object `m` is being read, are justified. -/
def Bl (w : World) (d0 : Draft) (D0 : Json) (d : Draft) (m : List (String × Json)) (x : M PState α) : Prop :=
  ∀ st e st', At w d m st → Compiled w st.l d0 D0 d (.obj m) → x st = (.error (.err e), st') → Blamed w d0 D0 st'.l e

theorem isKind_notErr {τ : Type} {env : Env} {v ks} {s : τ} {e s'} : (isKind env v ks : M τ Bool) s ≠ (.error (.err e), s') := by
  intro h
  unfold isKind at h
  split at h
  · split at h
    · simp [M.pure_def] at h
    · simp [M.fail] at h
  · simp [M.pure_def] at h

namespace Bl
variable {w : World} {d0 : Draft} {D0 : Json} {d : Draft} {m : List (String × Json)}

theorem pure {a : α} : Bl w d0 D0 d m (Pure.pure a : M PState α) := by
  intro st e st' _ _ h; simp [M.pure_def] at h

theorem panic : Bl w d0 D0 d m (M.fail .panic : M PState α) := by
  intro st e st' _ _ h; simp [M.fail] at h

/-- The object being read is to blame. -/
theorem here {e} (h : ∀ l, FaultIn w l d m e) : Bl w d0 D0 d m (M.err e : M PState α) := by
  intro st e' st' _ hc hx
  simp only [M.err, M.fail, Prod.mk.injEq, Except.error.injEq, Fail.err.injEq] at hx
  obtain ⟨rfl, rfl⟩ := hx
  exact ⟨d, _, hc, .fault m _ (h _)⟩

theorem of {x : M PState α} (hs : Still x) (h : ∀ st e st', x st = (.error (.err e), st') → ∀ l, FaultIn w l d m e) :
    Bl w d0 D0 d m x := by
  intro st e st' _ hc hx
  have : st' = st := by have := hs st; rw [hx] at this; exact this
  subst this
  exact ⟨d, _, hc, .fault m _ (h _ _ _ hx _)⟩

theorem bind {x : M PState α} {f : α → M PState β} {Q : Heap → α → Prop} (hp : PTr w d m x Q) (hx : Bl w d0 D0 d m x)
    (hf : ∀ a, (∃ h, Q h a) → Bl w d0 D0 d m (f a)) : Bl w d0 D0 d m (x >>= f) := by
  intro st e st' hi hc h
  rcases M.bind_error.1 h with h | ⟨a, s1, h1, h2⟩
  · exact hx st e st' hi hc h
  · obtain ⟨t, q⟩ := hp st a s1 hi h1
    exact hf a ⟨_, q⟩ s1 e st' (hi.step t) (hc.mono t.later.keeps t.later.log) h2

theorem map {x : M PState α} {g : α → β} (hx : Bl w d0 D0 d m x) : Bl w d0 D0 d m (x >>= fun a => Pure.pure (g a)) := by
  intro st e st' hi hc h
  rcases M.bind_error.1 h with h | ⟨a, s1, h1, h2⟩
  · exact hx st e st' hi hc h
  · simp [M.pure_def] at h2

theorem isKind {env : Env} {v ks} {f : Bool → M PState β} (hf : Bl w d0 D0 d m (f (kindIn v ks))) :
    Bl w d0 D0 d m (GJS.isKind env v ks >>= f) := by
  intro st e st' hi hc h
  rcases M.bind_error.1 h with h | ⟨a, s1, h1, h2⟩
  · exact absurd h isKind_notErr
  · have := isKind_still.ok h1
    subst this
    rw [isKind_ok h1] at h2
    exact hf _ e st' hi hc h2

theorem mapL {f : Nat → α → M PState β} {Q : Heap → α → β → Prop} : ∀ {xs : List α} {k : Nat},
    (∀ k x, x ∈ xs → PTr w d m (f k x) (fun h y => Q h x y) ∧ Bl w d0 D0 d m (f k x)) →
    Bl w d0 D0 d m (GJS.mapL f k xs) := by
  intro xs
  induction xs with
  | nil => intro k _; exact pure
  | cons x xs ih =>
    intro k hf
    unfold GJS.mapL
    exact bind (hf k x (by simp)).1 (hf k x (by simp)).2 fun _ _ => map (ih fun k x hx => hf k x (by simp [hx]))

end Bl

/-- What is assumed of the recursive call. -/
def RecBl (w : World) (d0 : Draft) (D0 : Json) (rec : PRec) : Prop :=
  ∀ p pid id0 doc d c st e st', PInv w st → Stat st.heap d doc c → Compiled w st.l d0 D0 d doc →
    rec p pid id0 doc d c st = (.error (.err e), st') → Blamed w d0 D0 st'.l e

section
variable {w : World} {σ : Sched} {d0 : Draft} {D0 : Json} {rec : PRec} {p : Path} {id : String} {d : Draft}
  {m : List (String × Json)}

theorem child_bl {D} (hrec : RecBl w d0 D0 rec) (hD : D.WF)
    (hs : SubSchema d m D ∨ ∃ ps k, Kw m "definitions" (.obj ps) ∧ (k, D) ∈ ps) :
    Bl w d0 D0 d m (child rec p id d D) := by
  intro st e st' hi hc h
  unfold child at h
  rcases M.bind_error.1 h with h | ⟨c0, s1, h1, h⟩
  · simp [alloc] at h
  simp only [alloc, Prod.mk.injEq, Except.ok.injEq] at h1
  obtain ⟨rfl, rfl⟩ := h1
  rcases M.bind_error.1 h with h | ⟨_, _, _, h⟩
  · obtain ⟨c, hcc⟩ := hi.here
    refine hrec _ _ _ _ _ _ _ _ _ (alloc_inv hi.inv hD (.inr ⟨c, d, m, hcc, ?_⟩)) stat_new ?_ h
    · rcases hs with h | ⟨ps, k, h, h'⟩
      · exact .sub _ h
      · exact .definition ps k _ h h'
    · rcases hs with h | ⟨ps, k, h, h'⟩
      · exact .sub _ m _ hc h
      · exact .definition _ m ps k _ hc h h'
  · simp [M.pure_def] at h

theorem noSchema_of {v : Json} (h : ¬ kindIn v [.map, .bool] = true) : NoSchema v := by
  constructor
  · rintro b rfl; exact h rfl
  · rintro b rfl; exact h rfl

theorem not_str_of {v : Json} (h : (!kindIn v [.string]) = true) : ∀ t, v ≠ .str t := by
  rintro t rfl; simp [kindIn, rawKind] at h

theorem not_obj_of {v : Json} (h : (!kindIn v [.map]) = true) : ∀ t, v ≠ .obj t := by
  rintro t rfl; simp [kindIn, rawKind] at h

theorem not_bool_of {v : Json} (h : ¬ kindIn v [.bool] = true) : ∀ t, v ≠ .bool t := by
  rintro t rfl; exact h rfl

theorem not_arr_of {v : Json} (h : ¬ kindIn v [.slice] = true) : ∀ t, v ≠ .arr t := by
  rintro t rfl; exact h rfl

theorem kwId_bl {r pid id0} : Bl w d0 D0 d m (kwId w r pid id0 d m) := by
  unfold kwId
  rw [keyID_eq]
  split
  · exact .pure
  · rename_i v hv
    refine .isKind ?_
    split
    · rename_i h; exact .here fun l => .id v hv (not_str_of h)
    · split
      · rename_i t _
        split
        · rename_i hn; exact .here fun l => .idText t hv hn
        · rename_i u hn
          split
          · exact .pure
          · split
            · rename_i hb; exact .here fun l => .idBase t u pid hv hn hb
            · exact .pure
      · exact .pure

theorem kwDefinitions_bl (hok : RecOK w rec) (hrec : RecBl w d0 D0 rec) (hm : (Json.obj m).WF) :
    Bl w d0 D0 d m (kwDefinitions w σ rec p id d m) := by
  unfold kwDefinitions
  split
  · exact .pure
  · rename_i v hv
    refine .isKind ?_
    split
    · split
      · rename_i kvs _
        refine .map (.mapL (Q := fun _ _ _ => True) fun k x hx => ?_)
        have hx' := (σ.perm _ _).mem_iff.1 hx
        unfold kwDefinition
        constructor
        · refine .isKind ?_
          split
          · exact (child_ok hok (wf_obj (wf_get hm hv) _ hx') (.inr ⟨_, x.1, hv, hx'⟩)).map fun _ _ _ => trivial
          · exact .err
        · refine .isKind ?_
          split
          · exact (child_bl hrec (wf_obj (wf_get hm hv) _ hx') (.inr ⟨_, x.1, hv, hx'⟩)).map
          · rename_i hk; exact .here fun l => .definition kvs x.1 x.2 hv hx' (noSchema_of hk)
      · exact .panic
    · rename_i hk; exact .here fun l => .definitions v hv (noSchema_of hk)

theorem kwText_bl {key} (hk : key ∈ ["title", "description", "$ref"]) : Bl w d0 D0 d m (kwText w key m) := by
  unfold kwText
  split
  · exact .pure
  · rename_i v hv
    refine .isKind ?_
    split
    · rename_i h; exact .here fun l => .text key v hk hv (not_str_of h)
    · exact .pure

theorem kwRefText_bl : Bl w d0 D0 d m (kwRefText w m) := by
  unfold kwRefText
  split
  · exact .pure
  · rename_i v hv
    refine .isKind ?_
    split
    · rename_i h; exact .here fun l => .text "$ref" v (by simp) hv (not_str_of h)
    · split
      · rename_i t _
        split
        · rename_i hn; exact .here fun l => .refText t hv hn
        · exact .pure
      · exact .pure

theorem known_of {t : String} : ¬ (!jsonTypes.contains t) = true ↔ KnownType t := by
  simp only [jsonTypes, KnownType, List.contains_iff_mem, Bool.not_eq_true', Bool.not_eq_false, List.contains_eq_mem, decide_eq_true_eq]
  simp

theorem addType_err {τ : Type} {ts t} {s : τ} {e s'} (h : (addType ts t : M τ _) s = (.error (.err e), s')) :
    (¬ KnownType t ∧ e = .notAValidType t) ∨ (t ∈ ts ∧ e = .duplicated t) := by
  unfold addType at h
  split at h
  · rename_i hk
    simp only [M.err, M.fail, Prod.mk.injEq, Except.error.injEq, Fail.err.injEq] at h
    exact .inl ⟨fun h' => absurd hk (known_of.2 h'), h.1.symm⟩
  · split at h
    · rename_i hk
      simp only [M.err, M.fail, Prod.mk.injEq, Except.error.injEq, Fail.err.injEq] at h
      exact .inr ⟨by simpa using hk, h.1.symm⟩
    · simp [M.pure_def] at h

theorem typeLoop_still : ∀ {vs ts}, Still (typeLoop ts vs) := by
  intro vs
  induction vs with
  | nil => intro ts; exact .pure
  | cons v vs ih =>
    intro ts
    unfold typeLoop
    split
    · exact .err
    · split
      · exact .bind addType_still fun _ => ih
      · exact .fail

theorem get_of_mem {us : List String} {t : String} (h : t ∈ us) (rest : List Json) :
    ∃ i, i < us.length ∧ (us.map Json.str ++ rest)[i]? = some (.str t) := by
  obtain ⟨i, hi, rfl⟩ := List.mem_iff_getElem.1 h
  refine ⟨i, hi, ?_⟩
  rw [List.getElem?_append_left (by simpa using hi)]
  simp [hi]

theorem typeLoop_err {L : List Json} (hv : Kw m "type" (.arr L)) : ∀ {vs us} {st e st'}, L = us.map .str ++ vs →
    typeLoop us vs st = (.error (.err e), st') → ∀ l, FaultIn w l d m e := by
  intro vs
  induction vs with
  | nil => intro us st e st' _ h; simp [typeLoop, M.pure_def] at h
  | cons v vs ih =>
    intro us st e st' hL h l
    unfold typeLoop at h
    split at h
    · rename_i hk
      simp only [M.err, M.fail, Prod.mk.injEq, Except.error.injEq, Fail.err.injEq] at h
      obtain ⟨rfl, _⟩ := h
      refine .typeElem L v hv (by simp [hL]) ?_ ?_
      · rintro t rfl; simp [rawKind] at hk
      · rintro t rfl; simp [rawKind] at hk
    · split at h
      · rename_i t _
        rcases M.bind_error.1 h with h | ⟨ts, s1, h1, h2⟩
        · rcases addType_err h with ⟨h1, rfl⟩ | ⟨h1, rfl⟩
          · exact .typeNames L t hv (by simp [hL]) h1
          · obtain ⟨i, hi, hg⟩ := get_of_mem h1 (.str t :: vs)
            exact .typeTwice L t i us.length hv hi (by rw [hL]; exact hg) (by rw [hL]; simp)
        · obtain ⟨rfl, _⟩ := addType_set h1
          exact ih (by rw [hL]; simp) h2 l
      · simp [M.fail] at h

theorem kwType_bl : Bl w d0 D0 d m (kwType w m) := by
  unfold kwType
  split
  · exact .pure
  · rename_i v hv
    refine .isKind ?_
    split
    · split
      · rename_i t _
        refine .of addType_still fun st e st' h l => ?_
        rcases addType_err h with ⟨h1, rfl⟩ | ⟨h1, rfl⟩
        · exact .typeName t hv h1
        · simp at h1
      · exact .pure
    · rename_i hs
      refine .isKind ?_
      split
      · split
        · rename_i vs _
          exact .of typeLoop_still fun st e st' h l => typeLoop_err hv (us := []) rfl h l
        · exact .panic
      · rename_i hk
        exact .here fun l => .type v hv (not_str_of (by simpa using hs)) (not_arr_of hk)

theorem kwProperties_bl (hok : RecOK w rec) (hrec : RecBl w d0 D0 rec) (hm : (Json.obj m).WF) :
    Bl w d0 D0 d m (kwProperties w σ rec p id d m) := by
  unfold kwProperties
  split
  · exact .pure
  · rename_i v hv
    refine .isKind ?_
    split
    · rename_i h; exact .here fun l => .object "properties" v (by simp) hv (not_obj_of h)
    · split
      · rename_i kvs _
        refine .mapL (Q := fun _ _ _ => True) fun k x hx => ?_
        have hx' := (σ.perm _ _).mem_iff.1 hx
        exact ⟨(child_ok hok (wf_obj (wf_get hm hv) _ hx') (.inl (.property _ x.1 _ hv hx'))).map fun _ _ _ => trivial,
          (child_bl hrec (wf_obj (wf_get hm hv) _ hx') (.inl (.property _ x.1 _ hv hx'))).map⟩
      · exact .panic

theorem kwExtra_bl {key} (hkey : key ∈ ["additionalProperties", "additionalItems"]) (hrec : RecBl w d0 D0 rec) (hm : (Json.obj m).WF)
    (hsub : ∀ A, Kw m key (.obj A) → SubSchema d m (.obj A)) :
    Bl w d0 D0 d m (kwExtra w rec p id d key m) := by
  unfold kwExtra
  split
  · exact .pure
  · rename_i v hv
    refine .isKind ?_
    split
    · split
      · exact .pure
      · exact .panic
    · rename_i hb
      refine .isKind ?_
      split
      · rename_i hk
        obtain ⟨A, rfl⟩ := kind_map hk
        exact (child_bl hrec (wf_get hm hv) (.inl (hsub A hv))).map
      · rename_i hk
        exact .here fun l => .additional key v hkey hv ⟨not_bool_of hb, not_obj_of (by simpa using hk)⟩

theorem kwPatternProperties_bl (hok : RecOK w rec) (hrec : RecBl w d0 D0 rec) (hm : (Json.obj m).WF) :
    Bl w d0 D0 d m (kwPatternProperties w σ rec p id d m) := by
  unfold kwPatternProperties
  split
  · exact .pure
  · rename_i v hv
    refine .isKind ?_
    split
    · split
      · rename_i kvs _
        refine .mapL (Q := fun _ _ _ => True) fun k x hx => ?_
        have hx' := (σ.perm _ _).mem_iff.1 hx
        unfold kwPattern1
        constructor
        · split
          · exact .err
          · exact (child_ok hok (wf_obj (wf_get hm hv) _ hx') (.inl (.pattern _ x.1 _ hv hx'))).map fun _ _ _ => trivial
        · split
          · rename_i hr; exact .here fun l => .patternKey kvs x.1 x.2 hv hx' (by simpa using hr)
          · exact (child_bl hrec (wf_obj (wf_get hm hv) _ hx') (.inl (.pattern _ x.1 _ hv hx'))).map
      · exact .panic
    · rename_i h; exact .here fun l => .patternProperties v hv (not_obj_of (by simpa using h))

theorem kwSchema_bl {act : Bool} {A : Prop} {key e} (hA : act = true ↔ A) (hrec : RecBl w d0 D0 rec) (hm : (Json.obj m).WF)
    (hsub : ∀ v, A → Kw m key v → SubSchema d m v)
    (he : ∀ l v, A → Kw m key v → NoSchema v → FaultIn w l d m e) :
    Bl w d0 D0 d m (kwSchema w rec p id d act key e m) := by
  unfold kwSchema
  split
  · exact .pure
  · rename_i v hv
    split
    · rename_i ha
      refine .isKind ?_
      split
      · exact (child_bl hrec (wf_get hm hv) (.inl (hsub v (hA.1 ha) hv))).map
      · rename_i hk; exact .here fun l => he l v (hA.1 ha) hv (noSchema_of hk)
    · exact .pure

theorem depKeys_bl {c k xs} (hv : Kw m "dependencies" (.obj c)) (hk : (k, .arr xs) ∈ c) : ∀ {vs : List Json}, (∀ x ∈ vs, x ∈ xs) →
    Bl w d0 D0 d m (depKeys w vs) := by
  intro vs
  induction vs with
  | nil => intro _; exact .pure
  | cons v vs ih =>
    intro hs
    unfold depKeys
    refine .isKind ?_
    split
    · rename_i h; exact .here fun l => .dependencyElem c k xs v hv hk (hs v (by simp)) (not_str_of h)
    · split
      · exact (ih fun x hx => hs x (by simp [hx])).map
      · exact .panic

theorem kwDependency_bl {c kv} (hv : Kw m "dependencies" (.obj c)) (hk : kv ∈ c) (hrec : RecBl w d0 D0 rec) (hD : kv.2.WF) :
    Bl w d0 D0 d m (kwDependency w rec p id d kv) := by
  obtain ⟨k, D⟩ := kv
  unfold kwDependency
  simp only
  split
  · exact (depKeys_bl hv hk fun x hx => hx).map
  · exact .here fun l => .dependency c k _ hv hk ⟨by simp, by simp⟩ (by simp)
  · exact .here fun l => .dependency c k _ hv hk ⟨by simp, by simp⟩ (by simp)
  · exact .here fun l => .dependency c k _ hv hk ⟨by simp, by simp⟩ (by simp)
  · rename_i hx _ _ _
    exact (child_bl hrec hD (.inl (.dependency c k _ hv hk fun xs e => hx xs e))).map

theorem kwDependencies_bl (hok : RecOK w rec) (hrec : RecBl w d0 D0 rec) (hm : (Json.obj m).WF) :
    Bl w d0 D0 d m (kwDependencies w σ rec p id d m) := by
  unfold kwDependencies
  split
  · exact .pure
  · rename_i v hv
    refine .isKind ?_
    split
    · rename_i h; exact .here fun l => .object "dependencies" v (by simp) hv (not_obj_of h)
    · split
      · rename_i kvs _
        refine .map (.mapL (Q := fun h kv e => DepOK h d kv e) fun k x hx => ?_)
        have hx' := (σ.perm _ _).mem_iff.1 hx
        exact ⟨kwDependency_ok hok (wf_obj (wf_get hm hv) _ hx') fun hq => .dependency _ x.1 _ hv hx' hq,
          kwDependency_bl hv hx' hrec (wf_obj (wf_get hm hv) _ hx')⟩
      · exact .panic

theorem kwItems_bl (hok : RecOK w rec) (hrec : RecBl w d0 D0 rec) (hm : (Json.obj m).WF) :
    Bl w d0 D0 d m (kwItems w rec p id d m) := by
  unfold kwItems
  split
  · exact .pure
  · rename_i v hv
    refine .isKind ?_
    split
    · split
      · rename_i vs _
        refine .map (.mapL (Q := fun _ _ _ => True) fun k x hx => ?_)
        unfold kwItem
        constructor
        · refine .isKind ?_
          split
          · exact (child_ok hok (wf_arr (wf_get hm hv) _ hx) (.inl (.item _ _ hv hx))).mono fun _ _ _ => trivial
          · exact .err
        · refine .isKind ?_
          split
          · exact child_bl hrec (wf_arr (wf_get hm hv) _ hx) (.inl (.item _ _ hv hx))
          · rename_i hk; exact .here fun l => .item vs x hv hx (noSchema_of hk)
      · exact .panic
    · rename_i hns
      refine .isKind ?_
      split
      · exact (child_bl hrec (wf_get hm hv) (.inl (.items _ hv (kind_not_slice hns)))).map
      · rename_i hk; exact .here fun l => .items v hv (noSchema_of hk) (kind_not_slice hns)

theorem kwMultipleOf_bl : Bl w d0 D0 d m (kwMultipleOf w m) := by
  unfold kwMultipleOf
  split
  · exact .pure
  · rename_i v hv
    split
    · rename_i h; exact .here fun l => .multipleOf v hv (mustBeNumber_none h)
    · rename_i q hq
      obtain ⟨n, rfl, rfl, hr⟩ := mustBeNumber_some hq
      split
      · rename_i h; exact .here fun l => .multipleOfSign n hv h
      · exact .pure

theorem kwBound_bl {key} (hk : key ∈ ["minimum", "maximum"]) : Bl w d0 D0 d m (kwBound w key m) := by
  unfold kwBound
  split
  · exact .pure
  · rename_i v hv
    split
    · rename_i h; exact .here fun l => .bound key v hk hv (mustBeNumber_none h)
    · exact .pure

theorem kwExclusive_bl {xkey key b} (hk : (xkey, key) ∈ exclusiveKeys) (hb : NumOK w m key b) :
    Bl w d0 D0 d m (kwExclusive w d xkey key b m) := by
  have alone : ∀ x, Kw m xkey (.bool x) → d = Draft4 ∨ d = Hybrid → Bl w d0 D0 d m (exclusiveBool xkey key x b) := by
    intro x hx hd
    unfold exclusiveBool
    split
    · refine .here fun l => .exclusiveAlone xkey key x hk hd hx ?_
      rcases hb with ⟨h, _⟩ | ⟨n, _, h, _⟩
      · exact h
      · cases h
    · split <;> exact .pure
  unfold kwExclusive
  split
  · exact .pure
  · rename_i v hv
    split
    · rename_i hd
      have hd : d = Draft4 := by simpa using hd
      refine .isKind ?_
      split
      · rename_i h; exact .here fun l => .exclusive4 xkey key v hk hd hv (not_bool_of (by simpa using h))
      · split
        · exact alone _ hv (.inl hd)
        · exact .panic
    · split
      · rename_i hd
        have hd : d = Hybrid := by simpa using hd
        refine .isKind ?_
        cases v with
        | bool x => exact alone _ hv (.inr hd)
        | num n => simp [kindIn, rawKind]; exact .pure
        | _ => exact .here fun l => .exclusiveHybrid xkey key _ hk hd hv (by simp) (by simp)
      · rename_i h4 hh
        split
        · exact .pure
        · rename_i hn
          exact .here fun l => .exclusive6 xkey key v hk (by simpa using h4) (by simpa using hh) hv fun n e => hn n e

theorem intLit_of {n : NumLit} (h : IntLit n) : ∃ z, n.int64? = some z := by
  obtain ⟨h1, h2, h3, h4⟩ := h
  unfold NumLit.int64?
  simp only [h1, h2, and_self, if_true]
  cases hn : n.neg with
  | true => have := h3 hn; simp only [if_true]; rw [if_pos ⟨by omega, by omega⟩]; exact ⟨_, rfl⟩
  | false => have := h4 hn; simp only [Bool.false_eq_true, if_false]; rw [if_pos ⟨by omega, by omega⟩]; exact ⟨_, rfl⟩

theorem kwSize_bl {key} (hk : key ∈ ["minLength", "maxLength", "minItems", "maxItems", "minProperties", "maxProperties"]) :
    Bl w d0 D0 d m (kwSize w key m) := by
  unfold kwSize
  split
  · exact .pure
  · rename_i v hv
    split
    · rename_i h
      refine .here fun l => .size key v hk hv ?_
      rintro n rfl hr hi
      obtain ⟨z, hz⟩ := intLit_of hi
      have hval := int64_val hz
      simp [mustBeInteger, Env.checkInteger, Env.rat, hr, hval, hz] at h
    · rename_i z hz
      split
      · rename_i hneg
        unfold mustBeInteger at hz
        split at hz
        · rename_i n
          split at hz
          · refine .here fun l => .sizeSign key n hk hv ?_
            rw [int64_val hz]
            exact_mod_cast hneg
          · cases hz
        · cases hz
      · exact .pure

theorem checkOrder_bl {ka kb a b e} (ha : SizeOK m ka a) (hb : SizeOK m kb b)
    (he : ∀ l x y, Kw m ka (.num x) → Kw m kb (.num y) → y.val < x.val → FaultIn w l d m e) :
    Bl w d0 D0 d m (checkOrder a b e) := by
  unfold checkOrder
  split
  · rename_i za zb
    split
    · rename_i hlt
      refine .here fun l => ?_
      rcases ha with ⟨_, h⟩ | ⟨x, z, h1, h2, h3⟩
      · cases h
      rcases hb with ⟨_, h⟩ | ⟨y, z', h4, h5, h6⟩
      · cases h
      cases h2; cases h5
      refine he l x y h1 h4 ?_
      rw [int64_val h3, int64_val h6]
      exact_mod_cast hlt
    · exact .pure
  · exact .pure

theorem kwPattern_bl : Bl w d0 D0 d m (kwPattern w m) := by
  unfold kwPattern
  split
  · exact .pure
  · rename_i v hv
    refine .isKind ?_
    split
    · split
      · rename_i t _
        split
        · exact .pure
        · rename_i h; exact .here fun l => .regex t hv (by simpa using h)
      · exact .panic
    · rename_i h; exact .here fun l => .pattern v hv (not_str_of (by simpa using h))

theorem kwFormat_bl : Bl w d0 D0 d m (kwFormat m) := by
  unfold kwFormat
  split
  · exact .pure
  · rename_i v hv
    split
    · exact .pure
    · rename_i h; exact .here fun l => .format v hv fun t e => h t e

theorem requiredLoop_still : ∀ {vs qs}, Still (requiredLoop w qs vs) := by
  intro vs
  induction vs with
  | nil => intro qs; exact .pure
  | cons v vs ih =>
    intro qs
    unfold requiredLoop
    refine .bind isKind_still fun b => ?_
    split
    · split
      · split
        · exact .err
        · exact ih
      · exact .fail
    · exact .err

theorem requiredLoop_err {L : List Json} (hv : Kw m "required" (.arr L)) : ∀ {vs us} {st e st'}, L = us.map .str ++ vs →
    requiredLoop w us vs st = (.error (.err e), st') → ∀ l, FaultIn w l d m e := by
  intro vs
  induction vs with
  | nil => intro us st e st' _ h; simp [requiredLoop, M.pure_def] at h
  | cons v vs ih =>
    intro us st e st' hL h l
    unfold requiredLoop at h
    rcases M.bind_error.1 h with h | ⟨b, s1, h1, h⟩
    · exact absurd h isKind_notErr
    have := isKind_ok h1
    subst this
    split at h
    · split at h
      · rename_i t _ _
        split at h
        · rename_i hk
          simp only [M.err, M.fail, Prod.mk.injEq, Except.error.injEq, Fail.err.injEq] at h
          obtain ⟨rfl, _⟩ := h
          obtain ⟨i, hi, hg⟩ := get_of_mem (by simpa using hk) (.str t :: vs)
          exact .requiredTwice L t i us.length hv hi (by rw [hL]; exact hg) (by rw [hL]; simp)
        · exact ih (by rw [hL]; simp) h l
      · simp [M.fail] at h
    · rename_i hk
      simp only [M.err, M.fail, Prod.mk.injEq, Except.error.injEq, Fail.err.injEq] at h
      obtain ⟨rfl, _⟩ := h
      exact .requiredElem L v hv (by simp [hL]) (not_str_of (by simpa using hk))

theorem kwRequired_bl : Bl w d0 D0 d m (kwRequired w m) := by
  unfold kwRequired
  split
  · exact .pure
  · rename_i v hv
    refine .isKind ?_
    split
    · split
      · exact .of requiredLoop_still fun st e st' h l => requiredLoop_err hv (us := []) rfl h l
      · exact .panic
    · rename_i hk; exact .here fun l => .required v hv (not_arr_of hk)

theorem kwUnique_bl : Bl w d0 D0 d m (kwUnique w m) := by
  unfold kwUnique
  split
  · exact .pure
  · rename_i v hv
    refine .isKind ?_
    split
    · split
      · exact .pure
      · exact .panic
    · rename_i hk; exact .here fun l => .uniqueItems v hv (not_bool_of hk)

theorem kwContains_bl (hrec : RecBl w d0 D0 rec) (hm : (Json.obj m).WF) :
    Bl w d0 D0 d m (kwContains rec p id d m) := by
  unfold kwContains
  split
  · exact .pure
  · rename_i v hv
    split
    · rename_i ha; exact (child_bl hrec (wf_get hm hv) (.inl (.contains _ ha hv))).map
    · exact .pure

theorem marshal_none {v : Json} (h : w.env.marshal v = none) : ¬ NumsF64 v := by
  intro hn
  have := marshal_isSome (env := w.env).2 hn
  rw [h] at this; cases this

theorem kwConst_bl : Bl w d0 D0 d m (kwConst w d m) := by
  unfold kwConst
  split
  · exact .pure
  · rename_i v hv
    split
    · rename_i ha
      split
      · rename_i h; exact .here fun l => .const v ha hv (marshal_none h)
      · exact .pure
    · exact .pure

theorem enumLoop_still : ∀ {vs es}, Still (enumLoop w es vs) := by
  intro vs
  induction vs with
  | nil => intro qs; exact .pure
  | cons v vs ih =>
    intro qs
    unfold enumLoop
    split
    · exact .err
    · split
      · exact .err
      · exact ih

theorem enumLoop_err (hf : FmtOK w.env.fmtF64) {L : List Json} (hw : ∀ v ∈ L, v.WF) (hv : Kw m "enum" (.arr L)) :
    ∀ {vs us es} {st e st'}, L = us ++ vs → List.Forall₂ (fun c t => w.env.marshal c = some t) us es →
    enumLoop w es vs st = (.error (.err e), st') → ∀ l, FaultIn w l d m e := by
  intro vs
  induction vs with
  | nil => intro us es st e st' _ _ h; simp [enumLoop, M.pure_def] at h
  | cons v vs ih =>
    intro us es st e st' hL hu h l
    unfold enumLoop at h
    cases hn : w.env.marshal v with
    | none =>
      rw [hn] at h
      simp only [M.err, M.fail, Prod.mk.injEq, Except.error.injEq, Fail.err.injEq] at h
      obtain ⟨rfl, _⟩ := h
      exact .enumElem L v hv (by simp [hL]) (marshal_none hn)
    | some t =>
      have ht := hn
      rw [hn] at h
      simp only at h
      split at h
      · rename_i hk
        simp only [M.err, M.fail, Prod.mk.injEq, Except.error.injEq, Fail.err.injEq] at h
        obtain ⟨rfl, _⟩ := h
        have hmem : t ∈ es := by simpa using hk
        obtain ⟨a, ha, hat⟩ := forall2_mem' hu hmem
        obtain ⟨i, hi, rfl⟩ := List.mem_iff_getElem.1 ha
        refine .enumTwice L us[i] v i us.length hv hi ?_ (by rw [hL]; simp) ?_
        · rw [hL, List.getElem?_append_left hi]; simp [hi]
        · exact (marshal_eq_iff hf (hw _ (by rw [hL]; simp)) (hw _ (by rw [hL]; simp)) hat ht).1 rfl
      · refine ih (us := us ++ [v]) (by rw [hL]; simp) ?_ h l
        exact List.rel_append hu (.cons ht .nil)

theorem kwEnum_bl (hf : FmtOK w.env.fmtF64) (hm : (Json.obj m).WF) : Bl w d0 D0 d m (kwEnum w m) := by
  unfold kwEnum
  split
  · exact .pure
  · rename_i v hv
    refine .isKind ?_
    split
    · split
      · rename_i vs _
        exact .of enumLoop_still fun st e st' h l =>
          enumLoop_err hf (wf_arr (wf_get hm hv)) hv (us := []) rfl .nil h l
      · exact .panic
    · rename_i hk; exact .here fun l => .enum v hv (not_arr_of hk)

theorem kwSchemas_bl {key e} (hok : RecOK w rec) (hrec : RecBl w d0 D0 rec) (hm : (Json.obj m).WF)
    (hsub : ∀ vs v, Kw m key (.arr vs) → v ∈ vs → SubSchema d m v)
    (he : ∀ l v, Kw m key v → (∀ Ds, v ≠ .arr Ds) → FaultIn w l d m e) :
    Bl w d0 D0 d m (kwSchemas w rec p id d key e m) := by
  unfold kwSchemas
  split
  · exact .pure
  · rename_i v hv
    refine .isKind ?_
    split
    · split
      · rename_i vs _
        refine .mapL (Q := fun h D c => Stat h d D c) fun k x hx => ?_
        exact ⟨child_ok hok (wf_arr (wf_get hm hv) _ hx) (.inl (hsub _ _ hv hx)),
          child_bl hrec (wf_arr (wf_get hm hv) _ hx) (.inl (hsub _ _ hv hx))⟩
      · exact .panic
    · rename_i hk; exact .here fun l => he l v hv (not_arr_of hk)


theorem setNode_bl {c s} : Bl w d0 D0 d m (setNode c s) := by
  intro st e st' _ _ h
  simp [setNode, M.modify] at h

theorem parseKeywords_bl {refSchema c} (hf : FmtOK w.env.fmtF64) (hok : RecOK w rec) (hrec : RecBl w d0 D0 rec)
    (hm : (Json.obj m).WF) : Bl w d0 D0 d m (parseKeywords w σ rec p id d c refSchema m) := by
  unfold parseKeywords
  refine .bind kwType_ok kwType_bl fun _ _ => ?_
  refine .bind (kwProperties_ok hok hm) (kwProperties_bl hok hrec hm) fun _ _ => ?_
  refine .bind (kwExtra_ok hok hm fun A h => .additional A h) (kwExtra_bl (by simp) hrec hm fun A h => .additional A h) fun _ _ => ?_
  refine .bind (kwPatternProperties_ok hok hm) (kwPatternProperties_bl hok hrec hm) fun _ _ => ?_
  refine .bind (kwSchema_ok (A := Draft6 ≤ d) (by simp) hok hm fun v a h => .name v a h) (kwSchema_bl (A := Draft6 ≤ d) (by simp) hrec hm (fun v a h => .name v a h) fun l v a h n => .propertyNames v a h n) fun _ _ => ?_
  refine .bind (kwDependencies_ok hok hm) (kwDependencies_bl hok hrec hm) fun _ _ => ?_
  refine .bind (kwItems_ok hok hm) (kwItems_bl hok hrec hm) fun _ _ => ?_
  refine .bind (kwExtra_ok hok hm fun A h => .additionalItems A h) (kwExtra_bl (by simp) hrec hm fun A h => .additionalItems A h) fun _ _ => ?_
  refine .bind kwMultipleOf_ok kwMultipleOf_bl fun _ _ => ?_
  refine .bind kwBound_ok (kwBound_bl (by simp)) fun a1 ha1 => ?_
  obtain ⟨_, q1⟩ := ha1
  refine .bind (kwExclusive_ok q1) (kwExclusive_bl (by simp [exclusiveKeys]) q1) fun _ _ => ?_
  refine .bind kwBound_ok (kwBound_bl (by simp)) fun a2 ha2 => ?_
  obtain ⟨_, q2⟩ := ha2
  refine .bind (kwExclusive_ok q2) (kwExclusive_bl (by simp [exclusiveKeys]) q2) fun _ _ => ?_
  refine .bind kwSize_ok (kwSize_bl (by simp)) fun a3 ha3 => ?_
  obtain ⟨_, q3⟩ := ha3
  refine .bind kwSize_ok (kwSize_bl (by simp)) fun a4 ha4 => ?_
  obtain ⟨_, q4⟩ := ha4
  refine .bind checkOrder_ok (checkOrder_bl q3 q4 fun l x y h1 h2 h3 => .lengths x y h1 h2 h3) fun _ _ => ?_
  refine .bind kwPattern_ok kwPattern_bl fun _ _ => ?_
  refine .bind kwFormat_ok kwFormat_bl fun _ _ => ?_
  refine .bind kwSize_ok (kwSize_bl (by simp)) fun a5 ha5 => ?_
  obtain ⟨_, q5⟩ := ha5
  refine .bind kwSize_ok (kwSize_bl (by simp)) fun a6 ha6 => ?_
  obtain ⟨_, q6⟩ := ha6
  refine .bind checkOrder_ok (checkOrder_bl q5 q6 fun l x y h1 h2 h3 => .propertyCounts x y h1 h2 h3) fun _ _ => ?_
  refine .bind kwRequired_ok kwRequired_bl fun _ _ => ?_
  refine .bind kwSize_ok (kwSize_bl (by simp)) fun _ _ => ?_
  refine .bind kwSize_ok (kwSize_bl (by simp)) fun _ _ => ?_
  refine .bind kwUnique_ok kwUnique_bl fun _ _ => ?_
  refine .bind (kwContains_ok hok hm) (kwContains_bl hrec hm) fun _ _ => ?_
  refine .bind kwConst_ok kwConst_bl fun _ _ => ?_
  refine .bind kwEnum_ok (kwEnum_bl hf hm) fun _ _ => ?_
  refine .bind (kwSchemas_ok hok hm fun Ds D h hD => .oneOf Ds D h hD) (kwSchemas_bl hok hrec hm (fun Ds D h hD => .oneOf Ds D h hD) fun l v h n => .list "oneOf" v (by simp) h n) fun _ _ => ?_
  refine .bind (kwSchemas_ok hok hm fun Ds D h hD => .anyOf Ds D h hD) (kwSchemas_bl hok hrec hm (fun Ds D h hD => .anyOf Ds D h hD) fun l v h n => .list "anyOf" v (by simp) h n) fun _ _ => ?_
  refine .bind (kwSchemas_ok hok hm fun Ds D h hD => .allOf Ds D h hD) (kwSchemas_bl hok hrec hm (fun Ds D h hD => .allOf Ds D h hD) fun l v h n => .allOf v h n) fun _ _ => ?_
  refine .bind (kwSchema_ok (A := True) (by simp) hok hm fun v _ h => .not v h) (kwSchema_bl (A := True) (by simp) hrec hm (fun v _ h => .not v h) fun l v _ h n => .not v h n) fun _ _ => ?_
  refine .bind (kwSchema_ok (A := Draft7 ≤ d) (by simp) hok hm fun v a h => .if_ v a h) (kwSchema_bl (A := Draft7 ≤ d) (by simp) hrec hm (fun v a h => .if_ v a h) fun l v a h n => .branch "if" v (by simp) a h n) fun _ _ => ?_
  refine .bind (kwSchema_ok (A := Draft7 ≤ d) (by simp) hok hm fun v a h => .then_ v a h) (kwSchema_bl (A := Draft7 ≤ d) (by simp) hrec hm (fun v a h => .then_ v a h) fun l v a h n => .branch "then" v (by simp) a h n) fun _ _ => ?_
  refine .bind (kwSchema_ok (A := Draft7 ≤ d) (by simp) hok hm fun v a h => .else_ v a h) (kwSchema_bl (A := Draft7 ≤ d) (by simp) hrec hm (fun v a h => .else_ v a h) fun l v a h n => .branch "else" v (by simp) a h n) fun _ _ => ?_
  exact setNode_bl

theorem pointerGet_err {r D l e l'} (h : pointerGet w r D l = (.error (.err e), l')) :
    l = l' ∧ w.pointer r D = none ∧ e = .pointer r := by
  unfold pointerGet at h
  cases hp : w.pointer r D with
  | none =>
    rw [hp] at h
    simp only [M.err, M.fail, Prod.mk.injEq, Except.error.injEq, Fail.err.injEq] at h
    exact ⟨h.2, rfl, h.1.symm⟩
  | some d => rw [hp] at h; simp [M.pure_def] at h

theorem getDocument_err {ref l e l'} (h : getDocument w σ p ref l = (.error (.err e), l')) : NotThere w l' ref e := by
  unfold getDocument at h
  rw [M.bind_def, poolGet_ok.2 ⟨rfl, rfl⟩] at h
  simp only at h
  cases h1 : getKey ref l.pool with
  | some e' => rw [h1] at h; simp [M.pure_def] at h
  | none =>
    rw [h1] at h
    simp only at h
    rw [M.bind_def, poolGet_ok.2 ⟨rfl, rfl⟩] at h
    simp only at h
    cases h2 : getKey (w.base ref) l.pool with
    | some e' =>
      rw [h2] at h
      simp only [getCached] at h
      rcases M.bind_error.1 h with h | ⟨d', s1, h3, h⟩
      · obtain ⟨rfl, hp, rfl⟩ := pointerGet_err h
        exact .inside e' h2 hp (.inl h1)
      · rw [M.bind_def] at h
        simp [putPool_run, M.pure_def] at h
    | none =>
      rw [h2] at h
      simp only at h
      unfold getRemote at h
      split at h
      · rename_i hc
        simp only [M.err, M.fail, Prod.mk.injEq, Except.error.injEq, Fail.err.injEq] at h
        obtain ⟨rfl, rfl⟩ := h
        exact .relative h1 h2 (by simpa using hc)
      let l1 : LState := { l with log := l.log ++ [(l.factory, ref)] }
      cases hload : loadReference w l.clock l.factory ref with
      | none =>
        have hf : fetch w ref l = (.error (.err (.load ref)), l1) := by unfold fetch; rw [hload]
        rw [M.bind_def, hf] at h
        simp only [Prod.mk.injEq, Except.error.injEq, Fail.err.injEq] at h
        obtain ⟨rfl, rfl⟩ := h
        exact .unloaded _ _ (by simp [l1]) hload
      | some doc =>
        have hf : fetch w ref l = (.ok doc, l1) := by unfold fetch; rw [hload]
        rw [M.bind_def, hf] at h
        simp only at h
        obtain ⟨pr1, pr2⟩ := parseReferences_pooled (w := w) (σ := σ) (p := p) (doc := doc) (ref := w.base ref) (l0 := l1) h2
        rcases M.bind_error.1 h with h | ⟨doc2, l2, hx, h⟩
        · simp only [parseReferencesIgnore] at h
          cases hpr : parseReferences w σ p doc (w.base ref) true l1 with
          | mk r l5 =>
            rw [hpr] at h
            cases r with
            | ok x => simp at h
            | error e => cases e <;> simp at h
        rcases M.bind_error.1 h with h3 | ⟨dr, l3, hdr, h3⟩
        · simp only [schemaDraftIgnore] at h3
          cases hs : parseSchemaURL w doc2 l2 with
          | mk r l5 =>
            rw [hs] at h3
            cases r with
            | ok x => simp at h3
            | error e => cases e <;> simp at h3
        have := schemaDraftIgnore_still.ok hdr
        subst this
        rcases M.bind_error.1 h3 with h4 | ⟨d', s1, _, h4⟩
        · obtain ⟨rfl, hp, rfl⟩ := pointerGet_err h4
          cases hpr : parseReferences w σ p doc (w.base ref) true l1 with
          | mk r l5 =>
            simp only [parseReferencesIgnore, hpr] at hx
            cases r with
            | ok x =>
              simp only [Prod.mk.injEq, Except.ok.injEq] at hx
              obtain ⟨rfl, rfl⟩ := hx
              obtain ⟨draft, _, hk⟩ := pr1 _ _ hpr
              have T := (parseReferences_tri (W := False) (w := w) (σ := σ) (p := p) (doc := doc) (ref := w.base ref)
                (pooled := true) (l0 := l1) False.elim False.elim).1
              rw [hpr] at T
              exact .inside _ hk hp (.inr ⟨l.factory, by rw [T.log.1]; simp [l1]⟩)
            | error e =>
              cases e with
              | err e =>
                simp only [Prod.mk.injEq, Except.ok.injEq] at hx
                obtain ⟨rfl, rfl⟩ := hx
                obtain ⟨rfl, hb⟩ := pr2 _ _ hpr
                exact .loaded _ _ _ hload (by simp [l1]) hb hp
              | panic => simp at hx
              | fuel => simp at hx
        · simp [M.pure_def] at h4

theorem liftL_err {x : M LState α} {st : PState} {e st'} :
    liftL x st = (.error e, st') ↔ ∃ l', x st.l = (.error e, l') ∧ st' = { st with l := l' } := by
  unfold liftL
  cases hx : x st.l with
  | mk r l' =>
    simp only [Prod.mk.injEq]
    constructor
    · rintro ⟨rfl, rfl⟩; exact ⟨l', ⟨rfl, rfl⟩, rfl⟩
    · rintro ⟨l'', ⟨rfl, rfl⟩, rfl⟩; exact ⟨rfl, rfl⟩

theorem parseReference_bl {ref t st e st'} (hw : Lawful w) (hrec : RecBl w d0 D0 rec) (hi : PInv w st)
    (hc : ∃ i, Stat st.heap d (.obj m) i) (hC : Compiled w st.l d0 D0 d (.obj m)) (ht : Kw m "$ref" (.str t)) (hu : w.norm t = some ref)
    (hn : getKey ref st.refs = none) (h : parseReference w σ rec p id d ref st = (.error (.err e), st')) :
    Blamed w d0 D0 st'.l e := by
  unfold parseReference at h
  obtain ⟨k1, _, k2⟩ := getDocument_inv (W := True) (w := w) (σ := σ) (p := 42 :: p) (ref := ref) (l := st.l)
    (fun _ => hw) (fun _ => hi.pool)
  rcases M.bind_error.1 h with h | ⟨dsp, s1, hg, h⟩
  · obtain ⟨l', h3, rfl⟩ := liftL_err.1 h
    rw [h3] at k1
    exact ⟨_, _, hC.mono k1.keeps k1.log, .fault m _ (.ref t ref e ht hu (getDocument_err h3))⟩
  obtain ⟨l1, hg3, rfl⟩ := liftL_ok.1 hg
  rw [hg3] at k1
  obtain ⟨k2, k3⟩ := k2 _ _ hg3
  have hC := hC.mono k1.keeps k1.log
  rcases M.bind_error.1 h with h | ⟨c, s2, ha, h⟩
  · simp [alloc] at h
  simp only [alloc, Prod.mk.injEq, Except.ok.injEq] at ha
  obtain ⟨rfl, rfl⟩ := ha
  have inv2 := refNode_inv hi k1 (k2 trivial) k3 ⟨_, _, t, hc.choose_spec, ht, hu⟩
  rcases M.bind_error.1 h with h | ⟨_, s3, hr, h⟩
  · simp [refAdd, M.modify] at h
  simp only [refAdd, M.modify_ok, existsMapKey_false.2 hn, Bool.false_eq_true, if_false] at hr
  subst hr
  rcases M.bind_error.1 h with h | ⟨b, s4, hk, h⟩
  · exact absurd h isKind_notErr
  have := isKind_still.ok hk
  subst this
  have hb := isKind_ok hk
  subst hb
  split at h
  · rename_i hk
    simp only [M.err, M.fail, Prod.mk.injEq, Except.error.injEq, Fail.err.injEq] at h
    obtain ⟨rfl, rfl⟩ := h
    exact ⟨_, _, hC, .fault m _ (.target t ref _ _ ht hu k3 (noSchema_of (by simpa using hk)))⟩
  rcases M.bind_error.1 h with h | ⟨_, _, _, h⟩
  · exact hrec _ _ _ _ _ _ _ _ _ inv2 stat_new (.ref _ m t ref _ _ hC ht hu k3) h
  · simp [M.pure_def] at h

theorem parseAfterRef_bl {ref c} (hw : Lawful w) (hf : FmtOK w.env.fmtF64) (hok : RecOK w rec) (hrec : RecBl w d0 D0 rec)
    (hm : (Json.obj m).WF)
    (hr : match ref with
      | none => getKey "$ref" m = none
      | some u => ∃ r, getKey "$ref" m = some (.str r) ∧ w.norm r = some u) :
    Bl w d0 D0 d m (parseAfterRef w σ rec p id d c ref m) := by
  unfold parseAfterRef
  split
  · exact parseKeywords_bl hf hok hrec hm
  · rename_i u
    obtain ⟨r, hr1, hr2⟩ := hr
    intro st e st' hi hC h
    rcases M.bind_error.1 h with h | ⟨o, s1, ho, h⟩
    · unfold refGet at h
      rcases M.bind_error.1 h with h | ⟨_, _, _, h⟩
      · simp [M.get] at h
      · simp [M.pure_def] at h
    obtain ⟨rfl, rfl⟩ := refGet_ok.1 ho
    cases hj : getKey u st.refs with
    | some j => rw [hj] at h; exact parseKeywords_bl hf hok hrec hm _ _ _ hi hC h
    | none =>
      rw [hj] at h
      simp only at h
      rcases M.bind_error.1 h with h | ⟨_, _, _, h⟩
      · exact parseReference_bl hw hrec hi.inv hi.here hC hr1 hr2 hj h
      · simp [setNode, M.modify] at h

theorem parseObject_bl {isRoot pid id0 c} (hw : Lawful w) (hf : FmtOK w.env.fmtF64) (hok : RecOK w rec) (hrec : RecBl w d0 D0 rec)
    (hm : (Json.obj m).WF) : Bl w d0 D0 d m (parseObject w σ rec isRoot p pid id0 m d c) := by
  unfold parseObject
  refine .bind kwId_ok kwId_bl fun _ _ => ?_
  refine .bind (kwDefinitions_ok hok hm) (kwDefinitions_bl hok hrec hm) fun _ _ => ?_
  refine .bind kwText_ok (kwText_bl (by simp)) fun _ _ => ?_
  refine .bind kwText_ok (kwText_bl (by simp)) fun _ _ => ?_
  refine .bind kwRefText_ok kwRefText_bl fun r hr => ?_
  obtain ⟨_, hr⟩ := hr
  exact parseAfterRef_bl hw hf hok hrec hm hr

theorem parseStep_bl {isRoot pid id0 doc c st e st'} (hw : Lawful w) (hf : FmtOK w.env.fmtF64) (hok : RecOK w rec)
    (hrec : RecBl w d0 D0 rec) (hi : PInv w st) (hc : Stat st.heap d doc c) (hC : Compiled w st.l d0 D0 d doc)
    (h : parseStep w σ rec isRoot p pid id0 doc d c st = (.error (.err e), st')) : Blamed w d0 D0 st'.l e := by
  unfold parseStep at h
  rcases M.bind_error.1 h with h | ⟨b, s1, h1, h'⟩
  · exact absurd h isKind_notErr
  clear h
  have := isKind_still.ok h1
  subst this
  have hb' := isKind_ok h1
  have bad : ∀ {doc : Json} {x : M PState Unit}, kindIn doc [.map] = false →
      (isKind w.env doc [.map] >>= fun b2 => if !b2 then M.err .parseError else x : M PState Unit) s1 = (.error (.err e), st') →
      e = .parseError ∧ st' = s1 := by
    intro doc x hk h
    rcases M.bind_error.1 h with h | ⟨b2, s2, h2, h3⟩
    · exact absurd h isKind_notErr
    have h4 := isKind_still.ok h2
    subst h4
    have := isKind_ok h2
    rw [hk] at this
    subst this
    simp only [Bool.not_false, if_true, M.err, M.fail, Prod.mk.injEq, Except.error.injEq, Fail.err.injEq] at h3
    exact ⟨h3.1.symm, h3.2.symm⟩
  cases doc with
  | obj m =>
    have hm : (Json.obj m).WF := by
      obtain ⟨s, h1, _, h3⟩ := hc
      have := hi.docs _ s h1
      rw [h3] at this; exact this
    have good : (isKind w.env (.obj m) [.map] >>= fun b2 =>
        if !b2 then M.err .parseError else parseObject w σ rec isRoot p pid id0 m d c : M PState Unit) s1 = (.error (.err e), st') →
        Blamed w d0 D0 st'.l e := by
      intro h
      rcases M.bind_error.1 h with h | ⟨b2, s2, h2, h3⟩
      · exact absurd h isKind_notErr
      have := isKind_still.ok h2
      subst this
      have := isKind_ok h2
      subst this
      exact parseObject_bl hw hf hok hrec hm _ _ _ ⟨hi, c, hc⟩ hC h3
    cases hb : (decide (d ≥ Draft6) && b) <;> (rw [hb] at h'; exact good h')
  | bool x =>
    cases hb : (decide (d ≥ Draft6) && b) with
    | true =>
      rw [hb] at h'
      simp [setNode, M.modify] at h'
    | false =>
      rw [hb] at h'
      obtain ⟨rfl, rfl⟩ := bad rfl h'
      have : b = true := hb'
      subst this
      exact ⟨_, _, hC, .bool x (by simpa using hb)⟩
  | null => cases hb : (decide (d ≥ Draft6) && b) <;> (rw [hb] at h'; obtain ⟨rfl, rfl⟩ := bad rfl h'; exact ⟨_, _, hC, .kind _ ⟨by simp, by simp⟩⟩)
  | num n => cases hb : (decide (d ≥ Draft6) && b) <;> (rw [hb] at h'; obtain ⟨rfl, rfl⟩ := bad rfl h'; exact ⟨_, _, hC, .kind _ ⟨by simp, by simp⟩⟩)
  | str n => cases hb : (decide (d ≥ Draft6) && b) <;> (rw [hb] at h'; obtain ⟨rfl, rfl⟩ := bad rfl h'; exact ⟨_, _, hC, .kind _ ⟨by simp, by simp⟩⟩)
  | arr n => cases hb : (decide (d ≥ Draft6) && b) <;> (rw [hb] at h'; obtain ⟨rfl, rfl⟩ := bad rfl h'; exact ⟨_, _, hC, .kind _ ⟨by simp, by simp⟩⟩)

theorem parseSchema_bl (hw : Lawful w) (hf : FmtOK w.env.fmtF64) : ∀ n, RecBl w d0 D0 (parseSchema w σ n) := by
  intro n
  induction n with
  | zero => intro p pid id0 doc d c st e st' _ _ _ h; simp [parseSchema, M.fail] at h
  | succ n ih =>
    intro p pid id0 doc d c st e st' hi hc hC h
    exact parseStep_bl hw hf (parseSchema_ok hw n) ih hi hc hC h

theorem parseRoot_bl {n docRef doc st e st'} (hw : Lawful w) (hf : FmtOK w.env.fmtF64) (hi : PInv w st) (hD : doc.WF) (he : st.heap = [])
    (h : parseRoot w σ n p docRef doc d st = (.error (.err e), st')) : Blamed w d doc st'.l e := by
  unfold parseRoot at h
  rcases M.bind_error.1 h with h | ⟨c, s1, h1, h⟩
  · simp [alloc] at h
  simp only [alloc, Prod.mk.injEq, Except.ok.injEq] at h1
  obtain ⟨rfl, rfl⟩ := h1
  rcases M.bind_error.1 h with h | ⟨_, _, _, h⟩
  · exact parseStep_bl hw hf (parseSchema_ok hw n) (parseSchema_bl hw hf n) (alloc_inv hi hD (.inl he)) stat_new .root h
  · simp [M.pure_def] at h

end
end GJS

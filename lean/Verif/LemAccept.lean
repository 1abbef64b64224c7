import Verif.SpecWell
import Verif.LemParseSafe
import Verif.LemMarshal
/-
Helper lemmas: exactly when the parts of the compiler succeed.
-/
namespace GJS
open Spec

/-- `x` succeeds, in any state, only if `P`, and if `C` then exactly if `P`; its results satisfy
`V`. -/
structure Acc (C : Prop) (x : M σ α) (P : Prop) (V : α → Prop) : Prop where
  ok : ∀ s a s', x s = (.ok a, s') → P ∧ V a
  run : C → ∀ s, P → ∃ a s', x s = (.ok a, s')

/-- No information about a result. -/
abbrev Any : α → Prop := fun _ => True

namespace Acc

variable {C : Prop}

theorem iff {x : M σ α} {P : Prop} {V : α → Prop} (h : Acc True x P V) (s : σ) : (∃ a s', x s = (.ok a, s')) ↔ P :=
  ⟨fun ⟨a, s', hx⟩ => (h.ok s a s' hx).1, h.run trivial s⟩

theorem val {x : M σ α} {P : Prop} {V : α → Prop} (h : Acc C x P V) (s : σ) (a s') (hx : x s = (.ok a, s')) : V a :=
  (h.ok s a s' hx).2

theorem pure {a : α} : Acc C (Pure.pure a : M σ α) True (· = a) :=
  ⟨fun s b s' h => ⟨trivial, (M.pure_ok.1 h).1.symm⟩, fun _ s _ => ⟨a, s, rfl⟩⟩

theorem fail {e} {V : α → Prop} : Acc C (M.fail e : M σ α) False V :=
  ⟨fun s b s' h => by simp at h, fun _ _ h => h.elim⟩

theorem err {e} {V : α → Prop} : Acc C (M.err e : M σ α) False V := fail

theorem bind {x : M σ α} {f : α → M σ β} {P R : Prop} {V : α → Prop} {U : β → Prop} (hx : Acc C x P V)
    (hf : ∀ a, V a → Acc C (f a) R U) : Acc C (x >>= f) (P ∧ R) U := by
  constructor
  · intro s b s' h
    obtain ⟨a, s1, h1, h2⟩ := M.bind_ok.1 h
    obtain ⟨k1, k2⟩ := hx.ok _ _ _ h1
    obtain ⟨k3, k4⟩ := (hf a k2).ok _ _ _ h2
    exact ⟨⟨k1, k3⟩, k4⟩
  · rintro hC s ⟨hP, hR⟩
    obtain ⟨a, s1, h1⟩ := hx.run hC s hP
    obtain ⟨b, s', h2⟩ := (hf a (hx.val _ _ _ h1)).run hC s1 hR
    exact ⟨b, s', M.bind_ok.2 ⟨a, s1, h1, h2⟩⟩

theorem bind_fail {x : M σ α} {f : α → M σ β} {V : α → Prop} {U : β → Prop} (hx : Acc C x False V) :
    Acc C (x >>= f) False U := by
  refine ⟨fun s b s' h => ?_, fun _ _ h => h.elim⟩
  obtain ⟨a, s1, h1, _⟩ := M.bind_ok.1 h
  exact (hx.ok _ _ _ h1).1.elim

theorem cond {x : M σ α} {P R : Prop} {V : α → Prop} (h : Acc C x P V) (e : P ↔ R) : Acc C x R V :=
  ⟨fun s a s' hx => ⟨e.1 (h.ok s a s' hx).1, (h.ok s a s' hx).2⟩, fun hC s hR => h.run hC s (e.2 hR)⟩

theorem mono {x : M σ α} {P : Prop} {V U : α → Prop} (h : Acc C x P V) (e : ∀ a, V a → U a) : Acc C x P U :=
  ⟨fun s a s' hx => ⟨(h.ok s a s' hx).1, e a (h.ok s a s' hx).2⟩, h.run⟩

theorem any {x : M σ α} {P : Prop} {V : α → Prop} (h : Acc C x P V) : Acc C x P Any := h.mono fun _ _ => trivial

theorem ret {a : α} : Acc C (Pure.pure a : M σ α) True Any := pure.any

theorem modify {f : σ → σ} : Acc C (M.modify f) True Any :=
  ⟨fun _ _ _ _ => ⟨trivial, trivial⟩, fun _ s _ => ⟨(), f s, rfl⟩⟩

theorem mapL {f : Nat → α → M σ β} {P : α → Prop} : ∀ {xs : List α} {k : Nat},
    (∀ k x, x ∈ xs → Acc C (f k x) (P x) Any) → Acc C (GJS.mapL f k xs) (∀ x ∈ xs, P x) Any := by
  intro xs
  induction xs with
  | nil => intro k _; exact ret.cond (by simp)
  | cons x xs ih =>
    intro k h
    exact ((h k x (by simp)).bind fun y _ => (ih fun k x hx => h k x (by simp [hx])).bind fun ys _ => ret).cond
      (by simp)

end Acc

section
variable {w : World} {σ : Sched}

/-- If the value is a number, `big.Rat` accepts it. -/
def RatOK (w : World) (v : Json) : Prop := ∀ n, v = .num n → w.env.ratOk n = true

variable {C : Prop}

theorem isKind_acc {τ : Type} {v ks} : Acc C (isKind w.env v ks : M τ Bool) (RatOK w v) (· = kindIn v ks) := by
  refine ⟨fun s a s' h => ⟨?_, isKind_ok h⟩, fun _ s hr => ?_⟩
  · rintro n rfl
    simp only [isKind] at h
    by_cases hn : w.env.ratOk n = true
    · exact hn
    · simp [hn, M.fail] at h
  · cases v with
    | num n => simp [isKind, hr n rfl, M.pure_def]
    | _ => simp [isKind, M.pure_def]

theorem alloc_acc {D d} : Acc C (alloc D d) True Any :=
  ⟨fun _ _ _ _ => ⟨trivial, trivial⟩, fun _ _ _ => ⟨_, _, rfl⟩⟩

/-- What is known of the recursive call on the documents in `N`: it succeeds on schemas `W`. -/
structure RecAcc (C : Prop) (w : World) (W : Draft → Json → Prop) (N : Json → Prop) (rec : PRec) : Prop where
  acc : ∀ p pid id0 doc d c, N doc → Acc C (rec p pid id0 doc d c) (W d doc) Any
  kind : ∀ d D, W d D → kindIn D [.map, .bool] = true

variable {N : Json → Prop} {W : Draft → Json → Prop} {rec : PRec} {p : Path} {id : String} {d : Draft}
variable {m : List (String × Json)}

theorem RecAcc.rat (hrec : RecAcc C w W N rec) {D} (h : W d D) : RatOK w D := by
  rintro n rfl
  have := hrec.kind _ _ h
  simp [kindIn] at this

theorem RecAcc.schema (hrec : RecAcc C w W N rec) {D} (h : W d D) : (∃ b, D = .bool b) ∨ ∃ m, D = .obj m := by
  have := hrec.kind _ _ h
  cases D <;> simp_all [kindIn, rawKind]

theorem child_acc {D} (hrec : RecAcc C w W N rec) (hD : N D) : Acc C (child rec p id d D) (W d D) Any :=
  (alloc_acc.bind fun _ _ => (hrec.acc _ _ _ _ _ _ hD).bind fun _ _ => .ret).cond (by simp)

theorem wellFormed_kind {D} (h : WellFormed w d D) : kindIn D [.map, .bool] = true := by
  cases h <;> rfl

theorem wellFormed_rat {D} (h : WellFormed w d D) : RatOK w D := by
  cases h <;> (intro n h; cases h)

theorem keyID_eq : keyID d m = idKey d m := by
  unfold keyID idKey existsMapKey
  by_cases h4 : d = Draft4
  · simp [h4]
  · by_cases hh : d = Hybrid
    · cases hg : (getKey "id" m).isSome <;> simp [hh, hg, Draft4, Hybrid]
    · simp [h4, hh]

theorem isKind_bind {τ α : Type} {v ks} {f : Bool → M τ α} {R : Prop} {V : α → Prop} (hC : R → RatOK w v)
    (h : Acc C (f (kindIn v ks)) R V) : Acc C (isKind w.env v ks >>= f) R V :=
  (isKind_acc.bind fun b hb => by subst hb; exact h).cond ⟨And.right, fun h => ⟨hC h, h⟩⟩

theorem kwId_acc {r pid id0} (hi : C → ∀ a b, w.inherits a b ≠ none) :
    Acc C (kwId w r pid id0 d m) (∀ v, Kw m (idKey d m) v → ∃ t, v = .str t ∧ w.norm t ≠ none) Any := by
  unfold kwId Kw
  rw [keyID_eq]
  cases hv : getKey (idKey d m) m with
  | none => exact Acc.ret.cond (by simp)
  | some v =>
    refine Acc.cond (P := ∃ t, v = .str t ∧ w.norm t ≠ none) (isKind_bind ?_ ?_) (by simp)
    · rintro ⟨t, rfl, _⟩ n hn; cases hn
    cases v with
    | str t =>
      show Acc C (match w.norm t with
        | none => _
        | some r' => _) _ _
      cases hn : w.norm t with
      | none => exact Acc.err.cond (by simp [hn])
      | some r' =>
        refine Acc.cond (P := True) ?_ (by simp [hn])
        show Acc C (if r then _ else _) _ _
        split
        · exact .ret
        · cases hh : w.inherits pid r' with
          | none => exact ⟨fun _ _ _ h => by simp at h, fun hC => absurd hh (hi hC _ _)⟩
          | some u => exact .ret
    | _ => exact Acc.err.cond (by simp)

theorem kwDefinitions_acc (hm : Inner N m) (hrec : RecAcc C w W N rec) :
    Acc C (kwDefinitions w σ rec p id d m) ((∀ v, Kw m "definitions" v → ∃ c, v = .obj c) ∧
      ∀ ds k D, Kw m "definitions" (.obj ds) → (k, D) ∈ ds → W d D) Any := by
  unfold kwDefinitions Kw
  cases hv : getKey "definitions" m with
  | none => exact Acc.ret.cond (by simp)
  | some v =>
    refine Acc.cond (P := ∃ c, v = .obj c ∧ ∀ kv ∈ c, W d kv.2) (isKind_bind ?_ ?_) ?_
    · rintro ⟨t, rfl, _⟩ n hn; cases hn
    · cases v with
      | obj c =>
        refine Acc.cond (P := (∀ kv ∈ σ.order (21 :: p) c, W d kv.2) ∧ True)
          (.bind (.mapL fun k kv hkv => ?_) fun _ _ => .ret) ?_
        · have hkv := (σ.perm _ _).mem_iff.1 hkv
          unfold kwDefinition
          refine isKind_bind hrec.rat ?_
          split
          · exact ((child_acc hrec (hm.entry _ _ _ hv hkv)).bind fun _ _ => .ret).cond (by simp)
          · rename_i hk
            exact Acc.err.cond ⟨False.elim, fun h => hk (hrec.kind _ _ h)⟩
        · simp [(σ.perm _ _).mem_iff]
      | bool b => exact Acc.fail.cond (by simp)
      | _ => exact Acc.err.cond (by simp)
    · constructor
      · rintro ⟨c, rfl, h⟩
        exact ⟨by rintro v' hv'; cases hv'; exact ⟨c, rfl⟩, by
          intro ds k D hd hk; cases hd; exact h _ hk⟩
      · rintro ⟨h1, h2⟩
        obtain ⟨c, rfl⟩ := h1 v rfl
        exact ⟨c, rfl, fun kv hkv => h2 c kv.1 kv.2 rfl hkv⟩

theorem kwText_acc {k} : Acc C (kwText w k m) (∀ v, Kw m k v → ∃ t, v = .str t) Any := by
  unfold kwText Kw
  cases hv : getKey k m with
  | none => exact Acc.ret.cond (by simp)
  | some v =>
    refine Acc.cond (P := ∃ t, v = .str t) (isKind_bind ?_ ?_) (by simp)
    · rintro ⟨t, rfl⟩ n hn; cases hn
    cases v with
    | str t => exact Acc.ret.cond (by simp)
    | _ => exact Acc.err.cond (by simp)

theorem known_iff {t} : jsonTypes.contains t = true ↔ KnownType t := by
  simp [jsonTypes, KnownType]

theorem addType_acc {τ : Type} {ts t} :
    Acc C (addType ts t : M τ _) (KnownType t ∧ t ∉ ts) (· = ts ++ [t]) := by
  unfold addType
  rw [← known_iff]
  split
  · rename_i h
    refine Acc.err.cond ⟨False.elim, fun hh => ?_⟩
    rw [hh.1] at h; cases h
  · rename_i h
    split
    · rename_i h'
      exact Acc.err.cond ⟨False.elim, fun hh => hh.2 (by simpa using h')⟩
    · rename_i h'
      exact Acc.pure.cond ⟨fun _ => ⟨by simpa using h, by simpa using h'⟩, fun _ => trivial⟩

theorem typeLoop_acc : ∀ {vs ts}, ts.Nodup → Acc C (typeLoop ts vs)
    (∃ us : List String, vs = us.map .str ∧ (ts ++ us).Nodup ∧ ∀ t ∈ us, KnownType t) Any := by
  intro vs
  induction vs with
  | nil =>
    intro ts hts
    exact Acc.ret.cond ⟨fun _ => ⟨[], rfl, by simpa using hts, by simp⟩, fun _ => trivial⟩
  | cons v vs ih =>
    intro ts hts
    unfold typeLoop
    cases v with
    | str t =>
      show Acc C (addType ts t >>= fun ts' => typeLoop ts' vs) _ _
      by_cases hn : t ∈ ts
      · refine (Acc.bind_fail (addType_acc.cond ⟨fun h => h.2 hn, False.elim⟩)).cond ⟨False.elim, ?_⟩
        rintro ⟨us, h1, h2, _⟩
        cases us with
        | nil => simp at h1
        | cons u us =>
          simp only [List.map_cons, List.cons.injEq, Json.str.injEq] at h1
          obtain ⟨rfl, h1⟩ := h1
          exact absurd rfl (List.nodup_append.1 h2 |>.2.2 t hn t (by simp))
      · have hts' : (ts ++ [t]).Nodup := by
          rw [List.nodup_append]
          exact ⟨hts, by simp, by intro a ha b hb; simp at hb; subst hb; rintro rfl; exact hn ha⟩
        refine (addType_acc.bind fun a ha => by subst ha; exact ih hts').cond ?_
        constructor
        · rintro ⟨⟨hk, _⟩, us, rfl, h2, h3⟩
          exact ⟨t :: us, rfl, by simpa using h2, by simpa using ⟨hk, h3⟩⟩
        · rintro ⟨us, h1, h2, h3⟩
          cases us with
          | nil => simp at h1
          | cons u us =>
            simp only [List.map_cons, List.cons.injEq, Json.str.injEq] at h1
            obtain ⟨rfl, h1⟩ := h1
            simp only [List.mem_cons, forall_eq_or_imp] at h3
            exact ⟨⟨h3.1, hn⟩, us, h1, by simpa using h2, h3.2⟩
    | num n =>
      exact Acc.fail.cond ⟨False.elim, by
        rintro ⟨us, h1, _⟩; cases us <;> simp at h1⟩
    | _ =>
      exact Acc.err.cond ⟨False.elim, by
        rintro ⟨us, h1, _⟩; cases us <;> simp at h1⟩

theorem kwType_acc : Acc C (kwType w m) (∀ v, Kw m "type" v → TypeValue v) Any := by
  unfold kwType Kw
  cases hv : getKey "type" m with
  | none => exact Acc.ret.cond (by simp)
  | some v =>
    have hr : TypeValue v → RatOK w v := by
      rintro (⟨t, rfl, _⟩ | ⟨t, rfl, _⟩) n hn <;> cases hn
    refine Acc.cond (P := TypeValue v) (isKind_bind hr ?_) (by simp)
    cases v with
    | str t =>
      exact (addType_acc (ts := [])).any.cond (by simp [TypeValue])
    | arr vs =>
      refine isKind_bind hr ((typeLoop_acc (ts := []) (by simp)).cond ?_)
      simp [TypeValue]
    | _ => exact isKind_bind hr (Acc.err.cond (by simp [TypeValue]))

theorem kwProperties_acc (hm : Inner N m) (hrec : RecAcc C w W N rec) :
    Acc C (kwProperties w σ rec p id d m) ((∀ v, Kw m "properties" v → ∃ c, v = .obj c) ∧
      ∀ ds k D, Kw m "properties" (.obj ds) → (k, D) ∈ ds → W d D) Any := by
  unfold kwProperties Kw
  cases hv : getKey "properties" m with
  | none => exact Acc.ret.cond (by simp)
  | some v =>
    refine Acc.cond (P := ∃ c, v = .obj c ∧ ∀ kv ∈ c, W d kv.2) (isKind_bind ?_ ?_) ?_
    · rintro ⟨t, rfl, _⟩ n hn; cases hn
    · cases v with
      | obj c =>
        refine Acc.cond (P := ∀ kv ∈ σ.order (25 :: p) c, W d kv.2) (.mapL fun k kv hkv => ?_) ?_
        · have hkv := (σ.perm _ _).mem_iff.1 hkv
          exact ((child_acc hrec (hm.entry _ _ _ hv hkv)).bind fun _ _ => .ret).cond (by simp)
        · simp [(σ.perm _ _).mem_iff]
      | _ => exact Acc.err.cond (by simp)
    · constructor
      · rintro ⟨c, rfl, h⟩
        exact ⟨by rintro v' hv'; cases hv'; exact ⟨c, rfl⟩, by
          intro ds k D hd hk; cases hd; exact h _ hk⟩
      · rintro ⟨h1, h2⟩
        obtain ⟨c, rfl⟩ := h1 v rfl
        exact ⟨c, rfl, fun kv hkv => h2 c kv.1 kv.2 rfl hkv⟩

theorem kwExtra_acc {key} (hm : Inner N m) (hrec : RecAcc C w W N rec) :
    Acc C (kwExtra w rec p id d key m) ((∀ v, Kw m key v → (∃ b, v = .bool b) ∨ ∃ c, v = .obj c) ∧
      ∀ c, Kw m key (.obj c) → W d (.obj c)) Any := by
  unfold kwExtra Kw
  cases hv : getKey key m with
  | none => exact Acc.ret.cond (by simp)
  | some v =>
    have hr : (((∃ b, v = .bool b) ∨ ∃ c, v = .obj c) ∧ ∀ c, v = .obj c → W d (.obj c)) → RatOK w v := by
      rintro ⟨⟨t, rfl⟩ | ⟨t, rfl⟩, _⟩ n hn <;> cases hn
    refine Acc.cond (isKind_bind hr ?_) (by simp)
    cases v with
    | bool b => exact Acc.ret.cond (by simp)
    | obj c =>
      refine isKind_bind hr (((child_acc hrec (hm.value _ _ hv)).bind fun _ _ => .ret).cond ?_)
      simp
    | _ => exact isKind_bind hr (Acc.err.cond (by simp))

theorem kwPatternProperties_acc (hm : Inner N m) (hrec : RecAcc C w W N rec) :
    Acc C (kwPatternProperties w σ rec p id d m)
      ((∀ v, Kw m "patternProperties" v → ∃ c, v = .obj c ∧ ∀ k ∈ keysOf c, w.env.reOk k = true) ∧
      ∀ ds k D, Kw m "patternProperties" (.obj ds) → (k, D) ∈ ds → W d D) Any := by
  unfold kwPatternProperties Kw
  cases hv : getKey "patternProperties" m with
  | none => exact Acc.ret.cond (by simp)
  | some v =>
    refine Acc.cond (P := ∃ c, v = .obj c ∧ ∀ kv ∈ c, w.env.reOk kv.1 = true ∧ W d kv.2) (isKind_bind ?_ ?_) ?_
    · rintro ⟨t, rfl, _⟩ n hn; cases hn
    · cases v with
      | obj c =>
        refine Acc.cond (P := ∀ kv ∈ σ.order (23 :: p) c, w.env.reOk kv.1 = true ∧ W d kv.2)
          (.mapL fun k kv hkv => ?_) ?_
        · have hkv := (σ.perm _ _).mem_iff.1 hkv
          unfold kwPattern1
          split
          · rename_i h
            refine Acc.err.cond ⟨False.elim, fun hh => ?_⟩
            rw [hh.1] at h; cases h
          · rename_i h
            refine ((child_acc hrec (hm.entry _ _ _ hv hkv)).bind fun _ _ => .ret).cond ?_
            simp at h
            simp [h]
        · simp [(σ.perm _ _).mem_iff]
      | _ => exact Acc.err.cond (by simp)
    · constructor
      · rintro ⟨c, rfl, h⟩
        refine ⟨?_, ?_⟩
        · rintro v' hv'; cases hv'
          refine ⟨c, rfl, fun k hk => ?_⟩
          obtain ⟨kv, hkv, rfl⟩ := List.mem_map.1 hk
          exact (h kv hkv).1
        · intro ds k D hd hk; cases hd; exact (h _ hk).2
      · rintro ⟨h1, h2⟩
        obtain ⟨c, rfl, h3⟩ := h1 v rfl
        exact ⟨c, rfl, fun kv hkv => ⟨h3 _ (List.mem_map_of_mem hkv), h2 c kv.1 kv.2 rfl hkv⟩⟩

theorem kwSchema_acc {act key e} (hm : Inner N m) (hrec : RecAcc C w W N rec) :
    Acc C (kwSchema w rec p id d act key e m) (act = true → ∀ D, Kw m key D → W d D) Any := by
  unfold kwSchema Kw
  cases hv : getKey key m with
  | none => exact Acc.ret.cond (by simp)
  | some v =>
    cases act with
    | false => exact Acc.ret.cond (by simp)
    | true =>
      refine Acc.cond (P := W d v) (isKind_bind hrec.rat ?_) (by simp)
      split
      · exact ((child_acc hrec (hm.value _ _ hv)).bind fun _ _ => .ret).cond (by simp)
      · rename_i hk
        exact Acc.err.cond ⟨False.elim, fun h => hk (hrec.kind _ _ h)⟩

theorem depKeys_acc : ∀ {vs}, Acc C (depKeys w vs) (∀ x ∈ vs, ∃ t, x = .str t) Any := by
  intro vs
  induction vs with
  | nil => exact Acc.ret.cond (by simp)
  | cons v vs ih =>
    unfold depKeys
    refine isKind_bind ?_ ?_
    · intro h n hn
      obtain ⟨t, ht⟩ := h v (by simp)
      rw [hn] at ht; cases ht
    · cases v with
      | str t => exact (ih.bind fun _ _ => .ret).cond (by simp)
      | _ => exact Acc.err.cond (by simp)

theorem kwDependencies_acc (hm : Inner N m) (hrec : RecAcc C w W N rec) :
    Acc C (kwDependencies w σ rec p id d m)
      ((∀ v, Kw m "dependencies" v →
        ∃ c, v = .obj c ∧ ∀ k xs, (k, .arr xs) ∈ c → ∀ x ∈ xs, ∃ t, x = .str t) ∧
      ∀ ds k D, Kw m "dependencies" (.obj ds) → (k, D) ∈ ds → (∀ xs, D ≠ .arr xs) → W d D) Any := by
  unfold kwDependencies Kw
  cases hv : getKey "dependencies" m with
  | none => exact Acc.ret.cond (by simp)
  | some v =>
    refine Acc.cond (P := ∃ c, v = .obj c ∧ ∀ kv ∈ c, (∀ xs, kv.2 = .arr xs → ∀ x ∈ xs, ∃ t, x = .str t) ∧
      ((∀ xs, kv.2 ≠ .arr xs) → W d kv.2)) (isKind_bind ?_ ?_) ?_
    · rintro ⟨t, rfl, _⟩ n hn; cases hn
    · cases v with
      | obj c =>
        refine Acc.cond (P := (∀ kv ∈ σ.order (27 :: p) c, (∀ xs, kv.2 = .arr xs → ∀ x ∈ xs, ∃ t, x = .str t) ∧
          ((∀ xs, kv.2 ≠ .arr xs) → W d kv.2)) ∧ True)
          (.bind (.mapL fun k kv hkv => ?_) fun _ _ => .ret) ?_
        · have hkv := (σ.perm _ _).mem_iff.1 hkv
          have hN := hm.entry _ _ _ hv hkv
          obtain ⟨key, D⟩ := kv
          unfold kwDependency
          cases D with
          | arr xs => exact (depKeys_acc.bind fun _ _ => .ret).cond (by simp)
          | bool b => exact ((child_acc hrec hN).bind fun _ _ => .ret).cond (by simp)
          | obj c => exact ((child_acc hrec hN).bind fun _ _ => .ret).cond (by simp)
          | _ => exact Acc.err.cond ⟨False.elim, fun h => by have := hrec.schema (h.2 (by simp)); simp at this⟩
        · simp [(σ.perm _ _).mem_iff]
      | _ => exact Acc.err.cond (by simp)
    · constructor
      · rintro ⟨c, rfl, h⟩
        refine ⟨?_, ?_⟩
        · rintro v' hv'; cases hv'
          exact ⟨c, rfl, fun k xs hk => (h _ hk).1 xs rfl⟩
        · intro ds k D hd hk; cases hd; exact (h _ hk).2
      · rintro ⟨h1, h2⟩
        obtain ⟨c, rfl, h3⟩ := h1 v rfl
        refine ⟨c, rfl, fun kv hkv => ⟨?_, h2 c kv.1 kv.2 rfl hkv⟩⟩
        rintro xs hx
        exact h3 kv.1 xs (by rw [← hx]; exact hkv)

theorem kwItems_acc (hm : Inner N m) (hrec : RecAcc C w W N rec) :
    Acc C (kwItems w rec p id d m)
      ((∀ D, Kw m "items" D → (∀ Ds, D ≠ .arr Ds) → W d D) ∧
      ∀ Ds D, Kw m "items" (.arr Ds) → D ∈ Ds → W d D) Any := by
  unfold kwItems Kw
  cases hv : getKey "items" m with
  | none => exact Acc.ret.cond (by simp)
  | some v =>
    have hr : (((∀ Ds, v ≠ .arr Ds) → W d v) ∧ ∀ Ds, v = .arr Ds → ∀ D ∈ Ds, W d D) → RatOK w v := by
      rintro ⟨h, _⟩ n rfl
      exact hrec.rat (h (by simp)) n rfl
    refine Acc.cond (isKind_bind hr ?_) ?_
    · cases v with
      | arr vs =>
        refine Acc.cond (P := (∀ x ∈ vs, W d x) ∧ True) (.bind (.mapL fun k x hx => ?_) fun _ _ => .ret) (by simp)
        unfold kwItem
        refine isKind_bind hrec.rat ?_
        split
        · exact child_acc hrec (hm.elem _ _ _ hv hx)
        · rename_i hk
          exact Acc.err.cond ⟨False.elim, fun h => hk (hrec.kind _ _ h)⟩
      | bool b => exact isKind_bind hr (((child_acc hrec (hm.value _ _ hv)).bind fun _ _ => .ret).cond (by simp))
      | obj c => exact isKind_bind hr (((child_acc hrec (hm.value _ _ hv)).bind fun _ _ => .ret).cond (by simp))
      | _ => exact isKind_bind hr (Acc.err.cond ⟨False.elim, fun h => by have := hrec.schema (h.1 (by simp)); simp at this⟩)
    · constructor
      · rintro ⟨h1, h2⟩
        exact ⟨fun D hD => by cases hD; exact h1, fun Ds D hD => h2 Ds (by cases hD; rfl) D⟩
      · rintro ⟨h1, h2⟩
        exact ⟨h1 v rfl, fun Ds hv D hD => h2 Ds D (by rw [hv]) hD⟩

theorem mustBeNumber_none {v} (h : mustBeNumber w.env v = none) : ¬ NumValue w.env v := by
  rintro ⟨n, rfl, hr⟩
  simp [mustBeNumber, Env.rat, hr] at h

theorem kwMultipleOf_acc :
    Acc C (kwMultipleOf w m) (∀ v, Kw m "multipleOf" v → ∃ n, v = .num n ∧ w.env.ratOk n = true ∧ 0 < n.val) Any := by
  unfold kwMultipleOf Kw
  cases hv : getKey "multipleOf" m with
  | none => exact Acc.ret.cond (by simp)
  | some v =>
    refine Acc.cond (P := ∃ n, v = .num n ∧ w.env.ratOk n = true ∧ 0 < n.val) ?_ (by simp)
    simp only
    cases hq : mustBeNumber w.env v with
    | none => exact Acc.err.cond ⟨False.elim, fun ⟨n, h1, h2, _⟩ => mustBeNumber_none hq ⟨n, h1, h2⟩⟩
    | some q =>
      obtain ⟨n, rfl, rfl, hr⟩ := mustBeNumber_some hq
      simp only
      split
      · rename_i h
        exact Acc.err.cond ⟨False.elim, fun ⟨n', h1, _, h2⟩ => by
          cases h1; exact absurd h (Rat.not_le.2 h2)⟩
      · rename_i h
        exact Acc.ret.cond ⟨fun _ => ⟨n, rfl, hr, Rat.not_le.1 h⟩, fun _ => trivial⟩

theorem kwBound_acc {key} :
    Acc C (kwBound w key m) (∀ v, Kw m key v → NumValue w.env v) (fun o => o.isSome = (getKey key m).isSome) := by
  unfold kwBound Kw
  cases hv : getKey key m with
  | none => exact (Acc.pure.mono (by rintro a rfl; rfl)).cond (by simp)
  | some v =>
    refine Acc.cond (P := NumValue w.env v) ?_ (by simp)
    simp only
    cases hq : mustBeNumber w.env v with
    | none => exact Acc.err.cond ⟨False.elim, fun h => mustBeNumber_none hq h⟩
    | some q =>
      obtain ⟨n, rfl, rfl, hr⟩ := mustBeNumber_some hq
      exact (Acc.pure.mono (by rintro a rfl; rfl)).cond ⟨fun _ => ⟨n, rfl, hr⟩, fun _ => trivial⟩

theorem exclusiveBool_acc {xkey key x b} : Acc C (exclusiveBool xkey key x b) (b.isSome = true) Any := by
  unfold exclusiveBool
  cases b with
  | none => exact Acc.err.cond (by simp)
  | some q =>
    refine Acc.cond (P := True) ?_ (by simp)
    simp only
    split <;> exact .ret

theorem kwExclusive_acc {xkey key b} (hb : b.isSome = (getKey key m).isSome) :
    Acc C (kwExclusive w d xkey key b m) (∀ v, Kw m xkey v → ExclusiveValue w.env d m key v) Any := by
  unfold kwExclusive Kw
  cases hv : getKey xkey m with
  | none => exact Acc.ret.cond (by simp)
  | some v =>
    refine Acc.cond (P := ExclusiveValue w.env d m key v) ?_ (by simp)
    unfold ExclusiveValue
    by_cases h4 : d = Draft4
    · simp only [h4, beq_self_eq_true, if_true]
      refine isKind_bind ?_ ?_
      · rintro ⟨⟨t, rfl⟩, _⟩ n hn; cases hn
      · cases v with
        | bool x => exact exclusiveBool_acc.cond (by simp [hb])
        | _ => exact Acc.err.cond (by simp)
    · have h4' : (d == Draft4) = false := by simpa using h4
      simp only [h4', h4, if_false, Bool.false_eq_true]
      by_cases hh : d = Hybrid
      · simp only [hh, beq_self_eq_true, if_true]
        cases v with
        | bool x =>
          exact (isKind_acc.bind fun a ha => by subst ha; exact exclusiveBool_acc).cond
            (by simp [hb, NumValue, RatOK])
        | num n =>
          exact (isKind_acc.bind fun a ha => by subst ha; exact .ret).cond (by simp [NumValue, RatOK])
        | _ =>
          exact (isKind_acc.bind fun a ha => by subst ha; exact .err).cond (by simp [NumValue])
      · have hh' : (d == Hybrid) = false := by simpa using hh
        simp only [hh', hh, if_false, Bool.false_eq_true]
        cases v with
        | num n => exact Acc.ret.cond (by simp)
        | _ => exact Acc.err.cond (by simp)

theorem sizeLit_iff {n : NumLit} : SizeLit n ↔ ∃ z, n.int64? = some z ∧ 0 ≤ z := by
  unfold SizeLit NumLit.int64?
  constructor
  · rintro ⟨h1, h2, h3, h4⟩
    cases hn : n.neg with
    | true =>
      have := h3 hn
      exact ⟨0, by simp [h1, h2, this], by simp⟩
    | false =>
      refine ⟨n.ip, ?_, by simp⟩
      simp only [h1, h2, and_self, if_true, Bool.false_eq_true, if_false]
      rw [if_pos ⟨by omega, by omega⟩]
  · rintro ⟨z, h, hz⟩
    split at h
    · rename_i h12
      simp only at h
      by_cases hr : -(2 ^ 63 : Int) ≤ (if n.neg = true then -(n.ip : Int) else n.ip) ∧
          (if n.neg = true then -(n.ip : Int) else n.ip) ≤ 2 ^ 63 - 1
      · rw [if_pos hr] at h
        have h := Option.some.inj h
        refine ⟨h12.1, h12.2, ?_, ?_⟩
        · intro hn; rw [hn] at h; simp at h; omega
        · cases hn : n.neg with
          | true => rw [hn] at h; simp at h; omega
          | false => rw [hn] at hr; simp at hr; omega
      · rw [if_neg hr] at h; cases h
    · cases h

theorem kwSize_acc {key} : Acc C (kwSize w key m) (∀ v, Kw m key v → SizeValue w.env v)
    (fun o => (∀ n, Kw m key (.num n) → ∃ z : Int, o = some z ∧ n.val = z) ∧
      ∀ z, o = some z → ∃ n, Kw m key (.num n) ∧ n.val = (z : Int)) := by
  unfold kwSize Kw
  cases hv : getKey key m with
  | none => exact (Acc.pure.mono (by rintro a rfl; simp)).cond (by simp)
  | some v =>
    refine Acc.cond (P := SizeValue w.env v) ?_ (by simp)
    simp only
    have bad : (∀ z, mustBeInteger w.env v = some z → z < 0) → ¬ SizeValue w.env v := by
      rintro h ⟨n, rfl, hr, hs⟩
      obtain ⟨z, hz, h0⟩ := sizeLit_iff.1 hs
      have hval := int64_val hz
      have : mustBeInteger w.env (.num n) = some z := by
        simp [mustBeInteger, Env.checkInteger, Env.rat, hr, hval, hz]
      exact absurd (h z this) (by omega)
    cases hq : mustBeInteger w.env v with
    | none =>
      refine Acc.err.cond ⟨False.elim, fun h => bad ?_ h⟩
      intro z hz; rw [hz] at hq; cases hq
    | some z =>
      simp only
      split
      · rename_i hz
        refine Acc.err.cond ⟨False.elim, fun h => bad ?_ h⟩
        intro z' hz'; rw [hq] at hz'; cases hz'; exact hz
      · rename_i hz
        cases v with
        | num n =>
          simp only [mustBeInteger] at hq
          split at hq
          · rename_i hc
            have hr : w.env.ratOk n = true := by
              unfold Env.checkInteger Env.rat at hc
              by_contra hh
              simp [hh] at hc
            have hval := int64_val hq
            refine (Acc.pure.mono ?_).cond ⟨fun _ => ⟨n, rfl, hr, sizeLit_iff.2 ⟨z, hq, by omega⟩⟩, fun _ => trivial⟩
            rintro a rfl
            refine ⟨?_, ?_⟩
            · intro n' h; cases h; exact ⟨z, rfl, hval⟩
            · intro z' h; cases h; exact ⟨n, rfl, hval⟩
          · cases hq
        | _ => cases hq

theorem checkOrder_acc {mn mx e} {a b : Option Int}
    (ha : (∀ n, Kw m mn (.num n) → ∃ z : Int, a = some z ∧ n.val = z) ∧
      ∀ z, a = some z → ∃ n, Kw m mn (.num n) ∧ n.val = (z : Int))
    (hb : (∀ n, Kw m mx (.num n) → ∃ z : Int, b = some z ∧ n.val = z) ∧
      ∀ z, b = some z → ∃ n, Kw m mx (.num n) ∧ n.val = (z : Int)) :
    Acc C (checkOrder a b e) (∀ x y, Kw m mn (.num x) → Kw m mx (.num y) → x.val ≤ y.val) Any := by
  unfold checkOrder
  split
  · rename_i x y
    obtain ⟨n1, h1, h1'⟩ := ha.2 x rfl
    obtain ⟨n2, h2, h2'⟩ := hb.2 y rfl
    split
    · rename_i hlt
      refine Acc.err.cond ⟨False.elim, fun h => ?_⟩
      have := h n1 n2 h1 h2
      rw [h1', h2'] at this
      have := Rat.intCast_le_intCast.1 this
      omega
    · rename_i hlt
      refine Acc.ret.cond ⟨fun _ n1' n2' h1 h2 => ?_, fun _ => trivial⟩
      obtain ⟨z1, e1, e1'⟩ := ha.1 n1' h1
      obtain ⟨z2, e2, e2'⟩ := hb.1 n2' h2
      cases e1; cases e2
      rw [e1', e2']
      exact Rat.intCast_le_intCast.2 (by omega)
  · rename_i hne
    refine Acc.ret.cond ⟨fun _ n1' n2' h1 h2 => ?_, fun _ => trivial⟩
    obtain ⟨z1, e1, e1'⟩ := ha.1 n1' h1
    obtain ⟨z2, e2, e2'⟩ := hb.1 n2' h2
    exact absurd e2 (hne z1 z2 e1)

theorem kwPattern_acc : Acc C (kwPattern w m) (∀ v, Kw m "pattern" v → ∃ t, v = .str t ∧ w.env.reOk t = true) Any := by
  unfold kwPattern Kw
  cases hv : getKey "pattern" m with
  | none => exact Acc.ret.cond (by simp)
  | some v =>
    refine Acc.cond (P := ∃ t, v = .str t ∧ w.env.reOk t = true) (isKind_bind ?_ ?_) (by simp)
    · rintro ⟨t, rfl, _⟩ n hn; cases hn
    cases v with
    | str t =>
      show Acc C (if w.env.reOk t then _ else _) _ _
      split
      · rename_i h; exact Acc.ret.cond (by simp [h])
      · rename_i h; exact Acc.err.cond (by simp [h])
    | _ => exact Acc.err.cond (by simp)

theorem kwFormat_acc : Acc C (kwFormat m) (∀ v, Kw m "format" v → ∃ t, v = .str t) Any := by
  unfold kwFormat Kw
  cases hv : getKey "format" m with
  | none => exact Acc.ret.cond (by simp)
  | some v =>
    refine Acc.cond (P := ∃ t, v = .str t) ?_ (by simp)
    cases v with
    | str t => exact Acc.ret.cond (by simp)
    | _ => exact Acc.err.cond (by simp)

theorem requiredLoop_acc : ∀ {vs qs}, qs.Nodup → Acc C (requiredLoop w qs vs)
    (∃ us : List String, vs = us.map .str ∧ (qs ++ us).Nodup) Any := by
  intro vs
  induction vs with
  | nil => intro qs hq; exact Acc.ret.cond ⟨fun _ => ⟨[], rfl, by simpa using hq⟩, fun _ => trivial⟩
  | cons v vs ih =>
    intro qs hq
    unfold requiredLoop
    refine isKind_bind ?_ ?_
    · rintro ⟨us, h, _⟩ n rfl
      cases us <;> simp at h
    · cases v with
      | str t =>
        show Acc C (if qs.contains t then _ else _) _ _
        split
        · rename_i h
          refine Acc.err.cond ⟨False.elim, ?_⟩
          rintro ⟨us, h1, h2⟩
          cases us with
          | nil => simp at h1
          | cons u us =>
            simp only [List.map_cons, List.cons.injEq, Json.str.injEq] at h1
            obtain ⟨rfl, h1⟩ := h1
            exact absurd rfl (List.nodup_append.1 h2 |>.2.2 t (by simpa using h) t (by simp))
        · rename_i h
          have hn : t ∉ qs := by simpa using h
          have hq' : (qs ++ [t]).Nodup := by
            rw [List.nodup_append]
            exact ⟨hq, by simp, by intro a ha b hb; simp at hb; subst hb; rintro rfl; exact hn ha⟩
          refine (ih hq').cond ?_
          constructor
          · rintro ⟨us, rfl, h2⟩
            exact ⟨t :: us, rfl, by simpa using h2⟩
          · rintro ⟨us, h1, h2⟩
            cases us with
            | nil => simp at h1
            | cons u us =>
              simp only [List.map_cons, List.cons.injEq, Json.str.injEq] at h1
              obtain ⟨rfl, h1⟩ := h1
              exact ⟨us, h1, by simpa using h2⟩
      | _ =>
        exact Acc.err.cond ⟨False.elim, by rintro ⟨us, h1, _⟩; cases us <;> simp at h1⟩

theorem kwRequired_acc : Acc C (kwRequired w m) (∀ v, Kw m "required" v → NamesValue v) Any := by
  unfold kwRequired Kw
  cases hv : getKey "required" m with
  | none => exact Acc.ret.cond (by simp)
  | some v =>
    refine Acc.cond (P := NamesValue v) (isKind_bind ?_ ?_) (by simp)
    · rintro ⟨t, rfl, _⟩ n hn; cases hn
    cases v with
    | arr vs => exact (requiredLoop_acc (qs := []) (by simp)).cond (by simp [NamesValue])
    | _ => exact Acc.err.cond (by simp [NamesValue])

theorem kwUnique_acc : Acc C (kwUnique w m) (∀ v, Kw m "uniqueItems" v → ∃ b, v = .bool b) Any := by
  unfold kwUnique Kw
  cases hv : getKey "uniqueItems" m with
  | none => exact Acc.ret.cond (by simp)
  | some v =>
    refine Acc.cond (P := ∃ b, v = .bool b) (isKind_bind ?_ ?_) (by simp)
    · rintro ⟨t, rfl⟩ n hn; cases hn
    cases v with
    | bool b => exact Acc.ret.cond (by simp)
    | _ => exact Acc.err.cond (by simp)

theorem kwContains_acc (hm : Inner N m) (hrec : RecAcc C w W N rec) :
    Acc C (kwContains rec p id d m) (Draft6 ≤ d → ∀ D, Kw m "contains" D → W d D) Any := by
  unfold kwContains Kw
  cases hv : getKey "contains" m with
  | none => exact Acc.ret.cond (by simp)
  | some v =>
    show Acc C (if d ≥ Draft6 then _ else _) _ _
    split
    · rename_i h
      refine ((child_acc hrec (hm.value _ _ hv)).bind fun _ _ => .ret).cond ?_
      have h : Draft6 ≤ d := h
      simp [h]
    · rename_i h
      exact Acc.ret.cond ⟨fun _ h' => absurd h' h, fun _ => trivial⟩

mutual
theorem canon_none_iff : ∀ v, (canon v).isSome = true ↔ NumsF64 v
  | .null => by simp [canon, NumsF64]; intro n h; cases h
  | .bool b => by simp [canon, NumsF64]; intro n h; cases h
  | .str b => by simp [canon, NumsF64]; intro n h; cases h
  | .num n => by
    simp only [canon, Option.isSome_map, NumsF64]
    constructor
    · intro h n' hn'; cases hn'; intro h'; rw [h'] at h; cases h
    · intro h; exact Option.isSome_iff_ne_none.2 (h n (.self _))
  | .arr xs => by
    simp only [canon, Option.isSome_map, canonL_none_iff xs]
    constructor
    · intro h n hn
      cases hn with
      | elem _ y _ hy hn => exact h y hy n hn
    · intro h x hx n hn; exact h n (.elem _ _ _ hx hn)
  | .obj kvs => by
    simp only [canon, Option.isSome_map, canonKV_none_iff kvs]
    constructor
    · intro h n hn
      cases hn with
      | member _ k y _ hy hn => exact h (k, y) hy n hn
    · intro h x hx n hn; exact h n (.member _ x.1 x.2 _ hx hn)
theorem canonL_none_iff : ∀ xs, (canonL xs).isSome = true ↔ ∀ x ∈ xs, NumsF64 x
  | [] => by simp [canonL]
  | x :: xs => by
    simp only [canonL, List.mem_cons, forall_eq_or_imp, ← canon_none_iff x, ← canonL_none_iff xs]
    cases canon x <;> cases canonL xs <;> simp
theorem canonKV_none_iff : ∀ xs, (canonKV xs).isSome = true ↔ ∀ x ∈ xs, NumsF64 x.2
  | [] => by simp [canonKV]
  | (k, x) :: xs => by
    simp only [canonKV, List.mem_cons, forall_eq_or_imp, ← canon_none_iff x, ← canonKV_none_iff xs]
    cases canon x <;> cases canonKV xs <;> simp
end

theorem marshal_isSome {env : Env} {v} : (env.marshal v).isSome = true ↔ NumsF64 v := by
  simp only [Env.marshal, marshalWithoutNumber, Option.isSome_map, canon_none_iff]

theorem kwConst_acc : Acc C (kwConst w d m) (Draft6 ≤ d → ∀ v, Kw m "const" v → NumsF64 v) Any := by
  unfold kwConst Kw
  cases hv : getKey "const" m with
  | none => exact Acc.ret.cond (by simp)
  | some v =>
    show Acc C (if d ≥ Draft6 then _ else _) _ _
    split
    · rename_i h
      have h : Draft6 ≤ d := h
      refine Acc.cond (P := NumsF64 v) ?_ (by simp [h])
      rw [← marshal_isSome (env := w.env)]
      cases w.env.marshal v with
      | none => exact Acc.err.cond (by simp)
      | some t => exact Acc.ret.cond (by simp)
    · rename_i h
      exact Acc.ret.cond ⟨fun _ h' => absurd h' h, fun _ => trivial⟩

theorem enumLoop_acc : ∀ {vs es}, es.Nodup → Acc C (enumLoop w es vs)
    (∃ ts : List String, vs.map w.env.marshal = ts.map some ∧ (es ++ ts).Nodup) Any := by
  intro vs
  induction vs with
  | nil => intro es he; exact Acc.ret.cond ⟨fun _ => ⟨[], rfl, by simpa using he⟩, fun _ => trivial⟩
  | cons v vs ih =>
    intro es he
    unfold enumLoop
    cases hm : w.env.marshal v with
    | none =>
      refine Acc.err.cond ⟨False.elim, ?_⟩
      rintro ⟨ts, h1, _⟩
      cases ts <;> simp [hm] at h1
    | some t =>
      show Acc C (if es.contains t then _ else _) _ _
      split
      · rename_i h
        refine Acc.err.cond ⟨False.elim, ?_⟩
        rintro ⟨us, h1, h2⟩
        cases us with
        | nil => simp at h1
        | cons u us =>
          simp only [List.map_cons, hm, List.cons.injEq, Option.some.injEq] at h1
          obtain ⟨rfl, h1⟩ := h1
          exact absurd rfl (List.nodup_append.1 h2 |>.2.2 t (by simpa using h) t (by simp))
      · rename_i h
        have hn : t ∉ es := by simpa using h
        have he' : (es ++ [t]).Nodup := by
          rw [List.nodup_append]
          exact ⟨he, by simp, by intro a ha b hb; simp at hb; subst hb; rintro rfl; exact hn ha⟩
        refine (ih he').cond ?_
        constructor
        · rintro ⟨us, h1, h2⟩
          exact ⟨t :: us, by simp [hm, h1], by simpa using h2⟩
        · rintro ⟨us, h1, h2⟩
          cases us with
          | nil => simp at h1
          | cons u us =>
            simp only [List.map_cons, hm, List.cons.injEq, Option.some.injEq] at h1
            obtain ⟨rfl, h1⟩ := h1
            exact ⟨us, h1, by simpa using h2⟩

theorem enum_iff (hf : FmtOK w.env.fmtF64) {vs : List Json} (hw : ∀ v ∈ vs, v.WF) :
    (∃ ts : List String, vs.map w.env.marshal = ts.map some ∧ ts.Nodup) ↔ EnumValue (.arr vs) := by
  constructor
  · rintro ⟨ts, h1, h2⟩
    have hlen : vs.length = ts.length := by simpa using congrArg List.length h1
    have hget : ∀ (i : Nat) v, vs[i]? = some v → ∃ t, ts[i]? = some t ∧ w.env.marshal v = some t := by
      intro i v hv
      have := congrArg (·[i]?) h1
      simp only [List.getElem?_map, hv, Option.map_some] at this
      cases ht : ts[i]? with
      | none => rw [ht] at this; cases this
      | some t => rw [ht] at this; exact ⟨t, rfl, by simpa using this⟩
    refine ⟨vs, rfl, ?_, ?_⟩
    · intro c hc
      obtain ⟨i, hi, rfl⟩ := List.getElem_of_mem hc
      obtain ⟨t, _, ht⟩ := hget i _ (List.getElem?_eq_getElem hi)
      exact marshal_isSome.1 (by rw [ht]; rfl)
    · intro i j a b hij ha hb hs
      obtain ⟨t, ht, hta⟩ := hget i a ha
      obtain ⟨t', ht', htb⟩ := hget j b hb
      have : t = t' := (marshal_eq_iff hf (hw a (List.mem_of_getElem? ha)) (hw b (List.mem_of_getElem? hb)) hta htb).2 hs
      subst this
      have hi := (List.getElem?_eq_some_iff.1 ht).1
      have := (List.getElem?_inj hi h2).1 (ht.trans ht'.symm)
      omega
  · rintro ⟨cs, hcs, h1, h2⟩
    cases hcs
    refine ⟨vs.map fun v => (w.env.marshal v).getD "", ?_, ?_⟩
    · rw [List.map_map]
      refine List.map_congr_left fun v hv => ?_
      have := marshal_isSome (env := w.env).2 (h1 v hv)
      obtain ⟨t, ht⟩ := Option.isSome_iff_exists.1 this
      simp [ht]
    · rw [List.nodup_iff_pairwise_ne, List.pairwise_map, List.pairwise_iff_getElem]
      intro i j hi hj hij he
      have ha := marshal_isSome (env := w.env).2 (h1 vs[i] (List.getElem_mem hi))
      have hb := marshal_isSome (env := w.env).2 (h1 vs[j] (List.getElem_mem hj))
      obtain ⟨t, ht⟩ := Option.isSome_iff_exists.1 ha
      obtain ⟨t', ht'⟩ := Option.isSome_iff_exists.1 hb
      rw [ht, ht'] at he
      simp only [Option.getD_some] at he
      refine h2 i j _ _ hij (List.getElem?_eq_getElem hi) (List.getElem?_eq_getElem hj) ?_
      exact (marshal_eq_iff hf (hw _ (List.getElem_mem hi)) (hw _ (List.getElem_mem hj)) ht ht').1 he

theorem kwEnum_acc (hf : FmtOK w.env.fmtF64) (hw : Json.WF (.obj m)) :
    Acc C (kwEnum w m) (∀ v, Kw m "enum" v → EnumValue v) Any := by
  unfold kwEnum Kw
  cases hv : getKey "enum" m with
  | none => exact Acc.ret.cond (by simp)
  | some v =>
    refine Acc.cond (P := EnumValue v) (isKind_bind ?_ ?_) (by simp)
    · rintro ⟨t, rfl, _⟩ n hn; cases hn
    cases v with
    | arr vs =>
      refine (enumLoop_acc (es := []) (by simp)).cond ?_
      rw [← enum_iff hf (fun v hv' => wf_arr (wf_get hw hv) v hv')]
      simp
    | _ => exact Acc.err.cond (by simp [EnumValue])

theorem kwSchemas_acc {key e} (hm : Inner N m) (hrec : RecAcc C w W N rec) :
    Acc C (kwSchemas w rec p id d key e m) ((∀ v, Kw m key v → ∃ Ds, v = .arr Ds) ∧
      ∀ Ds D, Kw m key (.arr Ds) → D ∈ Ds → W d D) Any := by
  unfold kwSchemas Kw
  cases hv : getKey key m with
  | none => exact Acc.ret.cond (by simp)
  | some v =>
    refine Acc.cond (P := ∃ Ds, v = .arr Ds ∧ ∀ D ∈ Ds, W d D) (isKind_bind ?_ ?_) ?_
    · rintro ⟨t, rfl, _⟩ n hn; cases hn
    · cases v with
      | arr vs =>
        refine Acc.cond (.mapL fun k x hx => child_acc hrec (hm.elem _ _ _ hv hx)) (by simp)
      | _ => exact Acc.err.cond (by simp)
    · constructor
      · rintro ⟨Ds, rfl, h⟩
        exact ⟨fun v hv => by cases hv; exact ⟨_, rfl⟩, fun Ds' D h1 h2 => by cases h1; exact h D h2⟩
      · rintro ⟨h1, h2⟩
        obtain ⟨Ds, rfl⟩ := h1 v rfl
        exact ⟨Ds, rfl, fun D hD => h2 Ds D rfl hD⟩

theorem setNode_acc {c n} : Acc C (setNode c n) True Any := .modify

/-- One level of a well-formed object: its shape, and `W` of its definitions and sub-schemas. -/
def Level (w : World) (W : Draft → Json → Prop) (d : Draft) (m : List (String × Json)) : Prop :=
  Shape w d m ∧ (∀ ds k D, Kw m "definitions" (.obj ds) → (k, D) ∈ ds → W d D) ∧ ∀ D, SubSchema d m D → W d D

theorem parseKeywords_acc {c rs} (hf : FmtOK w.env.fmtF64) (hw : Json.WF (.obj m)) (hm : Inner N m) (hrec : RecAcc C w W N rec)
    (hid : ∀ v, Kw m (idKey d m) v → ∃ t, v = .str t ∧ w.norm t ≠ none)
    (htitle : ∀ v, Kw m "title" v → ∃ t, v = .str t) (hdesc : ∀ v, Kw m "description" v → ∃ t, v = .str t)
    (hdefs : (∀ v, Kw m "definitions" v → ∃ c, v = .obj c) ∧
      ∀ ds k D, Kw m "definitions" (.obj ds) → (k, D) ∈ ds → W d D) :
    Acc C (parseKeywords w σ rec p id d c rs m) (Level w W d m) Any := by
  unfold parseKeywords
  refine Acc.cond
    (.bind kwType_acc fun _ _ => .bind (kwProperties_acc hm hrec) fun _ _ => .bind (kwExtra_acc hm hrec) fun _ _ =>
    .bind (kwPatternProperties_acc hm hrec) fun _ _ => .bind (kwSchema_acc hm hrec) fun _ _ =>
    .bind (kwDependencies_acc hm hrec) fun _ _ => .bind (kwItems_acc hm hrec) fun _ _ =>
    .bind (kwExtra_acc hm hrec) fun _ _ => .bind kwMultipleOf_acc fun _ _ =>
    .bind kwBound_acc fun _ hmin => .bind (kwExclusive_acc hmin) fun _ _ =>
    .bind kwBound_acc fun _ hmax => .bind (kwExclusive_acc hmax) fun _ _ =>
    .bind kwSize_acc fun _ h1 => .bind kwSize_acc fun _ h2 => .bind (checkOrder_acc h1 h2) fun _ _ =>
    .bind kwPattern_acc fun _ _ => .bind kwFormat_acc fun _ _ =>
    .bind kwSize_acc fun _ h3 => .bind kwSize_acc fun _ h4 => .bind (checkOrder_acc h3 h4) fun _ _ =>
    .bind kwRequired_acc fun _ _ => .bind kwSize_acc fun _ _ => .bind kwSize_acc fun _ _ =>
    .bind kwUnique_acc fun _ _ => .bind (kwContains_acc hm hrec) fun _ _ => .bind kwConst_acc fun _ _ =>
    .bind (kwEnum_acc hf hw) fun _ _ => .bind (kwSchemas_acc hm hrec) fun _ _ =>
    .bind (kwSchemas_acc hm hrec) fun _ _ => .bind (kwSchemas_acc hm hrec) fun _ _ =>
    .bind (kwSchema_acc hm hrec) fun _ _ => .bind (kwSchema_acc hm hrec) fun _ _ =>
    .bind (kwSchema_acc hm hrec) fun _ _ => .bind (kwSchema_acc hm hrec) fun _ _ => setNode_acc) ?_
  constructor
  · rintro ⟨type, ⟨props, props'⟩, ⟨addProps, addProps'⟩, ⟨patProps, patProps'⟩, names, ⟨deps, deps'⟩,
      ⟨items, item⟩, ⟨addItems, addItems'⟩, mult, minimum, xmin, maximum, xmax, minL, maxL, lens, pat, fmt,
      minP, maxP, counts, req, minI, maxI, uniq, cont, const, enum, ⟨oneOf, oneOf'⟩, ⟨anyOf, anyOf'⟩,
      ⟨allOf, allOf'⟩, not, if_, then_, else_, -⟩
    refine ⟨⟨hid, htitle, hdesc, hdefs.1, type, props, addProps, patProps, deps, addItems, mult, minimum,
      xmin, maximum, xmax, minL, maxL, lens, pat, fmt, minP, maxP, counts, req, minI, maxI, uniq, const, enum,
      oneOf, anyOf, allOf⟩, hdefs.2, ?_⟩
    intro D hD
    cases hD with
    | property ps k _ h1 h2 => exact props' ps k D h1 h2
    | pattern ps k _ h1 h2 => exact patProps' ps k D h1 h2
    | additional A h => exact addProps' A h
    | name _ h1 h2 => exact names (by simpa using h1) D h2
    | dependency ps k _ h1 h2 h3 => exact deps' ps k D h1 h2 h3
    | items _ h1 h2 => exact items D h1 h2
    | item Ds _ h1 h2 => exact item Ds D h1 h2
    | additionalItems A h => exact addItems' A h
    | contains _ h1 h2 => exact cont h1 D h2
    | oneOf Ds _ h1 h2 => exact oneOf' Ds D h1 h2
    | anyOf Ds _ h1 h2 => exact anyOf' Ds D h1 h2
    | allOf Ds _ h1 h2 => exact allOf' Ds D h1 h2
    | not _ h => exact not rfl D h
    | if_ _ h1 h2 => exact if_ (by simpa using h1) D h2
    | then_ _ h1 h2 => exact then_ (by simpa using h1) D h2
    | else_ _ h1 h2 => exact else_ (by simpa using h1) D h2
  · rintro ⟨h, _, hs⟩
    exact ⟨h.type, ⟨h.properties, fun ds k D h1 h2 => hs D (.property ds k D h1 h2)⟩,
        ⟨h.additionalProperties, fun c h1 => hs _ (.additional c h1)⟩,
        ⟨h.patternProperties, fun ds k D h1 h2 => hs D (.pattern ds k D h1 h2)⟩,
        fun h1 D h2 => hs D (.name D (by simpa using h1) h2),
        ⟨h.dependencies, fun ds k D h1 h2 h3 => hs D (.dependency ds k D h1 h2 h3)⟩,
        ⟨fun D h1 h2 => hs D (.items D h1 h2), fun Ds D h1 h2 => hs D (.item Ds D h1 h2)⟩,
        ⟨h.additionalItems, fun c h1 => hs _ (.additionalItems c h1)⟩,
        h.multipleOf, h.minimum, h.exclusiveMinimum, h.maximum, h.exclusiveMaximum, h.minLength, h.maxLength,
        h.lengths, h.pattern, h.format, h.minProperties, h.maxProperties, h.propertyCounts, h.required,
        h.minItems, h.maxItems, h.uniqueItems, fun h1 D h2 => hs D (.contains D h1 h2), h.const, h.enum,
        ⟨h.oneOf, fun Ds D h1 h2 => hs D (.oneOf Ds D h1 h2)⟩,
        ⟨h.anyOf, fun Ds D h1 h2 => hs D (.anyOf Ds D h1 h2)⟩,
        ⟨h.allOf, fun Ds D h1 h2 => hs D (.allOf Ds D h1 h2)⟩,
        fun _ D h2 => hs D (.not D h2), fun h1 D h2 => hs D (.if_ D (by simpa using h1) h2),
        fun h1 D h2 => hs D (.then_ D (by simpa using h1) h2),
        fun h1 D h2 => hs D (.else_ D (by simpa using h1) h2), trivial⟩

/-- A prefix that is implied, and may be assumed. -/
theorem Acc.bind_imp {τ α β : Type} {x : M τ α} {f : α → M τ β} {P R : Prop} {V : α → Prop} {U : β → Prop} (hx : Acc C x P V)
    (hRP : R → P) (hf : ∀ a, P → V a → Acc C (f a) R U) : Acc C (x >>= f) R U := by
  by_cases hP : P
  · exact (hx.bind fun a ha => hf a hP ha).cond ⟨And.right, fun h => ⟨hP, h⟩⟩
  · exact (Acc.bind_fail (hx.cond ⟨hP, False.elim⟩)).cond ⟨False.elim, fun h => hP (hRP h)⟩

theorem parseObject_acc {c isRoot pid id0} (hi : C → ∀ a b, w.inherits a b ≠ none) (hf : FmtOK w.env.fmtF64)
    (hw : Json.WF (.obj m)) (hm : Inner N m) (hrec : RecAcc C w W N rec) (href : getKey "$ref" m = none) :
    Acc C (parseObject w σ rec isRoot p pid id0 m d c) (Level w W d m) Any := by
  have hs : Level w W d m → Shape w d m := And.left
  unfold parseObject
  refine (kwId_acc hi).bind_imp (fun h => (hs h).id) fun _ hid _ => ?_
  refine (kwDefinitions_acc hm hrec).bind_imp (fun h => ⟨(hs h).definitions, h.2.1⟩) fun _ hd _ => ?_
  refine kwText_acc.bind_imp (fun h => (hs h).title) fun _ ht _ => ?_
  refine kwText_acc.bind_imp (fun h => (hs h).description) fun _ hde _ => ?_
  have hr : kwRefText w m = pure none := by unfold kwRefText; rw [href]
  rw [hr]
  refine Acc.pure.bind_imp (fun _ => trivial) fun o _ ho => ?_
  subst ho
  exact parseKeywords_acc hf hw hm hrec hid ht hde hd

theorem wellFormed_level : WellFormed w d (.obj m) ↔ Level w (WellFormed w) d m :=
  ⟨fun h => by cases h; exact ⟨‹_›, ‹_›, ‹_›⟩, fun h => .obj m h.1 h.2.1 h.2.2⟩

theorem parseStep_acc {c isRoot pid id0 doc} (hi : C → ∀ a b, w.inherits a b ≠ none) (hf : FmtOK w.env.fmtF64)
    (hw : doc.WF) (hm : ∀ m, doc = .obj m → Inner N m) (hrec : RecAcc C w (WellFormed w) N rec)
    (href : ∀ m, doc = .obj m → getKey "$ref" m = none) :
    Acc C (parseStep w σ rec isRoot p pid id0 doc d c) (WellFormed w d doc) Any := by
  unfold parseStep
  refine isKind_bind wellFormed_rat ?_
  cases doc with
  | bool b =>
    by_cases hd : Draft6 ≤ d
    · have : (decide (d ≥ Draft6) && kindIn (.bool b) [.bool]) = true := by
        rw [decide_eq_true (show d ≥ Draft6 from hd)]; rfl
      rw [this]
      exact setNode_acc.cond ⟨fun _ => .bool b hd, fun _ => trivial⟩
    · have : (decide (d ≥ Draft6) && kindIn (.bool b) [.bool]) = false := by
        rw [decide_eq_false (show ¬ d ≥ Draft6 from hd)]; rfl
      rw [this]
      refine isKind_bind wellFormed_rat (Acc.err.cond ⟨False.elim, ?_⟩)
      intro h; cases h with
      | bool _ h => exact hd h
  | obj m =>
    have : (decide (d ≥ Draft6) && kindIn (.obj m) [.bool]) = false := by simp [kindIn, rawKind]
    rw [this]
    exact isKind_bind wellFormed_rat ((parseObject_acc hi hf hw (hm m rfl) hrec (href m rfl)).cond wellFormed_level.symm)
  | null =>
    rw [show (decide (d ≥ Draft6) && kindIn .null [.bool]) = false by simp [kindIn, rawKind]]
    exact isKind_bind wellFormed_rat (Acc.err.cond ⟨False.elim, by intro h; cases h⟩)
  | num n =>
    rw [show (decide (d ≥ Draft6) && kindIn (.num n) [.bool]) = false by simp [kindIn]]
    exact isKind_bind wellFormed_rat (Acc.err.cond ⟨False.elim, by intro h; cases h⟩)
  | str n =>
    rw [show (decide (d ≥ Draft6) && kindIn (.str n) [.bool]) = false by simp [kindIn, rawKind]]
    exact isKind_bind wellFormed_rat (Acc.err.cond ⟨False.elim, by intro h; cases h⟩)
  | arr n =>
    rw [show (decide (d ≥ Draft6) && kindIn (.arr n) [.bool]) = false by simp [kindIn, rawKind]]
    exact isKind_bind wellFormed_rat (Acc.err.cond ⟨False.elim, by intro h; cases h⟩)

/-- Documents without references, of bounded size. -/
def Small (n : Nat) (D : Json) : Prop := D.WF ∧ NoRef D ∧ D.size ≤ n

theorem noRef_arr {xs x} (h : NoRef (.arr xs)) (hx : x ∈ xs) : NoRef x := fun m hm => h m (.elem _ _ _ hx hm)
theorem noRef_obj {m : List (String × Json)} {kv} (h : NoRef (.obj m)) (hx : kv ∈ m) : NoRef kv.2 :=
  fun m' hm => h m' (.member _ kv.1 _ _ hx hm)

theorem small_inner {n} (h : Small (n + 1) (.obj m)) : Inner (Small n) m where
  value := by
    intro k v hv
    have hk := lookup_some_mem hv
    have := Json.size_lt_of_mem_kv hk
    exact ⟨wf_get h.1 hv, noRef_obj h.2.1 hk, by have := h.2.2; omega⟩
  elem := by
    intro k xs x hv hx
    have hk := lookup_some_mem hv
    have h1 := Json.size_lt_of_mem_kv hk
    have h2 := Json.size_lt_of_mem hx
    exact ⟨wf_arr (wf_get h.1 hv) x hx, noRef_arr (noRef_obj h.2.1 hk) hx, by have := h.2.2; omega⟩
  entry := by
    intro k kvs kv hv hx
    have hk := lookup_some_mem hv
    have h1 := Json.size_lt_of_mem_kv hk
    have h2 := Json.size_lt_of_mem_kv (k := kv.1) (x := kv.2) hx
    exact ⟨wf_obj (wf_get h.1 hv) kv hx, noRef_obj (noRef_obj h.2.1 hk) hx, by have := h.2.2; omega⟩

theorem noRef_get {D m} (h : NoRef D) (hD : D = .obj m) : getKey "$ref" m = none := by
  subst hD
  exact lookup_none_iff.2 (h m (.self _))

theorem parseSchema_acc (hi : C → ∀ a b, w.inherits a b ≠ none) (hf : FmtOK w.env.fmtF64) :
    ∀ n, RecAcc C w (WellFormed w) (Small n) (parseSchema w σ n) := by
  intro n
  induction n with
  | zero => exact ⟨fun p pid id0 doc d c h => by have := h.2.2; have := doc.size_pos; omega, fun d D => wellFormed_kind⟩
  | succ n ih =>
    refine ⟨fun p pid id0 doc d c h => ?_, fun d D => wellFormed_kind⟩
    exact parseStep_acc hi hf h.1 (fun m hm => by subst hm; exact small_inner h) ih fun m hm => noRef_get h.2.1 hm

theorem parseRoot_acc {n docRef doc} (hi : C → ∀ a b, w.inherits a b ≠ none) (hf : FmtOK w.env.fmtF64)
    (h : Small (n + 1) doc) : Acc C (parseRoot w σ n p docRef doc d) (WellFormed w d doc) Any :=
  (alloc_acc.bind fun _ _ => (parseStep_acc hi hf h.1 (fun m hm => by subst hm; exact small_inner h)
    (parseSchema_acc hi hf n) fun m hm => noRef_get h.2.1 hm).bind fun _ _ => .ret).cond (by simp)

end
end GJS

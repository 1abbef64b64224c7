import Verif.LemAccept
import Verif.SpecRewrite
/-
Helper lemmas: rewriting a document whose numbers `big.Rat` accepts always returns.
-/
namespace GJS
open Spec

variable {w : World} {σ : Sched}

theorem list_ext_fst {m m' : List (String × Json)} (hk : m.map Prod.fst = m'.map Prod.fst)
    (h : ∀ (i : Nat) k v v', m[i]? = some (k, v) → m'[i]? = some (k, v') → v' = v) : m' = m := by
  have hlen : m.length = m'.length := by simpa using congrArg List.length hk
  refine List.ext_getElem? fun i => ?_
  cases ha : m[i]? with
  | none => rw [List.getElem?_eq_none_iff] at ha ⊢; omega
  | some a =>
    obtain ⟨k, v⟩ := a
    have h1 := congrArg (·[i]?) hk
    simp only [List.getElem?_map, ha, Option.map_some] at h1
    cases hb : m'[i]? with
    | none => rw [hb] at h1; cases h1
    | some b =>
      obtain ⟨k', v'⟩ := b
      rw [hb] at h1
      simp only [Option.map_some, Option.some.injEq] at h1
      subst h1
      rw [h i k v v' ha hb]

/-- Without references there is nothing to rewrite. -/
theorem rw_noRef {T : Prop} {base : String} {D D' : Json} (h : RwT w T base D D') : NoRef D → D' = D := by
  refine RwT.rec (motive_1 := fun _ D D' _ => NoRef D → D' = D)
    (motive_2 := fun _ k v v' _ => k ≠ "$ref" → NoRef v → v' = v) ?_ ?_ ?_ ?_ ?_ ?_ ?_ ?_ ?_ ?_ h
  · intros; rfl
  · intro base xs ys hlen _ ih hn
    congr 1
    refine List.ext_getElem? fun i => ?_
    cases ha : xs[i]? with
    | none => rw [List.getElem?_eq_none_iff] at ha ⊢; omega
    | some a =>
      have hi := (List.getElem?_eq_some_iff.1 ha).1
      have hb : ys[i]? = some (ys[i]'(by omega)) := List.getElem?_eq_getElem _
      rw [hb, ih i a _ ha hb (noRef_arr hn (List.mem_of_getElem? ha))]
  · intro base m m' hk _ ih hn
    congr 1
    refine list_ext_fst hk fun i k v v' h1 h2 => ?_
    have hmem := List.mem_of_getElem? h1
    refine ih i k v v' h1 h2 ?_ (noRef_obj hn hmem)
    rintro rfl
    exact hn m (.self _) (List.mem_map.2 ⟨_, hmem, rfl⟩)
  · intros; rfl
  · intros; rfl
  · intro base t t' _ h; exact absurd rfl h
  · intro base t _ h; exact absurd rfl h
  · intro base k c c' _ hk _ ih _ hn
    congr 1
    exact list_ext_fst hk fun i k v v' h1 h2 => ih i k v v' h1 h2 (noRef_obj hn (List.mem_of_getElem? h1))
  · intros; rfl
  · intro base k v v' _ _ _ _ ih _ hn; exact ih hn

theorem numsRat_arr {env xs x} (h : NumsRat env (.arr xs)) (hx : x ∈ xs) : NumsRat env x :=
  fun m hm => h m (.elem _ _ _ hx hm)
theorem numsRat_obj {env} {m : List (String × Json)} {kv} (h : NumsRat env (.obj m)) (hx : kv ∈ m) : NumsRat env kv.2 :=
  fun m' hm => h m' (.member _ kv.1 _ _ hx hm)
theorem numsRat_get {env} {m : List (String × Json)} {k v} (h : NumsRat env (.obj m)) (hx : getKey k m = some v) :
    NumsRat env v := numsRat_obj (kv := (k, v)) h (lookup_some_mem hx)
theorem numsRat_rat {v} (h : NumsRat w.env v) : RatOK w v := by rintro n rfl; exact h n (.self _)

/-- `x` never fails. -/
abbrev Total (x : M τ α) : Prop := Acc True x True Any

theorem Total.bind' {x : M τ α} {f : α → M τ β} (hx : Total x) (hf : ∀ a, Total (f a)) : Total (x >>= f) :=
  (Acc.bind hx fun a _ => hf a).cond (by simp)

theorem Total.mapL' {f : Nat → α → M τ β} {xs k} (h : ∀ k x, x ∈ xs → Total (f k x)) : Total (GJS.mapL f k xs) :=
  (Acc.mapL (P := fun _ => True) h).cond (by simp)

theorem isKind_total {τ : Type} {v ks} (h : RatOK w v) : Total (isKind w.env v ks : M τ Bool) :=
  (isKind_acc.any).cond (by simp [h])

theorem idText_total {τ : Type} {m} (h : NumsRat w.env (.obj m)) : Total (idText w m : M τ _) := by
  unfold idText
  simp only
  split
  · exact .ret
  · rename_i v hv
    refine Total.bind' (isKind_total (numsRat_rat (numsRat_get h hv))) fun b => ?_
    split <;> exact .ret

theorem idScope_total {τ : Type} {ref id} (hi : ∀ a b, w.inherits a b ≠ none) : Total (idScope w ref id : M τ _) := by
  unfold idScope
  split
  · exact .ret
  · split
    · exact .ret
    · split
      · rename_i h; exact absurd h (hi _ _)
      · exact .ret

theorem rewriteRef_total {τ : Type} {ref m} (h : NumsRat w.env (.obj m)) : Total (rewriteRef w ref m : M τ _) := by
  unfold rewriteRef
  split
  · exact .ret
  · rename_i v hv
    refine Total.bind' (isKind_total (numsRat_rat (numsRat_get h hv))) fun b => ?_
    split
    · split <;> exact .ret
    · exact .ret

theorem rewriteRef_mem {τ : Type} {ref m m1} {s s' : τ} (h : rewriteRef w ref m s = (.ok m1, s')) :
    ∀ kv ∈ m1, kv ∈ m ∨ (m ≠ [] ∧ ∃ t, kv.2 = .str t) := by
  unfold rewriteRef at h
  cases hk : getKey "$ref" m with
  | none =>
    rw [hk] at h
    simp only [M.pure_ok] at h
    rw [← h.1]; exact fun kv hkv => .inl hkv
  | some v =>
    rw [hk] at h
    obtain ⟨b, s1, _, h⟩ := M.bind_ok.1 h
    split at h
    · cases ho : (w.norm _).bind (w.inherits ref) with
      | none =>
        rw [ho] at h
        simp only [M.pure_ok] at h
        rw [← h.1]; exact fun kv hkv => .inl hkv
      | some a =>
        rw [ho] at h
        simp only [M.pure_ok] at h
        rw [← h.1]
        intro kv hkv
        rcases mem_replaceKey hkv with h | h
        · exact .inl h
        · exact .inr ⟨(by rintro rfl; cases hkv), a, by rw [h]⟩
    · simp only [M.pure_ok] at h
      rw [← h.1]; exact fun kv hkv => .inl hkv

theorem rangeKV_total {τ : Type} {f : Nat → String → Json → M τ Json} : ∀ {rest i m},
    (∀ i k v, (k, v) ∈ rest → Total (f i k v)) → Total (rangeKV f i rest m) := by
  intro rest
  induction rest with
  | nil => intro i m _; exact .ret
  | cons kv rest ih =>
    intro i m h
    obtain ⟨k, v⟩ := kv
    unfold rangeKV
    exact Total.bind' (h i k v (by simp)) fun v' => ih fun i k v hkv => h i k v (by simp [hkv])

theorem inPool_total {k} : Total (inPool k) := Total.bind' ⟨fun _ _ _ _ => ⟨trivial, trivial⟩, fun _ s _ => ⟨s, s, rfl⟩⟩ fun _ => .ret
theorem taken_total {o} : Total (taken o) := by
  unfold taken
  split
  · exact inPool_total
  · exact .ret
theorem register_total {o e} : Total (register o e) := by
  unfold register
  split
  · exact .modify
  · exact .ret

theorem rewriteMember_total {rec : Path → String → Json → M LState Json} {p r k v}
    (h1 : Total (rec p r v)) (h2 : ∀ c kv p, v = .obj c → kv ∈ c → Total (rec p r kv.2)) :
    Total (rewriteMember σ rec p r k v) := by
  unfold rewriteMember
  split
  · exact .ret
  · split
    · split
      · rename_i c
        exact Total.bind' (rangeKV_total fun i k x hx => h2 c (k, x) _ rfl ((σ.perm _ _).mem_iff.1 hx)) fun _ => .ret
      · exact .ret
    · exact h1

theorem rewrite_total (hi : ∀ a b, w.inherits a b ≠ none) {draft} : ∀ n p ref doc, NumsRat w.env doc → doc.size ≤ n →
    Total (rewrite w σ draft n p ref doc) := by
  intro n
  induction n with
  | zero => intro p ref doc _ h; have := doc.size_pos; omega
  | succ n ih =>
    intro p ref doc hd hn
    unfold rewrite
    cases doc with
    | arr xs =>
      refine Total.bind' (Total.mapL' fun k x hx => Total.bind' (ih _ _ _ (numsRat_arr hd hx) ?_) fun _ => .ret) fun _ => .ret
      have := Json.size_lt_of_mem hx
      omega
    | obj m =>
      show Total (rewriteObj _ _ _ _ _ _ _)
      unfold rewriteObj
      refine Total.bind' (idText_total hd) fun id => Total.bind' (idScope_total hi) fun sc => Total.bind' taken_total fun t => ?_
      split
      · exact .ret
      · refine Total.bind' register_total fun _ => ?_
        have hr : Acc True (rewriteRef w sc.1 m : M LState _) True (fun m1 => ∀ kv ∈ m1, kv ∈ m ∨ (m ≠ [] ∧ ∃ t, kv.2 = .str t)) :=
          ⟨fun _ _ _ h => ⟨trivial, rewriteRef_mem h⟩, (rewriteRef_total hd).run⟩
        refine (Acc.bind hr fun m1 hm1 => Total.bind' (rangeKV_total fun i k v hkv => ?_) fun _ =>
          Total.bind' register_total fun _ => .ret).cond (by simp)
        have hkv' := hm1 _ ((σ.perm _ _).mem_iff.1 hkv)
        have hsz : v.size ≤ n ∧ NumsRat w.env v := by
          rcases hkv' with h | ⟨hne, t, h⟩
          · have := Json.size_lt_of_mem_kv h
            exact ⟨by omega, numsRat_obj hd h⟩
          · have h : v = .str t := h
            subst h
            refine ⟨?_, fun n hn => by cases hn⟩
            cases m with
            | nil => exact absurd rfl hne
            | cons a m =>
              simp only [Json.size, Json.sizeKV] at hn ⊢
              omega
        refine rewriteMember_total (Total.bind' (ih _ _ _ hsz.2 hsz.1) fun _ => .ret) fun c kv p hc hkv2 => ?_
        subst hc
        have := Json.size_lt_of_mem_kv (k := kv.1) (x := kv.2) hkv2
        exact Total.bind' (ih _ _ _ (numsRat_obj hsz.2 hkv2) (by omega)) fun _ => .ret
    | _ => exact .ret

end GJS

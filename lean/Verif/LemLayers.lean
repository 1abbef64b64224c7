import Verif.LemLaws
import Verif.LemClosed
/-
Helper lemmas: layers.
-/
namespace GJS
open Spec

section
variable {env : Env} {resolve : String → Option (Draft × Json)} {T : String → Json → Prop} {Sat Sat' : Draft → Json → Json → Prop}
  {d : Draft}

/-- The rules, applied `n` times. -/
def refUnfold (env : Env) (T : String → Json → Prop) : Nat → Draft → Json → Json → Prop
  | 0 => fun _ _ _ => True
  | n + 1 => RefRules env T (refUnfold env T n)

theorem refRules_sub {m : List (String × Json)} (h : ∀ X, SubSchema d m X → ∀ v, Sat d X v ↔ Sat' d X v) (v : Json) :
    RefRules env T Sat d (.obj m) v ↔ RefRules env T Sat' d (.obj m) v := by
  simp only [RefRules]
  split
  · exact Iff.rfl
  · exact ⟨dkeywords_sat h, dkeywords_sat fun D hs v => (h D hs v).symm⟩

theorem refUnfold_settles : ∀ (n m : Nat) (D : Json), D.size ≤ n → D.size ≤ m → ∀ v,
    refUnfold env T n d D v ↔ refUnfold env T m d D v
  | 0, _, D, h, _, _ => by have := D.size_pos; omega
  | _ + 1, 0, D, _, h, _ => by have := D.size_pos; omega
  | n + 1, m + 1, D, hn, hm, v => by
    cases D with
    | obj ms =>
      exact refRules_sub (fun X hs => refUnfold_settles n m X (by have := subSchema_size hs; omega) (by have := subSchema_size hs; omega)) v
    | _ => exact Iff.rfl

/-- The layer above given meanings of references. -/
def layer (env : Env) (T : String → Json → Prop) (d : Draft) (D v : Json) : Prop := refUnfold env T D.size d D v

theorem layer_obeys (env : Env) (T : String → Json → Prop) : Obeys env T (layer env T) := by
  intro d D v
  unfold layer
  obtain ⟨n, hn⟩ : ∃ n, D.size = n + 1 := ⟨_, (Nat.succ_pred_eq_of_pos (Json.size_pos _)).symm⟩
  rw [hn]
  cases D with
  | obj ms =>
    exact refRules_sub (fun X hs => refUnfold_settles n X.size X (by have := subSchema_size hs; omega) (Nat.le_refl _)) v
  | _ => exact Iff.rfl

theorem obeys_unique (h : Obeys env T Sat) (h' : Obeys env T Sat') : ∀ (n : Nat) (D : Json), D.size ≤ n → ∀ v, Sat d D v ↔ Sat' d D v
  | 0, D, hn, _ => by have := D.size_pos; omega
  | n + 1, D, hn, v => by
    rw [h, h']
    cases D with
    | obj ms => exact refRules_sub (fun X hs => obeys_unique h h' n X (by have := subSchema_size hs; omega)) v
    | _ => exact Iff.rfl

/-- What a document says depends on the references in it only. -/
theorem layer_refs {T T' : String → Json → Prop} : ∀ (n : Nat) (D : Json), D.size ≤ n → (∀ t, HasText D t → ∀ v, T t v ↔ T' t v) →
    ∀ v, layer env T d D v ↔ layer env T' d D v
  | 0, D, hn, _, _ => by have := D.size_pos; omega
  | n + 1, D, hn, h, v => by
    rw [layer_obeys, layer_obeys]
    cases D with
    | obj m =>
      have ih := fun X (hs : SubSchema d m X) => layer_refs (T := T) (T' := T') n X (by have := subSchema_size hs; omega)
        fun t ⟨m', h1, h2⟩ => h t ⟨m', within_trans (subSchema_within hs) h1, h2⟩
      simp only [RefRules]
      split
      · rename_i t ht
        exact h t ⟨m, .self _, ht⟩ v
      · exact ⟨dkeywords_sat ih, dkeywords_sat fun D hs v => (ih D hs v).symm⟩
    | _ => exact Iff.rfl

section
variable (env : Env) (R : String → Prop) (resolve : String → Option (Draft × Json))

/-- What references mean, those in `R` followed `n` times, the others given. -/
def ground (T0 : String → Json → Prop) : Nat → String → Json → Prop
  | 0, t, v => ¬ R t ∧ T0 t v
  | n + 1, t, v => (R t ∧ Through resolve (layer env (ground T0 n)) t v) ∨ (¬ R t ∧ T0 t v)

variable {env R resolve} {T0 : String → Json → Prop}

theorem ground_free {t : String} (h : ¬ R t) (v : Json) : ∀ n, ground env R resolve T0 n t v ↔ T0 t v
  | 0 => by simp [ground, h]
  | n + 1 => by simp [ground, h]

theorem ground_stable {N : Nat} {rank : String → Nat} (hg : ∀ t, R t → rank t < N ∧
      ∀ d X t', resolve t = some (d, X) → HasText X t' → R t' → rank t' < rank t) :
    ∀ (n n' : Nat) (t : String), (R t → rank t < n ∧ rank t < n') → ∀ v, ground env R resolve T0 n t v ↔ ground env R resolve T0 n' t v := by
  intro n
  induction n with
  | zero =>
    intro n' t h v
    have : ¬ R t := fun hR => by have := (h hR).1; omega
    rw [ground_free this, ground_free this]
  | succ n ih =>
    intro n' t h v
    by_cases hR : R t
    · obtain ⟨n', rfl⟩ : ∃ j, n' = j + 1 := ⟨n' - 1, by have := (h hR).2; omega⟩
      have key : ∀ d X, resolve t = some (d, X) → ∀ v,
          layer env (ground env R resolve T0 n) d X v ↔ layer env (ground env R resolve T0 n') d X v := by
        intro d X hX
        refine layer_refs _ X (Nat.le_refl _) fun t' ht' v => ih n' t' (fun hR' => ?_) v
        have := (hg t hR).2 d X t' hX ht' hR'
        have := h hR
        omega
      simp only [ground, hR, true_and, not_true_eq_false, false_and, or_false, Through]
      constructor
      · rintro ⟨d, X, h1, h2⟩; exact ⟨d, X, h1, (key d X h1 v).1 h2⟩
      · rintro ⟨d, X, h1, h2⟩; exact ⟨d, X, h1, (key d X h1 v).2 h2⟩
    · rw [ground_free hR, ground_free hR]

end

/-- Layers above a bottom, references in `R` followed `N` times. -/
def layersFrom (env : Env) (R : String → Prop) (N : Nat) (resolve : String → Option (Draft × Json)) : Nat → Draft → Json → Json → Prop
  | 0 => fun _ _ _ => True
  | k + 1 => layer env (ground env R resolve (Through resolve (layersFrom env R N resolve k)) N)

theorem layersFrom_layers {R : String → Prop} {N : Nat} {rank : String → Nat} (hg : ∀ t, R t → rank t < N ∧
      ∀ d X t', resolve t = some (d, X) → HasText X t' → R t' → rank t' < rank t) : Layers env R resolve (layersFrom env R N resolve) := by
  intro k
  have e : ground env R resolve (Through resolve (layersFrom env R N resolve k)) N =
      fun t v => (R t ∧ Through resolve (layersFrom env R N resolve (k + 1)) t v) ∨ (¬ R t ∧ Through resolve (layersFrom env R N resolve k) t v) := by
    funext t v
    apply propext
    exact ground_stable hg N (N + 1) t (fun hR => ⟨(hg t hR).1, by have := (hg t hR).1; omega⟩) v
  rw [← e]
  exact layer_obeys _ _

end

/-- A run that ends agrees with all layers that are high enough. -/
theorem Good.layers {w : World} {l s d D} (g : Good w l s d D) {R : String → Prop} {res : String → Option (Draft × Json)}
    {S : Nat → Draft → Json → Json → Prop} (hS : Layers w.env R res S)
    (hres : ∀ (i : Nat) (nd : Sub) m t, s.heap[i]? = some nd → nd.doc = .obj m → Kw m "$ref" (.str t) → resolveIn w s.heap s.refs t = res t) (σ : Sched) :
    ∀ n k, n ≤ k → Agrees (validateRecursive w.env σ s.heap n) (satNode s.heap (S k)) := by
  intro n
  induction n with
  | zero => intro k _ p i v c r hr; simp [validateRecursive] at hr
  | succ n ih =>
    intro k hk p i v c r hr
    obtain ⟨k, rfl⟩ : ∃ j, k = j + 1 := ⟨k - 1, by omega⟩
    have hi : ∃ nd, s.heap[i]? = some nd := by
      cases hi : s.heap[i]? with
      | some nd => exact ⟨nd, rfl⟩
      | none =>
        change validateStep w.env σ s.heap (validateRecursive w.env σ s.heap n) p i v c = .ok r at hr
        unfold validateStep at hr
        simp [hi] at hr
    obtain ⟨nd, hi⟩ := hi
    have corr := fun {Sat} => corr_node (Sat := Sat) (v := v) hi (g.docs i nd hi) (g.nodes i nd hi) fun r j hj => g.refs_lt hj
    have e : satNode s.heap (S (k + 1)) i v ↔ S (k + 1) nd.draft nd.doc v := by
      unfold satNode; rw [hi]; simp
    rw [e, hS k]
    by_cases hr' : ∃ m t, nd.doc = .obj m ∧ Kw m "$ref" (.str t)
    · obtain ⟨m, t, h1, h2⟩ := hr'
      have h3 := hres i nd m t hi h1 h2
      have e : ∀ {Sat}, DocRules w.env (resolveIn w s.heap s.refs) Sat nd.draft nd.doc v ↔ Through res Sat t v := by
        intro Sat
        rw [h1]
        unfold Kw at h2
        simp only [DocRules, h2, Through, h3]
      have e' : ∀ {T Sat}, RefRules w.env T Sat nd.draft nd.doc v ↔ T t v := by
        intro T Sat
        rw [h1]
        unfold Kw at h2
        simp only [RefRules, h2]
      rw [e']
      by_cases hR : R t
      · rw [validateStep_agrees (ih (k + 1) (by omega)) p i v c r hr, corr, e]; simp [hR]
      · rw [validateStep_agrees (ih k (by omega)) p i v c r hr, corr, e]; simp [hR]
    · rw [validateStep_agrees (ih (k + 1) (by omega)) p i v c r hr, corr, docRules_eq]
      cases hd : nd.doc with
      | obj m =>
        simp only [RefRules]
        split
        · rename_i t ht; exact absurd ⟨m, t, hd, ht⟩ hr'
        · exact Iff.rfl
      | _ => exact Iff.rfl

section
variable {env : Env} {T : String → Json → Prop} {Sat : Draft → Json → Json → Prop} {d : Draft}

theorem sat_anything (hS : Obeys env T Sat) (D v : Json) (h : Anything D) : Sat d D v := by
  rw [hS]
  rcases h with rfl | rfl
  · rfl
  · simp [RefRules, DKeywords, DType, DAnyOf, DOneOf, DAllOf, DNot, DDependencies, DIf, DConst, DEnum, DFormat,
      DItems, DArray, DObject, DString, DNumber, DSize, Additional, Kw, getKey]

theorem trim_sat (hS : Obeys env T Sat) {D D' : Json} (h : Trim d D D') : ∀ v, Sat d D v ↔ Sat d D' v := by
  induction h with
  | here m k x hx hi =>
    intro v
    rw [hS, hS]
    refine refRules_congr ?_ (dkeywords_idle hx hi (fun D v => sat_anything hS D v))
    rw [getKey_without, if_neg]
    rintro rfl
    exact idle_notRef hi rfl
  | one a b k D D' hk ht ih =>
    intro v
    obtain ⟨p, q, rfl, rfl⟩ := trim_obj ht
    have hn := near_hole (a := a) (b := b) (.schema _ _ hk (.inr ⟨p, q, rfl, rfl, ih⟩ : SaysLike (Eqv (Sat d)) _ _))
    rw [hS, hS]
    exact refRules_congr (hn.same _ (by decide)) ⟨dkeywords_near hn, dkeywords_near (hn.symm eqv_symm)⟩
  | list a b k xs ys D D' hk ht ih =>
    intro v
    obtain ⟨p, q, rfl, rfl⟩ := trim_obj ht
    have hn := near_hole (a := a) (b := b) (.list _ _ hk (listLike_hole (xs := xs) (ys := ys)
      (.inr ⟨p, q, rfl, rfl, ih⟩ : SaysLike (Eqv (Sat d)) _ _)))
    rw [hS, hS]
    exact refRules_congr (hn.same _ (by decide)) ⟨dkeywords_near hn, dkeywords_near (hn.symm eqv_symm)⟩
  | map a b k xs ys r D D' hk ht ih =>
    intro v
    obtain ⟨p, q, rfl, rfl⟩ := trim_obj ht
    have hn := near_hole (a := a) (b := b) (.map _ _ hk (mapLike_hole (xs := xs) (ys := ys) (q := r)
      (.inr ⟨p, q, rfl, rfl, ih⟩ : SaysLike (Eqv (Sat d)) _ _)))
    rw [hS, hS]
    exact refRules_congr (hn.same _ (by decide)) ⟨dkeywords_near hn, dkeywords_near (hn.symm eqv_symm)⟩

theorem rewrites_obj {R : String → Prop} {resolve : String → Option (Draft × Json)} {D D' : Json} (h : Rewrites R resolve d D D') :
    D = D' ∨ ∃ a b, D = .obj a ∧ D' = .obj b := by
  induction h with
  | refl => exact .inl rfl
  | law _ _ h => exact .inr (law_obj h)
  | trim _ _ h => exact .inr (trim_obj h)
  | inline => exact .inr ⟨_, _, rfl, rfl⟩
  | symm _ _ _ ih => exact ih.elim (fun h => .inl h.symm) fun ⟨a, b, h1, h2⟩ => .inr ⟨b, a, h2, h1⟩
  | trans _ _ _ _ _ ih ih' =>
    rcases ih with rfl | ⟨a, b, h1, h2⟩
    · exact ih'
    · rcases ih' with rfl | ⟨a', b', h3, h4⟩
      · exact .inr ⟨a, b, h1, h2⟩
      · exact .inr ⟨a, b', h1, h4⟩
  | one => exact .inr ⟨_, _, rfl, rfl⟩
  | list => exact .inr ⟨_, _, rfl, rfl⟩
  | map => exact .inr ⟨_, _, rfl, rfl⟩

theorem rewrites_sat {R : String → Prop} {resolve : String → Option (Draft × Json)} (hS : Obeys env T Sat)
    (hT : ∀ t, R t → ∀ v, T t v ↔ Through resolve Sat t v) {D D' : Json} (h : Rewrites R resolve d D D') : ∀ v, Sat d D v ↔ Sat d D' v := by
  have like : ∀ {D D' : Json}, Rewrites R resolve d D D' → (∀ v, Sat d D v ↔ Sat d D' v) → SaysLike (Eqv (Sat d)) D D' := by
    intro D D' h ih
    rcases rewrites_obj h with rfl | ⟨a, b, h1, h2⟩
    · exact .inl rfl
    · exact .inr ⟨a, b, h1, h2, ih⟩
  induction h with
  | refl => exact fun _ => Iff.rfl
  | law _ _ h => exact law_sat hS h
  | trim _ _ h => exact trim_sat hS h
  | inline m t m' h1 h2 h3 =>
    intro v
    rw [hS]
    unfold Kw at h1
    simp only [RefRules, h1]
    rw [hT t h2]
    unfold Through
    rw [h3]
    constructor
    · rintro ⟨_, _, h, h'⟩; cases h; exact h'
    · exact fun h => ⟨_, _, rfl, h⟩
  | symm _ _ _ ih => exact fun v => (ih v).symm
  | trans _ _ _ _ _ ih ih' => exact fun v => (ih v).trans (ih' v)
  | one a b k D D' hk h ih =>
    intro v
    have hn := near_hole (a := a) (b := b) (.schema _ _ hk (like h ih))
    rw [hS, hS]
    exact refRules_congr (hn.same _ (by decide)) ⟨dkeywords_near hn, dkeywords_near (hn.symm eqv_symm)⟩
  | list a b k xs ys D D' hk h ih =>
    intro v
    have hn := near_hole (a := a) (b := b) (.list _ _ hk (listLike_hole (xs := xs) (ys := ys) (like h ih)))
    rw [hS, hS]
    exact refRules_congr (hn.same _ (by decide)) ⟨dkeywords_near hn, dkeywords_near (hn.symm eqv_symm)⟩
  | map a b k xs ys q D D' hk h ih =>
    intro v
    have hn := near_hole (a := a) (b := b) (.map _ _ hk (mapLike_hole (xs := xs) (ys := ys) (q := q) (like h ih)))
    rw [hS, hS]
    exact refRules_congr (hn.same _ (by decide)) ⟨dkeywords_near hn, dkeywords_near (hn.symm eqv_symm)⟩

/-- Two readings of references that agree on those in `R`. -/
theorem ground_same {R : String → Prop} {res res' : String → Option (Draft × Json)} {T0 T0' : String → Json → Prop}
    (hr : ∀ t, R t → res t = res' t) (h0 : ∀ t, ¬ R t → ∀ v, T0 t v ↔ T0' t v) :
    ∀ n, ground env R res T0 n = ground env R res' T0' n := by
  intro n
  induction n with
  | zero =>
    funext t v
    by_cases hR : R t
    · simp [ground, hR]
    · simp [ground, hR, h0 t hR]
  | succ n ih =>
    funext t v
    by_cases hR : R t
    · simp [ground, hR, ih, Through, hr t hR]
    · simp [ground, hR, h0 t hR]

theorem layers_rewrites {R : String → Prop} {N : Nat} {res res' : String → Option (Draft × Json)} {rank : String → Nat}
    (hg : ∀ t, R t → rank t < N ∧ ∀ d X t', res t = some (d, X) → HasText X t' → R t' → rank t' < rank t) (hm : Matched R res res') :
    ∀ (k : Nat) (d : Draft) (D D' : Json), Rewrites R res d D D' → ∀ v, layersFrom env R N res k d D v ↔ layersFrom env R N res' k d D' v
  | 0, _, _, _, _, _ => Iff.rfl
  | k + 1, d, D, D', h, v => by
    have hT : ground env R res (Through res (layersFrom env R N res k)) N = ground env R res' (Through res' (layersFrom env R N res' k)) N := by
      refine ground_same (fun t hR => ?_) (fun t hR v => ?_) N
      · rcases hm t with h | ⟨h, _⟩
        · exact h
        · exact absurd hR h
      · unfold Through
        rcases hm t with h | ⟨_, d1, X, X', h1, h2, h3⟩
        · rw [← h]
          constructor
          · rintro ⟨d1, X, h1, h2⟩; exact ⟨d1, X, h1, (layers_rewrites hg hm k d1 X X (.refl _) v).1 h2⟩
          · rintro ⟨d1, X, h1, h2⟩; exact ⟨d1, X, h1, (layers_rewrites hg hm k d1 X X (.refl _) v).2 h2⟩
        · rw [h1, h2]
          constructor
          · rintro ⟨_, _, e, h⟩; cases e; exact ⟨_, _, rfl, (layers_rewrites hg hm k d1 X X' h3 v).1 h⟩
          · rintro ⟨_, _, e, h⟩; cases e; exact ⟨_, _, rfl, (layers_rewrites hg hm k d1 X X' h3 v).2 h⟩
    have L := layersFrom_layers (env := env) hg k
    have e : layersFrom env R N res' (k + 1) = layersFrom env R N res (k + 1) := by simp only [layersFrom, ← hT]
    rw [e]
    exact rewrites_sat L (fun t hR v => by simp [hR]) h v

end
end GJS

import Verif.LemMetaUse
import Verif.LemReturnDoc
import Verif.LemAbort
/-
Helper lemmas: in the built-in meta-schemas, chains of sub-schemas applied to the same value are short, so a
check against them ends.
-/
namespace GJS
open Spec

namespace Flat
/-- A test on all sub-schemas that a schema object applies to the value it is given, its `$ref` apart. -/
def inB (f : Json → Bool) (m : List (String × Json)) : Bool :=
  (["anyOf", "oneOf", "allOf"].all fun k => match getKey k m with | some (.arr Ds) => Ds.all f | _ => true) &&
  (["not", "if", "then", "else"].all fun k => match getKey k m with | some D => f D | none => true) &&
  (match getKey "dependencies" m with | some (.obj ds) => ds.all fun e => f e.2 | _ => true)

/-- Chains of sub-schemas applied to the same value, the references of the meta-schema at `u` followed, are
shorter than the bound. -/
def flat (u : String) (d : Draft) : Nat → Json → Bool
  | 0, _ => false
  | n + 1, .obj m => inB (flat u d n) m &&
      (match getKey "$ref" m with
       | some (.str t) => (t != u || flat u d n (Meta.absolute u d)) &&
           (Meta.defs d (Meta.ref u) fun s => Meta.ref (Meta.part u s)).all fun e => t != Meta.part u e.1 || flat u d n e.2
       | _ => true)
  | _ + 1, _ => true

/-- The longest chain in the meta-schemas. -/
def depth : Nat := 5

theorem known_flat {u d} (hk : Known u d) : allWithin (flat u d depth) (Meta.absolute u d) = true := by
  rcases hk with ⟨rfl, rfl⟩ | ⟨rfl, rfl⟩ | ⟨rfl, rfl⟩ <;> decide +kernel

section
variable {u : String} {d : Draft} {n : Nat} {m : List (String × Json)}

theorem list (h : flat u d (n + 1) (.obj m) = true) {k Ds D} (hk : k ∈ ["anyOf", "oneOf", "allOf"]) (h1 : Kw m k (.arr Ds)) (h2 : D ∈ Ds) :
    flat u d n D = true := by
  simp only [flat, inB, Bool.and_eq_true, List.all_eq_true] at h
  have := h.1.1.1 k hk
  rw [h1] at this
  exact List.all_eq_true.1 this D h2

theorem opt (h : flat u d (n + 1) (.obj m) = true) {k D} (hk : k ∈ ["not", "if", "then", "else"]) (h1 : Kw m k D) :
    flat u d n D = true := by
  simp only [flat, inB, Bool.and_eq_true, List.all_eq_true] at h
  have := h.1.1.2 k hk
  rw [h1] at this
  exact this

theorem dep (h : flat u d (n + 1) (.obj m) = true) {ds k D} (h1 : Kw m "dependencies" (.obj ds)) (h2 : (k, D) ∈ ds) :
    flat u d n D = true := by
  simp only [flat, inB, Bool.and_eq_true] at h
  have := h.1.2
  rw [h1] at this
  exact List.all_eq_true.1 this _ h2

theorem ref (h : flat u d (n + 1) (.obj m) = true) {t X} (h1 : Kw m "$ref" (.str t))
    (h2 : t = u ∧ X = Meta.absolute u d ∨
      ∃ s, t = Meta.part u s ∧ (s, X) ∈ Meta.defs d (Meta.ref u) fun s => Meta.ref (Meta.part u s)) : flat u d n X = true := by
  simp only [flat, Bool.and_eq_true] at h
  have := h.2
  rw [h1] at this
  simp only [Bool.and_eq_true, List.all_eq_true, Bool.or_eq_true, bne_iff_ne, ne_eq] at this
  rcases h2 with ⟨rfl, rfl⟩ | ⟨s, rfl, h2⟩
  · exact this.1.resolve_left (by simp)
  · exact (this.2 _ h2).resolve_left (by simp)

open Classical in
/-- The length of the longest chain from here. -/
noncomputable def rk (u : String) (d : Draft) (D : Json) : Nat := if h : ∃ n, flat u d n D = true then Nat.find h else 0

theorem rk_pos {D} (h : flat u d n D = true) : ∃ k, rk u d D = k + 1 ∧ k + 1 ≤ n ∧ flat u d (k + 1) D = true := by
  have hx : ∃ n, flat u d n D = true := ⟨n, h⟩
  have e : rk u d D = Nat.find hx := by unfold rk; rw [dif_pos hx]
  have h1 := Nat.find_spec hx
  have h2 := Nat.find_min' hx h
  cases hf : Nat.find hx with
  | zero => rw [hf] at h1; simp [flat] at h1
  | succ k => rw [hf] at h1 h2; exact ⟨k, e.trans hf, h2, h1⟩

theorem rk_le {D} (h : flat u d n D = true) : rk u d D ≤ n := by
  obtain ⟨k, h1, h2, _⟩ := rk_pos h
  omega
end
end Flat

theorem DepsOK.toDocMem {h : Heap} {d m ds k i} (x : DepsOK h d m ds) (hk : (k, Dep.schema i) ∈ ds) :
    ∃ Ds D, Kw m "dependencies" (.obj Ds) ∧ (k, D) ∈ Ds ∧ Stat h d D i := by
  rcases x with ⟨_, rfl⟩ | ⟨Ds, l, es, h1, hp, hf, rfl⟩
  · simp at hk
  · obtain ⟨e, he, rfl⟩ := List.mem_filterMap.1 hk
    obtain ⟨q, hq⟩ := List.getElem?_of_mem he
    obtain ⟨⟨k', D⟩, h2, h3⟩ := forall₂_right hf hq
    rcases h3 with ⟨ks, _, h4⟩ | ⟨_, c, h4, hs⟩
    · cases ks <;> simp [depEntry] at h4
    · simp only [Option.some.injEq, Prod.mk.injEq, Dep.schema.injEq] at h4
      obtain ⟨rfl, rfl⟩ := h4
      exact ⟨Ds, D, h1, hp.mem_iff.1 (List.mem_of_getElem? h2), hs⟩

section
variable {w : World} {u : String} {d : Draft} {l : LState}
open Flat

/-- The length of the longest chain from a compiled node. -/
noncomputable def rankIn (u : String) (d : Draft) (h : Heap) (i : Id) : Nat :=
  match h[i]? with
  | some n => rk u d n.doc
  | none => 0

theorem good_flat (h : MetaWorld w u) (hk : Known u d) (hc : Clean w u d l) {s : Schema} (g : Good w l s d (Meta.absolute u d))
    {i : Nat} {n : Sub} (hi : s.heap[i]? = some n) : flat u d depth n.doc = true :=
  allWithin_of (meta_compiled h hk hc (g.made i n hi)).2 (known_flat hk)

theorem good_rank_le (h : MetaWorld w u) (hk : Known u d) (hc : Clean w u d l) {s : Schema} (g : Good w l s d (Meta.absolute u d))
    (i : Id) : rankIn u d s.heap i ≤ depth := by
  unfold rankIn
  split
  · rename_i n hi; exact rk_le (good_flat h hk hc g hi)
  · omega

theorem good_rank_lt (h : MetaWorld w u) (hk : Known u d) (hc : Clean w u d l) {s : Schema} (g : Good w l s d (Meta.absolute u d))
    (i j : Id) (he : InPlaceEdge s.heap i j) : rankIn u d s.heap j < rankIn u d s.heap i := by
  obtain ⟨n, hi, hj⟩ := he
  obtain ⟨k, h1, _, h3⟩ := rk_pos (good_flat h hk hc g hi)
  have goal : ∀ {D}, (∀ n', s.heap[j]? = some n' → n'.doc = D) → flat u d k D = true → rankIn u d s.heap j < rankIn u d s.heap i := by
    intro D hD hf
    have e : rankIn u d s.heap i = k + 1 := by unfold rankIn; rw [hi]; exact h1
    rw [e]
    unfold rankIn
    split
    · rename_i n' hn'
      rw [hD n' hn']
      have := rk_le hf
      omega
    · omega
  have stat : ∀ {d' D}, Stat s.heap d' D j → ∀ n', s.heap[j]? = some n' → n'.doc = D := by
    rintro d' D ⟨n1, a, _, b⟩ n' hn'
    rw [a] at hn'; cases hn'; exact b
  have fields : ∀ {m}, n.doc = .obj m → FieldsOK w s.heap n.draft m n → j ∉ n.refSchema.toList →
      rankIn u d s.heap j < rankIn u d s.heap i := by
    intro m hm f hr
    rw [hm] at h3
    have hwf : (Json.obj m).WF := hm ▸ g.docs i n hi
    have lists : ∀ {key ids}, key ∈ ["anyOf", "oneOf", "allOf"] → ListOK s.heap n.draft m key ids → j ∈ ids →
        rankIn u d s.heap j < rankIn u d s.heap i := by
      intro key ids hkey x hj
      obtain ⟨q, hq⟩ := List.getElem?_of_mem hj
      obtain ⟨Ds, D, a, _, b, c⟩ := x.toDoc hq
      exact goal (stat c) (Flat.list h3 hkey a (List.mem_of_getElem? b))
    have opts : ∀ {act key o}, key ∈ ["not", "if", "then", "else"] → OptOK s.heap n.draft act m key o → j ∈ o.toList →
        rankIn u d s.heap j < rankIn u d s.heap i := by
      intro act key o hkey x hj
      obtain ⟨_, D, a, b⟩ := x.toDoc (Option.mem_toList.1 hj)
      exact goal (stat b) (Flat.opt h3 hkey a)
    simp only [inPlace, List.mem_append] at hj
    rcases hj with (((((((hj | hj) | hj) | hj) | hj) | hj) | hj) | hj) | hj
    · exact absurd hj hr
    · exact lists (by simp) f.anyOf hj
    · exact lists (by simp) f.oneOf hj
    · exact lists (by simp) f.allOf hj
    · exact opts (by simp) f.not hj
    · exact opts (by simp) f.if_ hj
    · exact opts (by simp) f.then_ hj
    · exact opts (by simp) f.else_ hj
    · obtain ⟨⟨key, e⟩, a, b⟩ := List.mem_filterMap.1 hj
      cases e with
      | keys ks => cases b
      | schema i' =>
        cases b
        obtain ⟨Ds, D, a1, a2, a3⟩ := DepsOK.toDocMem f.deps a
        exact goal (stat a3) (Flat.dep h3 a1 a2)
  cases g.nodes i n hi with
  | bool b hb _ => rw [hb] at hj; simp [inPlace] at hj
  | plain m hm _ hr _ f => exact fields hm f (by rw [hr]; simp)
  | ref m t u' j' hm ht hn hg hr _ hf =>
    by_cases hjj : j = j'
    · subst hjj
      have hA := meta_refsAre (R := resolveIn w s.heap s.refs) h hk hc fun t d' D' ht => g.resolve ht
      obtain ⟨_, _, X, h5, _, h6⟩ := metaRefs_to h hk (known_refs hk (hm ▸ (meta_compiled h hk hc (g.made i n hi)).2) ht)
      refine goal (D := X) ?_ (Flat.ref (hm ▸ h3) ht h6)
      intro n' hn'
      have hR : resolveIn w s.heap s.refs t = some (n'.draft, n'.doc) := by simp [resolveIn, hn, hg, hn']
      rcases h6 with ⟨rfl, rfl⟩ | ⟨q, rfl, hq⟩
      · exact (hA.1 _ _ hR).2
      · exact (hA.2 q X hq _ _ hR).2
    · have hr' : j ∉ n.refSchema.toList := by rw [hr]; simpa using hjj
      rcases hf with f | f
      · exact fields hm f hr'
      · rw [f] at hj; simp [inPlace] at hj; exact absurd hj hjj

/-- A check against a built-in meta-schema ends. -/
theorem good_ends (h : MetaWorld w u) (hk : Known u d) (hc : Clean w u d l) {s : Schema} (g : Good w l s d (Meta.absolute u d))
    {σ : Sched} {n D} (hn : D.size * (depth + 1) + depth < n) : validateDocument w.env σ s.heap n s.root D ≠ .error .fuel :=
  no_fuel (good_rank_le h hk hc g) (good_rank_lt h hk hc g) n s.root D _ _ (by
    have := good_rank_le h hk hc g s.root
    omega)

end
end GJS

import Verif.LemInPlace
import Verif.LemAgain
import Verif.DemoWorld
/-
C65: references are rewritten in place.  The other properties are about a model in which documents are
immutable values; here is the model in which they are maps in memory that rewriting changes, which is
related to it, and what it means for documents handed over as Go values.
-/
namespace GJS.Mem
open GJS Spec

/-- C65.  Rewriting a document in place, in whatever order maps are gone through, ends as rewriting it as
a value does: the maps of the document now hold the rewritten document, no other map has changed, and what
the pool holds, read through memory, is the pool of rewritten values.  The maps of the document must be
distinct from one another and from those of other documents. -/
theorem C65_rewrite (w : World) (σ : Sched) (hσ : Natural σ) (n : Nat) (p : Path) (t : Tree) (ref : String) (pooled : Bool)
    (ok : Nat → Prop) (s : State) (l : LState) (hn : t.json.size ≤ n) (hw : t.json.WF) (hl : t.labels.Nodup)
    (hok : ∀ a ∈ t.labels, ok a) (hh : Holds s.mem t) (ha : Agree (fun a => ok a ∧ a ∉ t.labels) s l) :
    Outcome (fun s' l' => s' = s ∧ l' = l) (parseReferences w σ n p t.val ref pooled s) (GJS.parseReferences w σ p t.json ref pooled l)
      fun o s' D l' => o = D.2 ∧ (∃ t', t'.json = D.1 ∧ Becomes t t' s s') ∧ Agree ok s' l' :=
  parseReferences_sim hσ hn hw hl hok hh ha

/-- C65 for `GetDocument`: it returns a value that, read through memory, is the document that the model
with immutable documents returns; nothing that was in memory before has changed. -/
theorem C65_getDocument (w : World) (look : String → Cells → Val → Option Val) (hL : Looks w look) (hw : Lawful w) (σ : Sched)
    (hσ : Natural σ) (p : Path) (r : String) (s : State) (l : LState) (ha : Agree (fun a => a < s.next) s l) :
    ∃ n0, ∀ n, n0 ≤ n → Outcome (After s) (getDocument w look σ n p r s) (GJS.getDocument w σ p r l)
      fun e s' e' l' => e.draft = e'.draft ∧ Stored s'.mem (fun a => a < s'.next) e.doc e'.doc ∧ After s s' l' := by
  cases h : loadReference w l.clock l.factory r with
  | none => exact ⟨0, fun n _ => getDocument_sim hL hσ (fun D hD => by rw [h] at hD; cases hD) ha⟩
  | some D =>
    refine ⟨D.size, fun n hn => getDocument_sim hL hσ (fun D' hD => ?_) ha⟩
    rw [h] at hD
    cases hD
    exact ⟨loadReference_wf hw h, hn⟩

/-- C65.  Documents obtained before a call of `GetDocument` are what they were after it. -/
theorem C65_lasts (s s' : State) (l' : LState) (h : After s s' l') (v : Val) (D : Json)
    (hs : Stored s.mem (fun a => a < s.next) v D) : Stored s'.mem (fun a => a < s'.next) v D :=
  (hs.frame h.2.2).mono fun _ ha => Nat.lt_of_lt_of_le ha h.2.1

/-- Rewriting in place, when no identifier is taken. -/
theorem rewrite_strict {w : World} {σ : Sched} (hσ : Natural σ) {n : Nat} {p : Path} {t : Tree} {ref : String} {pooled : Bool}
    {s s' : State} {l : LState} {ok : Nat → Prop} (hn : t.json.size ≤ n) (hw : t.json.WF) (hl : t.labels.Nodup)
    (hok : ∀ a ∈ t.labels, ok a) (hh : Holds s.mem t) (ha : Agree (fun a => ok a ∧ a ∉ t.labels) s l)
    (hi : (idsIn w ref t.json).Nodup) (hf : ∀ k ∈ idsIn w ref t.json, getKey k l.pool = none)
    (h : parseReferences w σ n p t.val ref pooled s = (.ok none, s')) :
    ∃ t', RwStrict w ref t.json t'.json ∧ Becomes t t' s s' := by
  have R := C65_rewrite w σ hσ n p t ref pooled ok s l hn hw hl hok hh ha
  rw [h] at R
  cases hx : GJS.parseReferences w σ p t.json ref pooled l with
  | mk r l' =>
    rw [hx] at R
    cases r with
    | error f => exact R.elim
    | ok D =>
      obtain ⟨R1, ⟨t', R2, R3⟩, _⟩ := R
      rcases parseReferences_strict hw hi hf hx with ⟨_, h2, _⟩ | h2
      · rw [← R1] at h2; cases h2
      · exact ⟨t', R2 ▸ h2, R3⟩

/-- C65, the first URL wins.  A Go value handed to a loader as the document under the URL `u`, and then to
the same or another loader under the URL `u'`: the second loader takes the references as the first one has
left them, relative to `u`, and changes nothing. -/
theorem C65_first_url (w : World) (S : String → String → Prop) (hS : Firm w S) (u u' : String) (hu : S u u') (σ σ' : Sched)
    (hσ : Natural σ) (hσ' : Natural σ') (n n' : Nat) (p p' : Path) (t : Tree) (pooled pooled' : Bool)
    (s s1 s2 s3 : State) (l l2 : LState) (ok ok2 : Nat → Prop) (hn : t.json.size ≤ n) (hn' : t.json.size ≤ n') (hw : t.json.WF)
    (hl : t.labels.Nodup) (hok : ∀ a ∈ t.labels, ok a) (hok2 : ∀ a ∈ t.labels, ok2 a) (hh : Holds s.mem t)
    (ha : Agree (fun a => ok a ∧ a ∉ t.labels) s l) (hi : (idsIn w u t.json).Nodup)
    (hf : ∀ k ∈ idsIn w u t.json, getKey k l.pool = none)
    (h1 : parseReferences w σ n p t.val u pooled s = (.ok none, s1))
    (hm : s2.mem = s1.mem) (ha2 : Agree (fun a => ok2 a ∧ a ∉ t.labels) s2 l2) (hi2 : (idsIn w u' t.json).Nodup)
    (hf2 : ∀ k ∈ idsIn w u' t.json, getKey k l2.pool = none)
    (h2 : parseReferences w σ' n' p' t.val u' pooled' s2 = (.ok none, s3)) :
    ∃ t', RwStrict w u t.json t'.json ∧ t'.val = t.val ∧ Holds s3.mem t' ∧ s3.mem = s1.mem := by
  obtain ⟨t1, g1, B1⟩ := rewrite_strict hσ hn hw hl hok hh ha hi hf h1
  have hids : ∀ c, idsIn w c t1.json = idsIn w c t.json := rw_ids g1
  obtain ⟨t2, g2, B2⟩ := rewrite_strict (t := t1) (ok := ok2) (l := l2) hσ' (n := n') (p := p') (ref := u') (pooled := pooled')
    (s := s2) (s' := s3) (by rw [rw_size g1]; exact hn') (rw_wf hw g1) (by rw [B1.labels]; exact hl)
    (by rw [B1.labels]; exact hok2) (by rw [hm]; exact B1.holds) (by rw [B1.labels]; exact ha2) (by rw [hids]; exact hi2)
    (by rw [hids]; exact hf2) (by rw [B1.val]; exact h2)
  have e : t2.json = t1.json := by
    rw [rwStrict_eq g2, rwStrict_eq g1]; exact absRefs_again hS hu _
  have et : t2 = t1 := tree_ext e (B2.labels)
  subst et
  refine ⟨t2, g1, B1.val, B2.holds, ?_⟩
  funext a
  by_cases hm' : a ∈ t2.labels
  · obtain ⟨m, hN⟩ := node_of_label hm'
    rw [B2.holds a m hN, B1.holds a m hN]
  · rw [B2.frame a hm', hm]

/-- C65, compiling a Go value again.  `Compile` leaves a Go value with its references made absolute.  If the
document is closed, the verdicts of the schema compiled from what it has become, by a loader in the same state,
are those of the schema compiled from what it was. -/
theorem C65_again (w : World) (hb : ∀ r, w.base (w.base r) = w.base r) (hL : Lasting w "") (l : LState) (hw : Setting w l)
    (hq : Idling l) (D D' : Json) (hD : D.WF) (hr : RwStrict w "" D D') (hc : Closed w l (draftFor w l D) D) (v : Json)
    (b b' : Bool) (h : Gives w l D v b) (h' : Gives w l D' v b') : b = b' := by
  have S := reread_of hL hr
  have hd : draftFor w l D' = draftFor w l D := S.draftFor
  obtain ⟨res, hf⟩ := follows_exists w l _ D hc
  obtain ⟨X, n, hs, k⟩ := C63_meaning w hb l hw hq D hD hc v b h
  obtain ⟨X', n', hs', k'⟩ := C63_meaning w hb l hw hq D' (rw_wf hD hr) (by rw [hd]; exact S.closed hc) v b' h'
  rw [rwStrict_eq hs] at k
  rw [rwStrict_eq ((S.rw X').1 hs'), hd] at k'
  rw [Bool.eq_iff_iff, k _ (Nat.le_max_left n n') res hf fun _ _ _ => True,
    k' _ (Nat.le_max_right n n') res (S.follows hf) fun _ _ _ => True]

/-- C65, the same for acceptance. -/
theorem C65_again_accepted (w : World) (hs : Standard w) (hb : ∀ r, w.base (w.base r) = w.base r) (hf : FmtOK w.env.fmtF64)
    (hL : Lasting w "") (l : LState) (hw : Setting w l) (hq : Idling l) (hu : Unnamed l) (hl : PoolAll (Harmless w.env) l)
    (D D' : Json) (hD : Harmless w.env D) (hr : RwStrict w "" D D') (hc : Closed w l (draftFor w l D) D)
    (hA : Alone w l (draftFor w l D) D) :
    ∃ n, ∀ (σ σ' : Sched) (fuel fuel' : Fuel) (p p' : Path), n ≤ fuel.parse → n ≤ fuel'.parse →
      (Accepts w σ fuel p l D ↔ Accepts w σ' fuel' p' l D') ∧ (Refuses w σ fuel p l D ↔ Refuses w σ' fuel' p' l D') := by
  have S := reread_of hL hr
  have hd : draftFor w l D' = draftFor w l D := S.draftFor
  have hD' : Harmless w.env D' := fine_false.1 ((fine_false.2 hD).like (rw_blank hr))
  obtain ⟨n, hn⟩ := C64_exact w hs hb hf l hw hq hu hl D hD hc hA
  obtain ⟨n', hn'⟩ := C64_exact w hs hb hf l hw hq hu hl D' hD' (by rw [hd]; exact S.closed hc) (by rw [hd]; exact S.alone hA)
  have e : AllIntact w l (draftFor w l D) D ↔ AllIntact w l (draftFor w l D') D' := by
    rw [hd]
    exact ⟨fun h => ⟨fun a => (rw_schemaRead hr).2 (h.schema a), fun X hX => S.intact (h.all X (S.visited hX))⟩,
      fun h => ⟨fun a => (rw_schemaRead hr).1 (h.schema a), fun X hX => S.symm.intact (h.all X (S.symm.visited hX))⟩⟩
  refine ⟨max n n', fun σ σ' fuel fuel' p p' h1 h2 => ?_⟩
  obtain ⟨a1, a2⟩ := hn σ fuel p (Nat.le_trans (Nat.le_max_left _ _) h1)
  obtain ⟨b1, b2⟩ := hn' σ' fuel' p' (Nat.le_trans (Nat.le_max_right _ _) h2)
  exact ⟨by rw [a1, b1, e], by rw [a2, b2, e]⟩

/-! ### Examples -/

namespace Demo
open GJS.Demo

theorem natural_id : Natural Sched.id := fun _ _ _ => rfl

/-- Orders made from positions are natural. -/
theorem natural_ofPositions (pos h) : Natural (ofPositions pos h) := by
  intro α β f p l
  simp only [ofPositions, List.length_map, List.getElem?_map, List.map_filterMap]

/-- Follow member names in memory. -/
def walkCells (h : Cells) : List (List Char) → Val → Option Val
  | [], v => some v
  | t :: ts, .map a =>
    match getKey (String.ofList t) (h a) with
    | some v => walkCells h ts v
    | none => none
  | _ :: _, _ => none

/-- Evaluate the fragment of a reference in memory. -/
def lookOf (r : String) (h : Cells) (v : Val) : Option Val :=
  match fragOf r with
  | [] => some v
  | ['#'] => some v
  | '#' :: '/' :: cs => walkCells h (tokens cs) v
  | _ => none

theorem getKey_in {α : Type} {k : String} {x : α} : ∀ {m : List (String × α)}, getKey k m = some x → (k, x) ∈ m
  | [], h => by simp [getKey] at h
  | (k', y) :: m, h => by
    simp only [getKey, List.lookup_cons] at h
    split at h
    · rename_i e; rw [beq_iff_eq] at e; subst e; cases h; simp
    · exact List.mem_cons_of_mem _ (getKey_in h)

theorem walk_looks {h : Cells} {ok : Nat → Prop} : ∀ (ts : List (List Char)) {v D}, Stored h ok v D →
    match walkCells h ts v, walk ts D with
    | some v', some D' => Stored h ok v' D'
    | none, none => True
    | _, _ => False := by
  intro ts
  induction ts with
  | nil => intro v D hs; exact hs
  | cons t ts ih =>
    rintro v D ⟨T, rfl, rfl, h3, h4⟩
    cases T with
    | obj a m =>
      simp only [Tree.val, Tree.json, walkCells, walk]
      rw [h3.cell, getKey_val, Tree.jsonM_map, getKey_json]
      cases hk : getKey (String.ofList t) m with
      | none => trivial
      | some x =>
        simp only [Option.map_some]
        have hx : (String.ofList t, x) ∈ m := getKey_in hk
        exact ih ⟨x, rfl, rfl, h3.member hx, fun b hb => h4 b (by
          rw [Tree.labels, Tree.labelsM_map]; exact List.mem_cons_of_mem _ (List.mem_flatMap.2 ⟨_, hx, hb⟩))⟩
    | _ => simp only [Tree.val, Tree.json, walkCells, walk]

theorem looks (docs) : Looks (world docs) lookOf := by
  intro r h ok v D hs
  change match lookOf r h v, pointerOf r D with | some v', some D' => Stored h ok v' D' | none, none => True | _, _ => False
  unfold lookOf pointerOf
  generalize fragOf r = fr
  rcases fr with _ | ⟨c, _ | ⟨c', cs⟩⟩
  · exact hs
  · by_cases hc : c = '#'
    · subst hc; exact hs
    · simp [hc]
  · by_cases hc : c = '#'
    · subst hc
      by_cases hc' : c' = '/'
      · subst hc'; exact walk_looks _ hs
      · simp [hc']
    · simp [hc]

/-! Normalised references, made absolute twice. -/

theorem notHash (r : String) : ∀ c ∈ (baseOf r).toList, (c != '#') = true := by
  intro c hc
  unfold baseOf at hc
  rw [String.toList_ofList] at hc
  revert hc
  generalize r.toList = cs
  induction cs with
  | nil => intro h; simp at h
  | cons d cs ih =>
    intro h
    rw [List.takeWhile_cons] at h
    split at h
    · rename_i hd
      rcases List.mem_cons.1 h with rfl | h
      · exact hd
      · exact ih h
    · simp at h

theorem baseOf_append (b : String) {c : String} (hc : baseOf c = "") : baseOf (baseOf b ++ c) = baseOf b := by
  have hc' : c.toList.takeWhile (· != '#') = [] := by
    have := congrArg String.toList hc
    unfold baseOf at this
    rwa [String.toList_ofList] at this
  rw [baseOf.eq_def (baseOf b ++ c), String.toList_append, List.takeWhile_append_of_pos (notHash b), hc', List.append_nil, String.ofList_toList]

theorem fragOf_append (b c : String) : fragOf (baseOf b ++ c) = fragOf c := by
  conv => lhs; unfold fragOf
  rw [String.toList_append, List.dropWhile_append_of_pos (notHash b)]
  rfl

theorem fragOf_base (b : String) : fragOf (baseOf b) = [] := by
  have := fragOf_append b ""
  rw [String.append_empty] at this
  rw [this]; rfl

theorem resolved_eq (docs b t) : resolved (world docs) b t =
    some (if baseOf (normOf t) == "" then (if fragOf (normOf t) == [] then b else baseOf b ++ normOf t) else normOf t) := rfl

theorem normOf_idem (t) : normOf (normOf t) = normOf t := by
  by_cases h : fragOf t = ['#']
  · have e : normOf t = baseOf t := by unfold normOf; simp [h]
    rw [e]
    unfold normOf
    simp [fragOf_base]
  · have e : normOf t = t := by unfold normOf; simp [h]
    rw [e, e]

/-- A normalised reference that is only a fragment has a fragment that says something. -/
theorem frag_norm {n} (h : normOf n = n) (hf : fragOf n ≠ []) : fragOf n ≠ ['#'] := by
  intro h1
  have e : normOf n = baseOf n := by unfold normOf; simp [h1]
  rw [e] at h
  have := fragOf_base n
  rw [h] at this
  exact hf this

theorem normOf_append (b : String) {n} (h : normOf n = n) (hf : fragOf n ≠ []) : normOf (baseOf b ++ n) = baseOf b ++ n := by
  have := frag_norm h hf
  conv => lhs; unfold normOf
  rw [fragOf_append]
  simp [this]

theorem resolved_cases {docs b t k} (h : resolved (world docs) b t = some k) : ∃ n, normOf n = n ∧
    ((baseOf n = "" ∧ fragOf n = [] ∧ k = b) ∨ (baseOf n = "" ∧ fragOf n ≠ [] ∧ k = baseOf b ++ n) ∨ (baseOf n ≠ "" ∧ k = n)) := by
  refine ⟨normOf t, normOf_idem t, ?_⟩
  rw [resolved_eq] at h
  revert h
  generalize normOf t = n
  intro h
  by_cases h1 : baseOf n = ""
  · rw [if_pos (by rw [h1]; rfl)] at h
    by_cases h2 : fragOf n = []
    · rw [if_pos (by rw [h2]; rfl)] at h
      exact .inl ⟨h1, h2, (Option.some.inj h).symm⟩
    · rw [if_neg (by rw [beq_iff_eq]; exact h2)] at h
      exact .inr (.inl ⟨h1, h2, (Option.some.inj h).symm⟩)
  · rw [if_neg (by rw [beq_iff_eq]; exact h1)] at h
    exact .inr (.inr ⟨h1, (Option.some.inj h).symm⟩)

theorem resolved_self {docs b k} (hk : normOf k = k) (h : baseOf k = "" → fragOf k = [] → b = k) (h' : baseOf k = "" → fragOf k ≠ [] → baseOf b = "") :
    resolved (world docs) b k = some k := by
  rw [resolved_eq, hk]
  by_cases h1 : baseOf k = ""
  · rw [if_pos (by rw [h1]; rfl)]
    by_cases h2 : fragOf k = []
    · rw [if_pos (by rw [h2]; rfl), h h1 h2]
    · rw [if_neg (by rw [beq_iff_eq]; exact h2), h' h1 h2, String.empty_append]
  · rw [if_neg (by rw [beq_iff_eq]; exact h1)]

/-- A normalised base makes normalised references. -/
theorem resolved_norm {docs b t k} (hb : normOf b = b) (h : resolved (world docs) b t = some k) : normOf k = k := by
  obtain ⟨n, hn, ⟨_, _, rfl⟩ | ⟨_, h2, rfl⟩ | ⟨_, rfl⟩⟩ := resolved_cases h
  · exact hb
  · exact normOf_append b hn h2
  · exact hn

theorem lasting (docs) : Lasting (world docs) "" := by
  refine ⟨fun b => normOf b = b, by decide, ?_, ?_, ?_⟩
  · rintro b _ t k ⟨rfl, hb⟩ h
    refine resolved_self (resolved_norm hb h) ?_ ?_
    · obtain ⟨n, hn, ⟨_, _, rfl⟩ | ⟨_, h2, rfl⟩ | ⟨h1, rfl⟩⟩ := resolved_cases h
      · exact fun _ _ => rfl
      · exact fun _ h => absurd (fragOf_append b n ▸ h) h2
      · exact fun h => absurd h h1
    · obtain ⟨n, hn, ⟨_, _, rfl⟩ | ⟨h1, h2, rfl⟩ | ⟨h1, rfl⟩⟩ := resolved_cases h
      · exact fun h _ => h
      · exact fun h _ => baseOf_append b h1 ▸ h
      · exact fun h => absurd h h1
  · rintro b _ t ⟨rfl, hb⟩ h; rw [resolved_eq] at h; cases h
  · rintro b _ t ⟨rfl, hb⟩
    refine ⟨rfl, ?_⟩
    rw [resolved_eq, Option.getD_some]
    exact resolved_norm (t := t) hb (resolved_eq docs b t)

/-- References made absolute with a URL stay as they are. -/
theorem firm (docs) : Firm (world docs) fun b _ => normOf b = b ∧ baseOf b ≠ "" := by
  have key : ∀ b t k, normOf b = b ∧ baseOf b ≠ "" → resolved (world docs) b t = some k → normOf k = k ∧ baseOf k ≠ "" := by
    intro b t k hb h
    refine ⟨resolved_norm hb.1 h, ?_⟩
    obtain ⟨n, hn, ⟨_, _, rfl⟩ | ⟨h1, h2, rfl⟩ | ⟨h1, rfl⟩⟩ := resolved_cases h
    · exact hb.2
    · rw [baseOf_append b h1]; exact hb.2
    · exact h1
  refine ⟨?_, ?_, ?_⟩
  · intro b b' t k hb h
    obtain ⟨h1, h2⟩ := key b t k hb h
    exact resolved_self h1 (fun h => absurd h h2) fun h => absurd h h2
  · intro b b' t _ h; rw [resolved_eq] at h; cases h
  · intro b b' t hb
    rw [resolved_eq, Option.getD_some]
    exact key b t _ hb (resolved_eq docs b t)

/-- A schema document with a reference, with the addresses of its maps. -/
def rawTree : Tree := .obj 1 [("definitions", .obj 2 [("n", .obj 3 [("type", .str "string")])]),
  ("properties", .obj 4 [("a", .obj 5 [("$ref", .str "#/definitions/n")])])]

/-- The same in memory. -/
def rawCells : Cells := fun a =>
  if a = 1 then [("definitions", .map 2), ("properties", .map 4)]
  else if a = 2 then [("n", .map 3)]
  else if a = 3 then [("type", .str "string")]
  else if a = 4 then [("a", .map 5)]
  else if a = 5 then [("$ref", .str "#/definitions/n")]
  else []

/-- A new loader, with the document in memory. -/
def rawState : State := { mem := rawCells, next := 6 }

theorem raw_holds : Holds rawState.mem rawTree := by
  refine holds_obj rfl fun k x hx => ?_
  simp only [List.mem_cons, Prod.mk.injEq, List.not_mem_nil, or_false] at hx
  rcases hx with ⟨rfl, rfl⟩ | ⟨rfl, rfl⟩
  · refine holds_obj rfl fun k x hx => ?_
    simp only [List.mem_cons, Prod.mk.injEq, List.not_mem_nil, or_false] at hx
    obtain ⟨rfl, rfl⟩ := hx
    refine holds_obj rfl fun k x hx => ?_
    simp only [List.mem_cons, Prod.mk.injEq, List.not_mem_nil, or_false] at hx
    obtain ⟨rfl, rfl⟩ := hx
    intro a m hn; cases hn
  · refine holds_obj rfl fun k x hx => ?_
    simp only [List.mem_cons, Prod.mk.injEq, List.not_mem_nil, or_false] at hx
    obtain ⟨rfl, rfl⟩ := hx
    refine holds_obj rfl fun k x hx => ?_
    simp only [List.mem_cons, Prod.mk.injEq, List.not_mem_nil, or_false] at hx
    obtain ⟨rfl, rfl⟩ := hx
    intro a m hn; cases hn

theorem raw_agrees (ok mem) : Agree ok { rawState with mem := mem } newSchemaLoader where
  auto := rfl
  factory := rfl
  log := rfl
  own := rfl
  none := fun k => by simp [rawState, newSchemaLoader, getKey]
  some := fun k e h => by simp [newSchemaLoader, getKey] at h

theorem raw_wf : rawTree.json.WF := wf_of _ (by decide +kernel)

end Demo

/-! The hypotheses of `C65_rewrite`, and what it says: the map at address 5 has been changed. -/
open Demo GJS.Demo in
example : Outcome (fun s' l' => s' = rawState ∧ l' = newSchemaLoader)
      (parseReferences (world []) Sched.id 20 [] rawTree.val "http://a/x" true rawState)
      (GJS.parseReferences (world []) Sched.id [] rawTree.json "http://a/x" true newSchemaLoader)
      (fun o s' D l' => o = D.2 ∧ (∃ t', t'.json = D.1 ∧ Becomes rawTree t' rawState s') ∧ Agree (fun a => a < 6) s' l') ∧
    (parseReferences (world []) Sched.id 20 [] rawTree.val "http://a/x" true rawState).2.mem 5 =
      [("$ref", .str "http://a/x#/definitions/n")] :=
  ⟨C65_rewrite _ _ natural_id _ _ rawTree _ _ _ _ _ (by decide +kernel) raw_wf (by decide) (by decide) raw_holds (raw_agrees _ _), by rfl⟩

/-! The hypotheses of `C65_getDocument`, for a document that has to be loaded. -/
open Demo GJS.Demo in
example : ∃ n0, ∀ n, n0 ≤ n → Outcome (After rawState)
    (getDocument (world [("http://a/x", rawTree.json)]) lookOf Sched.id n [] "http://a/x#/definitions/n" rawState)
    (GJS.getDocument (world [("http://a/x", rawTree.json)]) Sched.id [] "http://a/x#/definitions/n" newSchemaLoader)
    fun e s' e' l' => e.draft = e'.draft ∧ Stored s'.mem (fun a => a < s'.next) e.doc e'.doc ∧ After rawState s' l' :=
  C65_getDocument _ _ (looks _) (world_lawful fun k d h => by
    simp only [getKey, List.lookup] at h
    split at h
    · cases h; exact raw_wf
    · cases h) _ natural_id _ _ _ _ (raw_agrees _ _)

/-! What is loaded gets new maps, and the reference leads to one of them. -/
open Demo GJS.Demo in
example : ((getDocument (world [("http://a/x", rawTree.json)]) lookOf Sched.id 20 [] "http://a/x#/definitions/n" rawState).1.toOption.map
      Entry.doc, (getDocument (world [("http://a/x", rawTree.json)]) lookOf Sched.id 20 [] "http://a/x#/definitions/n" rawState).2.next) =
    (some (.map 6), 11) := by rfl

/-- C65, witness that the URL does not matter the second time: one Go value given to `AddSchema` under two
URLs.  Under the second URL the loader has a document that refers to the first; two copies would each refer
to themselves. -/
theorem C65_two_urls_witness :
    let w := GJS.Demo.world []
    let s1 := (parseReferences w Sched.id 20 [] Demo.rawTree.val "http://a/x" true Demo.rawState).2
    let s2 := (parseReferences w Sched.id 20 [] Demo.rawTree.val "http://b/y" true s1).2
    let l1 := (GJS.parseReferences w Sched.id [] Demo.rawTree.json "http://a/x" true newSchemaLoader).2
    let l2 := (GJS.parseReferences w Sched.id [] Demo.rawTree.json "http://b/y" true l1).2
    (getKey "http://b/y" s2.pool).bind (fun e => Demo.lookOf "#/properties/a" s2.mem e.doc) = some (.map 5) ∧
      s2.mem 5 = [("$ref", .str "http://a/x#/definitions/n")] ∧
      (getKey "http://b/y" l2.pool).bind (fun e => w.pointer "#/properties/a" e.doc) =
        some (.obj [("$ref", .str "http://b/y#/definitions/n")]) := by
  refine ⟨rfl, rfl, rfl⟩

/-- C65, witness that loaders are not separate: a Go value compiled by one loader and then given to
`AddSchema` of another.  What the first loader has under the empty URL has changed: its reference leads to
the URL that only the second loader knows. -/
theorem C65_shared_witness :
    let w := GJS.Demo.world []
    let s1 := (parseReferences w Sched.id 20 [] Demo.rawTree.val "" true Demo.rawState).2
    let s2 := (parseReferences w Sched.id 20 [] Demo.rawTree.val "http://b/y" true { Demo.rawState with mem := s1.mem, next := s1.next }).2
    (getKey "" s1.pool).bind (fun e => Demo.lookOf "#/properties/a" s1.mem e.doc) = some (.map 5) ∧
      s1.mem 5 = [("$ref", .str "#/definitions/n")] ∧
      s2.mem 5 = [("$ref", .str "http://b/y#/definitions/n")] ∧ getKey "http://b/y" s1.pool = none := by
  refine ⟨rfl, rfl, rfl, rfl⟩

/-! The hypotheses of `C65_first_url`, for two loaders. -/
open Demo GJS.Demo in
example : ∃ t', RwStrict (world []) "http://a/x" rawTree.json t'.json ∧ t'.val = rawTree.val ∧
    Holds (parseReferences (world []) Sched.id 20 [] rawTree.val "http://b/y" true
      { rawState with mem := (parseReferences (world []) Sched.id 20 [] rawTree.val "http://a/x" true rawState).2.mem }).2.mem t' := by
  obtain ⟨t', h1, h2, h3, _⟩ := C65_first_url (world []) _ (firm []) "http://a/x" "http://b/y" (by decide +kernel) Sched.id Sched.id
    natural_id natural_id 20 20 [] [] rawTree true true rawState
    (parseReferences (world []) Sched.id 20 [] rawTree.val "http://a/x" true rawState).2
    { rawState with mem := (parseReferences (world []) Sched.id 20 [] rawTree.val "http://a/x" true rawState).2.mem } _ newSchemaLoader newSchemaLoader (fun _ => True) (fun _ => True)
    (by decide +kernel) (by decide +kernel) raw_wf (by decide) (fun _ _ => trivial) (fun _ _ => trivial) raw_holds (raw_agrees _ _)
    (by decide +kernel) (fun k _ => rfl) rfl rfl (raw_agrees _ _) (by decide +kernel) (fun k _ => rfl) rfl
  exact ⟨t', h1, h2, h3⟩

/-! The hypotheses of `C65_again` and `C65_again_accepted`, for a recursive document with identifiers. -/
example (v : Json) (b b' : Bool) (h : Gives (GJS.Demo.world []) newSchemaLoader GJS.Demo.family v b)
    (h' : Gives (GJS.Demo.world []) newSchemaLoader (absRefs (GJS.Demo.world []) "" GJS.Demo.family) v b') : b = b' :=
  C65_again (GJS.Demo.world []) GJS.Demo.baseOf_idem (Demo.lasting []) newSchemaLoader GJS.Demo.new_setting ⟨rfl, rfl⟩ _ _
    GJS.Demo.family_wf (absRefs_rw _ _) (GJS.Demo.family_self.closed (GJS.Demo.world_standard []).pointer
      (by intro k e h; simp [newSchemaLoader, getKey] at h)) v b b' h h'

example : ∃ n, ∀ (σ σ' : Sched) (fuel fuel' : Fuel) (p p' : Path), n ≤ fuel.parse → n ≤ fuel'.parse →
    (Accepts (GJS.Demo.world []) σ fuel p newSchemaLoader GJS.Demo.family ↔
      Accepts (GJS.Demo.world []) σ' fuel' p' newSchemaLoader (absRefs (GJS.Demo.world []) "" GJS.Demo.family)) ∧
    (Refuses (GJS.Demo.world []) σ fuel p newSchemaLoader GJS.Demo.family ↔
      Refuses (GJS.Demo.world []) σ' fuel' p' newSchemaLoader (absRefs (GJS.Demo.world []) "" GJS.Demo.family)) :=
  C65_again_accepted (GJS.Demo.world []) (GJS.Demo.world_standard _) GJS.Demo.baseOf_idem GJS.Demo.fmtOK (Demo.lasting [])
    newSchemaLoader GJS.Demo.new_setting ⟨rfl, rfl⟩ rfl (by intro k e h; simp [newSchemaLoader, getKey] at h) _ _
    ⟨GJS.Demo.family_wf, GJS.Demo.tame_of (by decide +kernel)⟩ (absRefs_rw _ _)
    (GJS.Demo.family_self.closed (GJS.Demo.world_standard []).pointer (by intro k e h; simp [newSchemaLoader, getKey] at h))
    GJS.Demo.family_alone

end GJS.Mem

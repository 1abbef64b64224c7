import Verif.LemMetaPool
import Verif.LemMetaExact
import Verif.LemMetaBack
import Verif.LemMeta
import Verif.LemPanic
import Verif.LemDocFault
/-
Helper lemmas: what references stand for in a compilation of a built-in meta-schema.
-/
namespace GJS
open Spec

section
variable {w : World} {u : String} {d : Draft} {l : LState}

/-- What a reference of the meta-schema stands for. -/
theorem meta_resolved (h : MetaWorld w u) (hk : Known u d) (hc : Clean w u d l) {t o D} (ht : w.base t = u)
    (hr : ResolvedAs w l t o D) : w.pointer t (Meta.absolute u d) = some D ∧ (o = none ∨ o = some d) := by
  cases hr with
  | entry e he => exact hc _ _ ht he
  | inside e D he hp =>
    rw [ht] at he
    obtain ⟨h1, h2⟩ := clean_main h hc he
    rw [h1] at hp; exact ⟨hp, h2⟩
  | fetched n f doc e D _ _ he hp =>
    rw [ht] at he
    obtain ⟨h1, _⟩ := clean_main h hc he
    rw [h1] at hp ⊢
    exact ⟨hp, .inr (known_declared h hk).2⟩
  | loaded n f doc D hl _ hb _ =>
    rw [known_load h hk ht hl] at hb
    have := hb.draft
    rw [(known_declared h hk).1] at this
    cases this

theorem meta_root (h : MetaWorld w u) (hk : Known u d) (hc : Clean w u d l) {M} (hr : RootDoc w l (.reference u 0) M) :
    M = Meta.absolute u d := by
  obtain ⟨r, h1, h2⟩ := hr
  have h1 : w.norm u = some r := h1
  rw [h.self.1] at h1
  cases h1
  rcases h2 with ⟨_, h2⟩ | ⟨h2, _⟩
  · have hp : ∃ o, ResolvedAs w l u o M := by
      cases h2 with
      | entry e he => exact ⟨_, .entry e he⟩
      | inside e D he hp => exact ⟨_, .inside e _ he hp⟩
      | loaded n f doc D a b c e => exact ⟨_, .loaded n f doc _ a b c e⟩
    obtain ⟨o, hp⟩ := hp
    have := (meta_resolved h hk hc h.self.2.1 hp).1
    rw [h.self.2.2.2] at this
    exact (Option.some.inj this).symm
  · exact absurd h2 (known_ne hk)

theorem within_sub {m D'} (hs : SubSchema d m D') : Within (.obj m) D' := by
  have key : ∀ {k v x}, Kw m k v → Within v x → Within (.obj m) x :=
    fun hk hx => .member _ _ _ _ (lookup_some_mem hk) hx
  have inObj : ∀ {ps : List (String × Json)} {k D}, (k, D) ∈ ps → Within (.obj ps) D := fun h => .member _ _ _ _ h (.self _)
  have inArr : ∀ {xs : List Json} {D}, D ∈ xs → Within (.arr xs) D := fun h => .elem _ _ _ h (.self _)
  cases hs <;> first
    | exact key ‹_› (.self _)
    | exact key ‹_› (inObj ‹_›)
    | exact key ‹_› (inArr ‹_›)

theorem known_defs {s X} (hk : Known u d) (hX : (s, X) ∈ Meta.defs d (Meta.ref u) fun s => Meta.ref (Meta.part u s)) :
    ∃ m ds, Meta.absolute u d = .obj m ∧ Kw m "definitions" (.obj ds) ∧ Kw ds s X ∧ (s, X) ∈ ds ∧ s ∈ Meta.names := by
  rcases hk with ⟨_, rfl⟩ | ⟨_, rfl⟩ | ⟨_, rfl⟩
  · refine ⟨_, _, rfl, rfl, ?_, hX, ?_⟩ <;>
    · simp only [Meta.defs, Meta.defs4, if_true, show (4 : Draft) = Draft4 from rfl, List.mem_cons, List.not_mem_nil, or_false,
        Prod.mk.injEq] at hX
      rcases hX with ⟨rfl, rfl⟩ | ⟨rfl, rfl⟩ | ⟨rfl, rfl⟩ | ⟨rfl, rfl⟩ | ⟨rfl, rfl⟩ <;> first | rfl | decide
  all_goals
    refine ⟨_, _, rfl, rfl, ?_, hX, ?_⟩ <;>
    · simp only [Meta.defs, Meta.defs6, Draft4, List.mem_cons, List.not_mem_nil, or_false, Prod.mk.injEq,
        show ¬ ((6 : Draft) = 4) by decide, show ¬ ((7 : Draft) = 4) by decide, if_false] at hX
      rcases hX with ⟨rfl, rfl⟩ | ⟨rfl, rfl⟩ | ⟨rfl, rfl⟩ | ⟨rfl, rfl⟩ | ⟨rfl, rfl⟩ <;> first | rfl | decide

/-- The references of the meta-schema and what they lead to. -/
theorem metaRefs_to (h : MetaWorld w u) (hk : Known u d) {t} (ht : t ∈ metaRefs u d) :
    w.norm t = some t ∧ w.base t = u ∧ ∃ X, w.pointer t (Meta.absolute u d) = some X ∧ Within (Meta.absolute u d) X ∧
      (t = u ∧ X = Meta.absolute u d ∨
        ∃ s, t = Meta.part u s ∧ (s, X) ∈ Meta.defs d (Meta.ref u) fun s => Meta.ref (Meta.part u s)) := by
  rcases List.mem_cons.1 ht with rfl | ht
  · exact ⟨h.self.1, h.self.2.1, _, h.self.2.2.2 _, .self _, .inl ⟨rfl, rfl⟩⟩
  · obtain ⟨⟨s, X⟩, hs, rfl⟩ := List.mem_map.1 ht
    obtain ⟨m, ds, e, h1, h2, h3, h4⟩ := known_defs hk hs
    obtain ⟨p1, p2, p3⟩ := h.part s h4
    refine ⟨p1, p2, X, by rw [e]; exact p3 m ds X h1 h2, ?_, .inr ⟨s, rfl, hs⟩⟩
    rw [e]
    exact .member _ _ _ _ (lookup_some_mem h1) (.member _ _ _ _ h3 (.self _))

theorem meta_compiled (h : MetaWorld w u) (hk : Known u d) (hc : Clean w u d l) {d' D'}
    (hD : Compiled w l d (Meta.absolute u d) d' D') : d' = d ∧ Within (Meta.absolute u d) D' := by
  induction hD with
  | root => exact ⟨rfl, .self _⟩
  | sub d' m D' _ hs ih => exact ⟨ih.1, within_trans ih.2 (within_sub hs)⟩
  | definition d' m ps k D' _ hm hp ih =>
    exact ⟨ih.1, within_trans ih.2 (.member _ _ _ _ (lookup_some_mem hm) (.member _ _ _ _ hp (.self _)))⟩
  | ref d' m t v o D' _ hm hn hr ih =>
    obtain ⟨h1, h2, X, h3, h4, _⟩ := metaRefs_to h hk (known_refs hk ih.2 hm)
    rw [h1] at hn; cases hn
    obtain ⟨g1, g2⟩ := meta_resolved h hk hc h2 hr
    rw [h3] at g1; cases g1
    refine ⟨?_, h4⟩
    rcases g2 with rfl | rfl
    · exact ih.1
    · rfl

/-- The references of a compiled meta-schema lead where they should, if anywhere. -/
theorem meta_refsAre (h : MetaWorld w u) (hk : Known u d) (hc : Clean w u d l) {R : String → Option (Draft × Json)}
    (hR : ∀ t d' D', R t = some (d', D') → ∃ u', w.norm t = some u' ∧ ReadAs w l d (Meta.absolute u d) u' d' D') :
    RefsAre R d u (Meta.part u) (Meta.absolute u d) (Meta.defs d (Meta.ref u) fun s => Meta.ref (Meta.part u s)) := by
  have key : ∀ t, t ∈ metaRefs u d → ∀ X, w.pointer t (Meta.absolute u d) = some X → RefIs R d t X := by
    intro t ht X hX d' D' hd
    obtain ⟨u', h1, o, h2, h3, h4⟩ := hR t d' D' hd
    obtain ⟨g1, g2, _⟩ := metaRefs_to h hk ht
    rw [g1] at h1; cases h1
    obtain ⟨k1, k2⟩ := meta_resolved h hk hc g2 h2
    rw [hX] at k1; cases k1
    refine ⟨?_, rfl⟩
    rcases k2 with rfl | rfl
    · obtain ⟨m, t', k3, _⟩ := h4 rfl
      exact (meta_compiled h hk hc k3).1
    · exact h3 d rfl
  refine ⟨key u (List.mem_cons_self ..) _ (h.self.2.2.2 _), fun s X hX => ?_⟩
  have hm : Meta.part u s ∈ metaRefs u d := List.mem_cons_of_mem _ (List.mem_map.2 ⟨(s, X), hX, rfl⟩)
  obtain ⟨m, ds, e, h1, h2, h3, h4⟩ := known_defs hk hX
  exact key _ hm X (by rw [e]; exact (h.part s h4).2.2 m ds X h1 h2)

/-- If moreover all references used lead somewhere, all references of the meta-schema do. -/
theorem meta_refsHave (hk : Known u d) {R : String → Option (Draft × Json)}
    (hA : RefsAre R d u (Meta.part u) (Meta.absolute u d) (Meta.defs d (Meta.ref u) fun s => Meta.ref (Meta.part u s)))
    (hU : ∀ d' m t, Used R d (Meta.absolute u d) d' (.obj m) → Kw m "$ref" (.str t) → R t ≠ none) :
    RefsHave R d u (Meta.part u) (Meta.absolute u d) (Meta.defs d (Meta.ref u) fun s => Meta.ref (Meta.part u s)) := by
  have have_ : ∀ {t X}, RefIs R d t X → Used R d (Meta.absolute u d) d (Meta.ref t) → R t = some (d, X) := by
    intro t X h1 h2
    cases hr : R t with
    | none => exact absurd hr (hU d _ t h2 rfl)
    | some x => obtain ⟨a, b⟩ := h1 x.1 x.2 hr; rw [← a, ← b]
  obtain ⟨h0, hs⟩ := hA
  rcases hk with ⟨_, rfl⟩ | ⟨_, rfl⟩ | ⟨_, rfl⟩
  · have prop : ∀ k X, (k, X) ∈ Meta.props4 (Meta.ref u) (fun s => Meta.ref (Meta.part u s)) → Used R Draft4 (Meta.absolute u Draft4) Draft4 X :=
      fun k X hX => .sub _ _ _ .root rfl (.property _ k X rfl hX)
    refine ⟨have_ h0 (prop "not" _ (by simp [Meta.props4])), fun s X hX => have_ (hs s X hX) ?_⟩
    replace hX : (s, X) ∈ Meta.defs4 (Meta.ref u) fun s => Meta.ref (Meta.part u s) := hX
    simp only [Meta.defs4, List.mem_cons, List.not_mem_nil, or_false, Prod.mk.injEq] at hX
    rcases hX with ⟨rfl, rfl⟩ | ⟨rfl, rfl⟩ | ⟨rfl, rfl⟩ | ⟨rfl, rfl⟩ | ⟨rfl, rfl⟩
    · exact prop "allOf" _ (by simp [Meta.props4])
    · exact prop "maxLength" _ (by simp [Meta.props4])
    · exact prop "minLength" _ (by simp [Meta.props4])
    · obtain ⟨m, Ds, h1, h2, h3⟩ : ∃ m Ds, ("type", Json.obj m) ∈ Meta.props4 (Meta.ref u) (fun s => Meta.ref (Meta.part u s)) ∧
          getKey "$ref" m = none ∧ Kw m "anyOf" (.arr (Meta.ref (Meta.part u "simpleTypes") :: Ds)) :=
        ⟨_, _, lookup_some_mem (l := Meta.props4 (Meta.ref u) (fun s => Meta.ref (Meta.part u s))) rfl, rfl, rfl⟩
      exact .sub _ _ _ (prop "type" _ h1) h2 (.anyOf _ _ h3 (List.mem_cons_self ..))
    · exact prop "required" _ (by simp [Meta.props4])
  · have prop : ∀ k X, (k, X) ∈ Meta.props6 (Meta.ref u) (fun s => Meta.ref (Meta.part u s)) → Used R Draft6 (Meta.absolute u Draft6) Draft6 X :=
      fun k X hX => .sub _ _ _ .root rfl (.property _ k X rfl hX)
    refine ⟨have_ h0 (prop "not" _ (by simp [Meta.props6])), fun s X hX => have_ (hs s X hX) ?_⟩
    replace hX : (s, X) ∈ Meta.defs6 (Meta.ref u) fun s => Meta.ref (Meta.part u s) := hX
    simp only [Meta.defs6, List.mem_cons, List.not_mem_nil, or_false, Prod.mk.injEq] at hX
    rcases hX with ⟨rfl, rfl⟩ | ⟨rfl, rfl⟩ | ⟨rfl, rfl⟩ | ⟨rfl, rfl⟩ | ⟨rfl, rfl⟩
    · exact prop "allOf" _ (by simp [Meta.props6])
    · exact prop "maxLength" _ (by simp [Meta.props6])
    · exact prop "minLength" _ (by simp [Meta.props6])
    · obtain ⟨m, Ds, h1, h2, h3⟩ : ∃ m Ds, ("type", Json.obj m) ∈ Meta.props6 (Meta.ref u) (fun s => Meta.ref (Meta.part u s)) ∧
          getKey "$ref" m = none ∧ Kw m "anyOf" (.arr (Meta.ref (Meta.part u "simpleTypes") :: Ds)) :=
        ⟨_, _, lookup_some_mem (l := Meta.props6 (Meta.ref u) (fun s => Meta.ref (Meta.part u s))) rfl, rfl, rfl⟩
      exact .sub _ _ _ (prop "type" _ h1) h2 (.anyOf _ _ h3 (List.mem_cons_self ..))
    · exact prop "required" _ (by simp [Meta.props6])
  · have prop : ∀ k X, (k, X) ∈ Meta.props7 (Meta.ref u) (fun s => Meta.ref (Meta.part u s)) → Used R Draft7 (Meta.absolute u Draft7) Draft7 X :=
      fun k X hX => .sub _ _ _ .root rfl (.property _ k X rfl hX)
    refine ⟨have_ h0 (prop "not" _ (by simp [Meta.props7])), fun s X hX => have_ (hs s X hX) ?_⟩
    replace hX : (s, X) ∈ Meta.defs6 (Meta.ref u) fun s => Meta.ref (Meta.part u s) := hX
    simp only [Meta.defs6, List.mem_cons, List.not_mem_nil, or_false, Prod.mk.injEq] at hX
    rcases hX with ⟨rfl, rfl⟩ | ⟨rfl, rfl⟩ | ⟨rfl, rfl⟩ | ⟨rfl, rfl⟩ | ⟨rfl, rfl⟩
    · exact prop "allOf" _ (by simp [Meta.props7])
    · exact prop "maxLength" _ (by simp [Meta.props7])
    · exact prop "minLength" _ (by simp [Meta.props7])
    · obtain ⟨m, Ds, h1, h2, h3⟩ : ∃ m Ds, ("type", Json.obj m) ∈ Meta.props7 (Meta.ref u) (fun s => Meta.ref (Meta.part u s)) ∧
          getKey "$ref" m = none ∧ Kw m "anyOf" (.arr (Meta.ref (Meta.part u "simpleTypes") :: Ds)) :=
        ⟨_, _, lookup_some_mem (l := Meta.props7 (Meta.ref u) (fun s => Meta.ref (Meta.part u s))) rfl, rfl, rfl⟩
      exact .sub _ _ _ (prop "type" _ h1) h2 (.anyOf _ _ h3 (List.mem_cons_self ..))
    · exact prop "required" _ (by simp [Meta.props7])

/-- The meta-schema says what `MetaValid` says. -/
theorem meta_sound (hk : Known u d) {env : Env} (hf : FmtOK env.fmtF64) (hz : env.ratOk ⟨false, 0, [], none⟩ = true) {R : String → Option (Draft × Json)}
    (hA : RefsAre R d u (Meta.part u) (Meta.absolute u d) (Meta.defs d (Meta.ref u) fun s => Meta.ref (Meta.part u s)))
    {n D} (hD : D.WF) (h : docUnfold env R Nothing n d (Meta.absolute u d) D) : MetaValid env d D := by
  rcases hk with ⟨_, rfl⟩ | ⟨_, rfl⟩ | ⟨_, rfl⟩
  · exact meta4_sound hf hA n D hD h
  · exact meta6_sound hf hz hA n D hD h
  · exact meta7_sound hf hz hA n D hD h

theorem meta_complete (hk : Known u d) {env : Env} (hf : FmtOK env.fmtF64) (hz : env.ratOk ⟨false, 0, [], none⟩ = true) {R : String → Option (Draft × Json)}
    (hA : RefsHave R d u (Meta.part u) (Meta.absolute u d) (Meta.defs d (Meta.ref u) fun s => Meta.ref (Meta.part u s)))
    {D} (h : MetaValid env d D) (P) (n) (hn : metaDepth D ≤ n) : docUnfold env R P n d (Meta.absolute u d) D := by
  rcases hk with ⟨_, rfl⟩ | ⟨_, rfl⟩ | ⟨_, rfl⟩
  · exact meta4_complete hf hA D h n hn
  · exact meta6_complete hf hz hA D h n hn
  · exact meta7_complete hf hz hA D h n hn

/-- The draft the meta-schema itself is read under. -/
theorem meta_draft (h : MetaWorld w u) (hk : Known u d) {l0 D} (hm : MetaFor w l0 D u) (hs : SameSettings l0 l) :
    draftFor w l (Meta.absolute u d) = d := by
  unfold draftFor
  split
  · rw [(known_declared h hk).2]; rfl
  · rename_i ha
    rw [hs.1] at ha
    cases hm with
    | declared _ _ _ h1 => exact absurd h1 ha
    | default _ _ _ h1 =>
      rw [hs.2]
      rcases hk with ⟨rfl, rfl⟩ | ⟨rfl, rfl⟩ | ⟨rfl, rfl⟩ <;> rcases h1 with ⟨h, h'⟩ | ⟨h, h'⟩ | ⟨h, h'⟩ <;>
        first | exact h' | exact absurd h (by decide)

/-- What conforms to the meta-schema has the shape of a schema. -/
theorem conforms_shape (h : MetaWorld w u) (hk : Known u d) (hf : FmtOK w.env.fmtF64) (hc : Clean w u d l)
    (hd : draftFor w l (Meta.absolute u d) = d) {D} (hD : D.WF) (hC : Conforms w l u D) : MetaValid w.env d D := by
  obtain ⟨M, R, n, h1, h2, h3, h4⟩ := hC
  cases meta_root h hk hc h1
  rw [hd] at h2 h3 h4
  exact meta_sound hk hf h.zero (meta_refsAre h hk hc h2) hD (h4 _)

theorem checkDocument_meta {σ : Sched} {fuel : Fuel} {s : Schema} {D : Json} {es l'}
    (h : checkDocument w σ fuel s D l = (.error (.err (.metaSchema es)), l')) :
    ∃ r, validateDocument w.env σ s.heap fuel.validate s.root D = .ok r ∧ r.valid = false := by
  unfold checkDocument at h
  cases hr : validateDocument w.env σ s.heap fuel.validate s.root D with
  | ok r =>
    rw [hr] at h
    simp only at h
    cases hv : r.valid with
    | true => rw [hv] at h; simp [M.pure_def] at h
    | false => exact ⟨r, rfl, hv⟩
  | error e => rw [hr] at h; cases e <;> simp [M.fail] at h

/-- A compiled meta-schema refuses nothing that has the shape of a schema. -/
theorem good_complete (h : MetaWorld w u) (hk : Known u d) (hf : FmtOK w.env.fmtF64) (hc : Clean w u d l) {s : Schema} {M}
    (hM : RootDoc w l (.reference u 0) M) (g : Good w l s d M) {σ : Sched} {n D r}
    (hr : validateDocument w.env σ s.heap n s.root D = .ok r) (hD : MetaValid w.env d D) : r.valid = true := by
  cases meta_root h hk hc hM
  have hA := meta_refsAre (R := resolveIn w s.heap s.refs) h hk hc fun t d' D' ht => g.resolve ht
  have hH := meta_refsHave hk hA fun d' m t hU ht => g.resolves hU ht
  refine (g.verdict hr (docUnfold w.env (resolveIn w s.heap s.refs) Nothing (metaDepth D))).2 ?_
  rw [← docUnfold_add]
  exact meta_complete hk hf h.zero hH hD _ _ (by omega)

end

theorem argOK_foreign {w : World} {u a} (hw : Lawful w) (hA : Apart w u) (h : ForeignArg w u a) :
    ArgOK w (fun D => D.WF ∧ Foreign w u D) a := by
  cases a with
  | direct o => rintro d rfl; exact h.1 d rfl
  | reference s f => exact fun n d hl => ⟨loadReference_wf hw hl, hA _ _ _ _ (h.2 s f rfl) hl⟩

theorem argOK_compile {w : World} {u a} (hw : Lawful w) (hm : MetaWorld w u) (hA : Apart w u)
    (h : ∀ D, a = .direct (some D) → D.WF ∧ Foreign w u D) (hr : a.ref w = some "") :
    ArgOK w (fun D => D.WF ∧ Foreign w u D) a := by
  cases a with
  | direct o => rintro d rfl; exact h d rfl
  | reference s f => exact fun n d hl => clean_refsOK hw hm hA n f s d hr hl

end GJS

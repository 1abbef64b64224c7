import Verif.LemPool
import Verif.Loader
/-
Helper lemmas: loaders whose pools give the same answers behave the same.
-/
namespace GJS
open Spec

/-- The pools give the same answers, and nothing else differs. -/
structure LikeL (l l' : LState) : Prop where
  pool : ∀ k, getKey k l.pool = getKey k l'.pool
  rest : l' = { l with pool := l'.pool }

theorem LikeL.refl (l : LState) : LikeL l l := ⟨fun _ => rfl, rfl⟩

/-- Runs of the compiler over related loaders. -/
structure LikeP (L : LState → LState → Prop) (s s' : PState) : Prop where
  heap : s.heap = s'.heap
  refs : s.refs = s'.refs
  l : L s.l s'.l

/-- From related states: the same outcome, and related states. -/
structure Twin (R : τ → τ → Prop) (x y : M τ α) : Prop where
  run : ∀ s s', R s s' → (x s).1 = (y s').1 ∧ R (x s).2 (y s').2

namespace Twin
variable {R : τ → τ → Prop}

theorem pure {a : α} : Twin R (pure a) (pure a) := ⟨fun _ _ h => ⟨rfl, h⟩⟩
theorem fail {e : Fail} : Twin R (M.fail e : M τ α) (M.fail e) := ⟨fun _ _ h => ⟨rfl, h⟩⟩
theorem err {e : CErr} : Twin R (M.err e : M τ α) (M.err e) := ⟨fun _ _ h => ⟨rfl, h⟩⟩

theorem bind {x y : M τ α} {f g : α → M τ β} (h : Twin R x y) (h' : ∀ a, Twin R (f a) (g a)) : Twin R (x >>= f) (y >>= g) := by
  refine ⟨fun s s' hs => ?_⟩
  obtain ⟨h1, h2⟩ := h.run s s' hs
  show (M.seq x f s).1 = (M.seq y g s').1 ∧ R (M.seq x f s).2 (M.seq y g s').2
  unfold M.seq
  rcases hx : x s with ⟨r, t⟩
  rcases hy : y s' with ⟨r', t'⟩
  rw [hx, hy] at h1 h2
  simp only at h1 h2
  subst h1
  cases r with
  | ok a => exact (h' a).run _ _ h2
  | error e => exact ⟨rfl, h2⟩

theorem getBind {f g : τ → M τ β} (h : ∀ s s', R s s' → Twin R (f s) (g s')) : Twin R (M.get >>= f) (M.get >>= g) :=
  ⟨fun s s' hs => (h s s' hs).run s s' hs⟩

theorem modify {f g : τ → τ} (h : ∀ s s', R s s' → R (f s) (g s')) : Twin R (M.modify f) (M.modify g) :=
  ⟨fun s s' hs => ⟨rfl, h s s' hs⟩⟩

theorem mapL {f g : Nat → α → M τ β} (h : ∀ k x, Twin R (f k x) (g k x)) : ∀ {k xs}, Twin R (GJS.mapL f k xs) (GJS.mapL g k xs) := by
  intro k xs
  induction xs generalizing k with
  | nil => exact .pure
  | cons x xs ih => exact .bind (h k x) fun y => .bind ih fun ys => .pure

theorem ite {c : Prop} [Decidable c] {x y x' y' : M τ α} (h : Twin R x x') (h' : Twin R y y') :
    Twin R (if c then x else y) (if c then x' else y') := by
  split
  · exact h
  · exact h'

theorem isKind {env v ks} : Twin R (GJS.isKind env v ks) (GJS.isKind env v ks) := by
  unfold GJS.isKind
  split
  · split
    · exact .pure
    · exact .fail
  · exact .pure

end Twin

/-! ### The pool -/

macro "alike" : tactic => `(tactic| repeat' (first
  | with_reducible exact Twin.pure
  | with_reducible exact Twin.fail
  | with_reducible exact Twin.err
  | with_reducible exact Twin.isKind
  | with_reducible assumption
  | with_reducible apply Twin.bind
  | with_reducible apply Twin.mapL
  | intro _
  | split))

section
variable {w : World} {σ : Sched} {R : τ → τ → Prop}

theorem parseSchemaURL_alike {doc} : Twin R (parseSchemaURL w doc) (parseSchemaURL w doc) := by
  unfold parseSchemaURL; alike

theorem idText_alike {m} : Twin R (idText w m) (idText w m) := by
  unfold idText; simp only; alike

theorem idScope_alike {ref id} : Twin R (idScope w ref id) (idScope w ref id) := by
  unfold idScope; alike

theorem rewriteRef_alike {ref m} : Twin R (rewriteRef w ref m) (rewriteRef w ref m) := by
  unfold rewriteRef; alike

theorem rangeKV_alike {f : Nat → String → Json → M τ Json} (h : ∀ i k v, Twin R (f i k v) (f i k v)) :
    ∀ {l i m}, Twin R (rangeKV f i l m) (rangeKV f i l m) := by
  intro l
  induction l with
  | nil => intro i m; exact .pure
  | cons kv l ih =>
    obtain ⟨k, v⟩ := kv
    intro i m
    unfold rangeKV
    exact .bind (h _ _ _) fun _ => ih

theorem same_exists {l l' : LState} (h : LikeL l l') (k : String) : existsMapKey l.pool k = existsMapKey l'.pool k := by
  unfold existsMapKey
  rw [h.pool]

theorem same_put {l l' : LState} (h : LikeL l l') (k : String) (d : PoolDoc) :
    LikeL { l with pool := putKey k d l.pool } { l' with pool := putKey k d l'.pool } := by
  refine ⟨fun q => ?_, ?_⟩
  · by_cases hq : q = k
    · subst hq; rw [getKey_putKey_self, getKey_putKey_self]
    · rw [getKey_putKey_ne hq, getKey_putKey_ne hq, h.pool]
  · have := h.rest
    rw [this]

theorem inPool_alike {k} : Twin LikeL (inPool k) (inPool k) := by
  refine .getBind fun l l' h => ?_
  rw [same_exists h]
  exact .pure

theorem putPool_alike {k d} : Twin LikeL (putPool k d) (putPool k d) := .modify fun _ _ h => same_put h k d

theorem register_alike {o d} : Twin LikeL (register o d) (register o d) := by
  unfold register
  split
  · exact putPool_alike
  · exact .pure

theorem taken_alike {o} : Twin LikeL (taken o) (taken o) := by
  unfold taken
  split
  · exact inPool_alike
  · exact .pure

theorem rewriteMember_alike {rec : Path → String → Json → M LState Json} {R} (h : ∀ p r v, Twin R (rec p r v) (rec p r v)) {p r k v} :
    Twin R (rewriteMember σ rec p r k v) (rewriteMember σ rec p r k v) := by
  unfold rewriteMember
  split
  · exact .pure
  · split
    · split
      · exact .bind (rangeKV_alike fun i k x => h _ _ _) fun _ => .pure
      · exact .pure
    · exact h _ _ _

theorem rewrite_alike {draft} : ∀ n p ref doc, Twin LikeL (rewrite w σ draft n p ref doc) (rewrite w σ draft n p ref doc) := by
  intro n
  induction n with
  | zero => intro p ref doc; exact .fail
  | succ n ih =>
    intro p ref doc
    unfold rewrite
    cases doc with
    | arr xs => exact .bind (.mapL fun k x => .bind (ih _ _ _) fun _ => .pure) fun _ => .pure
    | obj m =>
      show Twin _ (rewriteObj _ _ _ _ _ _ _) (rewriteObj _ _ _ _ _ _ _)
      unfold rewriteObj
      refine .bind idText_alike fun id => .bind idScope_alike fun sc => .bind taken_alike fun t => ?_
      split
      · exact .pure
      · exact .bind register_alike fun _ => .bind rewriteRef_alike fun m1 =>
          .bind (rangeKV_alike fun i k v => rewriteMember_alike fun _ _ _ => .bind (ih _ _ _) fun _ => .pure) fun _ =>
            .bind register_alike fun _ => .pure
    | _ => exact .pure

theorem detectDraft_alike {doc} : Twin LikeL (detectDraft w doc) (detectDraft w doc) := by
  refine .getBind fun l l' h => ?_
  rw [h.rest]
  split
  · exact .bind parseSchemaURL_alike fun _ => .pure
  · exact .pure

theorem putIf_alike {b k d} : Twin LikeL (putIf b k d) (putIf b k d) := by
  unfold putIf
  split
  · exact putPool_alike
  · exact .pure

theorem parseReferences_alike {p doc ref pooled} : Twin LikeL (parseReferences w σ p doc ref pooled) (parseReferences w σ p doc ref pooled) := by
  unfold parseReferences
  refine .bind inPool_alike fun b => ?_
  split
  · exact .pure
  · exact .bind detectDraft_alike fun _ => .bind (rewrite_alike _ _ _ _) fun _ => .bind putIf_alike fun _ => .pure

theorem same_fields {l l' : LState} (h : LikeL l l') :
    l'.factory = l.factory ∧ l'.autoDetect = l.autoDetect ∧ l'.validate = l.validate ∧ l'.draft = l.draft ∧ l'.log = l.log ∧
      l'.own = l.own ∧ l'.clock = l.clock := by
  rw [h.rest]
  exact ⟨rfl, rfl, rfl, rfl, rfl, rfl, rfl⟩

theorem fetch_alike {r} : Twin LikeL (fetch w r) (fetch w r) := by
  refine ⟨fun l l' h => ?_⟩
  obtain ⟨h1, h2, h3, h4, h5, h6, h7⟩ := same_fields h
  unfold fetch
  simp only [h1, h5, h7]
  have k : LikeL { l with log := l.log ++ [(l.factory, r)] } { l' with factory := l.factory, log := l.log ++ [(l.factory, r)] } :=
    ⟨h.pool, by rw [h.rest]⟩
  split <;> exact ⟨rfl, k⟩

theorem parseReferencesIgnore_alike {p doc ref} : Twin LikeL (parseReferencesIgnore w σ p doc ref) (parseReferencesIgnore w σ p doc ref) := by
  refine ⟨fun l l' h => ?_⟩
  obtain ⟨h1, h2⟩ := (parseReferences_alike (w := w) (σ := σ) (p := p) (doc := doc) (ref := ref) (pooled := true)).run l l' h
  unfold parseReferencesIgnore
  rcases hx : parseReferences w σ p doc ref true l with ⟨r, t⟩
  rcases hy : parseReferences w σ p doc ref true l' with ⟨r', t'⟩
  rw [hx, hy] at h1 h2
  simp only at h1 h2
  subst h1
  rcases r with (e | _ | _) | x <;> exact ⟨rfl, h2⟩

theorem schemaDraftIgnore_alike {doc} : Twin LikeL (schemaDraftIgnore w doc) (schemaDraftIgnore w doc) := by
  refine ⟨fun l l' h => ?_⟩
  obtain ⟨h1, h2⟩ := (parseSchemaURL_alike (w := w) (doc := doc)).run l l' h
  unfold schemaDraftIgnore
  rcases hx : parseSchemaURL w doc l with ⟨r, t⟩
  rcases hy : parseSchemaURL w doc l' with ⟨r', t'⟩
  rw [hx, hy] at h1 h2
  simp only at h1 h2
  subst h1
  rcases r with (e | _ | _) | x <;> exact ⟨rfl, h2⟩

theorem poolGet_alike {k} : Twin LikeL (poolGet k) (poolGet k) := by
  refine .getBind fun l l' h => ?_
  rw [h.pool]
  exact .pure

theorem pointerGet_alike {r doc} : Twin LikeL (pointerGet w r doc) (pointerGet w r doc) := by
  unfold pointerGet; alike

theorem getDocument_alike {p r} : Twin LikeL (getDocument w σ p r) (getDocument w σ p r) := by
  unfold getDocument getCached getRemote
  refine .bind poolGet_alike fun e => ?_
  split
  · exact .pure
  · refine .bind poolGet_alike fun e => ?_
    split
    · exact .bind pointerGet_alike fun _ => .bind putPool_alike fun _ => .pure
    · split
      · exact .err
      · exact .bind fetch_alike fun _ => .bind parseReferencesIgnore_alike fun _ => .bind schemaDraftIgnore_alike fun _ =>
          .bind pointerGet_alike fun _ => .pure

/-! ### The compiler -/

variable {L : LState → LState → Prop}

theorem liftL_alike {x y : M LState α} (h : Twin L x y) : Twin (LikeP L) (liftL x) (liftL y) := by
  refine ⟨fun s s' hs => ?_⟩
  obtain ⟨h1, h2⟩ := h.run _ _ hs.l
  exact ⟨h1, hs.heap, hs.refs, h2⟩

theorem alloc_alike {doc d} : Twin (LikeP L) (alloc doc d) (alloc doc d) := by
  refine ⟨fun s s' hs => ⟨?_, ?_, hs.refs, hs.l⟩⟩
  · simp only [alloc, hs.heap]
  · simp only [alloc, hs.heap]

theorem setNode_alike {c n} : Twin (LikeP L) (setNode c n) (setNode c n) :=
  .modify fun _ _ hs => ⟨by simp only [hs.heap], hs.refs, hs.l⟩

theorem refGet_alike {r} : Twin (LikeP L) (refGet r) (refGet r) := by
  refine .getBind fun s s' hs => ?_
  rw [hs.refs]
  exact .pure

theorem refAdd_alike {r c} : Twin (LikeP L) (refAdd r c) (refAdd r c) := by
  refine .modify fun s s' hs => ?_
  rw [hs.refs]
  split
  · exact hs
  · exact ⟨hs.heap, rfl, hs.l⟩

/-- Recursive calls that do the same. -/
def RecAlike (L : LState → LState → Prop) (r r' : PRec) : Prop :=
  ∀ p pid id0 doc d c, Twin (LikeP L) (r p pid id0 doc d c) (r' p pid id0 doc d c)

variable {r r' : PRec} {p : Path} {id : String} {d : Draft} {m : List (String × Json)}

theorem child_alike (h : RecAlike L r r') {D} : Twin (LikeP L) (child r p id d D) (child r' p id d D) :=
  .bind alloc_alike fun _ => .bind (h _ _ _ _ _ _) fun _ => .pure

theorem addType_alike {R : PState → PState → Prop} {ts t} : Twin R (addType ts t) (addType ts t) := by unfold addType; alike

theorem typeLoop_alike {R : PState → PState → Prop} : ∀ {vs ts}, Twin R (typeLoop ts vs) (typeLoop ts vs) := by
  intro vs
  induction vs with
  | nil => intro ts; exact .pure
  | cons v vs ih =>
    intro ts
    unfold typeLoop
    split
    · exact .err
    · split
      · exact .bind addType_alike fun _ => ih
      · exact .fail

theorem depKeys_alike {R : PState → PState → Prop} : ∀ {vs}, Twin R (depKeys w vs) (depKeys w vs) := by
  intro vs
  induction vs with
  | nil => exact .pure
  | cons v vs ih => unfold depKeys; alike

theorem requiredLoop_alike {R : PState → PState → Prop} : ∀ {vs ts}, Twin R (requiredLoop w ts vs) (requiredLoop w ts vs) := by
  intro vs
  induction vs with
  | nil => intro ts; exact .pure
  | cons v vs ih =>
    intro ts
    unfold requiredLoop
    refine .bind .isKind fun _ => ?_
    split
    · split
      · split
        · exact .err
        · exact ih
      · exact .fail
    · exact .err

theorem enumLoop_alike {R : PState → PState → Prop} : ∀ {vs ts}, Twin R (enumLoop w ts vs) (enumLoop w ts vs) := by
  intro vs
  induction vs with
  | nil => intro ts; exact .pure
  | cons v vs ih =>
    intro ts
    unfold enumLoop
    split
    · exact .err
    · split
      · exact .err
      · exact ih

macro "alikes" h:ident : tactic => `(tactic| repeat' (first
  | with_reducible exact Twin.pure
  | with_reducible exact Twin.fail
  | with_reducible exact Twin.err
  | with_reducible exact Twin.isKind
  | with_reducible exact child_alike $h
  | with_reducible exact addType_alike
  | with_reducible exact typeLoop_alike
  | with_reducible exact depKeys_alike
  | with_reducible exact requiredLoop_alike
  | with_reducible exact enumLoop_alike
  | with_reducible exact setNode_alike
  | with_reducible exact refGet_alike
  | with_reducible exact refAdd_alike
  | with_reducible exact alloc_alike
  | exact $h _ _ _ _ _ _
  | with_reducible apply Twin.bind
  | with_reducible apply Twin.mapL
  | intro _
  | split))

theorem kwId_alike (h : RecAlike L r r') {b pid id0} : Twin (LikeP L) (kwId w b pid id0 d m) (kwId w b pid id0 d m) := by unfold kwId; alikes h
theorem kwDefinitions_alike (h : RecAlike L r r') : Twin (LikeP L) (kwDefinitions w σ r p id d m) (kwDefinitions w σ r' p id d m) := by
  unfold kwDefinitions kwDefinition; alikes h
theorem kwText_alike (h : RecAlike L r r') {k} : Twin (LikeP L) (kwText w k m) (kwText w k m) := by unfold kwText; alikes h
theorem kwRefText_alike (h : RecAlike L r r') : Twin (LikeP L) (kwRefText w m) (kwRefText w m) := by unfold kwRefText; alikes h
theorem kwType_alike (h : RecAlike L r r') : Twin (LikeP L) (kwType w m) (kwType w m) := by unfold kwType; alikes h
theorem kwProperties_alike (h : RecAlike L r r') : Twin (LikeP L) (kwProperties w σ r p id d m) (kwProperties w σ r' p id d m) := by
  unfold kwProperties; alikes h
theorem kwExtra_alike (h : RecAlike L r r') {k} : Twin (LikeP L) (kwExtra w r p id d k m) (kwExtra w r' p id d k m) := by
  unfold kwExtra; alikes h
theorem kwPatternProperties_alike (h : RecAlike L r r') :
    Twin (LikeP L) (kwPatternProperties w σ r p id d m) (kwPatternProperties w σ r' p id d m) := by
  unfold kwPatternProperties kwPattern1; alikes h
theorem kwSchema_alike (h : RecAlike L r r') {a k e} : Twin (LikeP L) (kwSchema w r p id d a k e m) (kwSchema w r' p id d a k e m) := by
  unfold kwSchema; alikes h
theorem kwDependencies_alike (h : RecAlike L r r') : Twin (LikeP L) (kwDependencies w σ r p id d m) (kwDependencies w σ r' p id d m) := by
  unfold kwDependencies kwDependency; alikes h
theorem kwItems_alike (h : RecAlike L r r') : Twin (LikeP L) (kwItems w r p id d m) (kwItems w r' p id d m) := by
  unfold kwItems kwItem; alikes h
theorem kwMultipleOf_alike (h : RecAlike L r r') : Twin (LikeP L) (kwMultipleOf w m) (kwMultipleOf w m) := by unfold kwMultipleOf; alikes h
theorem kwBound_alike (h : RecAlike L r r') {k} : Twin (LikeP L) (kwBound w k m) (kwBound w k m) := by unfold kwBound; alikes h
theorem kwExclusive_alike (h : RecAlike L r r') {k k' b} : Twin (LikeP L) (kwExclusive w d k k' b m) (kwExclusive w d k k' b m) := by
  unfold kwExclusive exclusiveBool; alikes h
theorem kwSize_alike (h : RecAlike L r r') {k} : Twin (LikeP L) (kwSize w k m) (kwSize w k m) := by unfold kwSize; alikes h
theorem checkOrder_alike (h : RecAlike L r r') {a b e} : Twin (LikeP L) (checkOrder a b e) (checkOrder a b e) := by unfold checkOrder; alikes h
theorem kwPattern_alike (h : RecAlike L r r') : Twin (LikeP L) (kwPattern w m) (kwPattern w m) := by unfold kwPattern; alikes h
theorem kwFormat_alike (h : RecAlike L r r') : Twin (LikeP L) (kwFormat m) (kwFormat m) := by unfold kwFormat; alikes h
theorem kwRequired_alike (h : RecAlike L r r') : Twin (LikeP L) (kwRequired w m) (kwRequired w m) := by unfold kwRequired; alikes h
theorem kwUnique_alike (h : RecAlike L r r') : Twin (LikeP L) (kwUnique w m) (kwUnique w m) := by unfold kwUnique; alikes h
theorem kwContains_alike (h : RecAlike L r r') : Twin (LikeP L) (kwContains r p id d m) (kwContains r' p id d m) := by
  unfold kwContains; alikes h
theorem kwConst_alike (h : RecAlike L r r') : Twin (LikeP L) (kwConst w d m) (kwConst w d m) := by unfold kwConst; alikes h
theorem kwEnum_alike (h : RecAlike L r r') : Twin (LikeP L) (kwEnum w m) (kwEnum w m) := by unfold kwEnum; alikes h
theorem kwSchemas_alike (h : RecAlike L r r') {k e} : Twin (LikeP L) (kwSchemas w r p id d k e m) (kwSchemas w r' p id d k e m) := by
  unfold kwSchemas; alikes h

variable {g : Nat → Factory → String → Option Json}

/-- Documents are looked up alike, with other file systems at hand. -/
def GetAlike (w : World) (σ : Sched) (L : LState → LState → Prop) (g : Nat → Factory → String → Option Json) : Prop :=
  ∀ p u, Twin L (getDocument w σ p u) (getDocument { w with readFile := g } σ p u)

theorem parseReference_alike (h : RecAlike L r r') (hg : GetAlike w σ L g) {u} :
    Twin (LikeP L) (parseReference w σ r p id d u) (parseReference { w with readFile := g } σ r' p id d u) := by
  unfold parseReference
  refine .bind (liftL_alike (hg _ _)) fun e => .bind alloc_alike fun c => .bind refAdd_alike fun _ => .bind .isKind fun b => ?_
  split
  · exact .err
  · exact .bind (h _ _ _ _ _ _) fun _ => .pure

theorem parseKeywords_alike (h : RecAlike L r r') {c rs} :
    Twin (LikeP L) (parseKeywords w σ r p id d c rs m) (parseKeywords w σ r' p id d c rs m) := by
  unfold parseKeywords
  repeat' (first
    | with_reducible exact setNode_alike
    | with_reducible exact kwType_alike h
    | with_reducible exact kwProperties_alike h
    | with_reducible exact kwExtra_alike h
    | with_reducible exact kwPatternProperties_alike h
    | with_reducible exact kwSchema_alike h
    | with_reducible exact kwDependencies_alike h
    | with_reducible exact kwItems_alike h
    | with_reducible exact kwMultipleOf_alike h
    | with_reducible exact kwBound_alike h
    | with_reducible exact kwExclusive_alike h
    | with_reducible exact kwSize_alike h
    | with_reducible exact checkOrder_alike h
    | with_reducible exact kwPattern_alike h
    | with_reducible exact kwFormat_alike h
    | with_reducible exact kwRequired_alike h
    | with_reducible exact kwUnique_alike h
    | with_reducible exact kwContains_alike h
    | with_reducible exact kwConst_alike h
    | with_reducible exact kwEnum_alike h
    | with_reducible exact kwSchemas_alike h
    | with_reducible apply Twin.bind
    | intro _)

theorem depKeys_files : ∀ {vs}, depKeys { w with readFile := g } vs = depKeys w vs
  | [] => rfl
  | _ :: _ => by unfold depKeys; simp only [depKeys_files]
theorem requiredLoop_files : ∀ {vs ts}, requiredLoop { w with readFile := g } ts vs = requiredLoop w ts vs
  | [], _ => rfl
  | _ :: _, _ => by unfold requiredLoop; simp only [requiredLoop_files]
theorem enumLoop_files : ∀ {vs ts}, enumLoop { w with readFile := g } ts vs = enumLoop w ts vs
  | [], _ => rfl
  | _ :: _, _ => by unfold enumLoop; simp only [enumLoop_files]
theorem typeK_files : kwType { w with readFile := g } m = kwType w m := rfl
theorem propertiesK_files : kwProperties { w with readFile := g } σ r p id d m = kwProperties w σ r p id d m := rfl
theorem extraK_files {k} : kwExtra { w with readFile := g } r p id d k m = kwExtra w r p id d k m := rfl
theorem patternPropertiesK_files : kwPatternProperties { w with readFile := g } σ r p id d m = kwPatternProperties w σ r p id d m := rfl
theorem schemaK_files {a k e} : kwSchema { w with readFile := g } r p id d a k e m = kwSchema w r p id d a k e m := rfl
theorem dependenciesK_files : kwDependencies { w with readFile := g } σ r p id d m = kwDependencies w σ r p id d m := by
  unfold kwDependencies kwDependency; simp only [depKeys_files]
theorem itemsK_files : kwItems { w with readFile := g } r p id d m = kwItems w r p id d m := rfl
theorem multipleOfK_files : kwMultipleOf { w with readFile := g } m = kwMultipleOf w m := rfl
theorem boundK_files {k} : kwBound { w with readFile := g } k m = kwBound w k m := rfl
theorem exclusiveK_files {k k' b} : kwExclusive { w with readFile := g } d k k' b m = kwExclusive w d k k' b m := rfl
theorem sizeK_files {k} : kwSize { w with readFile := g } k m = kwSize w k m := rfl
theorem patternK_files : kwPattern { w with readFile := g } m = kwPattern w m := rfl
theorem requiredK_files : kwRequired { w with readFile := g } m = kwRequired w m := by
  unfold kwRequired; simp only [requiredLoop_files]
theorem uniqueK_files : kwUnique { w with readFile := g } m = kwUnique w m := rfl
theorem constK_files : kwConst { w with readFile := g } d m = kwConst w d m := rfl
theorem enumK_files : kwEnum { w with readFile := g } m = kwEnum w m := by unfold kwEnum; simp only [enumLoop_files]
theorem schemasK_files {k e} : kwSchemas { w with readFile := g } r p id d k e m = kwSchemas w r p id d k e m := rfl

theorem parseKeywords_files {c rs} :
    parseKeywords { w with readFile := g } σ r p id d c rs m = parseKeywords w σ r p id d c rs m := by
  unfold parseKeywords
  simp only [typeK_files, propertiesK_files, extraK_files, patternPropertiesK_files, schemaK_files, dependenciesK_files,
    itemsK_files, multipleOfK_files, boundK_files, exclusiveK_files, sizeK_files, patternK_files, requiredK_files,
    uniqueK_files, constK_files, enumK_files, schemasK_files]

theorem parseAfterRef_alike (h : RecAlike L r r') (hg : GetAlike w σ L g) {c ref} :
    Twin (LikeP L) (parseAfterRef w σ r p id d c ref m) (parseAfterRef { w with readFile := g } σ r' p id d c ref m) := by
  unfold parseAfterRef
  cases ref with
  | none => simp only [parseKeywords_files]; exact parseKeywords_alike h
  | some u =>
    simp only [parseKeywords_files]
    refine .bind refGet_alike fun o => ?_
    cases o with
    | some j => exact parseKeywords_alike h
    | none => exact .bind (parseReference_alike h hg) fun _ => setNode_alike

theorem parseStep_alike (h : RecAlike L r r') (hg : GetAlike w σ L g) {isRoot pid id0 doc c} :
    Twin (LikeP L) (parseStep w σ r isRoot p pid id0 doc d c) (parseStep { w with readFile := g } σ r' isRoot p pid id0 doc d c) := by
  unfold parseStep
  refine .bind .isKind fun b => ?_
  split
  · exact setNode_alike
  · refine .bind .isKind fun b => ?_
    split
    · exact .err
    · split
      · exact .bind (kwId_alike h) fun _ => .bind (kwDefinitions_alike h) fun _ => .bind (kwText_alike h) fun _ =>
          .bind (kwText_alike h) fun _ => .bind (kwRefText_alike h) fun _ => parseAfterRef_alike h hg
      · exact .fail

theorem parseSchema_alike (hg : GetAlike w σ L g) : ∀ n, RecAlike L (parseSchema w σ n) (parseSchema { w with readFile := g } σ n) := by
  intro n
  induction n with
  | zero => intro p pid id0 doc d c; exact .fail
  | succ n ih => intro p pid id0 doc d c; exact parseStep_alike ih hg

theorem parseRoot_alike (hg : GetAlike w σ L g) {n ref doc} :
    Twin (LikeP L) (parseRoot w σ n p ref doc d) (parseRoot { w with readFile := g } σ n p ref doc d) :=
  .bind alloc_alike fun _ => .bind (parseStep_alike (parseSchema_alike hg n) hg) fun _ => .pure

/-! ### The loader -/

theorem runParse_files (hg : GetAlike w σ L g) {fuel ref doc} :
    Twin L (runParse w σ fuel p ref doc d) (runParse { w with readFile := g } σ fuel p ref doc d) := by
  refine ⟨fun l l' h => ?_⟩
  obtain ⟨h1, h2⟩ := (parseRoot_alike hg (n := fuel.parse) (p := p) (ref := ref) (doc := doc) (d := d)).run
    { l := l } { l := l' } ⟨rfl, rfl, h⟩
  unfold runParse
  rcases hx : parseRoot w σ fuel.parse p ref doc d { l := l } with ⟨x, t⟩
  rcases hy : parseRoot { w with readFile := g } σ fuel.parse p ref doc d { l := l' } with ⟨x', t'⟩
  rw [hx, hy] at h1 h2
  simp only at h1 h2
  subst h1
  cases x with
  | error e => exact ⟨rfl, h2.l⟩
  | ok c => exact ⟨by simp only [h2.heap, h2.refs], h2.l⟩

theorem runParse_alike {fuel ref doc} : Twin LikeL (runParse w σ fuel p ref doc d) (runParse w σ fuel p ref doc d) :=
  runParse_files (g := w.readFile) fun _ _ => getDocument_alike

theorem loadJSON_alike {a} : Twin LikeL (loadJSON w a) (loadJSON w a) := by
  refine ⟨fun l l' h => ?_⟩
  obtain ⟨h1, h2, h3, h4, h5, h6, h7⟩ := same_fields h
  unfold loadJSON
  split
  · exact ⟨rfl, h⟩
  · exact ⟨rfl, h⟩
  · rename_i source fs
    simp only [h6, h7]
    have k : LikeL { l with own := l.own ++ [(fs, source)] } { l' with own := l.own ++ [(fs, source)] } :=
      ⟨h.pool, by rw [h.rest]⟩
    split <;> exact ⟨rfl, k⟩

theorem failIf_alike {x} : Twin LikeL (failIf x) (failIf x) := by unfold failIf; alike

theorem rootDocument_alike {a ref} : Twin LikeL (rootDocument w σ p a ref) (rootDocument w σ p a ref) := by
  unfold rootDocument
  split
  · exact .bind getDocument_alike fun _ => .pure
  · exact .bind loadJSON_alike fun _ => .bind parseReferences_alike fun _ => failIf_alike

theorem rootDraft_alike {doc} : Twin LikeL (rootDraft w doc) (rootDraft w doc) := by
  refine .getBind fun l l' h => ?_
  obtain ⟨h1, h2, h3, h4, h5, h6, h7⟩ := same_fields h
  rw [h2, h4]
  split
  · exact .bind parseSchemaURL_alike fun _ => .pure
  · exact .pure

theorem whenValidate_alike {x} (h : Twin LikeL x x) : Twin LikeL (whenValidate x) (whenValidate x) := by
  refine .getBind fun l l' hl => ?_
  rw [(same_fields hl).2.2.1]
  split
  · exact h
  · exact .pure

theorem compileG_alike {fuel hook a} (h : ∀ p D, Twin LikeL (hook p D) (hook p D)) :
    Twin LikeL (compileG w σ fuel hook p a) (compileG w σ fuel hook p a) := by
  unfold compileG
  split
  · exact .err
  · refine .bind (.modify fun l l' hl => ⟨hl.pool, by rw [hl.rest]⟩) fun _ => .bind rootDocument_alike fun _ =>
      .bind (whenValidate_alike (h _ _)) fun _ => .bind rootDraft_alike fun _ => runParse_alike

theorem detectedURL_alike {doc} : Twin LikeL (detectedURL w doc) (detectedURL w doc) := by
  refine .getBind fun l l' h => ?_
  rw [(same_fields h).2.1]
  split
  · exact .bind parseSchemaURL_alike fun _ => .pure
  · exact .pure

theorem metaSchemaURL_alike {doc} : Twin LikeL (metaSchemaURL w doc) (metaSchemaURL w doc) := by
  unfold metaSchemaURL
  refine .bind detectedURL_alike fun u => .getBind fun l l' h => ?_
  rw [(same_fields h).2.2.2.1]
  alike

theorem checkDocument_alike {fuel s doc} : Twin LikeL (checkDocument w σ fuel s doc) (checkDocument w σ fuel s doc) := by
  unfold checkDocument; alike

theorem validateMetaschema_alike {fuel doc} : Twin LikeL (validateMetaschema w σ fuel p doc) (validateMetaschema w σ fuel p doc) := by
  unfold validateMetaschema compileInner
  refine .bind metaSchemaURL_alike fun u => ?_
  split
  · exact .pure
  · exact .bind (.modify fun l l' hl => ⟨hl.pool, by rw [hl.rest]⟩) fun _ => .bind (compileG_alike fun _ _ => .pure) fun _ =>
      .bind (.modify fun l l' hl => ⟨hl.pool, by rw [hl.rest]⟩) fun _ => checkDocument_alike

theorem compile_alike {fuel a} : Twin LikeL (compile w σ fuel p a) (compile w σ fuel p a) :=
  compileG_alike fun _ _ => validateMetaschema_alike

theorem addSchema_alike {fuel url a} : Twin LikeL (addSchema w σ fuel p url a) (addSchema w σ fuel p url a) := by
  unfold addSchema
  split
  · exact .err
  · exact .bind loadJSON_alike fun _ => .bind (whenValidate_alike validateMetaschema_alike) fun _ => .bind parseReferences_alike fun _ =>
      .bind failIf_alike fun _ => .pure

theorem addSchemaById_alike {fuel a} : Twin LikeL (addSchemaById w σ fuel p a) (addSchemaById w σ fuel p a) :=
  .bind loadJSON_alike fun _ => .bind (whenValidate_alike validateMetaschema_alike) fun _ => .bind parseReferences_alike fun _ =>
      .bind failIf_alike fun _ => .pure

theorem addSchemas_alike {fuel as} : Twin LikeL (addSchemas w σ fuel p as) (addSchemas w σ fuel p as) :=
  .bind (.mapL fun _ _ => addSchemaById_alike) fun _ => .pure

theorem op_alike {fuel} {o : Op} : Twin LikeL (o.run w σ fuel p) (o.run w σ fuel p) := by
  cases o with
  | addSchema url a => exact .bind addSchema_alike fun _ => .pure
  | addSchemas as => exact .bind addSchemas_alike fun _ => .pure
  | compile a => exact .bind compile_alike fun _ => .pure
  | setAutoDetect b => exact .bind (.modify fun l l' hl => ⟨hl.pool, by rw [hl.rest]⟩) fun _ => .pure
  | setValidate b => exact .bind (.modify fun l l' hl => ⟨hl.pool, by rw [hl.rest]⟩) fun _ => .pure
  | setDraft d => exact .bind (.modify fun l l' hl => ⟨hl.pool, by rw [hl.rest]⟩) fun _ => .pure

theorem runOps_alike {fuel} : ∀ {os k l l'}, LikeL l l' →
    (runOps w σ fuel k os l).1 = (runOps w σ fuel k os l').1 ∧ LikeL (runOps w σ fuel k os l).2 (runOps w σ fuel k os l').2 := by
  intro os
  induction os with
  | nil => intro k l l' h; exact ⟨rfl, h⟩
  | cons o os ih =>
    intro k l l' h
    obtain ⟨h1, h2⟩ := (op_alike (w := w) (σ := σ) (p := [k]) (fuel := fuel) (o := o)).run l l' h
    obtain ⟨h3, h4⟩ := ih (k := k + 1) h2
    exact ⟨by simp only [runOps, h1, h3], h4⟩

end
end GJS

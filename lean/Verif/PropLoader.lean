import Verif.LemHistory
import Verif.LemFiles
import Verif.LemWitness
/-
Properties of a `SchemaLoader` over histories of operations: C22-C29.
-/
namespace GJS
open Spec

theorem opOK_true {w : World} {o : Op} : OpOK w (fun _ => True) o := by
  cases o with
  | addSchema url a => exact argOK_true
  | addSchemas as => exact fun a _ => argOK_true
  | compile a => exact fun _ => argOK_true
  | _ => trivial

theorem runOps_since (w : World) (σ : Sched) (fuel : Fuel) (k : Nat) (ops : List Op) (l : LState) :
    Since w l (runOps w σ fuel k ops l).2 :=
  runOps_inv (since_inv w l σ) id (fun _ _ _ _ _ _ => trivial) (fun _ _ _ h => ⟨h.keeps, h.log⟩) trivial
    (fun _ _ => opOK_true) (since_refl w l)

/-! ### C22: nothing present is fetched -/

/-- C22.  Whatever operations are performed on a loader, the references fetched by its pool from
then on are such that neither they nor their base URL were present in the loader. -/
theorem C22_present_not_fetched (w : World) (σ : Sched) (fuel : Fuel) (k : Nat) (ops : List Op) (l : LState) :
    ∃ new, (runOps w σ fuel k ops l).2.log = l.log ++ new ∧
      ∀ f r, (f, r) ∈ new → getKey r l.pool = none ∧ getKey (w.base r) l.pool = none := by
  obtain ⟨new, h1, h2⟩ := (runOps_since w σ fuel k ops l).log
  exact ⟨new, h1, fun f r h => h2 (f, r) h⟩

/-- C22, what becomes present: when a reference has been resolved, it or its base URL is in the
loader, unless the document was fetched and its `$schema` cannot be read. -/
theorem C22_resolved_present (w : World) (σ : Sched) (p : Path) (r : String) (l l' : LState) (e : PoolDoc)
    (h : getDocument w σ p r l = (.ok e, l')) :
    getKey r l'.pool ≠ none ∨ getKey (w.base r) l'.pool ≠ none ∨
      ∃ n f doc, loadReference w n f r = some doc ∧ SchemaBad w doc := by
  obtain ⟨_, _, h3⟩ := getDocument_inv (W := False) (w := w) (σ := σ) (p := p) (ref := r) (l := l) False.elim False.elim
  have h4 := (h3 _ _ h).2.resolved
  generalize e.doc = D at h4
  cases h4 with
  | entry e' he => left; rw [he]; simp
  | inside e' D he _ => right; left; rw [he]; simp
  | loaded n f doc D h1 _ h2 _ => exact .inr (.inr ⟨n, f, doc, h1, h2⟩)

/-- C22, the two together: a document that was fetched for a resolved reference and whose
`$schema` can be read is not fetched again for that reference, in any history. -/
theorem C22_once (w : World) (σ : Sched) (fuel : Fuel) (p : Path) (r : String) (l l' : LState) (e : PoolDoc)
    (h : getDocument w σ p r l = (.ok e, l')) (hgood : ∀ n f doc, loadReference w n f r = some doc → ¬ SchemaBad w doc)
    (k : Nat) (ops : List Op) :
    ∃ new, (runOps w σ fuel k ops l').2.log = l'.log ++ new ∧ ∀ f, (f, r) ∉ new := by
  obtain ⟨new, h1, h2⟩ := C22_present_not_fetched w σ fuel k ops l'
  refine ⟨new, h1, fun f hf => ?_⟩
  obtain ⟨g1, g2⟩ := h2 f r hf
  rcases C22_resolved_present w σ p r l l' e h with h | h | ⟨n, f, doc, h, hb⟩
  · exact h g1
  · exact h g2
  · exact hgood n f doc h hb

namespace Demo
/-- Two documents that refer to each other. -/
def store : List (String × Json) :=
  [ ("a", .obj [("$ref", .str "b#/definitions/x")]),
    ("b", .obj [("definitions", .obj [("x", .obj [("items", .obj [("$ref", .str "a")])])])]) ]
/-- A document whose `$schema` is not a string. -/
def badStore : List (String × Json) := [("a", .obj [("$schema", .bool true), ("x", .obj []), ("y", .obj [])])]
/-- How often each name was fetched. -/
def fetched (w : World) (ops : List Op) : List String := ((runOps w Sched.id ⟨20, 20⟩ 0 ops newSchemaLoader).2.log).map (·.2)
end Demo

/-- Both documents are fetched, each once, although `a` is needed again through `b`. -/
example : Demo.fetched (Demo.world Demo.store) [.compile (.reference "a" 0), .compile (.reference "b" 0)] =
    ["a", "b#/definitions/x"] := by decide +kernel

/-- C22, the exception occurs: a document with an unreadable `$schema` is fetched for every
reference to it. -/
theorem C22_bad_refetched : ∃ (w : World) (ops : List Op), Demo.fetched w ops = ["a#/x", "a#/y"] :=
  ⟨Demo.world Demo.badStore, [.compile (.reference "a#/x" 0), .compile (.reference "a#/y" 0)], by decide +kernel⟩

/-! ### C23: entries stay -/

/-- C23.  Every entry of a loader is still there, unchanged, after any history of operations. -/
theorem C23_entries_kept (w : World) (σ : Sched) (fuel : Fuel) (k : Nat) (ops : List Op) (l : LState)
    (url : String) (e : PoolDoc) (h : getKey url l.pool = some e) :
    getKey url (runOps w σ fuel k ops l).2.pool = some e :=
  (runOps_since w σ fuel k ops l).keeps url e h

/-- C23: adding a document under a taken URL, with `Validate` off, reports that the reference
exists already and leaves the loader as it was. -/
theorem C23_duplicate_rejected (w : World) (σ : Sched) (fuel : Fuel) (p : Path) (url ref : String) (D : Json)
    (l : LState) (e : PoolDoc) (hn : w.norm url = some ref) (h : getKey ref l.pool = some e) (hv : l.validate = false) :
    addSchema w σ fuel p url (.direct (some D)) l = (.error (.err (.referenceAlreadyExists ref)), l) := by
  have hin : inPool ref l = (.ok true, l) := inPool_ok.2 ⟨rfl, by simp [existsMapKey, h]⟩
  simp only [addSchema, hn]
  simp only [M.bind_def, loadJSON, whenValidate, M.get, hv, Bool.false_eq_true, if_false, M.pure_def, parseReferences,
    hin, Bool.and_true, if_true, failIf, M.err, M.fail]

/-- C23, the exception: while a document is added under a URL, it replaces a part of itself that
has registered itself under the same URL by its identifier. -/
theorem C23_nested_id_loses : ∃ (w : World) (D part : Json),
    (addSchema w Sched.id ⟨20, 20⟩ [] "a" (.direct (some D)) newSchemaLoader).1.isOk = true ∧
    (∃ m m', D = .obj m ∧ getKey "not" m = some part ∧ part = .obj m' ∧ getKey "$id" m' = some (.str "a")) ∧
    ((getKey "a" (addSchema w Sched.id ⟨20, 20⟩ [] "a" (.direct (some D)) newSchemaLoader).2.pool).map
      (fun e => match e.doc with | .obj m => m.map Prod.fst | _ => [])) = some ["not"] :=
  ⟨Demo.world [], .obj [("not", .obj [("$id", .str "a")])], .obj [("$id", .str "a")], by decide +kernel,
    ⟨_, _, rfl, rfl, rfl, rfl⟩, by decide +kernel⟩

/-! ### C24: failing `AddSchema` -/

/-- C24, positive part.  With `Validate` off, an `AddSchema` that fails on a well-loaded document
leaves the loader unchanged, or has stored the document, exactly as given, under a URL that was
free. -/
theorem C24_failure_effect (w : World) (σ : Sched) (fuel : Fuel) (p : Path) (url : String) (D : Json)
    (l l' : LState) (e : CErr) (hv : l.validate = false)
    (h : addSchema w σ fuel p url (.direct (some D)) l = (.error (.err e), l')) :
    l' = l ∨ ∃ ref draft, w.norm url = some ref ∧ getKey ref l.pool = none ∧
      l' = { l with pool := putKey ref ⟨D, draft⟩ l.pool } := by
  unfold addSchema at h
  cases hn : w.norm url with
  | none => rw [hn] at h; simp only [M.err, M.fail, Prod.mk.injEq] at h; exact .inl h.2.symm
  | some ref =>
    rw [hn] at h
    simp only at h
    rw [M.bind_def] at h
    simp only [loadJSON] at h
    rw [M.bind_def] at h
    simp only [whenValidate, M.bind_def, M.get, hv, Bool.false_eq_true, if_false, M.pure_def] at h
    cases hx : parseReferences w σ (64 :: p) D ref true l with
    | mk r l1 =>
      rw [hx] at h
      cases r with
      | error e' =>
        simp only [Prod.mk.injEq, Except.error.injEq] at h
        obtain ⟨rfl, rfl⟩ := h
        by_cases hf : getKey ref l.pool = none
        · exact .inl ((parseReferences_pooled hf).2 _ _ hx).1
        · exfalso
          have hin : inPool ref l = (.ok true, l) :=
            inPool_ok.2 ⟨rfl, by cases hk : getKey ref l.pool with
              | none => exact absurd hk hf
              | some e => simp [existsMapKey, hk]⟩
          simp [parseReferences, M.bind_def, hin, M.pure_def] at hx
      | ok x =>
        simp only at h
        cases hx2 : x.2 with
        | none => simp [failIf, hx2, M.pure_def] at h
        | some e2 =>
          simp only [failIf, hx2, M.err, M.fail, Prod.mk.injEq] at h
          obtain ⟨_, rfl⟩ := h
          rcases parseReferences_err hx hx2 with h | ⟨d, h1, h2⟩
          · exact .inl h
          · exact .inr ⟨ref, d, rfl, h1, h2⟩

/-- C24, negative part.  `AddSchema` may fail and still change what the loader knows: the root
identifier is taken, the document is stored all the same, with its relative references as they
were. -/
theorem C24_failure_stores : ∃ (w : World) (l : LState) (url : String) (D : Json),
    (addSchema w Sched.id ⟨20, 20⟩ [] url (.direct (some D)) l).1.isOk = false ∧
    getKey url l.pool = none ∧
    (getKey url (addSchema w Sched.id ⟨20, 20⟩ [] url (.direct (some D)) l).2.pool).isSome = true ∧
    (((getKey url (addSchema w Sched.id ⟨20, 20⟩ [] url (.direct (some D)) l).2.pool).bind
      (fun e => match e.doc with | .obj m => getKey "not" m | _ => none)).bind
      (fun x => match x with | .obj m => (getKey "$ref" m).bind (fun v => match v with | .str t => some t | _ => none) | _ => none))
        = some "#/x" :=
  ⟨Demo.world [], (addSchema (Demo.world []) Sched.id ⟨20, 20⟩ [] "a" (.direct (some (.obj []))) newSchemaLoader).2, "b",
    .obj [("$id", .str "a"), ("not", .obj [("$ref", .str "#/x")])],
    by decide +kernel, by decide +kernel, by decide +kernel, by decide +kernel⟩

/-! ### C25: the `Validate` switch -/

/-- Operations that do not assign `Validate`. -/
def Spec.KeepsSwitch : Op → Prop
  | .setValidate _ => False
  | _ => True

/-- C25, positive part.  An operation leaves `Validate` as it was, or it turns it off and returns
the failure of compiling a meta-schema. -/
theorem C25_switch (w : World) (σ : Sched) (fuel : Fuel) (p : Path) (o : Op) (ho : KeepsSwitch o) (l : LState) :
    (o.run w σ fuel p l).2.validate = l.validate ∨
      (l.validate = true ∧ (o.run w σ fuel p l).2.validate = false ∧
        ∃ e, (o.run w σ fuel p l).1 = .error e ∧
          ∃ p' u l0, (compileInner w σ fuel p' (.reference u 0) l0).1 = .error e) := by
  cases o with
  | addSchema url a => exact VSafe.bind addSchema_v (fun _ => .of_keep fun _ => rfl) l
  | addSchemas as => exact VSafe.bind addSchemas_v (fun _ => .of_keep fun _ => rfl) l
  | compile a => exact VSafe.bind compile_v (fun _ => .of_keep fun _ => rfl) l
  | setAutoDetect b => exact .inl rfl
  | setValidate b => exact ho.elim
  | setDraft d => exact .inl rfl

namespace Demo
/-- A schema whose `$schema` names a meta-schema that cannot be loaded. -/
def unknownMeta : Json := .obj [("$schema", .str "nowhere")]
/-- A store with a meta-schema that accepts nothing. -/
def strictStore : List (String × Json) := [("strict", .obj [("not", .obj [])])]
/-- A schema that says it follows it. -/
def strictDoc : Json := .obj [("$schema", .str "strict")]
/-- Which operations succeed. -/
def oks (w : World) (ops : List Op) : List Bool := (runOps w Sched.id ⟨20, 20⟩ 0 ops newSchemaLoader).1.map (·.isOk)
end Demo

/-- C25, negative part.  A schema that its meta-schema rejects is rejected while `Validate` is on,
but accepted after an operation on another schema failed to load its meta-schema. -/
theorem C25_switch_lost : ∃ (w : World) (D D' : Json),
    Demo.oks w [.setValidate true, .addSchema "x" (.direct (some D))] = [true, false] ∧
    Demo.oks w [.setValidate true, .addSchema "y" (.direct (some D')), .addSchema "x" (.direct (some D))] =
      [true, false, true] :=
  ⟨Demo.world Demo.strictStore, Demo.strictDoc, Demo.unknownMeta, by decide +kernel, by decide +kernel⟩

/-! ### C26: one anonymous root per loader -/

/-- C26, first half: after a successful `Compile` from a string, bytes or Go loader the loader has
an entry for the empty reference. -/
theorem C26_anonymous_present (w : World) (hn : w.norm "#" = some "") (σ : Sched) (fuel : Fuel) (p : Path)
    (D : Json) (l l' : LState) (s : Schema) (h : compile w σ fuel p (.direct (some D)) l = (.ok s, l')) :
    ∃ e, getKey "" l'.pool = some e := by
  unfold compile compileG at h
  simp only [LoaderArg.ref, hn] at h
  obtain ⟨_, l1, h1, h⟩ := M.bind_ok.1 h
  obtain ⟨D', l2, h2, h⟩ := M.bind_ok.1 h
  have hp : ∃ e, getKey "" l2.pool = some e := by
    unfold rootDocument at h2
    simp only [bne_self_eq_false, Bool.false_eq_true, if_false] at h2
    obtain ⟨D0, l3, h3, h4⟩ := M.bind_ok.1 h2
    obtain ⟨x, l4, h4, h5⟩ := M.bind_ok.1 h4
    obtain ⟨rfl, _, h6⟩ := failIf_ok h5
    by_cases hf : getKey "" l3.pool = none
    · obtain ⟨d, _, h7⟩ := (parseReferences_pooled hf).1 _ _ h4
      exact ⟨_, h7⟩
    · cases hk : getKey "" l3.pool with
      | none => exact absurd hk hf
      | some e =>
        have := (parseReferences_tri (W := False) (w := w) (σ := σ) (p := 61 :: p) (doc := D0) (ref := "")
          (pooled := true) (l0 := l3) False.elim False.elim).1.keeps _ _ hk
        rw [h4] at this
        exact ⟨e, this⟩
  obtain ⟨e, he⟩ := hp
  refine ⟨e, ?_⟩
  obtain ⟨_, l3, h3, h⟩ := M.bind_ok.1 h
  obtain ⟨d, l4, h4, h5⟩ := M.bind_ok.1 h
  obtain ⟨rfl, _⟩ := rootDraft_ok h4
  have k3 := (whenValidate_safe (validateMetaschema_safe (doc := D') (fuel := fuel) (p := p) (since_inv w l2 σ) id
    (fun _ _ _ _ _ _ => trivial) trivial) l2 (since_refl w l2)).1
  rw [h3] at k3
  have k5 := (runParse_keeps (w := w) (σ := σ) (fuel := fuel) (p := 62 :: p) (ref := "") (doc := D')
    (draft := d) l2 l4 k3).1
  rw [h5] at k5
  exact k5.keeps _ _ he

/-- C26.  Whatever happens after a successful `Compile` from a string, bytes or Go loader, every
further `Compile` of any document from such a loader on the same `SchemaLoader` fails with
'reference already exists'. -/
theorem C26_second_fails (w : World) (hn : w.norm "#" = some "") (σ : Sched) (fuel : Fuel) (p p' : Path)
    (D D' : Json) (l l' : LState) (s : Schema) (h : compile w σ fuel p (.direct (some D)) l = (.ok s, l'))
    (k : Nat) (ops : List Op) :
    (compile w σ fuel p' (.direct (some D')) (runOps w σ fuel k ops l').2).1 =
      .error (.err (.referenceAlreadyExists "")) := by
  obtain ⟨e, he⟩ := C26_anonymous_present w hn σ fuel p D l l' s h
  have he2 := C23_entries_kept w σ fuel k ops l' "" e he
  generalize (runOps w σ fuel k ops l').2 = l2 at he2
  have hin : inPool "" { l2 with factory := 0 } = (.ok true, { l2 with factory := 0 }) :=
    inPool_ok.2 ⟨rfl, by simp [existsMapKey, he2]⟩
  unfold compile compileG
  simp only [LoaderArg.ref, hn, LoaderArg.factory]
  rw [M.bind_def]
  simp only [M.modify]
  rw [M.bind_def]
  simp only [rootDocument, bne_self_eq_false, Bool.false_eq_true, if_false, M.bind_def, loadJSON, parseReferences, hin,
    Bool.and_true, if_true, M.pure_def, failIf, M.err, M.fail]

example : Demo.oks (Demo.world []) [.compile (.direct (some (.obj []))), .compile (.direct (some (.bool true)))] =
    [true, false] := by decide +kernel

/-! ### C27: the factory of the loader passed to `Compile` -/

/-- C27, positive part.  With `Validate` off, everything `Compile` fetches is fetched through the
factory of the loader passed to it, whatever was set before. -/
theorem C27_factory (w : World) (σ : Sched) (fuel : Fuel) (p : Path) (a : LoaderArg) (l : LState)
    (hv : l.validate = false) :
    ∃ new, (compile w σ fuel p a l).2.log = l.log ++ new ∧ ∀ f r, (f, r) ∈ new → f = a.factory := by
  have key : (compile w σ fuel p a l).2 = l ∨ FacInv a.factory l (compile w σ fuel p a l).2 := by
    unfold compile compileG
    cases a.ref w with
    | none => exact .inl rfl
    | some ref =>
      right
      simp only
      rw [M.bind_def]
      simp only [M.modify]
      have inv : FacInv a.factory l { l with factory := a.factory } ∧ ({ l with factory := a.factory } : LState).validate = false :=
        ⟨⟨rfl, [], by simp, by simp⟩, hv⟩
      have T : Tri (fun l1 : LState => FacInv a.factory l l1 ∧ l1.validate = false)
          (do let doc ← rootDocument w σ p a ref
              whenValidate (validateMetaschema w σ fuel p doc)
              let draft ← rootDraft w doc
              runParse w σ fuel (62 :: p) ref doc draft) (fun _ => True) := by
        refine .bind (Q := fun _ => True) ?_ fun doc _ => .bind (Q := fun _ => True) ?_ fun _ _ =>
          .bind (Q := fun _ => True) rootDraft_still.tri fun d _ => ?_
        · intro l1 h1
          exact ⟨⟨(rootDocument_fac l1 h1.1).1, (rootDocument_keep l1).trans h1.2⟩, fun _ _ _ => trivial⟩
        · intro l1 h1
          refine ⟨?_, fun _ _ _ => trivial⟩
          simp only [whenValidate, M.bind_def, M.get, h1.2, Bool.false_eq_true, if_false, M.pure_def]
          exact ⟨h1.1, trivial⟩
        · intro l1 h1
          exact ⟨⟨(runParse_fac l1 h1.1).1, (runParse_keep l1).trans h1.2⟩, fun _ _ _ => trivial⟩
      exact (T _ inv).1.1
  rcases key with h | h
  · exact ⟨[], by rw [h]; simp, by simp⟩
  · obtain ⟨new, h1, h2⟩ := h.log
    exact ⟨new, h1, fun f r hm => h2 (f, r) hm⟩

namespace Demo
/-- A meta-schema that accepts everything, a schema that follows it and refers to another one. -/
def metaStore : List (String × Json) :=
  [("meta", .bool true), ("root", .obj [("$schema", .str "meta"), ("not", .obj [("$ref", .str "other")])]), ("other", .obj [])]
end Demo

example : ((runOps (Demo.world Demo.metaStore) Sched.id ⟨20, 20⟩ 0 [.compile (.reference "root" 7)] newSchemaLoader).2.log) =
    [(7, "root"), (7, "other")] := by decide +kernel

/-- C27, what is read.  What `Compile` returns and leaves behind depends on no file system but the one of the loader
passed to it; with `Validate` on, on that one and the default one.  Whatever other file systems hold, nothing changes. -/
theorem C27_isolated (w : World) (σ : Sched) (fuel : Fuel) (p : Path) (a : LoaderArg) (l : LState)
    (files : Nat → Factory → String → Option Json)
    (same : ∀ n name, files n a.factory name = w.readFile n a.factory name)
    (same0 : l.validate = true → ∀ n name, files n 0 name = w.readFile n 0 name) :
    compile { w with readFile := files } σ fuel p a l = compile w σ fuel p a l :=
  (compileG_files same (fun h0 _ _ => validateMetaschema_files h0) same0).1.symm

namespace Demo
/-- Every file system but number 7 is empty. -/
def sevenOnly : World := { world metaStore with readFile := fun _ f name => if f == 7 then getKey name metaStore else none }
end Demo

example (p : Path) : compile Demo.sevenOnly Sched.id ⟨20, 20⟩ p (.reference "root" 7) newSchemaLoader =
    compile (Demo.world Demo.metaStore) Sched.id ⟨20, 20⟩ p (.reference "root" 7) newSchemaLoader :=
  C27_isolated _ _ _ _ _ _ _ (fun _ _ => rfl) (fun h => by cases h)

/-- C27, what is read, on two file systems that hold different documents under the same names: the one passed counts. -/
theorem C27_reads : ∃ (w : World) (f f' : Factory),
    Demo.oks w [.compile (.reference "root" f)] = [true] ∧ Demo.oks w [.compile (.reference "root" f')] = [false] :=
  ⟨Demo.sevenOnly, 7, 0, by decide +kernel, by decide +kernel⟩

/-- C27, negative part.  With `Validate` on, a document referred to by the schema is fetched
through the default file system although the schema comes from another one. -/
theorem C27_factory_lost : ∃ (w : World),
    ((runOps w Sched.id ⟨20, 20⟩ 0 [.setValidate true, .compile (.reference "root" 7)] newSchemaLoader).2.log) =
      [(7, "root"), (0, "meta"), (0, "other")] :=
  ⟨Demo.world Demo.metaStore, by decide +kernel⟩

/-! ### C28: resolving twice -/

/-- C28, what is remembered: after a reference into a document that is there has been resolved, what was found is an
entry of its own under the whole reference. -/
theorem C28_entered (w : World) (σ : Sched) (p : Path) (r : String) (l l' : LState) (e : PoolDoc)
    (hp : getKey r l.pool ≠ none ∨ getKey (w.base r) l.pool ≠ none)
    (h : getDocument w σ p r l = (.ok e, l')) : getKey r l'.pool = some e := by
  unfold getDocument at h
  obtain ⟨o, l1, h1, h'⟩ := M.bind_ok.1 h
  clear h
  obtain ⟨rfl, rfl⟩ := poolGet_ok.1 h1
  cases hk : getKey r l.pool with
  | some e1 =>
    simp only [hk, M.pure_ok] at h'
    obtain ⟨rfl, rfl⟩ := h'
    exact hk
  | none =>
    simp only [hk] at h'
    obtain ⟨o, l2, h2, h⟩ := M.bind_ok.1 h'
    clear h'
    obtain ⟨rfl, rfl⟩ := poolGet_ok.1 h2
    cases hk2 : getKey (w.base r) l.pool with
    | none => exact absurd hk2 (hp.resolve_left (by simp [hk]))
    | some e2 =>
      simp only [hk2, getCached] at h
      obtain ⟨d, l3, h3, h⟩ := M.bind_ok.1 h
      obtain ⟨_, l4, h4, h⟩ := M.bind_ok.1 h
      simp only [putPool, M.modify_ok] at h4
      rw [M.pure_ok] at h
      obtain ⟨rfl, rfl⟩ := h
      rw [← h4]
      exact getKey_putKey_self

/-- C28, references into documents that are present: resolving again gives the same document and
the same draft, changes nothing, and this remains so in any history. -/
theorem C28_present_stable (w : World) (σ : Sched) (fuel : Fuel) (p p' : Path) (r : String) (l l' : LState) (e : PoolDoc)
    (hp : getKey r l.pool ≠ none ∨ getKey (w.base r) l.pool ≠ none)
    (h : getDocument w σ p r l = (.ok e, l')) (k : Nat) (ops : List Op) :
    getDocument w σ p' r (runOps w σ fuel k ops l').2 = (.ok e, (runOps w σ fuel k ops l').2) := by
  have he := C28_entered w σ p r l l' e hp h
  have he2 := C23_entries_kept w σ fuel k ops l' r e he
  unfold getDocument
  rw [M.bind_def, poolGet_ok.2 ⟨rfl, rfl⟩]
  simp only [he2, M.pure_def]

/-- C28, references into documents that are fetched: with `AutoDetect` on and a readable
`$schema`, resolving again gives the same document and the same draft in any later state, as long
as the reference itself has not become an entry of its own (or has no fragment). -/
theorem C28_fetched_stable (w : World) (hw : Lawful w) (hbase : ∀ D, w.base r = r → w.pointer r D = some D)
    (σ : Sched) (fuel : Fuel) (p p' : Path) (l l' : LState) (e : PoolDoc)
    (ha : l.autoDetect = true) (h1 : getKey r l.pool = none) (h2 : getKey (w.base r) l.pool = none)
    (hgood : ∀ n f doc, loadReference w n f r = some doc → ¬ SchemaBad w doc)
    (h : getDocument w σ p r l = (.ok e, l')) (k : Nat) (ops : List Op)
    (hr : getKey r (runOps w σ fuel k ops l').2.pool = none ∨ w.base r = r) :
    (getDocument w σ p' r (runOps w σ fuel k ops l').2).1 = .ok e := by
  unfold getDocument at h
  rw [M.bind_def, poolGet_ok.2 ⟨rfl, rfl⟩] at h
  simp only [h1] at h
  rw [M.bind_def, poolGet_ok.2 ⟨rfl, rfl⟩] at h
  simp only [h2] at h
  obtain ⟨D, h3, h4⟩ := getRemote_entry hw ha h2 hgood h
  have h5 := C23_entries_kept w σ fuel k ops l' _ _ h3
  generalize (runOps w σ fuel k ops l').2 = l2 at h5 hr
  unfold getDocument
  rw [M.bind_def, poolGet_ok.2 ⟨rfl, rfl⟩]
  rcases hr with hr | hr
  · simp only [hr]
    rw [M.bind_def, poolGet_ok.2 ⟨rfl, rfl⟩]
    simp only [h5, getCached, M.bind_def, pointerGet, h4, M.pure_def, putPool, M.modify]
  · rw [hr] at h5
    simp only [h5, M.pure_def]
    have := hbase D hr
    rw [h4] at this
    cases this
    rfl

namespace Demo
/-- A draft-04 document. -/
def draft4Store : List (String × Json) := [("a", .obj [("$schema", .str "http://json-schema.org/draft-04/schema")])]
/-- A document one part of which claims the address of another. -/
def squatStore : List (String × Json) :=
  [("a", .obj [("definitions", .obj [("x", .obj [("type", .str "null")]),
    ("y", .obj [("$id", .str "a#/definitions/x"), ("type", .str "string")])])])]
/-- The draft and the `type` found by resolving a reference twice. -/
def twice (w : World) (auto : Bool) (r : String) : List (Option (Option Draft × Option Json)) :=
  let look := fun (x : Except Fail PoolDoc × LState) =>
    match x.1 with
    | .ok e => some (e.draft, match e.doc with | .obj m => getKey "type" m | _ => none)
    | .error _ => none
  let x := getDocument w Sched.id [] r { newSchemaLoader with autoDetect := auto }
  [look x, look (getDocument w Sched.id [] r x.2)]
end Demo

/-- C28, negative part.  With `AutoDetect` off, a document is a draft-04 document the first time
and of no particular draft the second time. -/
theorem C28_autodetect_off : ∃ (w : World) (r : String),
    Demo.twice w false r = [some (some Draft4, none), some (none, none)] :=
  ⟨Demo.world Demo.draft4Store, "a", rfl⟩

example : Demo.twice (Demo.world Demo.draft4Store) true "a" = [some (some Draft4, none), some (some Draft4, none)] := rfl

/-- C28, the side condition is needed: a part of the fetched document may register itself under
the reference, and the second resolution then yields that part, a different schema. -/
theorem C28_id_captures : ∃ (w : World) (r : String),
    Demo.twice w true r = [some (none, some (.str "null")), some (none, some (.str "string"))] :=
  ⟨Demo.world Demo.squatStore, "a#/definitions/x", rfl⟩

end GJS

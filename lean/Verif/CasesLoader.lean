import Verif.CasesValidate
import Verif.PropLoader
import Verif.PropPanic
import Verif.PropTerm
import Verif.PropRewrite
import Verif.PropShare
import Verif.PropMeta
import Verif.PropDocFault
import Verif.PropIds
import Verif.PropRaw
import Verif.PropReject
import Verif.PropReach
/-
The theorems on the loader and on compilation applied to concrete data (see `CasesValidate`).
-/
namespace GJS.Demo
open GJS Spec

/-! ### C22 - C28 -/

/-- Two documents, added to a loader under `x` and compiled. -/
def two : List Op := [.addSchema "x" (.direct (some (.obj []))), .compile (.reference "a" 0)]

example := C22_present_not_fetched (world store) Sched.rev ⟨20, 20⟩ 0 two newSchemaLoader
example := C22_resolved_present (world store) Sched.rev [] "b#/definitions/x" newSchemaLoader _ _ (out_eq (by decide +kernel))

theorem store_good (n : Nat) (f : Factory) (doc : Json) (h : loadReference (world store) n f "b#/definitions/x" = some doc) :
    ¬ SchemaBad (world store) doc := by
  have e : doc = .obj [("definitions", .obj [("x", .obj [("items", .obj [("$ref", .str "a")])])])] := (Option.some.inj h).symm
  subst e
  intro h
  cases h with
  | kind _ _ hm _ => exact hm _ rfl
  | type m v hk _ _ => cases hk
  | reference m t hk _ => cases hk

example := C22_once (world store) Sched.rev ⟨20, 20⟩ [] "b#/definitions/x" newSchemaLoader _ _ (out_eq (by decide +kernel)) store_good 0 two

/-- The loader after `two`. -/
def afterTwo : LState := (runOps (world store) Sched.id ⟨20, 20⟩ 0 two newSchemaLoader).2
example := C23_entries_kept (world store) Sched.id ⟨20, 20⟩ 5 two afterTwo "x" _ (some_eq (by decide +kernel))
example := C23_duplicate_rejected (world store) Sched.id ⟨20, 20⟩ [] "x" "x" .null afterTwo _ rfl (some_eq (by decide +kernel)) rfl
example := C24_failure_effect (world store) Sched.id ⟨20, 20⟩ [] "x" .null afterTwo afterTwo _ rfl
  (C23_duplicate_rejected (world store) Sched.id ⟨20, 20⟩ [] "x" "x" .null afterTwo _ rfl (some_eq (by decide +kernel)) rfl)
example := C25_switch (world store) Sched.id ⟨20, 20⟩ [] (.addSchema "y" (.direct (some (.obj [])))) trivial { afterTwo with validate := true }
example := C26_anonymous_present (world []) rfl Sched.id ⟨20, 20⟩ [] (.obj []) newSchemaLoader _ _ (out_eq (by decide +kernel))
example := C26_second_fails (world []) rfl Sched.id ⟨20, 20⟩ [] [1] (.obj []) (.bool true) newSchemaLoader _ _ (out_eq (by decide +kernel)) 3 two
example := C27_factory (world metaStore) Sched.id ⟨20, 20⟩ [] (.reference "root" 7) newSchemaLoader rfl
example := C28_entered (world store) Sched.id [] "x#/y" { afterTwo with pool := [("x", ⟨.obj [("y", .obj [])], none⟩)] } _ _
  (.inr (by decide +kernel)) (out_eq (by decide +kernel))
example := C28_present_stable (world store) Sched.id ⟨20, 20⟩ [] [1] "x#/y" { afterTwo with pool := [("x", ⟨.obj [("y", .obj [])], none⟩)] } _ _
  (.inr (by decide +kernel)) (out_eq (by decide +kernel)) 0 two

/-! ### C16, C17 -/

theorem other_harmless : ∀ k d, getKey k [("other", other)] = some d → Harmless env d := by
  intro k d h
  simp only [getKey, List.lookup_cons, List.lookup_nil] at h
  split at h
  · cases h; exact ⟨wf_of _ (by decide +kernel), tame_of (by decide +kernel)⟩
  · cases h
theorem refs_harmless : Harmless env refs := ⟨wf_of _ (by decide +kernel), tame_of (by decide +kernel)⟩
/-- The world with the other document. -/
def both : World := world [("other", other)]

example := C16_compile both (world_standard _) (world_brings other_harmless) Sched.id ⟨20, 20⟩ [] (.direct (some refs)) newSchemaLoader rfl
  (by intro k e h; cases h) (by rintro D ⟨⟩; exact refs_harmless)
example := C16_newSchema both (world_standard _) (world_brings other_harmless) Sched.id ⟨20, 20⟩ (.direct (some refs))
  (by rintro D ⟨⟩; exact refs_harmless)

/-! ### C29, C43, C52 -/

theorem both_lawful : Lawful both :=
  world_lawful (by
    intro k d h
    exact (other_harmless k d h).1)
theorem direct_wf' {D : Json} (h : D.WF) : ∀ D', LoaderArg.direct (some D) = .direct (some D') → D'.WF := by
  rintro D' ⟨⟩; exact h

example := C29_stored (world []) Sched.id ⟨20, 20⟩ [] "a" refDoc (wf_of _ (by decide +kernel)) newSchemaLoader _ (out_eq (by decide +kernel))
example := C29_stored_strict (world []) Sched.id ⟨20, 20⟩ [] "a" refDoc (wf_of _ (by decide +kernel)) newSchemaLoader _ rfl "a" rfl
  (by decide +kernel) (by intro k _; rfl) (out_eq (by decide +kernel))
example := C29_only_ref_strings (world []) Sched.id ⟨20, 20⟩ [] "a" refDoc (wf_of _ (by decide +kernel)) newSchemaLoader _ (out_eq (by decide +kernel))
example := C52_registered (world []) Sched.id ⟨20, 20⟩ [] "http://h/s.json" identified (wf_of _ (by decide +kernel)) newSchemaLoader _ rfl
  "http://h/s.json" rfl (by decide +kernel) (by intro k _; rfl) (out_eq (by decide +kernel))
example := C52_registered_by_id (world []) Sched.id ⟨20, 20⟩ [] identified (wf_of _ (by decide +kernel)) newSchemaLoader _ rfl
  (by decide +kernel) (by intro k _; rfl) (out_eq (by decide +kernel))

/-! ### C47, C48, C50, C53, C56, C57 -/

theorem pool_empty : PoolWF newSchemaLoader := by intro k e h; cases h
theorem refs_compile : okB (compile both Sched.id ⟨20, 20⟩ [] (.direct (some refs)) newSchemaLoader) = true := by decide +kernel
example := C47_one_draft both both_lawful Sched.id ⟨20, 20⟩ [] (.direct (some refs)) newSchemaLoader _ _ pool_empty (direct_wf' refs_harmless.1)
  (out_eq refs_compile)
example := C47_noRef (world []) (fixed Draft7) { fixed Draft7 with validate := false } setting setting (.obj [("minimum", int 1)])
  (wf_of _ (by decide +kernel)) (noRef_of _ (by decide +kernel)) rfl (int 0) false false (gives_of (by decide +kernel)) (gives_of (by decide +kernel))
example := C50_report both both_lawful Sched.id ⟨20, 20⟩ [] (.direct (some refs)) newSchemaLoader _ _ pool_empty (direct_wf' refs_harmless.1)
  (out_eq refs_compile)
example := C53_verdict both both_lawful Sched.id ⟨20, 20⟩ [] (.direct (some refs)) newSchemaLoader _ _ pool_empty (direct_wf' refs_harmless.1)
  (out_eq refs_compile)
example := C53_other_kind both both_lawful Sched.id ⟨20, 20⟩ [] (.direct (some refs)) newSchemaLoader _ _ pool_empty (direct_wf' refs_harmless.1)
  (out_eq refs_compile)
example := C53_panics both both_lawful Sched.id ⟨20, 20⟩ [] (.direct (some refs)) newSchemaLoader _ _ pool_empty (direct_wf' refs_harmless.1)
  (out_eq refs_compile)
example := C56_compile both both_lawful fmtOK Sched.id ⟨20, 20⟩ [] (.direct (some refs)) newSchemaLoader _ _ pool_empty
  (direct_wf' refs_harmless.1) (out_eq refs_compile)
/-- A document with a `$schema` and one that conforms to it. -/
def declared : Json := .obj [("$schema", .str "meta"), ("type", .str "object")]
theorem types_lawful : Lawful (world stringTypes) :=
  world_lawful (by
    intro k d h
    simp only [stringTypes, getKey, List.lookup_cons, List.lookup_nil] at h
    split at h
    · cases h; exact wf_of _ (by decide +kernel)
    · cases h)
example := C48_compile (world stringTypes) types_lawful Sched.id ⟨20, 20⟩ [] (.direct (some declared)) validating _ _ pool_empty rfl
  (direct_wf' (wf_of _ (by decide +kernel))) (out_eq (by decide +kernel))
example := C48_addSchema (world stringTypes) types_lawful Sched.id ⟨20, 20⟩ [] "x" (.direct (some declared)) validating _ pool_empty rfl
  (direct_wf' (wf_of _ (by decide +kernel))) (out_eq (by decide +kernel))
example := C48_addSchemas (world stringTypes) types_lawful Sched.id ⟨20, 20⟩ []
  [.direct (some (.obj [("$id", .str "x"), ("$schema", .str "meta"), ("type", .str "object")]))] validating _ pool_empty rfl
  (by simp only [List.mem_singleton, forall_eq]; exact direct_wf' (wf_of _ (by decide +kernel))) (out_eq (by decide +kernel))

/-- The error of a computation that is refused. -/
def refusedB {α σ : Type} (o : Except Fail α × σ) : Bool :=
  match o.1 with
  | .error (.err _) => true
  | _ => false
@[inherit_doc refusedB] def refusalOf {α σ : Type} (o : Except Fail α × σ) (h : refusedB o = true) : CErr :=
  match o, h with
  | (.error (.err e), _), _ => e
theorem refused_eq {α σ : Type} {o : Except Fail α × σ} (h : refusedB o = true) : o = (.error (.err (refusalOf o h)), o.2) := by
  match o, h with
  | (.error (.err _), _), _ => rfl

example := C57_compile (world stringTypes) types_lawful fmtOK Sched.id ⟨20, 20⟩ []
  (.direct (some (.obj [("$schema", .str "meta"), ("type", .arr [.str "object"])]))) validating _ _ pool_empty
  (direct_wf' (wf_of _ (by decide +kernel))) (refused_eq (by decide +kernel))
theorem deep_refused : refusedB (compile (world []) Sched.id ⟨20, 20⟩ [] (.direct (some deepBad)) newSchemaLoader) = true := by decide +kernel
example := C57_compile_off (world []) (world_lawful (by intro k d h; cases h)) fmtOK Sched.id ⟨20, 20⟩ [] (.direct (some deepBad)) newSchemaLoader _ _ rfl
  pool_empty (direct_wf' (wf_of _ (by decide +kernel))) (refused_eq deep_refused)
example := C57_addSchema (world stringTypes) types_lawful fmtOK Sched.id ⟨20, 20⟩ [] "x"
  (.direct (some (.obj [("$schema", .str "meta"), ("type", .arr [.str "object"])]))) validating _ _ pool_empty
  (direct_wf' (wf_of _ (by decide +kernel))) (refused_eq (by decide +kernel))
example := C57_addSchemas (world []) (world_lawful (by intro k d h; cases h)) fmtOK Sched.id ⟨20, 20⟩ []
  [.direct (some (.obj [("$id", .str "u")])), .direct (some (.obj [("$id", .str "u")]))] newSchemaLoader _ _ pool_empty
  (by simp only [List.mem_cons, List.not_mem_nil, or_false, or_self, forall_eq]; exact direct_wf' (wf_of _ (by decide +kernel)))
  (refused_eq (by decide +kernel))

end GJS.Demo

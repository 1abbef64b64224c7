import Verif.PropKeywords
import Verif.PropDraft
import Verif.PropFloat
import Verif.PropScore
import Verif.PropAccept
/-
The theorems on validation applied to concrete data: an `example` states no type of its own, its
content is that the theorem named in it applies (all its hypotheses are met) to the data given.
Shared with the other `Cases` files: how to name the outcome of an evaluation.
-/
namespace GJS.Demo
open GJS Spec

/-- The computation succeeded. -/
def okB {ε α σ : Type} (o : Except ε α × σ) : Bool :=
  match o.1 with
  | .ok _ => true
  | .error _ => false

/-- Its outcome. -/
def outOf {ε α σ : Type} (o : Except ε α × σ) (h : okB o = true) : α :=
  match o, h with
  | (.ok a, _), _ => a

theorem out_eq {ε α σ : Type} {o : Except ε α × σ} (h : okB o = true) : o = (.ok (outOf o h), o.2) := by
  match o, h with
  | (.ok _, _), _ => rfl

@[inherit_doc okB] def okE {ε α : Type} (o : Except ε α) : Bool :=
  match o with
  | .ok _ => true
  | .error _ => false

@[inherit_doc outOf] def outE {ε α : Type} (o : Except ε α) (h : okE o = true) : α :=
  match o, h with
  | .ok a, _ => a

theorem outE_eq {ε α : Type} {o : Except ε α} (h : okE o = true) : o = .ok (outE o h) := by
  match o, h with
  | .ok _, _ => rfl

theorem some_eq {α : Type} {o : Option α} (h : o.isSome = true) : o = some (o.get h) := by simp

/-- The members of an object. -/
def membersOf : Json → List (String × Json)
  | .obj m => m
  | _ => []

theorem obj_eq {D : Json} (h : (match D with | .obj _ => true | _ => false) = true) : D = .obj (membersOf D) := by
  cases D <;> first | rfl | cases h

/-- The text of a string. -/
def textOf : Option Json → String
  | some (.str t) => t
  | _ => ""

theorem str_eq {o : Option Json} (h : (match o with | some (.str _) => true | _ => false) = true) : o = some (.str (textOf o)) := by
  cases o with
  | none => cases h
  | some D => cases D <;> first | rfl | cases h

/-- The root document of a compilation, as a well-formed argument. -/
theorem direct_wf {D : Json} (h : wfB D = true) : ∀ D', LoaderArg.direct (some D) = .direct (some D') → D'.WF := by
  intro D' e; cases e; exact wf_of _ h

theorem lawful0 : Lawful (world []) := (setting (d := Draft7)).lawful
theorem pool0 {d : Draft} : PoolWF (fixed d) := setting.pool

/-! ### C01, C05, C06, C19, C21 -/

/-- `treeDoc` compiled. -/
theorem tree_compiles : okB (compile (world []) Sched.id ⟨20, 20⟩ [] (.direct (some treeDoc)) (fixed Draft7)) = true := by
  decide +kernel

example := C01_verdict (world []) lawful0 Sched.id ⟨20, 20⟩ [] (.direct (some treeDoc)) (fixed Draft7) _ _ pool0
  (direct_wf (by decide +kernel)) (out_eq tree_compiles)
example := C06_compiled_no_panic (world []) lawful0 Sched.id ⟨20, 20⟩ [] (.direct (some treeDoc)) (fixed Draft7) _ _ pool0
  (direct_wf (by decide +kernel)) (out_eq tree_compiles) Sched.rev 7 (int 1) (.num _ rfl (by decide +kernel))
example := C19_compiled (world []) lawful0 Sched.id ⟨20, 20⟩ [] (.direct (some treeDoc)) (fixed Draft7) _ _ pool0
  (direct_wf (by decide +kernel)) (out_eq tree_compiles)
example := C19_boolean (world []) lawful0 Sched.id ⟨20, 20⟩ [] (.direct (some treeDoc)) (fixed Draft7) _ _ pool0
  (direct_wf (by decide +kernel)) (out_eq tree_compiles)
example := C05_compile_diverges (world []) (by decide) (by decide) (by decide) Sched.rev 3 4
example := C01_history (world []) lawful0 Sched.id ⟨20, 20⟩ [.setValidate true, .compile (.direct (some treeDoc))]
  (by simp [GoodOp, GoodArg]; exact wf_of treeDoc (by decide +kernel))

/-- `{"not": {"$ref": "#/definitions/a"}}` with a definition, and a document with `$ref` and siblings. -/
def sibDoc : List (String × Json) :=
  [("definitions", .obj [("a", .obj [("type", .str "string")])]), ("$ref", .str "#/definitions/a"), ("maxLength", int 0)]

example := C21_root (world []) (fixed Draft7) setting sibDoc (wf_of _ (by decide +kernel)) "#/definitions/a" rfl Sched.id ⟨20, 20⟩ []
  _ _ (out_eq (by decide +kernel))
example := C21_ref_result (world []) lawful0 Sched.id ⟨20, 20⟩ [] (.direct (some (.obj sibDoc))) (fixed Draft7) _ _ pool0
  (direct_wf (by decide +kernel)) (out_eq (by decide +kernel)) 0 _ (some_eq (by decide +kernel)) _
  (obj_eq (by decide +kernel)) _ (str_eq (by decide +kernel))

/-- A document without references. -/
def plainDoc : Json := .obj [("type", .str "array"), ("items", .obj [("minimum", int 3)]), ("const", .arr [int 4])]

example := C01_noRef (world []) (fixed Draft7) setting plainDoc (wf_of _ (by decide +kernel)) (noRef_of _ (by decide +kernel))
  (.arr [int 4]) true (gives_of (by decide +kernel))
example := C01_noRef_same (world []) (world [("http://x/y", .null)]) (fixed Draft7) (fixed Draft7) setting
  ⟨world_lawful (by intro k d h; simp [getKey, List.lookup] at h; split at h <;> simp at h; subst h; exact .null), pool0, by decide⟩
  rfl plainDoc (wf_of _ (by decide +kernel)) (noRef_of _ (by decide +kernel)) (by decide +kernel)
  (.arr [int 2]) false false (gives_of (by decide +kernel))
  ⟨Sched.id, ⟨20, 20⟩, [], _, _, Sched.id, 20, _, out_eq (by decide +kernel), outE_eq (by decide +kernel), by decide +kernel⟩
example := C19_boolean_root (world []) (fixed Draft4) setting (by decide +kernel) true Sched.id ⟨20, 20⟩ []
example := C19_boolean_sub (world []) (fixed Draft4) setting [("not", .bool true)] (wf_of _ (by decide +kernel))
  (noRef_of _ (by decide +kernel)) (by decide +kernel) true (.not _ rfl) Sched.id ⟨20, 20⟩ []
example := C19_no_effect (world []) (fixed Draft4) (fixed Draft4) setting setting [("const", int 1), ("type", .str "number")]
  [("type", .str "number")] (wf_of _ (by decide +kernel)) (wf_of _ (by decide +kernel)) (noRef_of _ (by decide +kernel))
  (noRef_of _ (by decide +kernel)) (by decide +kernel)
  (by
    intro k hk
    have : k ≠ "const" := by rintro rfl; exact hk (by unfold Gated; decide)
    simp [getKey, List.lookup, beq_eq_false_iff_ne.2 this])
  (int 2) true true (gives_of (by decide +kernel)) (gives_of (by decide +kernel))

/-! ### C02 - C08 -/

example := C02_verdict env Sched.id listHeap 10 0 list2 _ (outE_eq (by decide +kernel)) _
  (C02_meaning env listHeap listHeap_acyclic).choose_spec.1
example := C02_verdict_unfold env Sched.rev listHeap 10 0 listBad _ (outE_eq (by decide +kernel)) (fun _ _ => False)
example := C03_order_independent env Sched.id Sched.rev listHeap 10 12 (by decide) 0 listBad _ (outE_eq (by decide +kernel))
example := (C03_same_return env Sched.id Sched.rev listHeap 0 listBad).1 ⟨10, _, outE_eq (by decide +kernel)⟩
example := C04_terminates env Sched.id listHeap listHeap_acyclic 0 list2 100 (by decide +kernel)
example := C05_ref_chain_diverges env Sched.id [{ doc := .null, draft := Draft7, refSchema := some 1 }, { doc := .null, draft := Draft7, refSchema := some 0 }]
  (fun k => k % 2) (by
    intro k
    rcases Nat.mod_two_eq_zero_or_one k with h | h
    · rw [h, show (k + 1) % 2 = 1 by omega]; exact ⟨_, rfl, rfl, rfl⟩
    · rw [h, show (k + 1) % 2 = 0 by omega]; exact ⟨_, rfl, rfl, rfl⟩) 9 .null
theorem listHeap_ok : HeapOK listHeap := by
  intro s hs
  simp only [listHeap, List.mem_cons, List.not_mem_nil, or_false] at hs
  rcases hs with rfl | rfl | rfl <;> simp [inPlace, nested, extraId, listHeap]
example := C06_no_panic env Sched.id listHeap listHeap_ok 0 (by decide) (.arr [int 1]) (.arr _ (by simp; exact .num _ rfl (by decide +kernel))) 9
example := C06_total env Sched.id listHeap listHeap_ok listHeap_acyclic 0 (by decide) (.arr [int 1])
  (.arr _ (by simp; exact .num _ rfl (by decide +kernel))) 100 (by decide +kernel)
/-- The first error of a result. -/
theorem head_mem {r : Result} (h : r.errors ≠ []) : r.errors.head h ∈ r.errors := List.head_mem h
example := C07_locations env Sched.id listHeap 10 0 listBad (wf_of _ (by decide +kernel)) _ (outE_eq (by decide +kernel)) _
  (head_mem (by decide +kernel))
example := C08_required env Sched.id [{ doc := .null, draft := Draft7, required := ["a", "b"] }] 3 [] 0 _ [("b", .null)] ["x", "(root)"] _
  rfl rfl rfl rfl (.inl rfl) (outE_eq (by decide +kernel))

/-! ### C09, C10, C20, C42, C44 -/

theorem numDoc_wf : (Json.obj numDoc).WF := wf_of _ (by decide +kernel)
theorem numDoc_only : Only numDoc numberKeywords := by unfold Only; decide

example := C09_exact (world []) (fixed Draft7) setting numDoc numDoc_wf numDoc_only ⟨false, 99, [9], none⟩ true (gives_of (by decide +kernel))
example := C09_exact (world []) (fixed Draft7) setting numDoc numDoc_wf numDoc_only ⟨false, 99, [9, 5], none⟩ false (gives_of (by decide +kernel))
example := C09_sound (world []) (fixed Draft7) setting (("type", .str "number") :: numDoc) (wf_of _ (by decide +kernel)) (by decide)
  ⟨false, 99, [9], none⟩ (gives_of (by decide +kernel))
example := C09_not_number (world []) (fixed Draft7) setting numDoc numDoc_wf numDoc_only (.str "1") (by simp) true (gives_of (by decide +kernel))
example := C09_spelling (world []) (fixed Draft7) (fixed Draft4) setting setting [("minimum", .num tenth1)] [("minimum", .num tenth3)]
  (wf_of _ (by decide +kernel)) (wf_of _ (by decide +kernel)) (by unfold Only; decide) (by unfold Only; decide)
  (by
    intro k hk
    simp only [numberKeywords, List.mem_cons, List.not_mem_nil, or_false] at hk
    rcases hk with rfl | rfl | rfl | rfl | rfl
    all_goals first | exact .none | exact .num _ _ (by decide +kernel) rfl)
  tenth2 tenth1 (by decide +kernel) true true (gives_of (by decide +kernel)) (gives_of (by decide +kernel))
example := C09_instance_spelling env (fun _ _ _ _ => rfl) listHeap 0 (.num tenth1) (.num tenth3) (.num _) (.num _)
  (.num _ _ (by decide +kernel) rfl rfl) Sched.id Sched.rev 10 11 _ _ (outE_eq (by decide +kernel)) (outE_eq (by decide +kernel))
example := C10_integer (world []) (fixed Draft7) setting [("type", .str "integer")] (wf_of _ (by decide +kernel)) (by unfold Only; decide) rfl
  ⟨false, 1, [0], none⟩ true (gives_of (by decide +kernel))
example := C10_number (world []) (fixed Draft7) setting [("type", .str "number")] (wf_of _ (by decide +kernel)) (by unfold Only; decide) rfl
  ⟨false, 1, [5], none⟩ true (gives_of (by decide +kernel))
example := C10_not_number (world []) (fixed Draft7) setting [("type", .str "number")] (wf_of _ (by decide +kernel)) (by unfold Only; decide) (.inr rfl)
  (.str "1") (by simp) false (gives_of (by decide +kernel))
example := C10_sound (world []) (fixed Draft7) setting [("type", .str "integer"), ("minimum", int 1)] (wf_of _ (by decide +kernel)) (by decide) rfl
  (int 2) (gives_of (by decide +kernel))
example := C20_minimum (world []) (fixed Draft4) setting [("minimum", int 3), ("exclusiveMinimum", .bool true)] (wf_of _ (by decide +kernel))
  (by unfold Only; decide) _ true rfl rfl ⟨false, 3, [], none⟩ false (gives_of (by decide +kernel))
example := C20_maximum (world []) (fixed Draft4) setting [("maximum", int 3), ("exclusiveMaximum", .bool false)] (wf_of _ (by decide +kernel))
  (by unfold Only; decide) _ false rfl rfl ⟨false, 3, [], none⟩ true (gives_of (by decide +kernel))
example := C20_exclusiveMinimum (world []) (fixed Draft6) setting [("exclusiveMinimum", int 3)] (wf_of _ (by decide +kernel))
  (by unfold Only; decide) _ rfl rfl ⟨false, 3, [], none⟩ false (gives_of (by decide +kernel))
example := C20_exclusiveMaximum (world []) (fixed Draft6) setting [("exclusiveMaximum", int 3)] (wf_of _ (by decide +kernel))
  (by unfold Only; decide) _ rfl rfl ⟨false, 2, [], none⟩ true (gives_of (by decide +kernel))
example := C20_same_minimum (world []) (fixed Draft4) (fixed Draft6) setting setting [("minimum", int 3), ("exclusiveMinimum", .bool true)]
  [("exclusiveMinimum", int 3)] (wf_of _ (by decide +kernel)) (wf_of _ (by decide +kernel)) (by unfold Only; decide) (by unfold Only; decide)
  _ rfl rfl rfl rfl ⟨false, 3, [], none⟩ false false (gives_of (by decide +kernel)) (gives_of (by decide +kernel))
example := C20_same_maximum (world []) (fixed Draft4) (fixed Draft6) setting setting [("maximum", int 3), ("exclusiveMaximum", .bool true)]
  [("exclusiveMaximum", int 3)] (wf_of _ (by decide +kernel)) (wf_of _ (by decide +kernel)) (by unfold Only; decide) (by unfold Only; decide)
  _ rfl rfl rfl rfl ⟨false, 2, [], none⟩ true true (gives_of (by decide +kernel)) (gives_of (by decide +kernel))
example := C42_items (world []) (fixed Draft7) setting [("minItems", int 2)] (wf_of _ (by decide +kernel)) (by unfold Only; decide)
  [.null] false (gives_of (by decide +kernel))
example := C42_length (world []) (fixed Draft7) setting [("maxLength", int 2)] (wf_of _ (by decide +kernel)) (by unfold Only; decide)
  ['é', 'é'] true (gives_of (by decide +kernel))
example := C42_properties (world []) (fixed Draft7) setting [("minProperties", int 1)] (wf_of _ (by decide +kernel)) (by unfold Only; decide)
  [("a", .null)] (wf_of _ (by decide +kernel)) ["a"] (by simp) (by simp [keysOf]) true (gives_of (by decide +kernel))
example := C42_sound (world []) (fixed Draft7) setting [("minItems", int 1), ("type", .str "array")] (wf_of _ (by decide +kernel)) (by decide)
  (.arr [.null]) (gives_of (by decide +kernel))
example := C44_const_number (world []) (fixed Draft7) setting fmtOK [("const", int 3)] (wf_of _ (by decide +kernel)) (by unfold Only; decide)
  (by decide +kernel) _ ⟨false, 3, [], none⟩ rfl true (gives_of (by decide +kernel))
example := C44_zero (world []) (fixed Draft7) setting fmtOK [("const", int 0)] (wf_of _ (by decide +kernel)) (by unfold Only; decide)
  (by decide +kernel) _ ⟨true, 0, [], none⟩ rfl (by decide +kernel) (by decide +kernel) false (gives_of (by decide +kernel))

/-! ### C11 - C14 -/

example := C11_same_serialisation env fmtOK (int 1) (.num ⟨false, 1, [0], none⟩) (.num _) (.num _) "1e1" "1e1" (by decide +kernel) (by decide +kernel)
example := C11_const env fmtOK { doc := .null, draft := Draft7, const := some "1e1" } (int 1) (.bool true) (.num _) (.bool _) "1e1"
  (by decide +kernel) rfl [] _ (outE_eq (by decide +kernel))
example := C11_enum env fmtOK { doc := .null, draft := Draft7, enum := ["null", "true"] } [.null, .bool true] (.str "x")
  (by simp; exact ⟨.null, .bool _⟩) (.str _) (by simp) rfl [] _ (outE_eq (by decide +kernel))
example := C12_safe_integers ⟨false, 7, [], none⟩ ⟨false, 70, [], some (-1)⟩ 7 7 (by decide +kernel) (by decide +kernel) (by decide) (by decide)
/-- A node with the `const` 2^53. -/
def large : Sub := { doc := .null, draft := Draft7, const := some "9007199254740992e1" }
theorem large_ok : okE (checkConst env large (int 9007199254740993) []) = true := by decide +kernel
example := C12_const_accepts_other env fmtOK large "9007199254740992e1" (by decide +kernel) rfl [] _ (outE_eq large_ok)
theorem int_range (n : NumLit) (h : n.toF64.isSome = true) : InRange64 n :=
  not_not.1 fun h' => by rw [(C12_overflow n).2 h'] at h; cases h
example := C12_equal ⟨false, 7, [], none⟩ ⟨false, 70, [], some (-1)⟩ (int_range _ (by decide +kernel)) (int_range _ (by decide +kernel))
example := C12_const_document_beyond (world []) (fixed Draft7) setting fmtOK true (gives_of (by decide +kernel))
/-- A node with `uniqueItems`. -/
def uniq : Sub := { doc := .null, draft := Draft7, uniqueItems := true }
example := C13_unique_sound env uniq [.str "a", .str "b", .str "a"] [] _ (outE_eq (by decide +kernel)) _ (head_mem (by decide +kernel))
example := C13_unique_complete env uniq [.str "a", .str "b", .str "a"] [] _ rfl (outE_eq (by decide +kernel)) 0 2 _ _ (by decide) rfl rfl rfl
example := C13_unique_iff env fmtOK uniq [.str "a", .str "b", .str "a"] (by simp; exact ⟨.str _, .str _, .str _⟩) rfl [] _ (outE_eq (by decide +kernel))
/-- The results of the two branches of `branches` on `null`. -/
def failed : List Result := [addErr (.invalidType "string" "null") ["x"] .null, addErr (.invalidType "object" "null") ["x"] .null]
theorem failed_fail (q : Path) : ∀ (k : Nat) j b, [4, 5][k]? = some j → failed[k]? = some b →
    validateRecursive env Sched.id branches 4 (k :: q) j .null ["x"] = .ok b ∧ b.valid = false := by
  intro k j b hj hb
  match k with
  | 0 => cases hj; cases hb; exact ⟨rfl, rfl⟩
  | 1 => cases hj; cases hb; exact ⟨rfl, rfl⟩
  | k + 2 => simp at hj
example := C14_anyOf env Sched.id branches 4 [] 0 _ .null ["x"] _ failed rfl rfl rfl (.inl rfl) (by simp) rfl (failed_fail [1])
  (outE_eq (by decide +kernel))
example := C14_oneOf_none env Sched.id branches 4 [] 1 _ .null ["x"] _ failed rfl rfl rfl (.inl rfl) (by simp) rfl (failed_fail [2])
  (outE_eq (by decide +kernel))
example := C14_oneOf_none_all env Sched.id branches 4 [] 1 _ .null ["x"] _ [4, 5] failed rfl rfl (by simp) rfl (failed_fail [2])
  (outE_eq (by decide +kernel))
example := C14_oneOf_many (validateRecursive env Sched.id branches 4) [] { doc := .null, draft := Draft7, oneOf := [6, 6] } .null [] _ 0 1 6 6 _ _
  (by decide) rfl rfl rfl rfl (by decide +kernel) (by decide +kernel) (outE_eq (by decide +kernel))
theorem element_fails : ∀ (k : Nat) x b, [Json.null][k]? = some x →
    [addErr (.invalidType "string" "null") ["0", "x"] .null][k]? = some b →
    validateRecursive env Sched.id branches 4 (k :: 12 :: []) 4 x (toString k :: ["x"]) = .ok b ∧ b.valid = false := by
  intro k j b hj hb
  match k with
  | 0 => cases hj; cases hb; exact ⟨rfl, rfl⟩
  | k + 1 => simp at hj
example := C14_contains (validateRecursive env Sched.id branches 4) [] { doc := .null, draft := Draft7, contains := some 4 } [.null] ["x"] 4 _
  rfl (by simp) rfl element_fails
example := C14_contains_all env Sched.id branches 4 [] 3 4 _ [.null] ["x"] _ _ rfl rfl rfl element_fails (outE_eq (by decide +kernel))
theorem null_type (t : String) (h : HasType env .null t) : t = "null" := by cases h; rfl
example := C14_score_type env Sched.id branches 4 [] 4 .null ["x"] _ _ (outE_eq (by decide +kernel)) rfl rfl rfl
  (by
    rintro (h | ⟨t, h, h'⟩)
    · cases h
    · exact absurd ((null_type t h').symm.trans (List.mem_singleton.1 h)) (by decide))
example := C14_score_bool env Sched.id [{ doc := .null, draft := Draft7, pass := some false }] 4 [] 0 .null ["x"] _ _ false (outE_eq (by decide +kernel)) rfl rfl

/-! ### C15, C18, C41 -/

example := C15_accept (world []) (by decide) (by intro a b h; cases h) fmtOK Sched.rev ⟨40, 40⟩ [] goodDoc (fixed Draft7)
  (wf_of _ (by decide +kernel)) (noRef_of _ (by decide +kernel)) (numsRat _) (by decide +kernel) rfl rfl
example := C15_never_malformed (world []) (by decide) (by intro a b h; cases h) fmtOK Sched.rev ⟨40, 40⟩ [] goodDoc (fixed Draft7) _ _
  (wf_of _ (by decide +kernel)) (noRef_of _ (by decide +kernel)) (by decide +kernel) (out_eq (by decide +kernel))
example := C18_order_independent (world []) (by decide) (by intro a b h; cases h) fmtOK Sched.rev Sched.id ⟨40, 40⟩ [] [] badDoc (fixed Draft7)
  (wf_of _ (by decide +kernel)) (noRef_of _ (by decide +kernel)) (numsRat _) (by decide +kernel) rfl rfl
example := C41_size_literals (world []) (by decide) (by intro a b h; cases h) fmtOK Sched.rev ⟨40, 40⟩ [] "minItems" (by decide) oneDotZero
  (fixed Draft7) rfl (by decide) rfl rfl

end GJS.Demo

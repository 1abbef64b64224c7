import Verif.LemMon
import Verif.DemoWorld
/-
Helper lemmas: executions used as counterexamples, in a world known only partly.
-/
namespace GJS

/-- The schema document `{"$ref":"#"}`. -/
def Demo.loopDoc : Json := .obj [("$ref", .str "#")]

theorem order_singleton (σ : Sched) (p : Path) (a : String × α) : σ.order p [a] = [a] :=
  List.perm_singleton.1 (σ.perm p [a])

theorem loop_keywords (w : World) (σ : Sched) (rec : PRec) (p : Path) (id : String) (c : Id) (r : Option Id)
    (st : PState) : parseKeywords w σ rec p id Hybrid c r [("$ref", .str "")] st =
      (.ok (), { st with
        heap := st.heap.set c { doc := .obj [("$ref", .str "")], draft := Hybrid, refSchema := r } }) := rfl

theorem loop_root {w : World} (h1 : w.norm "#" = some "") (h3 : w.inherits "" "" = some "") (σ : Sched) :
    rootDocument w σ [] (.direct (some Demo.loopDoc)) "" newSchemaLoader =
      (.ok (.obj [("$ref", .str "")]), { pool := [("", ⟨.obj [("$ref", .str "")], none⟩)] }) := by
  have e1 : rewriteRef (σ := LState) w "" [("$ref", .str "#")] = pure [("$ref", .str "")] := by
    funext s
    show (match (w.norm "#").bind (w.inherits "") with | some a => _ | none => _ : M LState _) s = _
    rw [h1, Option.bind_some, h3]
    rfl
  have e2 : ∀ q, rewriteObj w σ (rewrite w σ none 2) q "" none [("$ref", .str "#")] newSchemaLoader =
      (.ok (.obj [("$ref", .str "")], none), newSchemaLoader) := by
    intro q
    show (rewriteRef w "" [("$ref", .str "#")] >>= _) newSchemaLoader = _
    rw [e1]
    show (rangeKV _ 0 (σ.order (51 :: q) [("$ref", Json.str "")]) [("$ref", Json.str "")] >>= _) newSchemaLoader = _
    rw [order_singleton]
    rfl
  show ((rewriteObj w σ (rewrite w σ none 2) [61] "" none [("$ref", .str "#")] >>= _) >>= _) newSchemaLoader = _
  rw [M.bind_def, M.bind_def, e2]
  rfl

theorem loop_object {w : World} (h2 : w.norm "" = some "") (σ : Sched) (rec : PRec) (b : Bool) (p : Path)
    (pid id0 : String) (c : Id) (st : PState) :
    parseObject w σ rec b p pid id0 [("$ref", .str "")] Hybrid c st =
      parseAfterRef w σ rec p id0 Hybrid c (some "") [("$ref", .str "")] st := by
  have e1 : kwRefText w [("$ref", .str "")] = pure (some "") := by
    funext s
    show (match w.norm "" with | none => _ | some r => _ : M PState _) s = _
    rw [h2]
  show (kwRefText w [("$ref", .str "")] >>= fun ref => parseAfterRef w σ rec p id0 Hybrid c ref [("$ref", .str "")]) st = _
  rw [e1]
  rfl

/-- The loader after the root document was read. -/
def loopState : LState := { pool := [("", ⟨.obj [("$ref", .str "")], none⟩)] }

theorem loop_parse {w : World} (h2 : w.norm "" = some "") (σ : Sched) (k : Nat) (p : Path) :
    parseRoot w σ (k + 2) p "" (.obj [("$ref", .str "")]) Hybrid { l := loopState } =
      (.ok 0, ⟨[{ doc := .obj [("$ref", .str "")], draft := Hybrid, refSchema := some 1 },
        { doc := .obj [("$ref", .str "")], draft := Hybrid, refSchema := some 1 }], [("", 1)], loopState⟩) := by
  show (parseObject w σ (parseSchema w σ (k + 2)) true p "" "" [("$ref", .str "")] Hybrid 0 >>= fun _ => pure 0) _ = _
  rw [M.bind_def, loop_object h2]
  have e1 : parseReference w σ (parseSchema w σ (k + 2)) p "" Hybrid "" ⟨[{ doc := .obj [("$ref", .str "")], draft := Hybrid }], [], loopState⟩ =
      (parseObject w σ (parseSchema w σ (k + 1)) false (41 :: p) "" "" [("$ref", .str "")] Hybrid 1 >>= fun _ => pure 1)
        ⟨[{ doc := .obj [("$ref", .str "")], draft := Hybrid }, { doc := .obj [("$ref", .str "")], draft := Hybrid }],
          [("", 1)], loopState⟩ := rfl
  have e2 : parseReference w σ (parseSchema w σ (k + 2)) p "" Hybrid "" ⟨[{ doc := .obj [("$ref", .str "")], draft := Hybrid }], [], loopState⟩ =
      (.ok 1, ⟨[{ doc := .obj [("$ref", .str "")], draft := Hybrid },
        { doc := .obj [("$ref", .str "")], draft := Hybrid, refSchema := some 1 }], [("", 1)], loopState⟩) := by
    rw [e1, M.bind_def, loop_object h2]
    rfl
  have e3 : parseAfterRef w σ (parseSchema w σ (k + 2)) p "" Hybrid 0 (some "") [("$ref", .str "")]
      ⟨[{ doc := .obj [("$ref", .str "")], draft := Hybrid }], [], loopState⟩ =
      (parseReference w σ (parseSchema w σ (k + 2)) p "" Hybrid "" >>= fun j =>
        setNode 0 { doc := .obj [("$ref", .str "")], draft := Hybrid, refSchema := some j })
      ⟨[{ doc := .obj [("$ref", .str "")], draft := Hybrid }], [], loopState⟩ := rfl
  rw [M.bind_def, e2] at e3
  simp only [List.nil_append]
  rw [e3]
  rfl

theorem loop_new {w : World} (h1 : w.norm "#" = some "") (h2 : w.norm "" = some "")
    (h3 : w.inherits "" "" = some "") (σ : Sched) (k m : Nat) :
    newSchema w σ ⟨k + 2, m⟩ (.direct (some Demo.loopDoc)) = .ok
      ⟨[{ doc := .obj [("$ref", .str "")], draft := Hybrid, refSchema := some 1 },
        { doc := .obj [("$ref", .str "")], draft := Hybrid, refSchema := some 1 }], 0, [("", 1)]⟩ := by
  unfold newSchema compile compileG
  simp only [LoaderArg.ref, h1]
  show ((rootDocument w σ [] (.direct (some Demo.loopDoc)) "" >>= _) newSchemaLoader).1 = _
  rw [M.bind_def, loop_root h1 h3]
  show (runParse w σ ⟨k + 2, m⟩ [62] "" (.obj [("$ref", .str "")]) Hybrid loopState).1 = _
  unfold runParse
  rw [loop_parse h2]

end GJS

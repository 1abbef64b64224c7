import Verif.LemTrimShape
import Verif.PropAccept
import Verif.PropDraft
/-
C62: members of schemas that ask for nothing.
-/
namespace GJS
open Spec

/-- C62, the rules: schema documents that differ in members that ask for nothing, at any depth, say the same about every
value, unfolded to any depth, references included. -/
theorem C62_rules (env : Env) (resolve : String → Option (Draft × Json)) (n : Nat) (d : Draft) (D D' v : Json) (h : Trims d D D') :
    docUnfold env resolve (fun _ _ _ => True) n d D v ↔ docUnfold env resolve (fun _ _ _ => True) n d D' v :=
  docUnfold_trims resolve h n v

/-- C62.  Two schemas without `$ref` that differ in members that ask for nothing, compiled under the same draft by loaders
in whatever state, give the same verdict on every instance. -/
theorem C62_verdict (w : World) (l l' : LState) (hw : Setting w l) (hw' : Setting w l') (D D' : Json) (hD : D.WF) (hD' : D'.WF)
    (hn : NoRef D) (hn' : NoRef D') (hd : draftFor w l D = draftFor w l' D') (h : Trims (draftFor w l D) D D') (v : Json) (b b' : Bool)
    (hb : Gives w l D v b) (hb' : Gives w l' D' v b') : b = b' := by
  obtain ⟨n1, h1⟩ := C01_noRef w l hw D hD hn v b hb
  obtain ⟨n2, h2⟩ := C01_noRef w l' hw' D' hD' hn' v b' hb'
  rw [Bool.eq_iff_iff, h1 _ (Nat.le_max_left n1 n2) (fun _ => none) (fun _ _ _ => True),
    h2 _ (Nat.le_max_right n1 n2) (fun _ => none) (fun _ _ _ => True), ← hd]
  exact C62_rules w.env _ _ _ D D' v h

/-- C62, nothing left: a schema with nothing but such members rejects nothing. -/
theorem C62_vacuous (w : World) (l : LState) (hw : Setting w l) (D : Json) (hD : D.WF) (hn : NoRef D)
    (h : Trims (draftFor w l D) D (.obj [])) (v : Json) (b : Bool) (hb : Gives w l D v b) : b = true := by
  obtain ⟨n, h1⟩ := C01_noRef w l hw D hD hn v b hb
  rw [h1 n (Nat.le_refl n) (fun _ => none) (fun _ _ _ => True), C62_rules w.env _ _ _ D _ v h]
  exact docUnfold_anything _ _ _ _ _ (.inr rfl)

/-- C62, acceptance: if `Compile` accepts a schema without `$ref`, it accepts the schema without members that ask for
nothing, and gives the same verdicts; provided every `$id` is a reference (in hybrid mode `$id` is not looked at next to
`id`). -/
theorem C62_accept (w : World) (l : LState) (hw : Setting w l) (hi : ∀ a b, w.inherits a b ≠ none) (hf : FmtOK w.env.fmtF64)
    (hp : l.pool = []) (hv : l.validate = false) (D D' : Json) (hD : D.WF) (hn : NoRef D) (hr : NumsRat w.env D) (hid : IdsRead w D)
    (hs : l.autoDetect = true → SchemaRead w D') (hd : draftFor w l D = draftFor w l D') (h : Trimmed (draftFor w l D) D D')
    (σ σ' : Sched) (fuel fuel' : Fuel) (p p' : Path) (hsz : D.size ≤ fuel.parse + 1) (hsz' : D'.size ≤ fuel'.parse + 1) (s : Schema)
    (l1 : LState) (hc : compile w σ fuel p (.direct (some D)) l = (.ok s, l1)) :
    (∃ s' l2, compile w σ' fuel' p' (.direct (some D')) l = (.ok s', l2)) ∧
      ∀ (v : Json) (b b' : Bool), Gives w l D v b → Gives w l D' v b' → b = b' := by
  obtain ⟨h1, h2⟩ := trimmable_trimmed (w := w) h ⟨hD, hn, hr, hid⟩
  have h3 := ((C15_accept w hw.root hi hf σ fuel p D l hD hn hr hsz hp hv).1 ⟨s, l1, hc⟩).2
  refine ⟨(C15_accept w hw.root hi hf σ' fuel' p' D' l h1.wf h1.noRef h1.nums hsz' hp hv).2 ⟨hs, hd ▸ h2 h3⟩, ?_⟩
  exact fun v b b' hb hb' => C62_verdict w l l hw hw D D' hD h1.wf hn h1.noRef hd (trims_of_trimmed h) v b b' hb hb'

namespace Demo

/-- A world in which one format is never met. -/
def pickyWorld : World := { world [] with env := { env with isFormat := fun f _ => f != "no" } }

def verdictOf (w : World) (l : LState) (D v : Json) : Option Bool :=
  match (compile w Sched.id ⟨20, 20⟩ [] (.direct (some D)) l).1 with
  | .ok s =>
    match validateDocument w.env Sched.rev s.heap 20 s.root v with
    | .ok r => some r.valid
    | .error _ => none
  | .error _ => none

theorem gives_verdictOf {w : World} {l : LState} {D v : Json} {b : Bool} (h : verdictOf w l D v = some b) : Gives w l D v b := by
  unfold verdictOf at h
  cases hc : compile w Sched.id ⟨20, 20⟩ [] (.direct (some D)) l with
  | mk e l' =>
    rw [hc] at h
    cases e with
    | error => cases h
    | ok s =>
      simp only at h
      cases hv : validateDocument w.env Sched.rev s.heap 20 s.root v with
      | error => rw [hv] at h; cases h
      | ok r => rw [hv] at h; exact ⟨_, _, _, s, l', _, _, r, hc, hv, by simpa using h⟩

theorem picky_setting {d : Draft} : Setting pickyWorld (fixed d) where
  lawful := ⟨(setting (d := d)).lawful.readFile, (setting (d := d)).lawful.http, (setting (d := d)).lawful.decode,
    (setting (d := d)).lawful.pointer⟩
  pool := by intro k e h; simp [fixed, getKey] at h
  root := by decide

/-- For a keyword, a schema and a value it rejects because of the keyword. -/
def needs (d : Draft) (k : String) : List (String × Json) × Json :=
  let str : Json := .str "s"
  let one : Json := .arr [int 1]
  let ab : Json := .obj [("a", int 1)]
  let T : Json := .obj [("type", .str "string")]
  match k with
  | "type" => ([("type", .str "string")], int 1)
  | "anyOf" | "oneOf" | "allOf" => ([(k, .arr [T])], int 1)
  | "not" => ([("not", T)], str)
  | "dependencies" => ([("dependencies", .obj [("a", .arr [.str "b"])])], ab)
  | "if" => ([("if", .obj []), ("then", T)], int 1)
  | "then" => ([("if", .obj []), ("then", T)], int 1)
  | "else" => ([("if", T), ("else", T)], int 1)
  | "const" => ([("const", int 1)], int 2)
  | "enum" => ([("enum", .arr [int 1])], int 2)
  | "format" => ([("format", .str "no")], str)
  | "items" => ([("items", T)], one)
  | "additionalItems" => ([("items", .arr [.obj []]), ("additionalItems", .bool false)], .arr [int 1, int 2])
  | "minItems" => ([("minItems", int 2)], one)
  | "maxItems" => ([("maxItems", int 0)], one)
  | "uniqueItems" => ([("uniqueItems", .bool true)], .arr [int 1, int 1])
  | "contains" => ([("contains", T)], one)
  | "minProperties" => ([("minProperties", int 2)], ab)
  | "maxProperties" => ([("maxProperties", int 0)], ab)
  | "required" => ([("required", .arr [.str "b"])], ab)
  | "properties" => ([("properties", .obj [("a", T)])], ab)
  | "patternProperties" => ([("patternProperties", .obj [("a", T)])], ab)
  | "additionalProperties" => ([("additionalProperties", .bool false)], ab)
  | "propertyNames" => ([("propertyNames", .obj [("maxLength", int 0)])], ab)
  | "minLength" => ([("minLength", int 2)], str)
  | "maxLength" => ([("maxLength", int 0)], str)
  | "pattern" => ([("pattern", .str "t")], str)
  | "multipleOf" => ([("multipleOf", int 2)], int 1)
  | "minimum" => ([("minimum", int 2)], int 1)
  | "maximum" => ([("maximum", int 0)], int 1)
  | "exclusiveMinimum" => if d = Draft4 then ([("minimum", int 1), (k, .bool true)], int 1) else ([(k, int 1)], int 1)
  | "exclusiveMaximum" => if d = Draft4 then ([("maximum", int 1), (k, .bool true)], int 1) else ([(k, int 1)], int 1)
  | _ => ([], .null)

end Demo

/-- C62, no more can be left out: each keyword of a draft that speaks about instances makes a difference somewhere (for
`$ref` see C21). -/
theorem C62_needed (d : Draft) (hd : d ∈ [Draft4, Draft6, Draft7, Hybrid]) (k : String) (hk : Acts d k) (hr : k ≠ "$ref") :
    ∃ (w : World) (l : LState) (m : List (String × Json)) (x v : Json), Setting w l ∧ draftFor w l (.obj m) = d ∧ Kw m k x ∧
      Gives w l (.obj m) v false ∧ Gives w l (.obj (without k m)) v true := by
  have key : ∀ d ∈ [Draft4, Draft6, Draft7, Hybrid], ∀ k ∈ assertions.tail,
      (k ∈ ["const", "contains", "propertyNames"] → Draft6 ≤ d) → (k ∈ ["if", "then", "else"] → Draft7 ≤ d) →
      (getKey k (Demo.needs d k).1).isSome = true ∧
      Demo.verdictOf Demo.pickyWorld (Demo.fixed d) (.obj (Demo.needs d k).1) (Demo.needs d k).2 = some false ∧
      Demo.verdictOf Demo.pickyWorld (Demo.fixed d) (.obj (without k (Demo.needs d k).1)) (Demo.needs d k).2 = some true := by
    decide +kernel
  have hk' : k ∈ assertions.tail := by
    have : assertions = "$ref" :: assertions.tail := rfl
    have h := hk.1
    rw [this] at h
    rcases List.mem_cons.1 h with h | h
    · exact absurd h hr
    · exact h
  obtain ⟨h1, h2, h3⟩ := key d hd k hk' hk.2.1 hk.2.2
  obtain ⟨x, hx⟩ := Option.isSome_iff_exists.1 h1
  exact ⟨_, _, _, x, _, Demo.picky_setting, rfl, hx, Demo.gives_verdictOf h2, Demo.gives_verdictOf h3⟩

/-- C62, where acceptance ends: a member that asks for nothing can be why a schema is refused, and taking out `id` can
bring to light a `$id` that is refused. -/
theorem C62_refused : (∃ (w : World) (m : List (String × Json)) (k : String) (x : Json) (σ : Sched) (fuel : Fuel) (s : Schema) (e : CErr),
      Kw m k x ∧ Idle Hybrid m k x ∧ newSchema w σ fuel (.direct (some (.obj (without k m)))) = .ok s ∧
      newSchema w σ fuel (.direct (some (.obj m))) = .error (.err e)) ∧
    (∃ (w : World) (m : List (String × Json)) (k : String) (x : Json) (σ : Sched) (fuel : Fuel) (s : Schema) (e : CErr),
      Kw m k x ∧ Idle Hybrid m k x ∧ newSchema w σ fuel (.direct (some (.obj m))) = .ok s ∧
      newSchema w σ fuel (.direct (some (.obj (without k m)))) = .error (.err e)) := by
  have refused : ∀ D, (match newSchema (Demo.world []) Sched.id ⟨40, 40⟩ (.direct (some D)) with
    | .error (.err _) => true
    | _ => false) = true → ∃ e, newSchema (Demo.world []) Sched.id ⟨40, 40⟩ (.direct (some D)) = .error (.err e) := by
    intro D h
    cases hr : newSchema (Demo.world []) Sched.id ⟨40, 40⟩ (.direct (some D)) with
    | ok s => rw [hr] at h; cases h
    | error e =>
      rw [hr] at h
      cases e with
      | err e => exact ⟨e, rfl⟩
      | _ => cases h
  constructor
  · obtain ⟨s, hs⟩ := Demo.accepts_iff.1 (show Demo.accepts Sched.id (.obj (without "title" [("title", .null)])) = true by decide +kernel)
    obtain ⟨e, he⟩ := refused (.obj [("title", .null)]) (by decide +kernel)
    exact ⟨_, [("title", .null)], "title", _, _, _, s, e, rfl, .other _ _ (fun h => absurd h.1 (by decide)), hs, he⟩
  · obtain ⟨s, hs⟩ := Demo.accepts_iff.1 (show Demo.accepts Sched.id (.obj [("id", .str "a"), ("$id", .null)]) = true by decide +kernel)
    obtain ⟨e, he⟩ := refused (.obj (without "id" [("id", .str "a"), ("$id", .null)])) (by decide +kernel)
    exact ⟨_, [("id", .str "a"), ("$id", .null)], "id", _, _, _, s, e, rfl, .other _ _ (fun h => absurd h.1 (by decide)), hs, he⟩

namespace Demo

/-- A schema with idle members, at several depths, and without. -/
def wordy : Json := .obj
  [ ("title", .str "t"), ("type", .str "object"),
    ("properties", .obj [("a", .obj [("minimum", int 3), ("enum", .arr []), ("default", int 1)]), ("b", .bool false)]) ]
def brief : Json := .obj
  [ ("type", .str "object"), ("properties", .obj [("a", .obj [("minimum", int 3)]), ("b", .bool false)]) ]
/-- A schema that looks like a restriction. -/
def hollow : Json := .obj [("items", .arr []), ("additionalItems", .bool false), ("enum", .arr []), ("oneOf", .arr [])]

theorem wordy_brief : Trimmed Draft7 wordy brief := by
  refine .out _ (.obj (without "title" _)) _ (.here _ "title" _ rfl (.other _ _ (fun h => absurd h.1 (by decide)))) ?_
  refine .out _ (.obj ([("type", .str "object")] ++ ("properties", .obj ([] ++ ("a", .obj (without "enum"
    [("minimum", int 3), ("enum", .arr []), ("default", int 1)])) :: [("b", .bool false)])) :: [])) _ ?_ ?_
  · exact .map [("type", .str "object")] [] "properties" [] [("b", .bool false)] "a" _ _ (by decide)
      (.here _ "enum" _ rfl (.list _ (by decide)))
  refine .out _ (.obj ([("type", .str "object")] ++ ("properties", .obj ([] ++ ("a", .obj (without "default"
    [("minimum", int 3), ("default", int 1)])) :: [("b", .bool false)])) :: [])) _ ?_ (.refl _)
  exact .map [("type", .str "object")] [] "properties" [] [("b", .bool false)] "a" _ _ (by decide)
      (.here _ "default" _ rfl (.other _ _ (fun h => absurd h.1 (by decide))))

theorem ids_obj {w : World} {m : List (String × Json)} (h : getKey "$id" m = none) (hs : ∀ kv ∈ m, IdsRead w kv.2) : IdsRead w (.obj m) := by
  intro m' v hm hv
  cases hm with
  | self => rw [show getKey "$id" m = some v from hv] at h; cases h
  | member _ k y _ h1 h2 => exact hs _ h1 m' v h2 hv

theorem ids_other {w : World} {x : Json} (h : ∀ m, ¬ Within x (.obj m)) : IdsRead w x := fun m _ hm _ => absurd hm (h m)

theorem wordy_ids : IdsRead (world []) wordy := by
  have leaf : ∀ {x : Json}, (∀ xs, x ≠ .arr xs) → (∀ m, x ≠ .obj m) → IdsRead (world []) x := fun h1 h2 => ids_other (by
    intro m h
    cases h with
    | self => exact h2 m rfl
    | elem xs => exact h1 xs rfl
    | member m => exact h2 m rfl)
  refine ids_obj rfl (List.forall_mem_cons.2 ⟨leaf (by simp) (by simp), List.forall_mem_cons.2 ⟨leaf (by simp) (by simp),
    List.forall_mem_cons.2 ⟨ids_obj rfl (List.forall_mem_cons.2 ⟨ids_obj rfl (List.forall_mem_cons.2 ⟨leaf (by simp [int]) (by simp [int]),
      List.forall_mem_cons.2 ⟨ids_other ?_, List.forall_mem_cons.2 ⟨leaf (by simp [int]) (by simp [int]), by simp⟩⟩⟩),
      List.forall_mem_cons.2 ⟨leaf (by simp) (by simp), by simp⟩⟩), by simp⟩⟩⟩)
  intro m h
  cases h with
  | elem _ y _ hy => cases hy

theorem hollow_empty : Trims Draft7 hollow (.obj []) := by
  refine .out _ (.obj (without "additionalItems" _)) _ (.here _ "additionalItems" _ rfl (.rest _ ?_)) ?_
  · intro D Ds h; cases h
  refine .out _ (.obj (without "items" _)) _ (.here _ "items" _ rfl (.list _ (by decide))) ?_
  refine .out _ (.obj (without "enum" _)) _ (.here _ "enum" _ rfl (.list _ (by decide))) ?_
  exact .out _ (.obj (without "oneOf" _)) _ (.here _ "oneOf" _ rfl (.list _ (by decide))) (.refl _)

end Demo

open Demo in
/-- Documents that meet the hypotheses, with verdicts of both kinds. -/
example : wordy.WF ∧ brief.WF ∧ NoRef wordy ∧ NoRef brief ∧ Trimmed Draft7 wordy brief ∧ IdsRead (world []) wordy ∧
    Gives (world []) (fixed Draft7) wordy (.obj [("a", int 4)]) true ∧ Gives (world []) (fixed Draft7) brief (.obj [("a", int 4)]) true ∧
    Gives (world []) (fixed Draft7) wordy (.obj [("a", int 2)]) false ∧ Gives (world []) (fixed Draft7) brief (.obj [("a", int 2)]) false :=
  ⟨wf_of _ (by decide +kernel), wf_of _ (by decide +kernel), noRef_of _ (by decide +kernel), noRef_of _ (by decide +kernel), wordy_brief,
    wordy_ids,
    gives_of (by decide +kernel), gives_of (by decide +kernel), gives_of (by decide +kernel), gives_of (by decide +kernel)⟩

open Demo in
/-- `hollow` is accepted, and accepts a list of two elements. -/
example : hollow.WF ∧ NoRef hollow ∧ Trims Draft7 hollow (.obj []) ∧ Gives (world []) (fixed Draft7) hollow (.arr [int 1, int 2]) true :=
  ⟨wf_of _ (by decide +kernel), noRef_of _ (by decide +kernel), hollow_empty, gives_of (by decide +kernel)⟩

end GJS

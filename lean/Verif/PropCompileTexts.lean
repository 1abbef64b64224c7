import Verif.LemCompileTexts
import Verif.PropMessages
import Verif.PropReject
import Verif.PropMetaShape
/-
C58: what the errors of the compiler and the loader say.
-/
namespace GJS
open Spec Msg

/-- C58, default locale: the text of every error but the report of the meta-schema, word by word. -/
theorem C58_words (pr : Printer) (out : Outside) (str : Err → Exec String) (e : CErr) (t : String) (h : complaint out e = some t) :
    errorText pr out defaultCompileLocale str e = .ok t := by
  unfold errorText
  cases hf : defaultCompileLocale.formatted e with
  | some x =>
    obtain ⟨s, d⟩ := x
    have := format_compile pr out e s d hf
    rw [h] at this
    simp only [Option.some.injEq] at this
    show Except.ok (formatErrorDescription pr s d) = _
    rw [this]
  | none =>
    cases e <;> simp only [CompileLocale.formatted, reduceCtorEq] at hf <;>
      simp only [complaint, Option.some.injEq, reduceCtorEq] at h <;> (subst h; rfl)

/-- C58, any locale: if a format is made of text and the details of its error, the text of the error
is that text with the values of the details in place; no detail is missing. -/
theorem C58_locale (pr : Printer) (out : Outside) (loc : CompileLocale) (str : Err → Exec String) (e : CErr) (s : String)
    (d : Details) (hf : loc.formatted e = some (s, d)) (ps : List Piece) (hw : Written (compileDetails e) s ps) :
    ∃ value : String → String, (∀ n ∈ compileDetails e, ∃ x, getKey n d = some x ∧ value n = pr.print x) ∧
      errorText pr out loc str e = .ok (filled value ps) := by
  have hv : ∀ n ∈ compileDetails e, ∃ x, getKey n d = some x ∧ ((getKey n d).map pr.print).getD "" = pr.print x := by
    intro n hn
    cases e <;> simp only [CompileLocale.formatted, Option.some.injEq, Prod.mk.injEq, reduceCtorEq] at hf <;>
      (obtain ⟨-, rfl⟩ := hf
       simp only [compileDetails, List.mem_cons, List.not_mem_nil, or_false] at hn
       first
       | (subst hn; exact ⟨_, rfl, rfl⟩)
       | (rcases hn with rfl | rfl
          · exact ⟨_, rfl, rfl⟩
          · exact ⟨_, rfl, rfl⟩))
  refine ⟨fun n => ((getKey n d).map pr.print).getD "", hv, ?_⟩
  unfold errorText
  rw [hf]
  show Except.ok (formatErrorDescription pr s d) = _
  rw [format_written pr d hw, written_filled pr d hv hw]

/-- The report of the check of a document against its meta-schema: at least one line, one line per
error, and each line tells the place in the document and what is wrong there. -/
def Spec.Report (pr : Printer) (out : Outside) (loc : CompileLocale) (marshal : Json → Option String) (goStyle : Json → String)
    (D : Json) (es : List Err) : Prop :=
  es ≠ [] ∧ ∃ line : Err → String, (∀ e ∈ es, Reported e.kind ∧ ReportLine pr.big D e (line e)) ∧
    errorText pr out loc (errString pr defaultLocale marshal goStyle) (.metaSchema es) =
      .ok (String.join (es.map fun e => line e ++ "\n"))

theorem report_of {w : World} {σ : Sched} {fuel p D es} {l l' : LState} (hD : D.WF)
    (h : validateMetaschema w σ fuel p D l = (.error (.err (.metaSchema es)), l'))
    (pr : Printer) (out : Outside) (loc : CompileLocale) (marshal : Json → Option String) (goStyle : Json → String) :
    Report pr out loc marshal goStyle D es := by
  obtain ⟨s, r, hr, he, hne⟩ := validateMetaschema_report h
  refine ⟨hne, ?_⟩
  have key : ∀ e ∈ es, Reported e.kind ∧ ∃ f, ReportLine pr.big D e (f ++ ": " ++ message pr.big f e.kind) ∧
      errString pr defaultLocale marshal goStyle e = .ok (f ++ ": " ++ message pr.big f e.kind) := by
    intro e hm
    obtain ⟨h1, path, v, f, h2, h3, -, h5⟩ := C51_errors w.env σ s.heap fuel.validate s.root D hD r hr e (by rw [he]; exact hm)
      pr marshal goStyle
    exact ⟨h1, f, ⟨path, v, f, h2, h3, rfl⟩, h5⟩
  let line : Err → String := fun e => match errString pr defaultLocale marshal goStyle e with
    | .ok t => t
    | .error _ => ""
  have hl : ∀ e ∈ es, errString pr defaultLocale marshal goStyle e = .ok (line e) := by
    intro e hm
    obtain ⟨-, f, -, h⟩ := key e hm
    show _ = Except.ok (match errString pr defaultLocale marshal goStyle e with
      | .ok t => t
      | .error _ => "")
    rw [h]
  refine ⟨line, fun e hm => ?_, report_ok hl⟩
  obtain ⟨h1, f, h2, h3⟩ := key e hm
  have := hl e hm
  rw [h3] at this
  simp only [Except.ok.injEq] at this
  rw [← this]
  exact ⟨h1, h2⟩

/-- C58, the report of `Compile`. -/
theorem C58_report (w : World) (hw : Lawful w) (hf : FmtOK w.env.fmtF64) (σ : Sched) (fuel : Fuel) (p : Path) (a : LoaderArg)
    (l l' : LState) (es : List Err) (hl : PoolWF l) (ha : ∀ D, a = .direct (some D) → D.WF)
    (h : compile w σ fuel p a l = (.error (.err (.metaSchema es)), l'))
    (pr : Printer) (out : Outside) (loc : CompileLocale) (marshal : Json → Option String) (goStyle : Json → String) :
    ∃ D l1, RootDoc w l1 a D ∧ Report pr out loc marshal goStyle D es := by
  rcases compileG_err hw hf hookOK_meta hl ha h with g | ⟨D, l1, -, h2, h3, -, -, -, h7, -⟩
  · exact absurd rfl g.notMeta
  · exact ⟨D, l1, h2, report_of h3 h7 pr out loc marshal goStyle⟩

theorem add_report {w : World} {σ : Sched} {fuel p a ref pooled es} {l l' : LState} (hw : Lawful w)
    (ha : ∀ D, a = .direct (some D) → D.WF)
    (h : (do let doc ← loadJSON w a
             whenValidate (validateMetaschema w σ fuel p doc)
             let x ← parseReferences w σ (64 :: p) doc ref pooled
             let _ ← failIf x
             return () : M LState Unit) l = (.error (.err (.metaSchema es)), l')) :
    ∃ D l1, Loads w a D ∧ D.WF ∧ validateMetaschema w σ fuel p D l1 = (.error (.err (.metaSchema es)), l') := by
  rcases M.bind_error.1 h with h | ⟨D, l2, h2, h⟩
  · exact absurd ⟨_, rfl⟩ (loadJSON_noMeta _ _ _ h)
  have hD := loads_wf (argOK_wf hw ha) (loadJSON_ok h2).1
  refine ⟨D, l2, (loadJSON_ok h2).1, hD, ?_⟩
  rcases M.bind_error.1 h with h | ⟨_, l3, h3, h⟩
  · unfold whenValidate at h
    rcases M.bind_error.1 h with h | ⟨x, l4, h4, h⟩
    · exact absurd ⟨_, rfl⟩ (Avoid.get (B := IsMeta) _ _ _ h)
    rw [M.get_ok] at h4
    obtain ⟨rfl, rfl⟩ := h4
    split at h
    · exact h
    · exact absurd ⟨_, rfl⟩ (Avoid.pure (B := IsMeta) _ _ _ h)
  · have key : Avoid IsMeta (do
        let x ← parseReferences w σ (64 :: p) D ref pooled
        let _ ← failIf x
        return () : M LState Unit) := by
      refine .bindQ parseReferences_noMeta (Q := fun x => ∀ es, x.2 ≠ some (.metaSchema es)) (fun _ _ _ => parseReferences_soft)
        fun x hx => .bind (failIf_noMeta hx) fun _ => .pure
    exact absurd ⟨_, rfl⟩ (key _ _ _ h)

/-- C58, the report of `AddSchema`. -/
theorem C58_report_addSchema (w : World) (hw : Lawful w) (σ : Sched) (fuel : Fuel) (p : Path) (url : String) (a : LoaderArg)
    (l l' : LState) (es : List Err) (ha : ∀ D, a = .direct (some D) → D.WF)
    (h : addSchema w σ fuel p url a l = (.error (.err (.metaSchema es)), l'))
    (pr : Printer) (out : Outside) (loc : CompileLocale) (marshal : Json → Option String) (goStyle : Json → String) :
    ∃ D, Loads w a D ∧ Report pr out loc marshal goStyle D es := by
  unfold addSchema at h
  cases hr : w.norm url with
  | none => rw [hr] at h; simp [M.err, M.fail] at h
  | some ref =>
    rw [hr] at h
    obtain ⟨D, l1, h1, h2, h3⟩ := add_report hw ha h
    exact ⟨D, h1, report_of h2 h3 pr out loc marshal goStyle⟩

/-- C58, the report of `AddSchemas`: it is about one of the documents. -/
theorem C58_report_addSchemas (w : World) (hw : Lawful w) (σ : Sched) (fuel : Fuel) (p : Path) (as : List LoaderArg)
    (l l' : LState) (es : List Err) (ha : ∀ a ∈ as, ∀ D, a = .direct (some D) → D.WF)
    (h : addSchemas w σ fuel p as l = (.error (.err (.metaSchema es)), l'))
    (pr : Printer) (out : Outside) (loc : CompileLocale) (marshal : Json → Option String) (goStyle : Json → String) :
    ∃ a ∈ as, ∃ D, Loads w a D ∧ Report pr out loc marshal goStyle D es := by
  unfold addSchemas at h
  rcases M.bind_error.1 h with h | ⟨ys, l1, _, h⟩
  swap
  · exact absurd ⟨_, rfl⟩ (Avoid.pure (B := IsMeta) _ _ _ h)
  have key : ∀ (as : List LoaderArg) (k : Nat) (l : LState), (∀ a ∈ as, ∀ D, a = .direct (some D) → D.WF) →
      mapL (fun k a => addSchemaById w σ fuel (k :: p) a) k as l = (.error (.err (.metaSchema es)), l') →
      ∃ a ∈ as, ∃ D, Loads w a D ∧ Report pr out loc marshal goStyle D es := by
    intro as
    induction as with
    | nil => intro k l _ h; simp [mapL, M.pure_def] at h
    | cons a as ih =>
      intro k l ha h
      unfold mapL at h
      rcases M.bind_error.1 h with h | ⟨_, l2, _, h⟩
      · obtain ⟨D, l1, h1, h2, h3⟩ := add_report hw (ha a (by simp)) h
        exact ⟨a, by simp, D, h1, report_of h2 h3 pr out loc marshal goStyle⟩
      · rcases M.bind_error.1 h with h | ⟨_, l3, _, h⟩
        · obtain ⟨b, hb, D, h1, h2⟩ := ih (k + 1) l2 (fun a h => ha a (by simp [h])) h
          exact ⟨b, by simp [hb], D, h1, h2⟩
        · exact absurd ⟨_, rfl⟩ (Avoid.pure (B := IsMeta) _ _ _ h)
  exact key as 0 l ha h

theorem contains_head (a b : String) : Contains (a ++ b) a := ⟨"", b, by simp⟩
theorem contains_head2 (a b c : String) : Contains (a ++ b ++ c) a := ⟨"", b ++ c, by simp [String.append_assoc]⟩
theorem contains_tail (a b : String) : Contains (a ++ b) b := ⟨a, "", by simp⟩
theorem contains_mid (a b c : String) : Contains (a ++ b ++ c) b := ⟨a, c, rfl⟩

/-- C58: the text of an error of a schema object names what is at fault. -/
theorem C58_tells (w : World) (l : LState) (d : Draft) (m : List (String × Json)) (e : CErr) (h : FaultIn w l d m e)
    (out : Outside) (t : String) (ht : complaint out e = some t) : Tells w m t e := by
  have some_of : ∀ {k v}, Kw m k v → getKey k m ≠ none := by
    intro k v hk; rw [show getKey k m = some v from hk]; simp
  have idk : idKey d m ∈ faultyKeys ∧ idKey d m ∈ ["id", "$id", "$ref"] := by
    unfold idKey; split <;> (try split) <;> decide
  have sz : ∀ {key}, key ∈ ["minLength", "maxLength", "minItems", "maxItems", "minProperties", "maxProperties"] → key ∈ faultyKeys := by
    intro key hk; revert key; decide
  have xk : ∀ {x k}, (x, k) ∈ exclusiveKeys → x ∈ faultyKeys := by
    intro x k hk
    simp only [exclusiveKeys, List.mem_cons, Prod.mk.injEq, List.not_mem_nil, or_false] at hk
    rcases hk with ⟨rfl, rfl⟩ | ⟨rfl, rfl⟩ <;> decide
  cases h with
  | id v hk _ => injection ht with ht; subst ht; exact .keyword (idKey d m) _ idk.1 (some_of hk) (contains_tail _ _)
  | idText u hk _ => exact .url _ u idk.2 hk
  | idBase u u' b hk _ _ => exact .url _ u idk.2 hk
  | definitions v hk _ => injection ht with ht; subst ht; exact .keyword "definitions" _ (by decide) (some_of hk) (contains_tail _ _)
  | definition ps k D hk _ _ => injection ht with ht; subst ht; exact .keyword "definitions" _ (by decide) (some_of hk) (contains_tail _ _)
  | text key v hkey hk _ => injection ht with ht; subst ht; exact .keyword key _ (by clear hk; revert key; decide) (some_of hk) (contains_tail _ _)
  | refText u hk _ => exact .url "$ref" u (by decide) hk
  | ref u u' e hk hn hx => 
    refine .reference u u' e hk hn ?_
    cases hx with
    | relative _ _ _ => injection ht with ht; subst ht; exact .inr (.inr (.inl ⟨rfl, contains_mid _ _ _⟩))
    | unloaded _ _ _ _ => exact .inl rfl
    | inside _ _ _ => exact .inr (.inl rfl)
    | loaded _ _ _ _ _ _ _ => exact .inr (.inl rfl)
  | target u u' o D hk hn _ _ => exact .reference u u' _ hk hn (.inr (.inr (.inr rfl)))
  | type v hk _ _ => injection ht with ht; subst ht; exact .keyword "type" _ (by decide) (some_of hk) (contains_tail _ _)
  | typeElem vs x hk _ _ _ => injection ht with ht; subst ht; exact .keyword "type" _ (by decide) (some_of hk) (contains_tail _ _)
  | typeName u hk _ => injection ht with ht; subst ht; exact .type u _ _ hk (.inl rfl) (.inl rfl) (contains_mid _ _ _)
  | typeNames vs u hk hu _ => injection ht with ht; subst ht; exact .type u _ _ hk (.inr ⟨vs, rfl, hu⟩) (.inl rfl) (contains_mid _ _ _)
  | typeTwice vs u i j hk _ hi _ => injection ht with ht; subst ht; exact .type u _ _ hk (.inr ⟨vs, rfl, List.mem_of_getElem? hi⟩) (.inr rfl) (contains_head _ _)
  | object key v hkey hk _ => injection ht with ht; subst ht; exact .keyword key _ (by clear hk; revert key; decide) (some_of hk) (contains_head2 _ _ _)
  | additional key v hkey hk _ => injection ht with ht; subst ht; exact .keyword key _ (by clear hk; revert key; decide) (some_of hk) (contains_tail _ _)
  | patternProperties v hk _ => injection ht with ht; subst ht; exact .keyword "patternProperties" _ (by decide) (some_of hk) (contains_tail _ _)
  | patternKey c k D hk hm _ => injection ht with ht; subst ht; exact .name c k D hk hm (contains_mid _ _ _)
  | propertyNames v _ hk _ => injection ht with ht; subst ht; exact .propertyNames (some_of hk) (contains_tail _ _)
  | dependency c k D hk _ _ _ => injection ht with ht; subst ht; exact .dependency (some_of hk) (contains_head2 _ _ _)
  | dependencyElem c k xs x hk _ _ _ => injection ht with ht; subst ht; exact .dependency (some_of hk) (contains_head2 _ _ _)
  | required v hk _ => injection ht with ht; subst ht; exact .keyword "required" _ (by decide) (some_of hk) (contains_head2 _ _ _)
  | requiredElem vs x hk _ _ => injection ht with ht; subst ht; exact .keyword "required" _ (by decide) (some_of hk) (contains_head2 _ _ _)
  | requiredTwice vs u i j hk _ _ _ => injection ht with ht; subst ht; exact .keyword "required" _ (by decide) (some_of hk) (contains_head _ _)
  | items v hk _ _ => injection ht with ht; subst ht; exact .keyword "items" _ (by decide) (some_of hk) (contains_tail _ _)
  | item vs D hk _ _ => injection ht with ht; subst ht; exact .keyword "items" _ (by decide) (some_of hk) (contains_tail _ _)
  | uniqueItems v hk _ => injection ht with ht; subst ht; exact .keyword "uniqueItems" _ (by decide) (some_of hk) (contains_head2 _ _ _)
  | multipleOf v hk _ => injection ht with ht; subst ht; exact .keyword "multipleOf" _ (by decide) (some_of hk) (contains_tail _ _)
  | multipleOfSign n hk _ => injection ht with ht; subst ht; exact .keyword "multipleOf" _ (by decide) (some_of hk) (contains_head _ _)
  | bound key v hkey hk _ => injection ht with ht; subst ht; exact .keyword key _ (by clear hk; revert key; decide) (some_of hk) (contains_head2 _ _ _)
  | exclusive4 xkey key v hx _ hk _ => injection ht with ht; subst ht; exact .keyword xkey _ (xk hx) (some_of hk) (contains_tail _ _)
  | exclusiveHybrid xkey key v hx _ hk _ _ => injection ht with ht; subst ht; exact .keyword xkey _ (xk hx) (some_of hk) (contains_tail _ _)
  | exclusive6 xkey key v hx _ _ hk _ => injection ht with ht; subst ht; exact .keyword xkey _ (xk hx) (some_of hk) (contains_tail _ _)
  | exclusiveAlone xkey key b hx _ hk _ => injection ht with ht; subst ht; exact .keyword xkey _ (xk hx) (some_of hk) (contains_head2 _ _ _)
  | size key v hkey hk _ => injection ht with ht; subst ht; exact .keyword key _ (sz hkey) (some_of hk) (contains_head2 _ _ _)
  | sizeSign key n hkey hk _ => injection ht with ht; subst ht; exact .keyword key _ (sz hkey) (some_of hk) (contains_head _ _)
  | lengths a b hk _ _ => injection ht with ht; subst ht; exact .keyword "minLength" _ (by decide) (some_of hk) (contains_head2 _ _ _)
  | propertyCounts a b hk _ _ => injection ht with ht; subst ht; exact .keyword "minProperties" _ (by decide) (some_of hk) (contains_head2 _ _ _)
  | pattern v hk _ => injection ht with ht; subst ht; exact .keyword "pattern" _ (by decide) (some_of hk) (contains_head2 _ _ _)
  | regex u hk _ => injection ht with ht; subst ht; exact .keyword "pattern" _ (by decide) (some_of hk) (contains_head _ _)
  | format v hk _ => injection ht with ht; subst ht; exact .keyword "format" _ (by decide) (some_of hk) (contains_head2 _ _ _)
  | const v _ hk _ => exact .literal (.inl (some_of hk))
  | enum v hk _ => injection ht with ht; subst ht; exact .keyword "enum" _ (by decide) (some_of hk) (contains_head2 _ _ _)
  | enumElem cs c hk _ _ => exact .literal (.inr (some_of hk))
  | enumTwice cs a b i j hk _ _ _ _ => injection ht with ht; subst ht; exact .keyword "enum" _ (by decide) (some_of hk) (contains_head _ _)
  | list key v hkey hk _ => injection ht with ht; subst ht; exact .keyword key _ (by clear hk; revert key; decide) (some_of hk) (contains_head2 _ _ _)
  | allOf v hk _ => injection ht with ht; subst ht; exact .allOf (some_of hk) (contains_head2 _ _ _)
  | not v hk _ => injection ht with ht; subst ht; exact .keyword "not" _ (by decide) (some_of hk) (contains_head2 _ _ _)
  | branch key v hkey _ hk _ => injection ht with ht; subst ht; exact .keyword key _ (by clear hk; revert key; decide) (some_of hk) (contains_head2 _ _ _)

/-! ### Concrete cases -/

namespace Demo

/-- The errors of three schemas, and their texts. -/
example (pr : Printer) (out : Outside) (str : Err → Exec String) :
    errorText pr out defaultCompileLocale str (.invalidType "string/array of strings" "type") =
      .ok "Invalid type. Expected: string/array of strings, given: type" :=
  C58_words pr out str _ _ rfl

example (pr : Printer) (out : Outside) (str : Err → Exec String) :
    errorText pr out defaultCompileLocale str (.notAValidType "text") =
      .ok "has a primitive type that is NOT VALID -- given: /text/ Expected valid values are:[array boolean integer number null object string]" := by
  rw [C58_words pr out str (.notAValidType "text") _ rfl]; decide +kernel

/-- An object with a fault in `minLength`. -/
example (l : LState) : FaultIn (world []) l Draft7 [("minLength", .num ⟨true, 1, [], none⟩)] (.mustBeGTEZero "minLength") :=
  .sizeSign "minLength" _ (by simp) rfl (by decide +kernel)

/-- A format in another language for the same error. -/
example : Written (compileDetails (.mustBeGTEZero "minLength")) "{{.key}} ist negativ" [.field "key", .text " ist negativ"] := by
  have := Written.field (names := compileDetails (.mustBeGTEZero "minLength")) "key" _ _ (by decide) (by decide) (by decide)
    (.text " ist negativ" _ _ (by decide) .done)
  exact this

/-- The text of the report of a document whose `minLength` is a string. -/
def reportText (a : LoaderArg) (l : LState) : Option String :=
  match compile (webWorld []) .id ⟨200, 200⟩ [] a l with
  | (.error (.err (.metaSchema es)), _) =>
    match errorText ⟨fun _ => "", fun _ _ => ""⟩ ⟨fun _ => "", "", fun _ => "", fun _ => ""⟩ defaultCompileLocale
      (errString ⟨fun _ => "", fun _ _ => ""⟩ defaultLocale (fun _ => none) (fun _ => "")) (.metaSchema es) with
    | .ok t => some t
    | .error _ => none
  | _ => none

example : reportText (.direct (some misshaped)) knowing =
    some "minLength: Invalid type. Expected: integer, given: string\nminLength: Must validate all the schemas (allOf)\n" := by
  decide +kernel

end Demo

end GJS

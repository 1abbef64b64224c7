import Verif.LemMessages
import Verif.PropContext
import Verif.PropFault
import Mathlib.Tactic.Tauto
/-
C51: error descriptions.
-/
namespace GJS
open Spec Msg

/-- The kinds of errors that validation produces and survives. -/
def Spec.Reported (k : ErrKind) : Prop := k ≠ .internal ∧ k ≠ .invalidPropertyPattern

/-- C51, details.  The detail map of every error has precisely the entries that the comments of
the error types promise, and `field` and `context`. -/
theorem C51_details (k : ErrKind) (hk : Reported k) (c : Ctx) (f t : String) (hf : fieldOf c = .ok f)
    (ht : ctxString [] c = .ok t) :
    ∃ d, fullDetails k c = .ok d ∧ getKey "field" d = some (.str f) ∧ getKey "context" d = some (.str t) ∧
      ∀ n, getKey n d ≠ none ↔ n ∈ promised k.typeName ++ ["field", "context"] := by
  refine ⟨_, fullDetails_eq k c f t hf ht, ?_, ?_, ?_⟩
  · simp [put, getKey, List.lookup, List.filter]
  · simp [put, getKey, List.lookup]
  · intro n
    cases k <;> first
      | exact absurd rfl hk.1
      | exact absurd rfl hk.2
      | (simp only [detailsOf, put, ErrKind.typeName, promised, List.filter]
         simp [lookup_iff]
         try tauto)

/-- C51: the type of an error is the one documented for its kind. -/
theorem C51_types (k : ErrKind) : (bare k, k.typeName) ∈ errorTypes := by
  cases k <;> simp [bare, ErrKind.typeName, errorTypes]

/-- C51: errors of different kinds have different types. -/
theorem C51_types_distinct (k k' : ErrKind) (h : k.typeName = k'.typeName) : bare k = bare k' := by
  have key : ∀ a ∈ errorTypes, ∀ b ∈ errorTypes, a.2 = b.2 → a.1 = b.1 := by decide +kernel
  exact key _ (C51_types k) _ (C51_types k') h

/-- C51, any locale.  If the format of a locale for the type of the error is made of text and
details promised for that type (or `field`, `context`), the description is that text with the
values of the details in place; no detail is missing. -/
theorem C51_locale (pr : Printer) (loc : Locale) (e : Err) (hk : Reported e.kind) (hc : e.ctx ≠ []) (ps : List Piece)
    (hw : Written (promised e.kind.typeName ++ ["field", "context"]) (loc.format e.kind) ps) :
    ∃ (d : Details) (value : String → String), fullDetails e.kind e.ctx = .ok d ∧
      (∀ n ∈ promised e.kind.typeName ++ ["field", "context"], ∃ x, getKey n d = some x ∧ value n = pr.print x) ∧
      description pr loc e = .ok (filled value ps) := by
  obtain ⟨t, ht, -⟩ := C36_string [] e.ctx hc
  have hf : ∃ f, fieldOf e.ctx = .ok f := by
    unfold fieldOf; rw [ht]; exact ⟨_, rfl⟩
  obtain ⟨f, hf⟩ := hf
  obtain ⟨d, h1, -, -, h2⟩ := C51_details e.kind hk e.ctx f t hf ht
  have hv : ∀ n ∈ promised e.kind.typeName ++ ["field", "context"], ∃ x, getKey n d = some x ∧
      ((getKey n d).map pr.print).getD "" = pr.print x := by
    intro n hn
    cases hx : getKey n d with
    | none => exact absurd hx ((h2 n).2 hn)
    | some x => exact ⟨x, rfl, rfl⟩
  refine ⟨d, fun n => ((getKey n d).map pr.print).getD "", h1, hv, ?_⟩
  unfold description
  rw [h1]
  show Except.ok (formatErrorDescription pr (loc.format e.kind) d) = _
  rw [format_written pr d hw, written_filled pr d hv hw]

/-- C51, any locale, any names.  A detail that is not promised for the type of the error is printed as
`<no value>`. -/
theorem C51_missing (pr : Printer) (loc : Locale) (e : Err) (hk : Reported e.kind) (hc : e.ctx ≠ []) (names : List String)
    (ps : List Piece) (hw : Written names (loc.format e.kind) ps) :
    ∃ (d : Details) (value : String → String), fullDetails e.kind e.ctx = .ok d ∧
      (∀ n ∈ promised e.kind.typeName ++ ["field", "context"], ∃ x, getKey n d = some x ∧ value n = pr.print x) ∧
      (∀ n, n ∉ promised e.kind.typeName ++ ["field", "context"] → value n = "<no value>") ∧
      description pr loc e = .ok (filled value ps) := by
  obtain ⟨t, ht, -⟩ := C36_string [] e.ctx hc
  have hf : ∃ f, fieldOf e.ctx = .ok f := by
    unfold fieldOf; rw [ht]; exact ⟨_, rfl⟩
  obtain ⟨f, hf⟩ := hf
  obtain ⟨d, h1, -, -, h2⟩ := C51_details e.kind hk e.ctx f t hf ht
  refine ⟨d, fun n => renderPiece pr d (.field n), h1, ?_, ?_, ?_⟩
  · intro n hn
    cases hx : getKey n d with
    | none => exact absurd hx ((h2 n).2 hn)
    | some x => exact ⟨x, rfl, by simp [renderPiece, hx]⟩
  · intro n hn
    have hx : getKey n d = none := by
      cases hx : getKey n d with
      | none => rfl
      | some x => exact absurd ((h2 n).1 (by simp [hx])) hn
    simp [renderPiece, hx]
  · unfold description
    rw [h1]
    show Except.ok (formatErrorDescription pr (loc.format e.kind) d) = _
    rw [format_written pr d hw]
    clear hw
    congr 1
    induction ps with
    | nil => rfl
    | cons p ps ih => cases p <;> simp [renderPieces, filled, ih, renderPiece]

/-- A format that names a detail no error of its type has. -/
example : Written ["nothing"] "{{.nothing}}" [.field "nothing"] ∧
    "nothing" ∉ promised (ErrKind.typeName (.required "a")) ++ ["field", "context"] :=
  ⟨.field "nothing" "" [] (by simp) (by decide) (by decide) .done, by decide⟩

/-- C51, default locale.  What the description of an error says, word by word. -/
theorem C51_default (pr : Printer) (e : Err) (f : String) (hf : fieldOf e.ctx = .ok f) :
    description pr defaultLocale e = .ok (message pr.big f e.kind) := by
  have ht : ∃ t, ctxString [] e.ctx = .ok t := by
    cases hc : e.ctx with
    | nil => rw [hc] at hf; cases hf
    | cons a c => exact ⟨_, rfl⟩
  obtain ⟨t, ht⟩ := ht
  unfold description
  rw [fullDetails_eq _ _ f t hf ht]
  show Except.ok (formatErrorDescription pr (defaultLocale.format e.kind) _) = _
  rw [format_default]

/-- C51, the whole text: `String` gives the field, a colon and the description. -/
theorem C51_string (pr : Printer) (marshal : Json → Option String) (goStyle : Json → String) (e : Err) (f : String)
    (hf : fieldOf e.ctx = .ok f) :
    errString pr defaultLocale marshal goStyle e = .ok (f ++ ": " ++ message pr.big f e.kind) := by
  have ht : ∃ t, ctxString [] e.ctx = .ok t := by
    cases hc : e.ctx with
    | nil => rw [hc] at hf; cases hf
    | cons a c => exact ⟨_, rfl⟩
  obtain ⟨t, ht⟩ := ht
  unfold errString
  rw [C51_default pr e f hf, ht, hf]
  show Except.ok (formatErrorDescription pr defaultLocale.errorFormat _) = _
  unfold formatErrorDescription
  rw [parse_errorFormat]
  simp [renderPieces, renderPiece, getKey_cons, Printer.print, String.append_assoc]

/-- C51, end to end: every error of a validation has a description, word by word that of its kind
and details, preceded in `String` by the path of the place. -/
theorem C51_errors (env : Env) (σ : Sched) (h : Heap) (n : Nat) (root : Id) (v : Json) (hv : v.WF)
    (r : Result) (hr : validateDocument env σ h n root v = .ok r) (e : Err) (he : e ∈ r.errors)
    (pr : Printer) (marshal : Json → Option String) (goStyle : Json → String) :
    Reported e.kind ∧ ∃ path w f, At v path w ∧
      f.toList = (if path = [] then "(root)".toList else joined ['.'] (path.map String.toList)) ∧
      description pr defaultLocale e = .ok (message pr.big f e.kind) ∧
      errString pr defaultLocale marshal goStyle e = .ok (f ++ ": " ++ message pr.big f e.kind) := by
  obtain ⟨path, w, f, h1, h2, h3⟩ := C36_errors env σ h n root v hv r hr e he
  refine ⟨?_, path, w, f, h1, h3, C51_default pr e f h2, C51_string pr marshal goStyle e f h2⟩
  obtain ⟨_, _, _, s, _, _, _, hf⟩ := C49_sound env σ h n root v r hr e he
  generalize e.kind = k at hf
  generalize e.value = x at hf
  cases hf with
  | false_ _ => exact ⟨by simp, by simp⟩
  | type _ _ _ _ _ => exact ⟨by simp, by simp⟩
  | keyword _ _ _ hk => cases hk <;> exact ⟨by simp, by simp⟩

/-- The formats of the default locale are made of text and promised details. -/
example : Written (promised "required" ++ ["field", "context"]) defaultLocale.required
    [.field "property", .text " is required"] := by
  have := Written.field (names := promised "required" ++ ["field", "context"]) "property" _ _ (by decide) (by decide) (by decide)
    (.text " is required" _ _ (by decide) .done)
  exact this

/-- The texts for the list whose second cell has no value and for a wrong type. -/
example (pr : Printer) (m g) : errString pr defaultLocale m g ⟨.required "value", ["next", "(root)"], .obj []⟩ =
    .ok "next: value is required" := by
  rw [C51_string pr m g _ "next" rfl]; rfl

example (pr : Printer) (m g) : errString pr defaultLocale m g ⟨.invalidType "integer" "string", ["(root)"], .str "x"⟩ =
    .ok "(root): Invalid type. Expected: integer, given: string" := by
  rw [C51_string pr m g _ "(root)" rfl]; rfl

end GJS

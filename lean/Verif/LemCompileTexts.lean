import Verif.SpecCompileTexts
import Verif.LemMessages
import Verif.LemReject
import Verif.LemMetaFail
/-
Helper lemmas: texts of the errors of the compiler.
-/
namespace GJS.Msg
open GJS Spec

/-- The formats of the default locale, read. -/
def defaultPieces : CErr → Option (List Piece)
  | .parseError => some [.text "Expected: ", .field "expected", .text ", given: Invalid JSON"]
  | .invalidType _ _ => some [.text "Invalid type. Expected: ", .field "expected", .text ", given: ", .field "given", .text ""]
  | .mustBeOfA _ _ => some [.text "", .field "x", .text " must be of a ", .field "y", .text ""]
  | .mustBeOfAn _ _ => some [.text "", .field "x", .text " must be of an ", .field "y", .text ""]
  | .mustBeOfType _ _ => some [.text "", .field "key", .text " must be of type ", .field "type", .text ""]
  | .mustBeGTEZero _ => some [.text "", .field "key", .text " must be greater than or equal to 0"]
  | .cannotBeGT _ _ => some [.text "", .field "x", .text " cannot be greater than ", .field "y", .text ""]
  | .keyCannotBeGreaterThan _ _ => some [.text "", .field "key", .text " cannot be greater than ", .field "y", .text ""]
  | .greaterThanZero _ => some [.text "", .field "number", .text " must be strictly greater than 0"]
  | .cannotBeUsedWithout _ _ => some [.text "", .field "x", .text " cannot be used without ", .field "y", .text ""]
  | .regexPattern _ => some [.text "Invalid regex pattern '", .field "pattern", .text "'"]
  | .mustBeValidRegex _ => some [.text "", .field "key", .text " must be a valid regex"]
  | .keyItemsMustBeUnique _ => some [.text "", .field "key", .text " items must be unique"]
  | .keyItemsMustBeOfType _ _ => some [.text "", .field "key", .text " items must be ", .field "type", .text ""]
  | .notAValidType _ => some [.text "has a primitive type that is NOT VALID -- given: ", .field "given",
      .text " Expected valid values are:", .field "expected", .text ""]
  | .duplicated _ => some [.text "", .field "type", .text " type is duplicated"]
  | .referenceMustBeCanonical _ => some [.text "Reference ", .field "reference", .text " must be canonical"]
  | _ => none

theorem parse_default (e : CErr) (s d) (h : defaultCompileLocale.formatted e = some (s, d)) : parseFormat s = defaultPieces e := by
  cases e <;> simp only [CompileLocale.formatted, Option.some.injEq, Prod.mk.injEq, reduceCtorEq] at h <;>
    (obtain ⟨rfl, -⟩ := h; simp only [defaultPieces]; decide +kernel)

theorem jsonTypes_print (pr : Printer) : pr.print (.strs jsonTypes) = "[array boolean integer number null object string]" := by
  have : ("[" ++ " ".intercalate jsonTypes ++ "]" : String) = "[array boolean integer number null object string]" := by decide +kernel
  exact this

theorem format_compile (pr : Printer) (out : Outside) (e : CErr) (s d) (h : defaultCompileLocale.formatted e = some (s, d)) :
    some (formatErrorDescription pr s d) = complaint out e := by
  unfold formatErrorDescription
  rw [parse_default e s d h]
  cases e <;> simp only [CompileLocale.formatted, Option.some.injEq, Prod.mk.injEq, reduceCtorEq] at h <;>
    (obtain ⟨rfl, rfl⟩ := h
     simp [defaultPieces, renderPieces, renderPiece, getKey_cons, complaint, String.append_assoc, jsonTypes_print]
     try simp [Printer.print, String.append_assoc]
     try (rw [← String.append_assoc]; rfl))

theorem report_ok {str : Err → Exec String} {g : Err → String} : ∀ {es : List Err}, (∀ e ∈ es, str e = .ok (g e)) →
    report str es = .ok (String.join (es.map fun e => g e ++ "\n")) := by
  intro es
  induction es with
  | nil => intro _; rfl
  | cons e es ih =>
    intro h
    unfold report
    rw [h e (by simp), ih fun e he => h e (by simp [he])]
    show Except.ok (g e ++ "\n" ++ _) = _
    simp [String.join_cons]

end GJS.Msg

namespace GJS
open Spec

variable {w : World} {σ : Sched}

theorem Spec.NotThere.notMeta {l u e es} (h : NotThere w l u e) : e ≠ .metaSchema es := by
  cases h <;> simp

theorem Spec.FaultIn.notMeta {l d m e es} (h : FaultIn w l d m e) : e ≠ .metaSchema es := by
  cases h with
  | ref t u e _ _ h => exact h.notMeta
  | _ => simp

theorem Spec.SchemaFault.notMeta {D e es} (h : SchemaFault w D e) : e ≠ .metaSchema es := by
  cases h <;> simp

theorem Spec.Rejected.notMeta {l l' a e es} (h : Rejected w l l' a e) : e ≠ .metaSchema es := by
  cases h with
  | notThere ref e _ _ h => exact h.notMeta
  | schema D e _ _ h => exact h.notMeta
  | fault D d' D' e _ _ h =>
    cases h with
    | fault m e h => exact h.notMeta
    | _ => simp
  | _ => simp

theorem checkDocument_report {fuel : Fuel} {s : Schema} {D : Json} {es} {l l' : LState}
    (h : checkDocument w σ fuel s D l = (.error (.err (.metaSchema es)), l')) :
    ∃ r, validateDocument w.env σ s.heap fuel.validate s.root D = .ok r ∧ r.errors = es ∧ es ≠ [] := by
  unfold checkDocument at h
  cases hr : validateDocument w.env σ s.heap fuel.validate s.root D with
  | ok r =>
    rw [hr] at h
    simp only at h
    cases hv : r.valid with
    | true => rw [hv] at h; simp [M.pure_def] at h
    | false =>
      rw [hv] at h
      simp only [Bool.false_eq_true, if_false, M.err, M.fail, Prod.mk.injEq, Except.error.injEq, Fail.err.injEq, CErr.metaSchema.injEq] at h
      refine ⟨r, rfl, h.1, ?_⟩
      rw [← h.1]
      intro he
      simp [Result.valid, he] at hv
  | error e => rw [hr] at h; cases e <;> simp [M.fail] at h

theorem validateMetaschema_report {fuel p D es} {l l' : LState}
    (h : validateMetaschema w σ fuel p D l = (.error (.err (.metaSchema es)), l')) :
    ∃ (s : Schema) (r : Result), validateDocument w.env σ s.heap fuel.validate s.root D = .ok r ∧ r.errors = es ∧ es ≠ [] := by
  unfold validateMetaschema at h
  rcases M.bind_error.1 h with h1 | ⟨o, l1, h1, h2⟩
  · exact absurd ⟨_, rfl⟩ (metaSchemaURL_noMeta _ _ _ h1)
  cases o with
  | none => simp [M.pure_def] at h2
  | some u =>
    simp only at h2
    rcases M.bind_error.1 h2 with h3 | ⟨_, l2, h3, h4⟩
    · simp [M.modify] at h3
    rcases M.bind_error.1 h4 with h5 | ⟨s, l3, h5, h6⟩
    · exact absurd ⟨_, rfl⟩ (compileInner_noMeta _ _ _ h5)
    rcases M.bind_error.1 h6 with h7 | ⟨_, l4, h7, h8⟩
    · simp [M.modify] at h7
    exact ⟨s, checkDocument_report h8⟩

end GJS

import Verif.SpecMessages
/-
Helper lemmas: rendering of formats made of text and details.
-/
namespace GJS.Msg
open GJS Spec

theorem pieces_text : ∀ (t : List Char) (acc s : List Char), '{' ∉ t → pieces (.text acc) (t ++ s) = pieces (.text (acc ++ t)) s := by
  intro t
  induction t with
  | nil => intro acc s _; simp
  | cons c t ih =>
    intro acc s h
    simp only [List.mem_cons, not_or] at h
    rw [List.cons_append, pieces, if_neg (Ne.symm h.1), ih _ _ h.2]
    simp

theorem pieces_name : ∀ (n : List Char) (acc s : List Char), (∀ c ∈ n, isNameChar c = true) → acc ++ n ≠ [] →
    pieces (.name acc) (n ++ '}' :: '}' :: s) = (pieces (.text []) s).map (.field (String.ofList (acc ++ n)) :: ·) := by
  intro n
  induction n with
  | nil =>
    intro acc s _ hne
    simp only [List.append_nil] at hne
    simp [pieces, hne]
  | cons c n ih =>
    intro acc s h hne
    have hc := h c (by simp)
    have h1 : c ≠ '}' := by rintro rfl; revert hc; decide
    rw [List.cons_append, pieces, if_neg h1, hc]
    simp only [if_true]
    rw [ih _ _ (fun x hx => h x (by simp [hx])) (by simp)]
    simp

theorem renderPieces_append (pr : Printer) (d : Details) (a b : List Piece) :
    renderPieces pr d (a ++ b) = renderPieces pr d a ++ renderPieces pr d b := by
  induction a with
  | nil => simp [renderPieces]
  | cons x a ih => simp [renderPieces, ih, String.append_assoc]

theorem pieces_written (pr : Printer) (d : Details) {names s ps} (hw : Written names s ps) : ∀ acc : List Char,
    ∃ qs, pieces (.text acc) s.toList = some qs ∧ renderPieces pr d qs = String.ofList acc ++ renderPieces pr d ps := by
  induction hw with
  | done => intro acc; exact ⟨_, rfl, rfl⟩
  | text t s ps ht _ ih =>
    intro acc
    obtain ⟨qs, h1, h2⟩ := ih (acc ++ t.toList)
    refine ⟨qs, ?_, ?_⟩
    · rw [String.toList_append, pieces_text _ _ _ ht, h1]
    · rw [h2]; simp [renderPieces, renderPiece, String.append_assoc]
  | brace c s ps hc _ ih =>
    intro acc
    obtain ⟨qs, h1, h2⟩ := ih (acc ++ ['{', c])
    refine ⟨qs, ?_, ?_⟩
    · rw [String.toList_append, String.toList_ofList, ← h1]
      show pieces (.text acc) ('{' :: c :: s.toList) = _
      rw [pieces, if_pos rfl, pieces, if_neg hc]
    · rw [h2]; simp [renderPieces, renderPiece, String.append_assoc]
  | field n s ps _ hne hn _ ih =>
    intro acc
    obtain ⟨qs, h1, h2⟩ := ih []
    have hl : ("{{." ++ n ++ "}}" ++ s).toList = '{' :: '{' :: '.' :: (n.toList ++ '}' :: '}' :: s.toList) := by
      simp [String.toList_append]
    have hne' : [] ++ n.toList ≠ [] := by
      intro e; apply hne
      rw [← String.ofList_toList (s := n)]
      simp only [List.nil_append] at e
      rw [e]
    refine ⟨.text (String.ofList acc) :: .field n :: qs, ?_, ?_⟩
    · rw [hl]
      simp only [pieces, if_true]
      rw [pieces_name _ _ _ hn hne', h1]
      simp
    · simp [renderPieces, renderPiece, h2]

theorem format_written (pr : Printer) (d : Details) {names s ps} (hw : Written names s ps) :
    formatErrorDescription pr s d = renderPieces pr d ps := by
  obtain ⟨qs, h1, h2⟩ := pieces_written pr d hw []
  unfold formatErrorDescription parseFormat
  rw [h1]
  simpa using h2

theorem written_filled (pr : Printer) (d : Details) {names s ps} {value : String → String}
    (hv : ∀ n ∈ names, ∃ x, getKey n d = some x ∧ value n = pr.print x) (hw : Written names s ps) :
    renderPieces pr d ps = filled value ps := by
  induction hw with
  | done => rfl
  | text t s ps _ _ ih => simp [renderPieces, renderPiece, filled, ih]
  | brace c s ps _ _ ih => simp [renderPieces, renderPiece, filled, ih]
  | field n s ps hm _ _ _ ih =>
    obtain ⟨x, h1, h2⟩ := hv n hm
    simp [renderPieces, renderPiece, filled, ih, h1, h2]

/-! ### The formats of the default locale -/

theorem parse_false_ : parseFormat defaultLocale.false_ =
    some [.text "False always fails validation"] := by decide +kernel
theorem parse_required : parseFormat defaultLocale.required =
    some [.text "", .field "property", .text " is required"] := by decide +kernel
theorem parse_invalidType : parseFormat defaultLocale.invalidType =
    some [.text "Invalid type. Expected: ", .field "expected", .text ", given: ", .field "given", .text ""] := by decide +kernel
theorem parse_numberAnyOf : parseFormat defaultLocale.numberAnyOf =
    some [.text "Must validate at least one schema (anyOf)"] := by decide +kernel
theorem parse_numberOneOf : parseFormat defaultLocale.numberOneOf =
    some [.text "Must validate one and only one schema (oneOf)"] := by decide +kernel
theorem parse_numberAllOf : parseFormat defaultLocale.numberAllOf =
    some [.text "Must validate all the schemas (allOf)"] := by decide +kernel
theorem parse_numberNot : parseFormat defaultLocale.numberNot =
    some [.text "Must not validate the schema (not)"] := by decide +kernel
theorem parse_missingDependency : parseFormat defaultLocale.missingDependency =
    some [.text "Has a dependency on ", .field "dependency", .text ""] := by decide +kernel
theorem parse_internal : parseFormat defaultLocale.internal =
    some [.text "Internal Error ", .field "error", .text ""] := by decide +kernel
theorem parse_const : parseFormat defaultLocale.const =
    some [.text "", .field "field", .text " does not match: ", .field "allowed", .text ""] := by decide +kernel
theorem parse_enum : parseFormat defaultLocale.enum =
    some [.text "", .field "field", .text " must be one of the following: ", .field "allowed", .text ""] := by decide +kernel
theorem parse_arrayNoAdditionalItems : parseFormat defaultLocale.arrayNoAdditionalItems =
    some [.text "No additional items allowed on array"] := by decide +kernel
theorem parse_arrayMinItems : parseFormat defaultLocale.arrayMinItems =
    some [.text "Array must have at least ", .field "min", .text " items"] := by decide +kernel
theorem parse_arrayMaxItems : parseFormat defaultLocale.arrayMaxItems =
    some [.text "Array must have at most ", .field "max", .text " items"] := by decide +kernel
theorem parse_unique : parseFormat defaultLocale.unique =
    some [.text "", .field "type", .text " items[", .field "i", .text ",", .field "j", .text "] must be unique"] := by decide +kernel
theorem parse_arrayContains : parseFormat defaultLocale.arrayContains =
    some [.text "At least one of the items must match"] := by decide +kernel
theorem parse_arrayMinProperties : parseFormat defaultLocale.arrayMinProperties =
    some [.text "Must have at least ", .field "min", .text " properties"] := by decide +kernel
theorem parse_arrayMaxProperties : parseFormat defaultLocale.arrayMaxProperties =
    some [.text "Must have at most ", .field "max", .text " properties"] := by decide +kernel
theorem parse_additionalPropertyNotAllowed : parseFormat defaultLocale.additionalPropertyNotAllowed =
    some [.text "Additional property ", .field "property", .text " is not allowed"] := by decide +kernel
theorem parse_invalidPropertyPattern : parseFormat defaultLocale.invalidPropertyPattern =
    some [.text "Property \"", .field "property", .text "\" does not match pattern ", .field "pattern", .text ""] := by decide +kernel
theorem parse_invalidPropertyName : parseFormat defaultLocale.invalidPropertyName =
    some [.text "Property name of \"", .field "property", .text "\" does not match"] := by decide +kernel
theorem parse_stringGTE : parseFormat defaultLocale.stringGTE =
    some [.text "String length must be greater than or equal to ", .field "min", .text ""] := by decide +kernel
theorem parse_stringLTE : parseFormat defaultLocale.stringLTE =
    some [.text "String length must be less than or equal to ", .field "max", .text ""] := by decide +kernel
theorem parse_doesNotMatchPattern : parseFormat defaultLocale.doesNotMatchPattern =
    some [.text "Does not match pattern '", .field "pattern", .text "'"] := by decide +kernel
theorem parse_doesNotMatchFormat : parseFormat defaultLocale.doesNotMatchFormat =
    some [.text "Does not match format '", .field "format", .text "'"] := by decide +kernel
theorem parse_multipleOf : parseFormat defaultLocale.multipleOf =
    some [.text "Must be a multiple of ", .field "multiple", .text ""] := by decide +kernel
theorem parse_numberGTE : parseFormat defaultLocale.numberGTE =
    some [.text "Must be greater than or equal to ", .field "min", .text ""] := by decide +kernel
theorem parse_numberGT : parseFormat defaultLocale.numberGT =
    some [.text "Must be greater than ", .field "min", .text ""] := by decide +kernel
theorem parse_numberLTE : parseFormat defaultLocale.numberLTE =
    some [.text "Must be less than or equal to ", .field "max", .text ""] := by decide +kernel
theorem parse_numberLT : parseFormat defaultLocale.numberLT =
    some [.text "Must be less than ", .field "max", .text ""] := by decide +kernel
theorem parse_conditionThen : parseFormat defaultLocale.conditionThen =
    some [.text "Must validate \"then\" as \"if\" was valid"] := by decide +kernel
theorem parse_conditionElse : parseFormat defaultLocale.conditionElse =
    some [.text "Must validate \"else\" as \"if\" was not valid"] := by decide +kernel
theorem parse_errorFormat : parseFormat defaultLocale.errorFormat =
    some [.text "", .field "field", .text ": ", .field "description", .text ""] := by decide +kernel

set_option linter.unusedSimpArgs false

theorem lookup_iff {n : String} {d : Details} : getKey n d = none ↔ ∀ x ∈ d, x.1 ≠ n := by
  induction d with
  | nil => simp [getKey]
  | cons a d ih =>
    obtain ⟨m, x⟩ := a
    unfold getKey at *
    rw [List.lookup_cons]
    by_cases h : n = m
    · subst h; simp
    · rw [beq_false_of_ne h]
      simp [ih, Ne.symm h]

theorem fullDetails_eq (k : ErrKind) (c : Ctx) (f t : String) (hf : fieldOf c = .ok f) (ht : ctxString [] c = .ok t) :
    fullDetails k c = .ok (put (put (detailsOf k) "field" (.str f)) "context" (.str t)) := by
  have h : getKey "context" (put (detailsOf k) "field" (.str f)) = none := by
    cases k <;> simp [detailsOf, put, getKey, List.lookup]
  simp only [fullDetails, hf, ht]
  show (match getKey "context" (put (detailsOf k) "field" (.str f)) with | some _ => _ | none => _) = _
  rw [h]
  rfl

theorem getKey_put (m : Details) (k n : String) (v : DVal) :
    getKey n (put m k v) = if n = k then some v else getKey n m := by
  unfold getKey put
  rw [List.lookup_cons]
  by_cases h : n = k
  · subst h; simp
  · rw [beq_false_of_ne h, if_neg h]
    induction m with
    | nil => rfl
    | cons a m ih =>
      obtain ⟨a, x⟩ := a
      rw [List.filter_cons, List.lookup_cons]
      by_cases ha : a = k
      · subst ha
        rw [beq_false_of_ne h]
        simpa using ih
      · simp only [beq_false_of_ne ha, Bool.not_false, if_true, List.lookup_cons]
        split
        · rfl
        · exact ih

theorem getKey_cons (m : Details) (k n : String) (v : DVal) :
    getKey n ((k, v) :: m) = if n = k then some v else getKey n m := by
  unfold getKey
  rw [List.lookup_cons]
  by_cases h : n = k
  · subst h; simp
  · rw [beq_false_of_ne h, if_neg h]

theorem getKey_nil (n : String) : getKey n ([] : Details) = none := rfl

theorem message_false_ (num : Rat → String) (field : String) : message num field .false_ =
    "False always fails validation" := rfl
theorem message_required (num : Rat → String) (field : String) (p : String) : message num field (.required p) =
    p ++ " is required" := rfl
theorem message_invalidType (num : Rat → String) (field : String) (e g : String) : message num field (.invalidType e g) =
    "Invalid type. Expected: " ++ e ++ ", given: " ++ g := rfl
theorem message_numberAnyOf (num : Rat → String) (field : String) : message num field .numberAnyOf =
    "Must validate at least one schema (anyOf)" := rfl
theorem message_numberOneOf (num : Rat → String) (field : String) : message num field .numberOneOf =
    "Must validate one and only one schema (oneOf)" := rfl
theorem message_numberAllOf (num : Rat → String) (field : String) : message num field .numberAllOf =
    "Must validate all the schemas (allOf)" := rfl
theorem message_numberNot (num : Rat → String) (field : String) : message num field .numberNot =
    "Must not validate the schema (not)" := rfl
theorem message_missingDependency (num : Rat → String) (field : String) (d : String) : message num field (.missingDependency d) =
    "Has a dependency on " ++ d := rfl
theorem message_internal (num : Rat → String) (field : String) : message num field .internal =
    "Internal Error <no value>" := rfl
theorem message_const (num : Rat → String) (field : String) (a : String) : message num field (.const a) =
    field ++ " does not match: " ++ a := rfl
theorem message_enum (num : Rat → String) (field : String) (a : String) : message num field (.enum a) =
    field ++ " must be one of the following: " ++ a := rfl
theorem message_arrayNoAdditionalItems (num : Rat → String) (field : String) : message num field .arrayNoAdditionalItems =
    "No additional items allowed on array" := rfl
theorem message_arrayMinItems (num : Rat → String) (field : String) (z : Int) : message num field (.arrayMinItems z) =
    "Array must have at least " ++ toString z ++ " items" := rfl
theorem message_arrayMaxItems (num : Rat → String) (field : String) (z : Int) : message num field (.arrayMaxItems z) =
    "Array must have at most " ++ toString z ++ " items" := rfl
theorem message_unique (num : Rat → String) (field : String) (i j : Nat) : message num field (.unique i j) =
    "array items[" ++ toString i ++ "," ++ toString j ++ "] must be unique" := rfl
theorem message_contains (num : Rat → String) (field : String) : message num field .contains =
    "At least one of the items must match" := rfl
theorem message_arrayMinProperties (num : Rat → String) (field : String) (z : Int) : message num field (.arrayMinProperties z) =
    "Must have at least " ++ toString z ++ " properties" := rfl
theorem message_arrayMaxProperties (num : Rat → String) (field : String) (z : Int) : message num field (.arrayMaxProperties z) =
    "Must have at most " ++ toString z ++ " properties" := rfl
theorem message_additionalPropertyNotAllowed (num : Rat → String) (field : String) (p : String) : message num field (.additionalPropertyNotAllowed p) =
    "Additional property " ++ p ++ " is not allowed" := rfl
theorem message_invalidPropertyPattern (num : Rat → String) (field : String) : message num field .invalidPropertyPattern =
    "Property \"<no value>\" does not match pattern <no value>" := rfl
theorem message_invalidPropertyName (num : Rat → String) (field : String) (p : String) : message num field (.invalidPropertyName p) =
    "Property name of \"" ++ p ++ "\" does not match" := rfl
theorem message_stringGTE (num : Rat → String) (field : String) (z : Int) : message num field (.stringGTE z) =
    "String length must be greater than or equal to " ++ toString z := rfl
theorem message_stringLTE (num : Rat → String) (field : String) (z : Int) : message num field (.stringLTE z) =
    "String length must be less than or equal to " ++ toString z := rfl
theorem message_pattern (num : Rat → String) (field : String) (p : String) : message num field (.pattern p) =
    "Does not match pattern '" ++ p ++ "'" := rfl
theorem message_format (num : Rat → String) (field : String) (f : String) : message num field (.format f) =
    "Does not match format '" ++ f ++ "'" := rfl
theorem message_multipleOf (num : Rat → String) (field : String) (q : Rat) : message num field (.multipleOf q) =
    "Must be a multiple of " ++ num q := rfl
theorem message_numberGTE (num : Rat → String) (field : String) (q : Rat) : message num field (.numberGTE q) =
    "Must be greater than or equal to " ++ num q := rfl
theorem message_numberGT (num : Rat → String) (field : String) (q : Rat) : message num field (.numberGT q) =
    "Must be greater than " ++ num q := rfl
theorem message_numberLTE (num : Rat → String) (field : String) (q : Rat) : message num field (.numberLTE q) =
    "Must be less than or equal to " ++ num q := rfl
theorem message_numberLT (num : Rat → String) (field : String) (q : Rat) : message num field (.numberLT q) =
    "Must be less than " ++ num q := rfl
theorem message_conditionThen (num : Rat → String) (field : String) : message num field .conditionThen =
    "Must validate \"then\" as \"if\" was valid" := rfl
theorem message_conditionElse (num : Rat → String) (field : String) : message num field .conditionElse =
    "Must validate \"else\" as \"if\" was not valid" := rfl

theorem format_default (pr : Printer) (f t : String) (k : ErrKind) :
    formatErrorDescription pr (defaultLocale.format k) (put (put (detailsOf k) "field" (.str f)) "context" (.str t)) =
      message pr.big f k := by
  unfold formatErrorDescription
  cases k
  case false_ =>
    have h : parseFormat (defaultLocale.format .false_) = some [.text "False always fails validation"] := parse_false_
    rw [h]; simp [renderPieces, renderPiece, detailsOf, getKey_put, getKey_cons, getKey_nil, Printer.print, message_false_, String.append_assoc]
  case required x =>
    have h : parseFormat (defaultLocale.format (.required x)) = some [.text "", .field "property", .text " is required"] := parse_required
    rw [h]; simp [renderPieces, renderPiece, detailsOf, getKey_put, getKey_cons, getKey_nil, Printer.print, message_required, String.append_assoc]
  case invalidType x y =>
    have h : parseFormat (defaultLocale.format (.invalidType x y)) = some [.text "Invalid type. Expected: ", .field "expected", .text ", given: ", .field "given", .text ""] := parse_invalidType
    rw [h]; simp [renderPieces, renderPiece, detailsOf, getKey_put, getKey_cons, getKey_nil, Printer.print, message_invalidType, String.append_assoc]
  case numberAnyOf =>
    have h : parseFormat (defaultLocale.format .numberAnyOf) = some [.text "Must validate at least one schema (anyOf)"] := parse_numberAnyOf
    rw [h]; simp [renderPieces, renderPiece, detailsOf, getKey_put, getKey_cons, getKey_nil, Printer.print, message_numberAnyOf, String.append_assoc]
  case numberOneOf =>
    have h : parseFormat (defaultLocale.format .numberOneOf) = some [.text "Must validate one and only one schema (oneOf)"] := parse_numberOneOf
    rw [h]; simp [renderPieces, renderPiece, detailsOf, getKey_put, getKey_cons, getKey_nil, Printer.print, message_numberOneOf, String.append_assoc]
  case numberAllOf =>
    have h : parseFormat (defaultLocale.format .numberAllOf) = some [.text "Must validate all the schemas (allOf)"] := parse_numberAllOf
    rw [h]; simp [renderPieces, renderPiece, detailsOf, getKey_put, getKey_cons, getKey_nil, Printer.print, message_numberAllOf, String.append_assoc]
  case numberNot =>
    have h : parseFormat (defaultLocale.format .numberNot) = some [.text "Must not validate the schema (not)"] := parse_numberNot
    rw [h]; simp [renderPieces, renderPiece, detailsOf, getKey_put, getKey_cons, getKey_nil, Printer.print, message_numberNot, String.append_assoc]
  case missingDependency x =>
    have h : parseFormat (defaultLocale.format (.missingDependency x)) = some [.text "Has a dependency on ", .field "dependency", .text ""] := parse_missingDependency
    rw [h]; simp [renderPieces, renderPiece, detailsOf, getKey_put, getKey_cons, getKey_nil, Printer.print, message_missingDependency, String.append_assoc]
  case internal =>
    have h : parseFormat (defaultLocale.format .internal) = some [.text "Internal Error ", .field "error", .text ""] := parse_internal
    rw [h]; simp [renderPieces, renderPiece, detailsOf, getKey_put, getKey_cons, getKey_nil, Printer.print, message_internal, String.append_assoc]
  case const x =>
    have h : parseFormat (defaultLocale.format (.const x)) = some [.text "", .field "field", .text " does not match: ", .field "allowed", .text ""] := parse_const
    rw [h]; simp [renderPieces, renderPiece, detailsOf, getKey_put, getKey_cons, getKey_nil, Printer.print, message_const, String.append_assoc]
  case enum x =>
    have h : parseFormat (defaultLocale.format (.enum x)) = some [.text "", .field "field", .text " must be one of the following: ", .field "allowed", .text ""] := parse_enum
    rw [h]; simp [renderPieces, renderPiece, detailsOf, getKey_put, getKey_cons, getKey_nil, Printer.print, message_enum, String.append_assoc]
  case arrayNoAdditionalItems =>
    have h : parseFormat (defaultLocale.format .arrayNoAdditionalItems) = some [.text "No additional items allowed on array"] := parse_arrayNoAdditionalItems
    rw [h]; simp [renderPieces, renderPiece, detailsOf, getKey_put, getKey_cons, getKey_nil, Printer.print, message_arrayNoAdditionalItems, String.append_assoc]
  case arrayMinItems x =>
    have h : parseFormat (defaultLocale.format (.arrayMinItems x)) = some [.text "Array must have at least ", .field "min", .text " items"] := parse_arrayMinItems
    rw [h]; simp [renderPieces, renderPiece, detailsOf, getKey_put, getKey_cons, getKey_nil, Printer.print, message_arrayMinItems, String.append_assoc]
  case arrayMaxItems x =>
    have h : parseFormat (defaultLocale.format (.arrayMaxItems x)) = some [.text "Array must have at most ", .field "max", .text " items"] := parse_arrayMaxItems
    rw [h]; simp [renderPieces, renderPiece, detailsOf, getKey_put, getKey_cons, getKey_nil, Printer.print, message_arrayMaxItems, String.append_assoc]
  case unique x y =>
    have h : parseFormat (defaultLocale.format (.unique x y)) = some [.text "", .field "type", .text " items[", .field "i", .text ",", .field "j", .text "] must be unique"] := parse_unique
    rw [h]; simp [renderPieces, renderPiece, detailsOf, getKey_put, getKey_cons, getKey_nil, Printer.print, message_unique, String.append_assoc]
    rw [← String.append_assoc]
    rfl
  case contains =>
    have h : parseFormat (defaultLocale.format .contains) = some [.text "At least one of the items must match"] := parse_arrayContains
    rw [h]; simp [renderPieces, renderPiece, detailsOf, getKey_put, getKey_cons, getKey_nil, Printer.print, message_contains, String.append_assoc]
  case arrayMinProperties x =>
    have h : parseFormat (defaultLocale.format (.arrayMinProperties x)) = some [.text "Must have at least ", .field "min", .text " properties"] := parse_arrayMinProperties
    rw [h]; simp [renderPieces, renderPiece, detailsOf, getKey_put, getKey_cons, getKey_nil, Printer.print, message_arrayMinProperties, String.append_assoc]
  case arrayMaxProperties x =>
    have h : parseFormat (defaultLocale.format (.arrayMaxProperties x)) = some [.text "Must have at most ", .field "max", .text " properties"] := parse_arrayMaxProperties
    rw [h]; simp [renderPieces, renderPiece, detailsOf, getKey_put, getKey_cons, getKey_nil, Printer.print, message_arrayMaxProperties, String.append_assoc]
  case additionalPropertyNotAllowed x =>
    have h : parseFormat (defaultLocale.format (.additionalPropertyNotAllowed x)) = some [.text "Additional property ", .field "property", .text " is not allowed"] := parse_additionalPropertyNotAllowed
    rw [h]; simp [renderPieces, renderPiece, detailsOf, getKey_put, getKey_cons, getKey_nil, Printer.print, message_additionalPropertyNotAllowed, String.append_assoc]
  case invalidPropertyPattern =>
    have h : parseFormat (defaultLocale.format .invalidPropertyPattern) = some [.text "Property \"", .field "property", .text "\" does not match pattern ", .field "pattern", .text ""] := parse_invalidPropertyPattern
    rw [h]; simp [renderPieces, renderPiece, detailsOf, getKey_put, getKey_cons, getKey_nil, Printer.print, message_invalidPropertyPattern, String.append_assoc]
  case invalidPropertyName x =>
    have h : parseFormat (defaultLocale.format (.invalidPropertyName x)) = some [.text "Property name of \"", .field "property", .text "\" does not match"] := parse_invalidPropertyName
    rw [h]; simp [renderPieces, renderPiece, detailsOf, getKey_put, getKey_cons, getKey_nil, Printer.print, message_invalidPropertyName, String.append_assoc]
  case stringGTE x =>
    have h : parseFormat (defaultLocale.format (.stringGTE x)) = some [.text "String length must be greater than or equal to ", .field "min", .text ""] := parse_stringGTE
    rw [h]; simp [renderPieces, renderPiece, detailsOf, getKey_put, getKey_cons, getKey_nil, Printer.print, message_stringGTE, String.append_assoc]
  case stringLTE x =>
    have h : parseFormat (defaultLocale.format (.stringLTE x)) = some [.text "String length must be less than or equal to ", .field "max", .text ""] := parse_stringLTE
    rw [h]; simp [renderPieces, renderPiece, detailsOf, getKey_put, getKey_cons, getKey_nil, Printer.print, message_stringLTE, String.append_assoc]
  case pattern x =>
    have h : parseFormat (defaultLocale.format (.pattern x)) = some [.text "Does not match pattern '", .field "pattern", .text "'"] := parse_doesNotMatchPattern
    rw [h]; simp [renderPieces, renderPiece, detailsOf, getKey_put, getKey_cons, getKey_nil, Printer.print, message_pattern, String.append_assoc]
  case format x =>
    have h : parseFormat (defaultLocale.format (.format x)) = some [.text "Does not match format '", .field "format", .text "'"] := parse_doesNotMatchFormat
    rw [h]; simp [renderPieces, renderPiece, detailsOf, getKey_put, getKey_cons, getKey_nil, Printer.print, message_format, String.append_assoc]
  case multipleOf x =>
    have h : parseFormat (defaultLocale.format (.multipleOf x)) = some [.text "Must be a multiple of ", .field "multiple", .text ""] := parse_multipleOf
    rw [h]; simp [renderPieces, renderPiece, detailsOf, getKey_put, getKey_cons, getKey_nil, Printer.print, message_multipleOf, String.append_assoc]
  case numberGTE x =>
    have h : parseFormat (defaultLocale.format (.numberGTE x)) = some [.text "Must be greater than or equal to ", .field "min", .text ""] := parse_numberGTE
    rw [h]; simp [renderPieces, renderPiece, detailsOf, getKey_put, getKey_cons, getKey_nil, Printer.print, message_numberGTE, String.append_assoc]
  case numberGT x =>
    have h : parseFormat (defaultLocale.format (.numberGT x)) = some [.text "Must be greater than ", .field "min", .text ""] := parse_numberGT
    rw [h]; simp [renderPieces, renderPiece, detailsOf, getKey_put, getKey_cons, getKey_nil, Printer.print, message_numberGT, String.append_assoc]
  case numberLTE x =>
    have h : parseFormat (defaultLocale.format (.numberLTE x)) = some [.text "Must be less than or equal to ", .field "max", .text ""] := parse_numberLTE
    rw [h]; simp [renderPieces, renderPiece, detailsOf, getKey_put, getKey_cons, getKey_nil, Printer.print, message_numberLTE, String.append_assoc]
  case numberLT x =>
    have h : parseFormat (defaultLocale.format (.numberLT x)) = some [.text "Must be less than ", .field "max", .text ""] := parse_numberLT
    rw [h]; simp [renderPieces, renderPiece, detailsOf, getKey_put, getKey_cons, getKey_nil, Printer.print, message_numberLT, String.append_assoc]
  case conditionThen =>
    have h : parseFormat (defaultLocale.format .conditionThen) = some [.text "Must validate \"then\" as \"if\" was valid"] := parse_conditionThen
    rw [h]; simp [renderPieces, renderPiece, detailsOf, getKey_put, getKey_cons, getKey_nil, Printer.print, message_conditionThen, String.append_assoc]
  case conditionElse =>
    have h : parseFormat (defaultLocale.format .conditionElse) = some [.text "Must validate \"else\" as \"if\" was not valid"] := parse_conditionElse
    rw [h]; simp [renderPieces, renderPiece, detailsOf, getKey_put, getKey_cons, getKey_nil, Printer.print, message_conditionElse, String.append_assoc]

end GJS.Msg

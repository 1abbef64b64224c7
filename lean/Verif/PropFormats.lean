import Verif.LemFormats
import Verif.PropNumber
/-
The built-in formats: C31-C34, C45, C46.
-/
namespace GJS.Fmt
open GJS Spec Fmt.Spec

/-! ### C31 -/

/-- C31: every built-in checker, and every unknown format, accepts whatever is not a string. -/
theorem C31_non_strings (std : Std) (name : String) (v : Json) (hv : ∀ s, v ≠ .str s) : isFormat std name v = true := by
  unfold isFormat
  split
  · rfl
  · cases v with
    | str s => exact absurd rfl (hv s)
    | _ => rfl

/-- C31: exactly the documented names are built in. -/
theorem C31_names (std : Std) (name : String) (h : name ∉ ["date", "time", "date-time", "hostname", "email", "idn-email", "ipv4", "ipv6",
    "uri", "uri-reference", "iri", "iri-reference", "uri-template", "uuid", "regex", "json-pointer", "relative-json-pointer"]) (v : Json) :
    isFormat std name v = true := by
  have : List.lookup name builtin = none := by
    rw [List.lookup_eq_none_iff]
    intro p hp
    simp only [bne_iff_ne, ne_eq]
    intro e
    subst e
    exact h ((by decide : ∀ p ∈ builtin, p.1 ∈ ["date", "time", "date-time", "hostname", "email", "idn-email", "ipv4", "ipv6",
    "uri", "uri-reference", "iri", "iri-reference", "uri-template", "uuid", "regex", "json-pointer", "relative-json-pointer"]) p hp)
  simp [isFormat, this]

/-- A schema object with just a format. -/
theorem format_verdict {w : World} {l : LState} (hw : Setting w l) {m : List (String × Json)} (hm : (Json.obj m).WF)
    (ho : Only m ["format"]) {f : String} (hf : Kw m "format" (.str f)) {v : Json} {b : Bool} (h : Gives w l (.obj m) v b) :
    b = true ↔ f = "" ∨ w.env.isFormat f v = true := by
  obtain ⟨m', sat, h1, h2⟩ := gives_keywords hw hm (only_noRef ho (by decide)) h
  have ho := only_rw h1 ho
  have hf' := (rw_kw hm h1 (by simp) scalar_str).2 hf
  rw [h2]
  constructor
  · rintro ⟨_, _, _, _, _, _, _, _, _, h3, _⟩
    exact h3 f hf'
  · intro h3
    rest_hold ho
    intro f' e
    rw [Kw, hf'] at e; cases e; exact h3

/-- C31, documents: a schema with any format and no other assertion accepts every instance that is not a string. -/
theorem C31_document (w : World) (std : Std) (hstd : w.env.isFormat = isFormat std) (l : LState) (hw : Setting w l) (m : List (String × Json))
    (hm : (Json.obj m).WF) (ho : Only m ["format"]) (f : String) (hf : Kw m "format" (.str f)) (v : Json) (hv : ∀ s, v ≠ .str s)
    (b : Bool) (h : Gives w l (.obj m) v b) : b = true := by
  rw [format_verdict hw hm ho hf h, hstd]
  exact .inr (C31_non_strings std f v hv)

/-- C31: the built-in formats do not look at the spelling of numbers, as C09 assumes. -/
theorem C31_blind (env : Env) (std : Std) (hstd : env.isFormat = isFormat std) : FormatBlind env := by
  intro f x y h
  rw [hstd]
  cases h with
  | str s => rfl
  | null => rfl
  | bool b => rfl
  | num m n => exact (C31_non_strings std f (.num m) nofun).trans (C31_non_strings std f (.num n) nofun).symm
  | arr xs ys => exact (C31_non_strings std f (.arr xs) nofun).trans (C31_non_strings std f (.arr ys) nofun).symm
  | obj a b => exact (C31_non_strings std f (.obj a) nofun).trans (C31_non_strings std f (.obj b) nofun).symm

/-! ### C32 -/

/-- C32: `uuid` accepts exactly the strings of 8-4-4-4-12 hexadecimal digits. -/
theorem C32_uuid (std : Std) (s : String) : isFormat std "uuid" (.str s) = true ↔ Uuid s.toList := uuid_iff s

/-- C32, documents. -/
theorem C32_document (w : World) (std : Std) (hstd : w.env.isFormat = isFormat std) (l : LState) (hw : Setting w l) (m : List (String × Json))
    (hm : (Json.obj m).WF) (ho : Only m ["format"]) (hf : Kw m "format" (.str "uuid")) (s : String)
    (b : Bool) (h : Gives w l (.obj m) (.str s) b) : b = true ↔ Uuid s.toList := by
  rw [format_verdict hw hm ho hf h, hstd, C32_uuid]
  simp

/-! ### C33 -/

/-- C33: `json-pointer` accepts exactly the JSON pointers. -/
theorem C33_pointer (std : Std) (s : String) : isFormat std "json-pointer" (.str s) = true ↔ Pointer s.toList := pointer_iff s

/-- C33: `relative-json-pointer` accepts exactly the relative JSON pointers. -/
theorem C33_relative (std : Std) (s : String) : isFormat std "relative-json-pointer" (.str s) = true ↔ RelPointer s.toList :=
  relPointer_iff s

/-- C33, documents. -/
theorem C33_document (w : World) (std : Std) (hstd : w.env.isFormat = isFormat std) (l : LState) (hw : Setting w l) (m : List (String × Json))
    (hm : (Json.obj m).WF) (ho : Only m ["format"]) (s : String) (b : Bool) (h : Gives w l (.obj m) (.str s) b) :
    (Kw m "format" (.str "json-pointer") → (b = true ↔ Pointer s.toList)) ∧
      (Kw m "format" (.str "relative-json-pointer") → (b = true ↔ RelPointer s.toList)) := by
  refine ⟨fun hf => ?_, fun hf => ?_⟩
  · rw [format_verdict hw hm ho hf h, hstd, C33_pointer]; simp
  · rw [format_verdict hw hm ho hf h, hstd, C33_relative]; simp

/-! ### C34 -/

/-- C34: `hostname` accepts exactly the host names. -/
theorem C34_hostname (std : Std) (s : String) : isFormat std "hostname" (.str s) = true ↔ Hostname s.toList := hostname_iff s

/-- C34, documents. -/
theorem C34_document (w : World) (std : Std) (hstd : w.env.isFormat = isFormat std) (l : LState) (hw : Setting w l) (m : List (String × Json))
    (hm : (Json.obj m).WF) (ho : Only m ["format"]) (hf : Kw m "format" (.str "hostname")) (s : String)
    (b : Bool) (h : Gives w l (.obj m) (.str s) b) : b = true ↔ Hostname s.toList := by
  rw [format_verdict hw hm ho hf h, hstd, C34_hostname]
  simp

/-! ### C45 -/

/-- C45: `uri-template` accepts exactly the strings without backslash that `url.Parse` accepts and in whose path every
opening brace is closed. -/
theorem C45_template (std : Std) (s : String) : isFormat std "uri-template" (.str s) = true ↔
    '\\' ∉ s.toList ∧ ∃ scheme path, std.url s = some (scheme, path) ∧ closed false path.toList = true := by
  show Checker.onString std s .uriTemplate = true ↔ _
  unfold Checker.onString
  cases hu : std.url s with
  | none => simp
  | some p =>
    obtain ⟨a, b⟩ := p
    by_cases hb : '\\' ∈ s.toList
    · simp [hasChar, hb]
    · simp [hasChar, hb, template_iff]

/-- C45: the formats that look at braces, schemes and dots only in addition to a parser of the Go library accept no more than the parser;
`uri` accepts only what `uri-reference` accepts. -/
theorem C45_uri (std : Std) (s : String) (h : isFormat std "uri" (.str s) = true) : isFormat std "uri-reference" (.str s) = true := by
  revert h
  show Checker.onString std s .uri = true → Checker.onString std s .uriReference = true
  unfold Checker.onString
  cases hu : std.url s with
  | none => simp
  | some p =>
    obtain ⟨a, b⟩ := p
    by_cases ha : a = "" <;> simp [ha]

/-- C45: `ipv4` and `ipv6` are not exclusive: an address with dots and colons, which `net.ParseIP` accepts, has both formats. -/
theorem C45_ip_both (std : Std) (h : std.ipOk "::ffff:1.2.3.4" = true) :
    isFormat std "ipv4" (.str "::ffff:1.2.3.4") = true ∧ isFormat std "ipv6" (.str "::ffff:1.2.3.4") = true := by
  constructor
  · show Checker.onString std _ .ipv4 = true
    simp only [Checker.onString, h, Bool.true_and]; decide
  · show Checker.onString std _ .ipv6 = true
    simp only [Checker.onString, h, Bool.true_and]; decide

/-- C45: the `date-time` checker accepts whatever the `date` or the `time` checker accepts. -/
theorem C45_date_time_lax (std : Std) (s : String) (h : isFormat std "date" (.str s) = true ∨ isFormat std "time" (.str s) = true) :
    isFormat std "date-time" (.str s) = true := by
  show Checker.onString std s .dateTime = true
  have h : Checker.onString std s .date = true ∨ Checker.onString std s .time = true := h
  simp only [Checker.onString, List.any_cons, List.any_nil, Bool.or_eq_true] at h ⊢
  rcases h with h | h | h
  · exact .inr (.inr (.inl h))
  · exact .inr (.inl h)
  · exact .inl h

theorem uri_iff {std : Std} {s : String} : Checker.onString std s .uri = true ↔
    '\\' ∉ s.toList ∧ ∃ scheme path, std.url s = some (scheme, path) ∧ scheme ≠ "" := by
  unfold Checker.onString
  cases hu : std.url s with
  | none => simp
  | some p =>
    obtain ⟨a, b⟩ := p
    by_cases ha : a = ""
    · simp [ha]
    · simp [ha, hasChar]

theorem uriReference_iff {std : Std} {s : String} : Checker.onString std s .uriReference = true ↔
    '\\' ∉ s.toList ∧ std.url s ≠ none := by
  unfold Checker.onString
  cases hu : std.url s with
  | none => simp
  | some p => simp [hasChar]

/-- C45: every built-in format accepts exactly the strings its rule describes, and everything that is not a
string; formats that are not built in accept everything. -/
theorem C45_rules (std : Std) (name : String) (v : Json) :
    isFormat std name v = true ↔ ∀ s, v = .str s → Rule std name s := by
  have hm : ∀ {c : Char} {s : String}, hasChar c s = true ↔ c ∈ s.toList := by
    intro c s; simp [hasChar]
  cases v with
  | str s =>
    have key : isFormat std name (.str s) = true ↔ Rule std name s := by
      unfold Rule
      simp only
      split
      · show std.mailOk s = true ↔ _; rfl
      · show std.mailOk s = true ↔ _; rfl
      · show (std.ipOk s && hasChar '.' s) = true ↔ _
        rw [Bool.and_eq_true, hm]
      · show (std.ipOk s && hasChar ':' s) = true ↔ _
        rw [Bool.and_eq_true, hm]
      · show std.timeOk "2006-01-02" s = true ↔ _; rfl
      · show (std.timeOk "15:04:05Z07:00" s || std.timeOk "15:04:05" s) = true ↔ _
        rw [Bool.or_eq_true]; exact or_comm
      · show Checker.onString std s .dateTime = true ↔ _
        simp only [Checker.onString, List.any_cons, List.any_nil, Bool.or_eq_true, rfc3339, rfc3339Nano]
        constructor
        · rintro (h | h | h | h | h | h)
          · exact .inr (.inl h)
          · exact .inr (.inr (.inl h))
          · exact .inl h
          · exact .inr (.inr (.inr (.inl h)))
          · exact .inr (.inr (.inr (.inr h)))
          · cases h
        · rintro (h | h | h | h | h)
          · exact .inr (.inr (.inl h))
          · exact .inl h
          · exact .inr (.inl h)
          · exact .inr (.inr (.inr (.inl h)))
          · exact .inr (.inr (.inr (.inr (.inl h))))
      · show Checker.onString std s .uri = true ↔ _; exact uri_iff
      · show Checker.onString std s .uri = true ↔ _; exact uri_iff
      · show Checker.onString std s .uriReference = true ↔ _; exact uriReference_iff
      · show Checker.onString std s .uriReference = true ↔ _; exact uriReference_iff
      · exact C45_template std s
      · exact C34_hostname std s
      · exact C32_uuid std s
      · show Checker.onString std s .regex = true ↔ _
        simp only [Checker.onString]
        by_cases h : s = ""
        · simp [h]
        · simp [h]
      · exact C33_pointer std s
      · exact C33_relative std s
      · rename_i h1 h2 h3 h4 h5 h6 h7 h8 h9 h10 h11 h12 h13 h14 h15 h16 h17
        have : List.lookup name builtin = none := by
          simp only [builtin, List.lookup_cons, beq_eq_false_iff_ne.2 h1, beq_eq_false_iff_ne.2 h2, beq_eq_false_iff_ne.2 h3, beq_eq_false_iff_ne.2 h4, beq_eq_false_iff_ne.2 h5, beq_eq_false_iff_ne.2 h6, beq_eq_false_iff_ne.2 h7, beq_eq_false_iff_ne.2 h8, beq_eq_false_iff_ne.2 h9, beq_eq_false_iff_ne.2 h10, beq_eq_false_iff_ne.2 h11, beq_eq_false_iff_ne.2 h12, beq_eq_false_iff_ne.2 h13, beq_eq_false_iff_ne.2 h14, beq_eq_false_iff_ne.2 h15, beq_eq_false_iff_ne.2 h16, beq_eq_false_iff_ne.2 h17]
          rfl
        unfold isFormat
        rw [this]
        simp
    rw [key]
    exact ⟨fun h s' hs => by cases hs; exact h, fun h => h s rfl⟩
  | _ =>
    refine ⟨fun _ s hs => (by cases hs), fun _ => ?_⟩
    unfold isFormat
    split <;> rfl

/-! ### C46 -/

/-- C46: the search for a pattern finds a match exactly if there is one somewhere in the text. -/
theorem C46_search (r : Rx) (s : String) : r.matchString s = true ↔ Rx.Spec.Found r s.toList := Rx.later_found r s.toList

/-- C46: a class of characters has exactly the characters it should have, also where case does not matter. -/
theorem C46_class (neg fold : Bool) (rs : List (Char × Char)) (c : Char) :
    Rx.inClass neg fold rs c = true ↔ Rx.Spec.InClass neg fold rs c := Rx.inClass_iff neg fold rs c

example : Rx.Spec.InClass false true [('a', 'z')] (Char.ofNat 0x212A) ∧ ¬ Rx.Spec.InClass false false [('a', 'z')] (Char.ofNat 0x212A) := by
  rw [← C46_class, ← C46_class]; decide

/-- C46: all built-in patterns compile. -/
theorem C46_patterns_compile : ∀ p ∈ [rxHostname, rxURITemplate, rxUUID, rxJSONPointer, rxRelJSONPointer], (Rx.compile p).isSome = true := by
  decide +kernel

namespace Demo

/-- A Go library that accepts nothing. -/
def std : Std where
  mailOk _ := false
  ipOk _ := false
  timeOk _ _ := false
  url s := some ("", s)
  regexOk _ := false

/-- Accepted and rejected strings, by evaluation. -/
example : isFormat std "uuid" (.str "123e4567-E89B-12d3-a456-426614174000") = true ∧
    isFormat std "uuid" (.str "123e4567-E89B-12d3-a456-42661417400g") = false ∧
    isFormat std "json-pointer" (.str "/a~1b/~0") = true ∧ isFormat std "json-pointer" (.str "/a~2") = false ∧
    isFormat std "relative-json-pointer" (.str "10#") = true ∧ isFormat std "relative-json-pointer" (.str "01/a") = false ∧
    isFormat std "uri-template" (.str "/a/{b}/c}") = true ∧ isFormat std "uri-template" (.str "/a/{b") = false := by
  decide +kernel

/-- A string that has the format. -/
example : Hostname "a-1.example".toList := by
  refine ⟨by decide, ["a-1".toList, "example".toList], by decide, ?_, by decide⟩
  intro l hl
  simp only [List.mem_cons, List.not_mem_nil, or_false] at hl
  rcases hl with rfl | rfl
  · refine ⟨by decide, by decide, ?_, by decide, by decide⟩
    intro c hc
    have hc' : c ∈ ['a', '-', '1'] := hc
    simp only [List.mem_cons, List.not_mem_nil, or_false] at hc'
    rcases hc' with rfl | rfl | rfl
    · exact .inl (.inl ⟨by decide, by decide⟩)
    · exact .inr (.inr rfl)
    · exact .inr (.inl ⟨by decide, by decide⟩)
  · refine ⟨by decide, by decide, ?_, by decide, by decide⟩
    intro c hc
    have hc' : c ∈ ['e', 'x', 'a', 'm', 'p', 'l', 'e'] := hc
    simp only [List.mem_cons, List.not_mem_nil, or_false] at hc'
    rcases hc' with rfl | rfl | rfl | rfl | rfl | rfl | rfl <;> exact .inl (.inl ⟨by decide, by decide⟩)

/-- A name of 64 characters without a dot is no host name. -/
example : ¬ Hostname (List.replicate 64 'a') := by
  rintro ⟨-, ls, hne, hls, h⟩
  cases ls with
  | nil => exact hne rfl
  | cons l ls =>
    cases ls with
    | nil =>
      rw [List.intercalate_singleton] at h
      have := (hls l (by simp)).2.1
      rw [← h] at this
      simp at this
    | cons l' ls =>
      rw [List.intercalate_cons_cons] at h
      have : '.' ∈ List.replicate 64 'a' := by rw [h]; simp
      simp at this

end Demo
end GJS.Fmt

{"claims":[
 {"property": "C01", "status": "proved", "theorems": ["GJS.C01_verdict", "GJS.C01_history", "GJS.C01_noRef", "GJS.C01_noRef_same"], "note": "from any state of a loader reached by a history of operations"},
 {"property": "C02", "status": "proved", "theorems": ["GJS.C02_verdict", "GJS.C02_verdict_unfold", "GJS.C02_meaning"], "note": "compiled schemas as heaps"},
 {"property": "C03", "status": "proved", "theorems": ["GJS.C03_order_independent", "GJS.C03_same_return"], "note": ""},
 {"property": "C04", "status": "proved", "theorems": ["GJS.C04_terminates"], "note": ""},
 {"property": "C05", "status": "proved", "theorems": ["GJS.C05_ref_chain_diverges", "GJS.C05_compile_diverges"], "note": ""},
 {"property": "C06", "status": "proved", "theorems": ["GJS.C06_no_panic", "GJS.C06_total", "GJS.C06_panics_out_of_range", "GJS.C06_compiled_no_panic", "GJS.C06_compiled_total"], "note": ""},
 {"property": "C07", "status": "proved", "theorems": ["GJS.C07_locations"], "note": ""},
 {"property": "C08", "status": "proved", "theorems": ["GJS.C08_required", "GJS.C08_document"], "note": ""},
 {"property": "C09", "status": "proved", "theorems": ["GJS.C09_exact", "GJS.C09_sound", "GJS.C09_not_number", "GJS.C09_spelling", "GJS.C09_instance_spelling", "GJS.C09_value"], "note": "Exact for schema objects with number keywords only, sound for every schema object without $ref; every keyword other than const/enum/uniqueItems ignores the sign of zero, and C09_instance_spelling (every compiled schema) asks for equal signs. Numbers big.Rat refuses (ratOk) are as in C16."},
 {"property": "C10", "status": "proved", "theorems": ["GJS.C10_integer", "GJS.C10_number", "GJS.C10_not_number", "GJS.C10_sound"], "note": "Integer: exactly the integral values among numbers big.Rat accepts."},
 {"property": "C11", "status": "proved", "theorems": ["GJS.C11_same_serialisation", "GJS.C11_const", "GJS.C11_enum", "GJS.C11_const_document", "GJS.C11_enum_document", "GJS.C11_sound"], "note": ""},
 {"property": "C12", "status": "proved", "theorems": ["GJS.C12_safe_integers", "GJS.C12_not_exact_beyond", "GJS.C12_const_accepts_other", "GJS.C12_nearest", "GJS.C12_overflow", "GJS.C12_equal", "GJS.C12_const_document", "GJS.C12_const_document_beyond"], "note": ""},
 {"property": "C13", "status": "proved", "theorems": ["GJS.C13_unique_sound", "GJS.C13_unique_complete", "GJS.C13_unique_iff", "GJS.C13_document", "GJS.C13_document_sound"], "note": ""},
 {"property": "C14", "status": "proved", "theorems": ["GJS.C14_anyOf", "GJS.C14_oneOf_none", "GJS.C14_oneOf_many", "GJS.C14_contains", "GJS.C14_score", "GJS.C14_score_type", "GJS.C14_score_bool", "GJS.C14_anyOf_all", "GJS.C14_oneOf_none_all", "GJS.C14_oneOf_many_all", "GJS.C14_contains_all"], "note": ""},
 {"property": "C15", "status": "proved", "theorems": ["GJS.C15_accept", "GJS.C15_never_malformed", "GJS.C15_newSchema"], "note": "Iff for documents without $ref on an empty loader with meta-schema validation off; the safety half on any loader. Hypotheses on libraries: Inherits does not fail, floats printed injectively, big.Rat accepts the document's numbers (only for completeness). Fuel at least the document size."},
 {"property": "C16", "status": "proved", "theorems": ["GJS.C16_compile", "GJS.C16_newSchema", "GJS.C16_history", "GJS.C16_definitions_panics", "GJS.C16_type_panics", "GJS.C16_number_panics"], "note": "Compile (Validate off) does not panic when the document, the pool and every loadable document are tame; every history of a loader (Validate on or off) has no panic if in addition all numbers fit float64. Tameness is required of whole documents, not only of the reachable schemas. Each of the three conditions is shown necessary by a panicking document."},
 {"property": "C17", "status": "proved", "theorems": ["GJS.C17_compile", "GJS.C17_history", "GJS.C17_outcome", "GJS.C17_finite_world", "GJS.C17_endless"], "note": "With Validate off. One bound on the nesting of calls holds for every Compile over documents of a finite set closed under references, for every history of a loader (C17_history), whatever the iteration orders and the answers of the outside world, and above the bound the outcome does not depend on it (C17_outcome). C17_endless shows the closure is needed: where each document refers to a new one Compile never returns."},
 {"property": "C18", "status": "proved", "theorems": ["GJS.C18_order_matters", "GJS.C18_order_independent"], "note": "Witness document accepted with one map order and rejected with another; order-independence without $ref from C15."},
 {"property": "C19", "status": "proved", "theorems": ["GJS.C19_compiled", "GJS.C19_boolean", "GJS.C19_boolean_root", "GJS.C19_boolean_sub", "GJS.C19_no_effect"], "note": "C19_compiled holds for every compiled schema at every depth; the document-level C19_no_effect is for documents without $ref, because a reference may point into a keyword the draft does not have (example beside the theorem)."},
 {"property": "C20", "status": "proved", "theorems": ["GJS.C20_minimum", "GJS.C20_maximum", "GJS.C20_exclusiveMinimum", "GJS.C20_exclusiveMaximum", "GJS.C20_same_minimum", "GJS.C20_same_maximum"], "note": ""},
 {"property": "C21", "status": "proved", "theorems": ["GJS.C21_ref_result", "GJS.C21_root"], "note": "Whole Result (verdict, errors, score) at every node of a compiled schema."},
 {"property": "C22", "status": "proved", "theorems": ["GJS.C22_present_not_fetched", "GJS.C22_resolved_present", "GJS.C22_once", "GJS.C22_bad_refetched"], "note": ""},
 {"property": "C23", "status": "proved", "theorems": ["GJS.C23_entries_kept", "GJS.C23_duplicate_rejected", "GJS.C23_nested_id_loses"], "note": ""},
 {"property": "C24", "status": "proved", "theorems": ["GJS.C24_failure_effect", "GJS.C24_failure_stores", "GJS.C24_refused", "GJS.C24_refused_all"], "note": "negated property: positive part and witness"},
 {"property": "C25", "status": "proved", "theorems": ["GJS.C25_switch", "GJS.C25_switch_lost"], "note": "negated property: positive part and witness"},
 {"property": "C26", "status": "proved", "theorems": ["GJS.C26_anonymous_present", "GJS.C26_second_fails", "GJS.C26_refused"], "note": ""},
 {"property": "C27", "status": "proved", "theorems": ["GJS.C27_factory", "GJS.C27_factory_lost", "GJS.C27_isolated", "GJS.C27_reads"], "note": "positive part and witness"},
 {"property": "C28", "status": "proved", "theorems": ["GJS.C28_present_stable", "GJS.C28_fetched_stable", "GJS.C28_autodetect_off", "GJS.C28_id_captures", "GJS.C28_entered"], "note": "positive part and witnesses"},
 {"property": "C29", "status": "proved", "theorems": ["GJS.C29_stored", "GJS.C29_stored_strict", "GJS.C29_only_ref_strings", "GJS.C29_literals", "GJS.C29_names", "GJS.C29_references"], "note": ""},
 {"property": "C30", "status": "proved", "theorems": ["GJS.Reg.C30_linearizable", "GJS.Reg.C30_no_fatal", "GJS.Reg.C30_race_free", "GJS.Reg.C30_completes", "GJS.Reg.C30_unknown", "GJS.Reg.C30_nil_map_blocks"], "note": "Non-atomic sections under an RWMutex with any number of goroutines running any programs; every trace is a trace of the sequential registry with one effect point per call. C30_nil_map_blocks: Add on a chain without a map keeps the global lock."},
 {"property": "C31", "status": "proved", "theorems": ["GJS.Fmt.C31_non_strings", "GJS.Fmt.C31_names", "GJS.Fmt.C31_document", "GJS.Fmt.C31_blind"], "note": ""},
 {"property": "C32", "status": "proved", "theorems": ["GJS.Fmt.C32_uuid", "GJS.Fmt.C32_document"], "note": "The pattern text is compiled by a model of the regexp syntax and searched with derivatives."},
 {"property": "C33", "status": "proved", "theorems": ["GJS.Fmt.C33_pointer", "GJS.Fmt.C33_relative", "GJS.Fmt.C33_document"], "note": ""},
 {"property": "C34", "status": "proved", "theorems": ["GJS.Fmt.C34_hostname", "GJS.Fmt.C34_document"], "note": ""},
 {"property": "C35", "status": "proved", "theorems": ["GJS.Tpl.C35_as_if_alone", "GJS.Tpl.C35_own_format", "GJS.Tpl.C35_cache_sound", "GJS.Tpl.C35_race_free", "GJS.Tpl.C35_completes", "GJS.Tpl.C35_define_interferes", "GJS.Tpl.C35_define_overwrites"], "note": "For formats that define no further templates; text/template is a parameter. C35_define_interferes shows that the restriction is needed."},
 {"property": "C36", "status": "proved", "theorems": ["GJS.C36_string", "GJS.C36_nil", "GJS.C36_length", "GJS.C36_field", "GJS.C36_errors", "GJS.C36_injective", "GJS.C36_collision", "GJS.C36_root_collision", "GJS.C36_field_injective", "GJS.C36_field_any"], "note": "String() is the delimited path for any delimiter, the precomputed length is exact in bytes, Field() at and below the root, also for every error the validator reports; collisions of keys with dots by witnesses, injectivity without dots."},
 {"property": "C37", "status": "proved", "theorems": ["GJS.C37_add", "GJS.C37_rejected", "GJS.C37_sequence", "GJS.C37_length", "GJS.C37_string", "GJS.C37_compiled"], "note": "Exact outcome of one Add; any sequence of additions, rejected ones included; rendering; every node of every compiled schema has such a set."},
 {"property": "C38", "status": "proved", "theorems": ["GJS.Api.C38_prefix", "GJS.Api.C38_snapshot", "GJS.Api.C38_valid", "GJS.Api.C38_invalid", "GJS.Api.C38_add", "GJS.Api.C38_outcome", "GJS.Api.C38_shared_details", "GJS.Api.C38_nil_details", "GJS.Api.C38_copy", "GJS.Api.C38_merge", "GJS.Api.C38_increment"], "note": "Model with Go slices (backing arrays, append in place or with any growth), error objects and detail maps; programs of calls of any length, going on after panics. Findings: AddError writes into the caller's details, panics on nil details when the error has a context, and a copied Result shares its backing array."},
 {"property": "C39", "status": "proved", "theorems": ["GJS.Io.C39_reader", "GJS.Io.C39_reader_source", "GJS.Io.C39_writer", "GJS.Io.C39_writer_source", "GJS.Io.C39_writer_all", "GJS.Io.C39_load_small", "GJS.Io.C39_load_twice", "GJS.Io.C39_partial_write"], "note": "Any reader or writer, any program of reads, writes and loads. Findings: a write the destination takes partly is not in the source text; LoadJSON drains the buffer, so a second load fails."},
 {"property": "C40", "status": "proved", "theorems": ["GJS.C40_version", "GJS.C40_meta", "GJS.C40_url", "GJS.C40_unique", "GJS.C40_detected"], "note": ""},
 {"property": "C41", "status": "proved", "theorems": ["GJS.C41_size_literals", "GJS.C41_everywhere", "GJS.C41_integral_rejected"], "note": "Exact set of literals for the six size keywords through Compile, and in every schema position of an accepted document."},
 {"property": "C42", "status": "proved", "theorems": ["GJS.C42_items", "GJS.C42_length", "GJS.C42_properties", "GJS.C42_sound"], "note": ""},
 {"property": "C43", "status": "proved", "theorems": ["GJS.C43_other_names", "GJS.C43_const_definition"], "note": "positive part and witness"},
 {"property": "C44", "status": "proved", "theorems": ["GJS.C44_zero", "GJS.C44_const_number"], "note": "Shows a defect: 0 and -0 are equal for number keywords and different for const."},
 {"property": "C45", "status": "proved", "theorems": ["GJS.Fmt.C45_template", "GJS.Fmt.C45_uri", "GJS.Fmt.C45_ip_both", "GJS.Fmt.C45_date_time_lax", "GJS.Fmt.C45_rules"], "note": "url.Parse, net.ParseIP and time.Parse are parameters."},
 {"property": "C46", "status": "proved", "theorems": ["GJS.Fmt.C46_search", "GJS.Fmt.C46_patterns_compile", "GJS.Fmt.C46_class"], "note": "For the regular expressions the package itself uses; patterns in schemas go to a parameter."},
 {"property": "C47", "status": "proved", "theorems": ["GJS.C47_one_draft", "GJS.C47_noRef", "GJS.C47_order_matters"], "note": "Positive parts and the witness; who gives the draft of each reference is part of C01_verdict (ReadAs)."},
 {"property": "C48", "status": "proved", "theorems": ["GJS.C48_compile", "GJS.C48_addSchema", "GJS.C48_addSchemas", "GJS.C48_nothing_checked", "GJS.C48_root_only"], "note": "Compile checks the document with references made absolute, AddSchema(s) the document as loaded; C25 says when Validate is lost."},
 {"property": "C49", "status": "proved", "theorems": ["GJS.C49_sound", "GJS.C49_complete", "GJS.C49_type"], "note": "Which failing branch of anyOf, oneOf and contains is shown is C14. Over compiled schemas; C50 carries it to documents."},
 {"property": "C50", "status": "proved", "theorems": ["GJS.C50_report"], "note": "Same hypotheses as C01_verdict; the verdicts of sub-schemas inside the rules are settled ones (rules unfolded finitely from any start)."},
 {"property": "C51", "status": "proved", "theorems": ["GJS.C51_details", "GJS.C51_locale", "GJS.C51_default", "GJS.C51_string", "GJS.C51_errors", "GJS.C51_types", "GJS.C51_types_distinct", "GJS.C51_missing"], "note": "text/template is modelled for text and {{.name}}; how fmt prints a *big.Float is a parameter. InternalError (followed by a panic) and InvalidPropertyPatternError (never produced) excluded from C51_details and C51_locale; C51_errors shows neither is ever in a result."},
 {"property": "C52", "status": "proved", "theorems": ["GJS.C52_registered", "GJS.C52_registered_by_id", "GJS.C52_only_declared", "GJS.C52_only_declared_by_id", "GJS.C52_duplicate_order"], "note": "With Validate off; positive parts for distinct identifiers not in use before."},
 {"property": "C53", "status": "proved", "theorems": ["GJS.C53_same_or_panic", "GJS.C53_same", "GJS.C53_verdict", "GJS.C53_other_kind", "GJS.C53_panics"], "note": "Map iteration order is assumed not to look at the entries; format checkers not to tell a Go value from its JSON counterpart."},
 {"property": "C54", "status": "proved", "theorems": ["GJS.C54_decode", "GJS.C54_whole", "GJS.C54_unique", "GJS.C54_range", "GJS.C54_trailing", "GJS.C54_eof", "GJS.C54_syntax", "GJS.C54_pieces", "GJS.C54_lawful", "GJS.C54_draft4", "GJS.C54_draft6", "GJS.C54_draft7"], "note": "The decoder is a model of encoding/json; the numbers of decoded documents do not record the spelling of the exponent."},
 {"property": "C55", "status": "proved", "theorems": ["GJS.C55_compile", "GJS.C55_addSchema", "GJS.C55_addSchemas", "GJS.C55_compile_refused", "GJS.C55_addSchema_refused", "GJS.C55_addSchemas_refused", "GJS.C55_history", "GJS.C55_replaced"], "note": "MetaWorld lists what is asked of references (the library gojsonreference is a parameter) and that texts are decoded as in C54. MetaFor says which meta-schema applies. For Compile the document is the one with absolute references."},
 {"property": "C56", "status": "proved", "theorems": ["GJS.C56_compile", "GJS.C56_newSchema", "GJS.C56_noRef", "GJS.C56_sizes"], "note": "Beside $ref only identifier, title, description and definitions are checked (Head); the other siblings are checked or not depending on the order of compilation, see C18."},
 {"property": "C57", "status": "proved", "theorems": ["GJS.C57_compile", "GJS.C57_compile_off", "GJS.C57_newSchema", "GJS.C57_addSchema", "GJS.C57_addSchemas", "GJS.C57_accept", "GJS.C57_faults", "GJS.C57_wellFormed", "GJS.C57_misnamed"], "note": "FaultIn lists the faults of one object with the error of each; Rejected, CompileRejected and AddRejected the reasons of the operations. Documents reached are taken in the sense of Compiled, which includes keywords beside $ref (see C18). The answer of the meta-schema check is justified by the keyword rules of the meta-schema (Violates)."},
 {"property": "C58", "status": "proved", "theorems": ["GJS.C58_words", "GJS.C58_locale", "GJS.C58_tells", "GJS.C58_report", "GJS.C58_report_addSchema", "GJS.C58_report_addSchemas"], "note": "complaint lists the sentences; Tells lists what a text names. Texts of other packages (bad URLs, unreadable documents, pointers that lead nowhere, literals that cannot be marshalled) are parameters. Exceptions in Tells: propertyNames is named patternProperties and allOf anyOf; a bad dependency names only the value's kind."},
 {"property": "C59", "status": "proved", "theorems": ["GJS.C59_object", "GJS.C59_document", "GJS.C59_residue", "GJS.C59_meta", "GJS.C59_compile", "GJS.C59_accept", "GJS.C59_accepted", "GJS.C59_gap"], "note": "Leftover: identifiers that parse, regular expressions as names of patternProperties (drafts 4, 6), numbers big.Rat takes, sizes written without fraction and exponent, minLength \u2264 maxLength, minProperties \u2264 maxProperties, literals in the range of float64. Stricter: formats, unused keywords, non-empty arrays, different names in dependencies. Hypothesis: what the format regex accepts compiles (format_checkers.go RegexFormatChecker). Panics and running out of fuel are not errors here (C16, C17)."},
 {"property": "C60", "status": "proved", "theorems": ["GJS.C60_load", "GJS.C60_accepts", "GJS.C60_fails", "GJS.C60_roundtrip", "GJS.C60_marshal", "GJS.C60_twice", "GJS.C60_twice_deep", "GJS.C60_fmt"], "note": "Printing of numbers is a parameter: json.Numbers and integers are printed as JSON numbers equal to them, floats as JSON numbers that round to them. Not modelled: MarshalJSON, MarshalText, []byte, struct tags, strings that are not UTF-8, cyclic pointers."},
 {"property": "C61", "status": "proved", "theorems": ["GJS.C61_rules", "GJS.C61_verdict", "GJS.C61_accept", "GJS.C61_go", "GJS.C61_sizes"], "note": "For documents without $ref. Formats must not look at the notation of numbers (C31: the built-in ones do not). Respelled instances alone, for every compiled schema: C09_instance_spelling."},
 {"property": "C62", "status": "proved", "theorems": ["GJS.C62_rules", "GJS.C62_verdict", "GJS.C62_vacuous", "GJS.C62_accept", "GJS.C62_needed", "GJS.C62_refused"], "note": "For documents without $ref (a definition can be what a reference stands for). C62_needed gives for every draft and keyword one schema and one value."},
 {"property": "C63", "status": "proved", "theorems": ["GJS.C63_no_fetch", "GJS.C63_meaning", "GJS.C63_deterministic", "GJS.C63_self_meaning", "GJS.C63_everywhere", "GJS.C63_local"], "note": "Identifiers declared in the document are distinct and new to the loader (C52_duplicate_order shows why), the loader does not validate against meta-schemas, and a referenced document is remembered with no other draft than the root's (C47 shows why). Assumed of the libraries: the base of a base URL is itself; for self-contained documents, a JSON pointer selects a part."},
 {"property": "C64", "status": "proved", "theorems": ["GJS.C64_accept", "GJS.C64_only", "GJS.C64_exact", "GJS.C64_order", "GJS.C64_everywhere"], "note": "Hypotheses on documents and loader as in C63, and the name of the anonymous document (the empty URL) is free. C18_order_matters shows why references have to stand alone for the converse. Recursion depth is given to the model as fuel; the theorems give a bound from which on it plays no role."},
 {"property": "C65", "status": "proved", "theorems": ["GJS.Mem.C65_rewrite", "GJS.Mem.C65_getDocument", "GJS.Mem.C65_lasts", "GJS.Mem.C65_first_url", "GJS.Mem.C65_again", "GJS.Mem.C65_again_accepted", "GJS.Mem.C65_two_urls_witness", "GJS.Mem.C65_shared_witness"], "note": "JSON pointers are looked up in memory by a parameter that agrees with the outside world's pointer function (Looks; instance in the examples). Orders of iteration depend on positions only (Natural). C65_again and C65_again_accepted assume that making a reference absolute twice is the same as once (Lasting), as gojsonreference does for normalised URLs, and the hypotheses of C63 and C64. The witnesses show what sharing a Go value between URLs and loaders does."},
 {"property": "C66", "status": "proved", "theorems": ["GJS.C66_allOf", "GJS.C66_anyOf", "GJS.C66_oneOf", "GJS.C66_not", "GJS.C66_if", "GJS.C66_items", "GJS.C66_tuple", "GJS.C66_contains", "GJS.C66_properties", "GJS.C66_patterns", "GJS.C66_rest", "GJS.C66_names", "GJS.C66_keywords"], "note": "About verdicts of the model's Compile and Validate; the parts are assumed to be accepted under the same draft. anyOf and oneOf: for non-empty lists."},
 {"property": "C67", "status": "proved", "theorems": ["GJS.C67_rules", "GJS.C67_verdict", "GJS.C67_no_laws"], "note": "C67_rules is about the documents' rules, with references resolved in whatever way; C67_verdict is about the verdicts of the model for documents without $ref."},
 {"property": "C68", "status": "proved", "theorems": ["GJS.C68_same_answers", "GJS.C68_added", "GJS.C68_order", "GJS.C68_verdict", "GJS.C68_clash"], "note": "C68_added and C68_order are for documents given directly (not by reference loaders), loaders with Validate off, and assume that resolving one reference against another does not fail."},
 {"property": "C69", "status": "proved", "theorems": ["GJS.C69_rules", "GJS.C69_meaning", "GJS.C69_verdict", "GJS.C69_local", "GJS.C69_beside_ref"], "note": "For references that stand for schema objects (not booleans) read under one draft; the result must be free of references, so recursive schemas are outside (their meaning is C63)."},
 {"property": "C70", "status": "proved", "theorems": ["GJS.C70_layers", "GJS.C70_verdict", "GJS.C70_local", "GJS.C70_spelling"], "note": "Replaced references must stand for schema objects read under the draft of the document; the set of replaced references must be acyclic."},
 {"property": "C71", "status": "proved", "theorems": ["GJS.C71_bound", "GJS.C71_noRef", "GJS.C71_exponential"], "note": "A call counts as made if the validation panics once that call (named by the path of the calls it is nested in) does."},
 {"property": "C72", "status": "proved", "theorems": ["GJS.C72_nodes", "GJS.C72_noRef", "GJS.C72_self"], "note": "The size of a document counts values and members. The bound is on the nodes of schemas that compile."},
 {"property": "C73", "status": "proved", "theorems": ["GJS.C73_reads", "GJS.C73_fails", "GJS.C73_only", "GJS.C73_offline", "GJS.C73_closed", "GJS.C73_body_open", "GJS.C73_status", "GJS.C73_plain_names", "GJS.C73_plus", "GJS.C73_world", "GJS.C73_lawful", "GJS.C73_newSchema"], "note": "gojsonreference (what is a reference, its URL, file scheme) stays a parameter; io.ReadAll is modelled by the bytes before the end and whether reading fails; net/url.QueryUnescape, strings.TrimPrefix, filepath.FromSlash and the decoder are modelled. C73_world ties this finer model to loadReference, on which the other properties rest."},
 {"property": "C74", "status": "proved", "theorems": ["GJS.C74_answers", "GJS.C74_silent", "GJS.C74_order", "GJS.C74_unique", "GJS.C74_meaning", "GJS.C74_loop", "GJS.C74_never", "GJS.C74_compiled", "GJS.C74_first_never", "GJS.C74_last_returns", "GJS.C74_string_never", "GJS.C74_document", "GJS.C74_document_loop"], "note": "Returning means returning for some number of nested calls; the Go stack limit is not modelled. Complements C04 and C05, which give a sufficient condition on each side."},
 {"property": "C75", "status": "proved", "theorems": ["GJS.C75_history", "GJS.C75_compile", "GJS.C75_accept", "GJS.C75_own_meta_schema"], "note": "Setting: documents from a finite set closed under references, which contains the built-in meta-schemas; every $schema in them is empty, unreadable or names a built-in meta-schema. C75_accept is for documents without $ref and adds the conditions of C16 (numbers in the range of float64). Closes the gap of C59, where running out of nested calls was not excluded. The counterexample is for one map iteration order."},
 {"property": "C76", "status": "proved", "theorems": ["GJS.C76_answer", "GJS.C76_steady", "GJS.C76_returns", "GJS.C76_places", "GJS.C76_between", "GJS.C76_mixed"], "note": "The moment of a question is any function of the call it belongs to; every execution is of this form because a call asks at most once. C30 gives that each answer is that of the registry at one moment. Checkers are pure functions. C76_mixed says how the schema {allOf, not} compiles and fixes the moments of its two questions."},
 {"property": "C77", "status": "proved", "theorems": ["GJS.C77_json", "GJS.C77_new", "GJS.C77_plain", "GJS.C77_differs", "GJS.C77_history", "GJS.C77_checked", "GJS.C77_strict", "GJS.C77_reached", "GJS.C77_root", "GJS.C77_yaml", "GJS.C77_kinds", "GJS.C77_ignored", "GJS.C77_type", "GJS.C77_const"], "note": "A second model of pool, parser and loader over Go values (RawSchema, RawLoader). Hypotheses: the reference # is the empty one; maps have distinct keys; JSON pointers look up in decoded documents what they look up in the document (the pointer package is outside the model); iteration orders depend on the number of entries only, for the comparison with JSON. For the comparison with JSON, formats are checked alike on decoded values. json.Number texts are JSON numbers."},
 {"property": "C78", "status": "proved", "theorems": ["GJS.C78_serial", "GJS.C78_sequence", "GJS.C78_overtaken", "GJS.C78_fetches", "GJS.C78_systems", "GJS.C78_unchecked", "GJS.C78_wrong_system", "GJS.C78_not_checked"], "note": "A call is cut into at most five atomic blocks (Shared); finer interleavings and the Go memory model are not modelled, so what is shown to happen can happen, while C78_serial speaks of calls that nothing interrupts. C78_overtaken: the call is given by a non-empty reference."}
]}

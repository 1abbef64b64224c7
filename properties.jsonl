{"id": "C01", "title": "Verdict agrees with the JSON Schema rules, end to end", "statement": "If Compile accepts a schema document and Schema.Validate returns a Result for an instance, then Result.Valid() is true exactly when the instance satisfies the schema document under the keyword rules of JSON Schema for the draft in force (type, combinators, conditionals, object, array, string, number, enum/const, format), with $ref read as 'satisfies the referenced document'.", "quantifier": "every schema document accepted by Compile, every draft, every instance, every reference graph (recursive ones included), every map iteration order", "why_tests_cant": "There are infinitely many schemas and instances and every keyword interacts with every other; a test suite samples a few hundred pairs.", "anchors": ["schema.go:parseSchema", "schema.go:parseReference", "validation.go:validateRecursive", "validation.go:validateSchema", "validation.go:validateCommon", "validation.go:validateArray", "validation.go:validateObject", "validation.go:validateString", "validation.go:validateNumber"]}
{"id": "C02", "title": "Compiled-schema verdict is compositional", "statement": "For a compiled schema, Validate reports no error exactly when every keyword of the schema holds given the verdicts of its sub-schemas: anyOf at least one, oneOf exactly one, allOf all, not none, if/then/else, items/additionalItems positionally, properties/patternProperties/additionalProperties by name, dependencies by present key, contains at least one, propertyNames on every key.", "quantifier": "every compiled schema graph and every instance on which validation returns", "why_tests_cant": "The claim quantifies over arbitrary schema graphs and arbitrary nesting depth.", "anchors": ["validation.go:validateRecursive", "validation.go:validateSchema", "validation.go:validateArray", "validation.go:validateObject"]}
{"id": "C03", "title": "Verdict and error set do not depend on map iteration order", "statement": "Two validations of the same instance against the same compiled schema either both return or both fail to return; when they return they report the same multiset of errors (type, context, value, details) and hence the same Valid(), although Go may iterate every map in a different order each time.", "quantifier": "every schema, instance, and every pair of choices of iteration order at every map range executed", "why_tests_cant": "Go's map order is random; a test sees a handful of orders out of factorially many.", "anchors": ["validation.go:validateSchema", "validation.go:validateObject", "validation.go:validatePatternProperty", "result.go:mergeErrors"]}
{"id": "C04", "title": "Validate returns when references make progress", "statement": "Schema.Validate returns for every instance, provided no chain of sub-schemas applied to the same instance value ($ref, anyOf, oneOf, allOf, not, if, then, else, schema dependencies) comes back to its start; recursion through properties, items and the like is always fine.", "quantifier": "every compiled schema graph with such a ranking, every instance of every depth", "why_tests_cant": "Termination is a statement about all inputs; a test that returns says nothing about the next input.", "anchors": ["validation.go:validateRecursive", "schema.go:parseReference"]}
{"id": "C05", "title": "A reference cycle that makes no progress never returns", "statement": "'Validate returns for every schema that Compile accepts' is false: Compile accepts {\"$ref\":\"#\"} and then Validate recurses without bound on every instance.", "quantifier": "every instance, every amount of stack", "why_tests_cant": "A test cannot observe non-termination; it can only give up waiting.", "anchors": ["schema.go:parseSchema", "schema.go:parseReference", "validation.go:validateRecursive"]}
{"id": "C06", "title": "Validate does not panic on instances whose numbers are in range", "statement": "On a compiled schema, Validate never panics if every number in the instance fits a float64 and is accepted by big.Rat; without that side condition it does panic (e.g. schema {\"enum\":[1]} and instance 1e400).", "quantifier": "every compiled schema, every instance, every iteration order", "why_tests_cant": "Absence of a nil dereference is a claim about all executions.", "anchors": ["validation.go:validateCommon", "validation.go:validateArray", "validation.go:validateNumber", "utils.go:marshalWithoutNumber", "utils.go:isKind"]}
{"id": "C07", "title": "Every reported error points at a real place in the instance", "statement": "For every error in Result.Errors(), err.Context() starts at (root) and names, key by key and index by index, a value that exists in the instance; err.Value() is that value, or a member of it (additional property errors), or one of its keys (errors below propertyNames).", "quantifier": "every schema, instance, error reported, nesting depth", "why_tests_cant": "Requires following every recursive call that extends or passes on a context.", "anchors": ["validation.go:validateRecursive", "validation.go:validateArray", "validation.go:validateObject", "jsonContext.go:NewJsonContext", "result.go:addInternalError"]}
{"id": "C08", "title": "Missing required properties are reported exactly", "statement": "Validating an object against a schema without in-place sub-schemas or propertyNames reports, at the context of that object, exactly one 'required' error per required name that is missing, carrying that name in its details, and none for names that are present.", "quantifier": "every such schema, every object, every nesting context", "why_tests_cant": "Counts of errors over arbitrary objects and arbitrary child schemas.", "anchors": ["validation.go:validateObject", "result.go:addInternalError"]}
{"id": "C09", "title": "Numeric bounds and multipleOf are exact", "statement": "minimum, maximum, exclusiveMinimum, exclusiveMaximum and multipleOf compare the exact decimal values of the literals: no rounding, and the verdict depends only on the numeric value and not on how it is spelled (1, 1.0, 10e-1).", "quantifier": "every number literal of any length and exponent, every bound", "why_tests_cant": "Rounding errors appear only at values a test is unlikely to pick.", "anchors": ["validation.go:validateNumber", "utils.go:checkJSONInteger", "utils.go:mustBeNumber"]}
{"id": "C10", "title": "'integer' means integral value", "statement": "A number instance satisfies type integer exactly when its exact value is an integer (so 1.0 and 1e3 are integers), and type number always.", "quantifier": "every number literal", "why_tests_cant": "Infinite set of literals and exponents.", "anchors": ["utils.go:checkJSONInteger", "validation.go:validateRecursive"]}
{"id": "C11", "title": "enum, const and uniqueItems compare by value up to float64 rounding", "statement": "Two JSON values are treated as equal by enum, const and uniqueItems exactly when they have the same structure, the same strings, the same object members regardless of member order, and numbers that round to the same float64 (sign of zero included).", "quantifier": "every pair of JSON values of any size", "why_tests_cant": "The code compares re-serialised text; equality of text versus equality of value needs injectivity of the encoder over all values.", "anchors": ["utils.go:marshalWithoutNumber", "utils.go:marshalToJSONString", "validation.go:validateCommon", "validation.go:validateArray"]}
{"id": "C12", "title": "enum/const equality is exact on safe integers and not beyond", "statement": "Numbers are compared by enum/const/uniqueItems through the nearest IEEE binary64 number (ties to even, literals from 2^1024-2^970 on have none), sign of zero included. For integer numbers of magnitude at most 2^53 the equality used by enum/const/uniqueItems is exact numeric equality (up to the sign of zero); beyond that it is not: 9007199254740993 is accepted by {\"const\":9007199254740992}.", "quantifier": "every integer literal with |n| <= 2^53; a concrete witness beyond", "why_tests_cant": "2^54 values; boundary behaviour of rounding.", "anchors": ["utils.go:marshalWithoutNumber", "utils.go:maxJSONFloat"]}
{"id": "C13", "title": "uniqueItems is violated exactly by equal elements", "statement": "With uniqueItems true an array produces a 'unique' error exactly when two elements at different positions are equal, and each error names in its details positions i < j of two equal elements.", "quantifier": "every array of any length", "why_tests_cant": "The code uses a map of serialised items; correctness over all arrays and positions is an invariant of the loop.", "anchors": ["validation.go:validateArray"]}
{"id": "C14", "title": "A failing anyOf/oneOf/contains explains itself with the best branch", "statement": "When anyOf fails, or oneOf fails because no branch matched, the Result contains the combinator error followed by all errors of the first branch whose score is maximal among the failing branches; when oneOf fails because several matched it adds only the combinator error.", "quantifier": "every list of branches of any length, every score", "why_tests_cant": "The selection is a loop with mutable best-so-far; tests cover a few lengths.", "anchors": ["validation.go:validateSchema", "validation.go:validateArray", "result.go:mergeErrors"]}
{"id": "C15", "title": "Compile accepts exactly the well-formed schemas", "statement": "For a schema document without $ref, Compile succeeds exactly when every keyword value is well-formed for the draft in force (types known and unique, numbers where numbers are needed, multipleOf > 0, non-negative int64 lengths, min <= max for lengths and properties, regexes that compile, unique required and enum entries, sub-schemas well-formed); it never accepts a document with a malformed keyword in a position it reads.", "quantifier": "every schema document without $ref, every draft value, every iteration order", "why_tests_cant": "Unbounded nesting and all combinations of keywords.", "anchors": ["schema.go:parseSchema", "schema.go:parseProperties", "schema.go:parseDependencies", "schemaType.go:Add", "utils.go:mustBeInteger"]}
{"id": "C16", "title": "Compile does not panic on well-typed documents", "statement": "'Compile never panics' is false: {\"definitions\":true} and {\"type\":[1]} panic. Compile does not panic when no reachable definitions keyword is a boolean, no type array holds a number and every number literal is accepted by big.Rat.", "quantifier": "every schema document, draft, pool content, iteration order", "why_tests_cant": "Absence of failed type assertions over all documents.", "anchors": ["schema.go:parseSchema", "utils.go:isKind"]}
{"id": "C17", "title": "Compile returns even for recursive references", "statement": "Compile terminates for every schema document whose references resolve inside a finite set of documents, however the references are nested or cyclic.", "quantifier": "every finite document set, every cyclic reference structure", "why_tests_cant": "Termination over all reference graphs.", "anchors": ["schema.go:parseSchema", "schema.go:parseReference", "schemaReferencePool.go:Add"]}
{"id": "C18", "title": "Compile's verdict may depend on map iteration order", "statement": "'Whether Compile accepts is a function of the schema document' is false: siblings of $ref are syntax-checked only if the reference was met before, and definitions are visited in map order, so the same document may be accepted in one run and rejected in the next. Without $ref the verdict is order-independent.", "quantifier": "a concrete witness for the negation; every $ref-free document and every pair of iteration orders for the positive part", "why_tests_cant": "The failing order may come up rarely; the positive part ranges over all orders.", "anchors": ["schema.go:parseSchema", "schemaReferencePool.go:Get"]}
{"id": "C19", "title": "Draft gating of keywords", "statement": "Under draft-04, boolean schemas are rejected and const, contains, propertyNames, if/then/else have no effect on any verdict (other than as a place a $ref may point into); under draft-06 if/then/else have no effect; under draft-07 and hybrid all are active.", "quantifier": "every schema document and instance", "why_tests_cant": "Applies at every nesting depth and with every other keyword present.", "anchors": ["schema.go:parseSchema", "draft.go:Draft"]}
{"id": "C20", "title": "Boolean exclusive bounds equal strict numeric bounds", "statement": "A draft-04 schema {minimum:m, exclusiveMinimum:true} accepts exactly the numbers > m, and the same as draft-06 {exclusiveMinimum:m}; with exclusiveMinimum:false it accepts exactly the numbers >= m; likewise for maximum.", "quantifier": "every bound and every number", "why_tests_cant": "All rationals on both sides of the bound, including the bound itself.", "anchors": ["schema.go:parseSchema", "validation.go:validateNumber"]}
{"id": "C21", "title": "$ref replaces its siblings at validation time", "statement": "A schema object with $ref gives, on every instance, exactly the Result of the referenced schema: siblings of $ref contribute no errors.", "quantifier": "every schema object with $ref and arbitrary sibling keywords, every instance", "why_tests_cant": "Any sibling keyword could leak through.", "anchors": ["validation.go:validateRecursive", "schema.go:parseSchema"]}
{"id": "C22", "title": "A document is fetched at most once per loader", "statement": "In any history of AddSchema, AddSchemas, Compile on one SchemaLoader, once a base URL is present in the loader (added, registered by $id, or fetched) resolving a reference to it does not fetch it again, and a resolution that succeeds leaves its base URL present. Exceptions: AddSchema and Compile given a reference loader always read their own source, and a document whose $schema is not usable is fetched again each time it is referenced.", "quantifier": "every history of operations, every reference structure, every loader answer", "why_tests_cant": "History property over unbounded sequences.", "anchors": ["schemaPool.go:GetDocument", "schemaPool.go:parseReferences"]}
{"id": "C23", "title": "Registered schemas are never silently replaced", "statement": "In any history, an entry registered in a SchemaLoader under a URL keeps its document; adding another document under the same URL reports an error. The exception: a document being added under a URL wins over a nested $id equal to that URL inside the same document.", "quantifier": "every history of AddSchema/AddSchemas/Compile", "why_tests_cant": "History property.", "anchors": ["schemaPool.go:parseReferences", "schemaPool.go:parseReferencesRecursive"]}
{"id": "C24", "title": "A failing AddSchema still changes the loader", "statement": "'If AddSchema returns an error the loader is unchanged' is false: when the root $id is already taken the document is nevertheless stored under the URL with unresolved relative references. A document that its meta-schema refuses, with Validate on, is not registered: the loader is left as compiling the meta-schema leaves it. AddSchemas keeps the documents before the one refused, and only those.", "quantifier": "concrete witness; positive part: a duplicate URL or undetectable draft leaves the loader unchanged; every document that is refused", "why_tests_cant": "State after an error path is rarely asserted by tests.", "anchors": ["schemaPool.go:parseReferences", "schemaLoader.go:AddSchema", "schemaLoader.go:validateMetaschema", "schemaLoader.go:AddSchemas"]}
{"id": "C25", "title": "Meta-schema validation switch survives operations", "statement": "'Loader operations leave SchemaLoader.Validate as the user set it' is false: when the meta-schema cannot be compiled, Validate stays false and later invalid schemas are accepted unchecked. If the meta-schema compiles, Validate is restored.", "quantifier": "every history; witness for the negation", "why_tests_cant": "Only visible on the operation after a failure.", "anchors": ["schemaLoader.go:validateMetaschema"]}
{"id": "C26", "title": "A loader compiles at most one anonymous root schema", "statement": "After one Compile from a string/bytes/Go loader on a SchemaLoader, every further Compile from such a loader fails with 'Reference already exists', whatever the schemas are. This is so too if the first one failed because its meta-schema, with Validate on, refused the document.", "quantifier": "every pair of schema documents, every history in between", "why_tests_cant": "History property.", "anchors": ["schemaLoader.go:Compile", "schemaPool.go:parseReferences"]}
{"id": "C27", "title": "References are loaded through the loader the user supplied", "statement": "'Compile fetches external references through the factory of the loader passed to it' holds when Validate is off, and is false when Validate is on and a meta-schema is applied: compiling the meta-schema installs the default file system factory. What Compile returns and leaves behind depends on no file system but that of the loader passed to it (with Validate on: on that one and the default one).", "quantifier": "every root loader, every schema, every two worlds that differ in other file systems; witness for the negation", "why_tests_cant": "Interaction of two features through shared mutable state.", "anchors": ["schemaLoader.go:Compile", "schemaLoader.go:validateMetaschema", "jsonLoader.go:LoaderFactory"]}
{"id": "C28", "title": "The draft of a referenced document does not depend on whether it was cached", "statement": "With AutoDetect on, resolving the same reference twice yields the same document and the same draft, provided the fetched document does not itself register, by a nested $id, an entry under the full reference. With AutoDetect off this is false: the first (fetching) resolution uses the document's $schema, later ones ignore it.", "quantifier": "every reference, every loader state; witness for the negation", "why_tests_cant": "History-dependent behaviour.", "anchors": ["schemaPool.go:GetDocument", "schemaPool.go:parseReferences"]}
{"id": "C29", "title": "Reference rewriting touches only $ref strings outside literals", "statement": "Adding a schema changes nothing in the document except string values of $ref members in schema position; const and enum values, and members merely named $ref inside properties/patternProperties/dependencies maps, are left as they are, and the shape of the document is preserved.", "quantifier": "every document", "why_tests_cant": "All nestings of literal and schema positions.", "anchors": ["schemaPool.go:parseReferencesRecursive"]}
{"id": "C30", "title": "Format registry behaves like a map under concurrency", "statement": "In every interleaving of goroutines calling Add, Remove, Has and IsFormat on FormatCheckers, every call returns what a sequential map would return at some point between its start and end; unknown formats always pass.", "quantifier": "every number of goroutines, every program, every interleaving", "why_tests_cant": "Schedules cannot be enumerated by tests.", "anchors": ["format_checkers.go:Add", "format_checkers.go:Remove", "format_checkers.go:Has", "format_checkers.go:IsFormat"]}
{"id": "C31", "title": "Built-in format checkers never reject non-strings", "statement": "Every built-in checker accepts every instance that is not a string, so format constrains strings only.", "quantifier": "every built-in format, every non-string instance", "why_tests_cant": "All values of all other types.", "anchors": ["format_checkers.go:IsFormat"]}
{"id": "C32", "title": "uuid format accepts exactly the canonical shape", "statement": "The uuid format accepts a string exactly when it consists of 8-4-4-4-12 hexadecimal digits (either case) separated by hyphens.", "quantifier": "every string", "why_tests_cant": "Infinitely many strings.", "anchors": ["format_checkers.go:rxUUID", "format_checkers.go:UUIDFormatChecker"]}
{"id": "C33", "title": "json-pointer and relative-json-pointer formats are exact", "statement": "json-pointer accepts exactly the strings that are empty or a sequence of '/'-started tokens in which every '~' is followed by 0 or 1; relative-json-pointer accepts exactly a non-negative decimal without leading zero followed by '#' or a json pointer.", "quantifier": "every string", "why_tests_cant": "Infinitely many strings.", "anchors": ["format_checkers.go:rxJSONPointer", "format_checkers.go:rxRelJSONPointer"]}
{"id": "C34", "title": "hostname format is exact", "statement": "hostname accepts exactly the dot-separated sequences of labels of 1 to 63 letters, digits and hyphens, not starting or ending with a hyphen, of total length at most 255.", "quantifier": "every string", "why_tests_cant": "Infinitely many strings, boundary lengths.", "anchors": ["format_checkers.go:rxHostname", "format_checkers.go:HostnameFormatChecker"]}
{"id": "C35", "title": "Error descriptions are independent of history and schedule", "statement": "In every interleaving of goroutines producing error descriptions with a fixed ErrorTemplateFuncs, each description is the rendering of its own format string with its own details; the template cache never returns another template, the lock is never held at the end, and no goroutine is blocked forever.", "quantifier": "every number of goroutines, every interleaving, every cache content reached", "why_tests_cant": "Concurrent cache with double-checked creation.", "anchors": ["errors.go:formatErrorDescription", "errors.go:errorTemplates"]}
{"id": "C36", "title": "Context and Field strings render the path", "statement": "JsonContext.String() is the path from the root joined by the delimiter, its precomputed length is its exact length for the default delimiter, and Field() is '(root)' at the root and the dotted path below it otherwise. The rendering is not injective: keys containing '.' collide.", "quantifier": "every path of any depth and any keys", "why_tests_cant": "Unbounded paths.", "anchors": ["jsonContext.go:String", "jsonContext.go:stringLen", "result.go:Field"]}
{"id": "C37", "title": "Type sets stay valid", "statement": "Any sequence of type names added to a schema's type set leaves it duplicate-free and within the seven JSON types; a rejected addition leaves it unchanged, and membership is exactly the set of accepted names.", "quantifier": "every sequence of additions", "why_tests_cant": "Unbounded sequences.", "anchors": ["schemaType.go:Add", "schemaType.go:Contains", "schemaType.go:String"]}
{"id": "C38", "title": "Result is append-only and Valid means no error", "statement": "For any sequence of AddError calls on a Result, earlier errors stay in place and in order, and Valid() is false from the first one on.", "quantifier": "every sequence of calls", "why_tests_cant": "History property.", "anchors": ["result.go:AddError", "result.go:Valid", "result.go:Errors"]}
{"id": "C39", "title": "Reader and writer loaders see exactly the transferred bytes", "statement": "For any sequence of reads (writes) through the reader (writer) returned by NewReaderLoader (NewWriterLoader), the loader's source text is exactly the bytes transferred so far, in order, and nothing is lost for the consumer.", "quantifier": "every sequence of reads and writes of any sizes", "why_tests_cant": "Unbounded histories.", "anchors": ["jsonLoader.go:NewReaderLoader", "jsonLoader.go:NewWriterLoader", "jsonLoader.go:JsonSource"]}
{"id": "C40", "title": "Draft table is consistent", "statement": "The URL of each supported draft is recognised as that draft and has an embedded meta-schema; no other URL is recognised, and no document without $schema gets a detected draft.", "quantifier": "every URL string, every document", "why_tests_cant": "All strings outside the table.", "anchors": ["draft.go:GetDraftVersion", "draft.go:GetSchemaURL", "draft.go:GetMetaSchema", "draft.go:parseSchemaURL"]}
{"id": "C41", "title": "Length keywords need plain integer literals", "statement": "minLength, maxLength, minItems, maxItems, minProperties, maxProperties accept exactly the literals without fraction or exponent that fit int64 and are not negative; integral literals such as 1.0 or 1e2 are rejected although type integer accepts them.", "quantifier": "every number literal", "why_tests_cant": "All literals.", "anchors": ["utils.go:mustBeInteger", "schema.go:parseSchema"]}
{"id": "C42", "title": "minItems/maxItems/minLength/maxLength/minProperties/maxProperties count exactly", "statement": "The size keywords hold exactly when the number of elements, of Unicode code points, or of distinct members is within the inclusive bounds.", "quantifier": "every instance and bound", "why_tests_cant": "All sizes.", "anchors": ["validation.go:validateArray", "validation.go:validateString", "validation.go:validateObject"]}
{"id": "C43", "title": "The name of a definition matters", "statement": "'Renaming an entry of definitions together with all references to it does not change whether Compile accepts' is false: references inside a definition called const, enum, properties, patternProperties or dependencies are not made absolute, so Compile of a document loaded by reference can fail on them. Definitions with other names are processed like every other schema.", "quantifier": "all documents and definition names", "why_tests_cant": "the failing names are exactly those no test author picks; the positive part ranges over all documents", "anchors": ["schemaPool.go:parseReferencesRecursive"]}
{"id": "C44", "title": "const distinguishes zeros by sign", "statement": "A const that is a number accepts exactly the numbers that round to the same float64 with the same sign; in particular 0 and -0, which are equal for minimum, maximum, multipleOf and type, are different constants, in every spelling.", "quantifier": "every number literal", "why_tests_cant": "the spellings of zero and the decimal literals that round to a float64 are infinitely many", "anchors": ["utils.go:marshalWithoutNumber", "validation.go:validateCommon"]}
{"id": "C45", "title": "uri-template, uri, ip and date-time formats relative to the Go parsers", "statement": "uri-template accepts exactly the strings without backslash that url.Parse accepts and in whose path every opening brace is closed; uri accepts only what uri-reference accepts; ipv4 and ipv6 are not exclusive; date-time accepts everything that date or time accepts.", "quantifier": "every string, every behaviour of the parsers", "why_tests_cant": "Infinitely many strings; nested groups and stars in the pattern.", "anchors": ["format_checkers.go:rxURITemplate", "format_checkers.go:URITemplateFormatChecker", "format_checkers.go:IPV4FormatChecker", "format_checkers.go:DateTimeFormatChecker"]}
{"id": "C46", "title": "The patterns of the package compile and are searched exactly", "statement": "All patterns given to regexp.MustCompile when the package is loaded are valid, and a search finds a match exactly if some part of the text matches, with ^ and $ at the ends of the text.", "quantifier": "every pattern of the package, every text", "why_tests_cant": "Infinitely many texts.", "anchors": ["format_checkers.go:rxHostname", "format_checkers.go:rxURITemplate", "format_checkers.go:rxUUID", "format_checkers.go:rxJSONPointer", "format_checkers.go:rxRelJSONPointer"]}
{"id": "C47", "title": "The draft of a shared reference target depends on compilation order", "statement": "A referenced document that neither declares nor is registered with a draft is read under the draft of the place that refers to it first. As sub-schema maps are compiled in map iteration order, the same documents in the same fresh loader can yield schemas with different verdicts. If no document in the loader declares or is registered with a draft other than the root's, every sub-schema is read under the root's draft and the verdict follows that one draft's rules; without references the order has no influence at all.", "quantifier": "every loader state, document set, argument and schedule (positive); witness (negative)", "why_tests_cant": "Go's map order is random and the effect needs three documents with mixed drafts; a run shows one order.", "anchors": ["schema.go:parseReference", "schemaPool.go:GetDocument"]}
{"id": "C48", "title": "A schema accepted with Validate on conforms to its meta-schema", "statement": "With Validate on, every document that Compile, AddSchema or AddSchemas accepts obeys, as an instance, the keyword rules for the document its meta-schema reference stands for: the one named by $schema if detection is on, else the one of the loader's draft. Without a $schema and with the default draft nothing is checked. 'No document takes part in a schema that its meta-schema refuses' is false: only the root is checked, and a document that Compile refuses is used unchecked where an accepted schema refers to it.", "quantifier": "every loader state with Validate on, loader argument, document, schedule", "why_tests_cant": "Ranges over all documents, meta-schemas and loader histories.", "anchors": ["schemaLoader.go:validateMetaschema", "schemaLoader.go:Compile", "schemaLoader.go:AddSchema", "schemaLoader.go:AddSchemas"]}
{"id": "C49", "title": "The error report is true and complete", "statement": "Every reported error names a keyword that is really violated by the value at its context: a chain of sub-schemas leads from the root to the violated one, each rightly applied by its predecessor (branches of anyOf, oneOf and contains only when none will do), the context spells the steps into the instance along the chain, and kind, details and value are those of the violation. Conversely every violated keyword of every sub-schema that has to be applied (through $ref, allOf, dependencies, then, else, items, additionalItems, properties, patternProperties, additionalProperties, propertyNames) is reported at its context. A value of the wrong type gives the type error alone.", "quantifier": "every compiled schema, instance, schedule and terminating run", "why_tests_cant": "Ranges over all schemas, nesting depths and instances; relates each error to a settled verdict of every sub-schema on the way.", "anchors": ["validation.go:validateRecursive", "validation.go:validateArray", "validation.go:validateObject", "validation.go:validateString", "validation.go:validateNumber", "validation.go:validateCommon", "validation.go:validateSchema", "schemaType.go:String"]}
{"id": "C50", "title": "The error report of a compiled document speaks about the document", "statement": "If Compile accepts a schema document, then every error that Validate reports afterwards is a violated keyword of that document, or of a sub-schema rightly applied by it (followed through $ref to the documents the loader holds, with the draft in force there): the context spells the way into the instance, and the kind, its details (bound, pattern, key, allowed types and values) and the value are those of the document and instance. Conversely every violated keyword of the document and of each sub-schema that has to be applied is reported.", "quantifier": "every loader state with well-formed documents, schema document, instance, schedule and terminating run", "why_tests_cant": "Quantifies over all documents, references and instances; a test compares single messages.", "anchors": ["schemaLoader.go:Compile", "schema.go:parseSchema", "validation.go:validateRecursive", "validation.go:validateObject", "validation.go:validateArray"]}
{"id": "C51", "title": "Error descriptions are complete and say what is wrong", "statement": "The detail map of every error that validation reports has exactly the entries promised for its type plus field and context. A locale format made of text and promised details renders as that text with the values in place, never with <no value>. With DefaultLocale the description of every error is word by word the message of its kind and details, and String() is the path of the place, a colon and the description.", "quantifier": "every compiled schema, instance, schedule, terminating run, reported error and locale", "why_tests_cant": "All keys, patterns, texts and paths, and all formats of custom locales.", "anchors": ["errors.go:newError", "errors.go:formatErrorDescription", "result.go:String", "result.go:Field", "locales.go:ErrorFormat", "locales.go:Required", "locales.go:InvalidType"]}
{"id": "C52", "title": "Identifiers declared in documents become known, and only those", "statement": "AddSchema and AddSchemas (Validate off) make every sub-schema that declares an $id (id) known to the loader under the identifier resolved against the base in scope, with references made absolute and with the draft declared by the whole document, if identifiers are distinct and new. Whatever the documents and the outcome, no other entry of the loader changes but the one for the URL of AddSchema; AddSchemas of documents without identifiers leaves no trace. If an identifier is declared twice in a document, Compile still succeeds, and which of the two a reference means depends on map iteration order.", "quantifier": "every loader state, document or list of documents, schedule; duplicates: a concrete document", "why_tests_cant": "All nestings of identifiers and scopes, all loader states, and failing calls; duplicates depend on Go's random map order.", "anchors": ["schemaPool.go:parseReferencesRecursive", "schemaPool.go:parseReferences", "schemaLoader.go:AddSchema", "schemaLoader.go:AddSchemas"]}
{"id": "C53", "title": "Instances given as Go values", "statement": "A Go value given to NewRawLoader that stands for a JSON value (nil, bool, json.Number, string, []interface{}, map[string]interface{}, map[interface{}]interface{} with string keys, nested anyhow) gives the result of that JSON value, or a panic. It does not panic more than the JSON value does if it has no map[interface{}]interface{} inside, or is itself such a map with no other maps inside, or if the schema compares no values (const, enum, uniqueItems). A value of any other kind (int, float64, struct, pointer) is accepted by every schema object without $ref, whatever its keywords. Other slices and maps and named string and bool types panic unless type rules them out; so do maps with keys that are not strings.", "quantifier": "every compiled schema, Go value, environment and schedule", "why_tests_cant": "All nestings of the two map types under all schemas; tests use values decoded from JSON.", "anchors": ["validation.go:validateRecursive", "validation.go:validateSchema", "validation.go:validateCommon", "utils.go:convertDocumentNode", "utils.go:marshalWithoutNumber", "jsonLoader.go:NewRawLoader"]}
{"id": "C54", "title": "From texts to documents", "statement": "decodeJSONUsingNumber yields the value of the first JSON text in the input after white space, and does not look at what follows: a text followed by anything is accepted, unless the value is a number and the next byte goes on with it. A text stands for at most one value. The documents that can be decoded are exactly the values with distinct keys in every object and nesting up to the limit of encoding/json; the last of several members with one name counts; numbers are kept as written; lone surrogates and bytes that are not UTF-8 become U+FFFD. io.EOF is returned exactly for white space; a syntax error is final, whatever would follow. The document of a reader or writer loader does not depend on the pieces in which its text is read. The three built-in meta-schema texts decode to the meta-schemas of drafts 4, 6 and 7.", "quantifier": "every byte sequence, every limit on nesting, every value", "why_tests_cant": "All byte sequences, including broken UTF-8 and every split of the input into reads.", "anchors": ["jsonLoader.go:decodeJSONUsingNumber", "jsonLoader.go:NewStringLoader", "jsonLoader.go:NewBytesLoader", "jsonLoader.go:jsonIOLoader.LoadJSON", "jsonLoader.go:loadFromHTTP", "draft.go:GetMetaSchema"]}
{"id": "C55", "title": "Schemas checked against a built-in meta-schema", "statement": "With Validate on, when the meta-schema of a document is that of draft 4, 6 or 7, what Compile, AddSchema and AddSchemas let through has the shape that draft prescribes for schemas, stated keyword by keyword (MetaValid), and what they refuse with the errors of this check does not have it. The meta-schema checked against is the built-in one after any history of operations on a new loader, failing ones included, as long as no document handed to the loader or loaded from elsewhere claims an identifier at the address of the meta-schema and none is added under it. Without that condition a document can take the place of the meta-schema.", "quantifier": "every world in which references within the meta-schema work as they should, every history of operations, every document, every schedule of map iterations, every fuel", "why_tests_cant": "The shape is claimed for all documents and after all histories; a test checks some documents on a fresh loader.", "anchors": ["schemaLoader.go:validateMetaschema", "schemaLoader.go:Compile", "schemaLoader.go:AddSchema", "schemaLoader.go:AddSchemas", "schemaPool.go:parseReferences", "schemaPool.go:GetDocument", "jsonLoader.go:loadFromHTTP", "draft.go:GetMetaSchema"]}
{"id": "C56", "title": "What Compile accepts is well-formed, references followed", "statement": "If Compile accepts a schema, then every document reached from its root - sub-schemas, definitions, and what references lead to, in this or in other documents - is well-formed under the draft in force there: a boolean (from draft 6 on), an object each of whose keyword values has the form the draft asks for, or an object with a $ref that resolves. References are read as documents of the loader. On documents without $ref this is the well-formedness of C15.", "quantifier": "every world, loader state with well-formed pool (in particular after any history), argument, settings (Validate on or off), schedule of map iterations, fuel", "why_tests_cant": "Faults may hide behind any chain of references and in any keyword; a test tries some.", "anchors": ["schemaLoader.go:Compile", "schema.go:parse", "schema.go:parseSchema", "schema.go:parseReference", "schemaPool.go:GetDocument"]}
{"id": "C57", "title": "Errors of the compiler are justified", "statement": "When Compile, NewSchema, AddSchema or AddSchemas returns an error, there is a fault of exactly the kind the error reports: the error and its arguments are tied, one by one, to a fault in the source, in its $schema, in an identifier, in the answer of the meta-schema check, or in the value of a keyword of some document that the compilation reaches. Faults in objects without $ref are incompatible with what C56 guarantees after success, well-formed documents have none, and if there is none and the documents are tame and finitely many, Compile succeeds.", "quantifier": "every world, loader state with well-formed pool, argument, settings, schedule of map iterations, fuel", "why_tests_cant": "That an error is never returned without reason is a statement about all documents, settings and loader states.", "anchors": ["schemaLoader.go:Compile", "schemaLoader.go:AddSchema", "schemaLoader.go:AddSchemas", "schemaLoader.go:validateMetaschema", "schema.go:parseSchema", "schema.go:parseReference", "schemaPool.go:parseReferences", "schemaPool.go:GetDocument", "draft.go:parseSchemaURL"]}
{"id": "C58", "title": "Texts of the errors of compilation", "statement": "The text of every error that the compiler and the loader make themselves is, with the default locale, one fixed sentence with the arguments of the error in place; with another locale whose formats use the same details, that format filled in, no detail missing. The text of an error about a schema object contains the name of a keyword present in the object that is at fault, or the offending type, pattern or reference, with the listed exceptions. The report of the check against the meta-schema that Compile, AddSchema and AddSchemas return has at least one line, exactly one per error of the check in order, and each line tells the place in the document and the message of C51 for it.", "quantifier": "every error, locale, printer of numbers, world, loader state with well-formed pool, argument, settings, schedule of map iterations, fuel", "why_tests_cant": "Format strings are matched to detail maps by name at run time; a name that does not fit shows only for the error that uses it. Which keyword a text names is a statement about all faulty documents.", "anchors": ["errors.go:formatErrorDescription", "locales.go:InvalidType", "locales.go:MustBeOfType", "locales.go:KeyItemsMustBeOfType", "locales.go:NotAValidType", "locales.go:ParseError", "schemaType.go:Add", "schemaLoader.go:validateMetaschema", "schemaLoader.go:AddSchema", "schemaLoader.go:AddSchemas", "schema.go:parseSchema", "schema.go:parseReference", "draft.go:parseSchemaURL"]}
{"id": "C59", "title": "What the check against the meta-schema leaves to the compiler, and what it asks beyond it", "statement": "For drafts 4, 6 and 7, a schema object has the shape of its meta-schema and obeys a short list of further demands of the compiler (Leftover) exactly if it has the shape the compiler asks for and obeys a short list of further demands of the meta-schema (Stricter); the same for whole documents. A fault the compiler finds in a document that passed the check is one of a short list (Residue). Compile finds no fault in the built-in meta-schemas. An error of Compile with Validate on is the report of a document without the shape of its built-in meta-schema, or an error that Compile with Validate off would have a reason to return. A document without $ref that has the shape and obeys Leftover is not refused, Validate on or off; conversely what Compile accepts with Validate on has both.", "quantifier": "every document, draft 4/6/7, lawful world with built-in meta-schemas, loader state whose pool is well-formed and whose meta-schema has not been replaced, schedule of map iterations, fuel (for the converse: fuel at least the size of the document)", "why_tests_cant": "The two sets of demands are in different languages, Go code and a JSON document, and the claim is about all documents: tests can show a member of the difference, not that the list is complete.", "anchors": ["schemaLoader.go:validateMetaschema", "schemaLoader.go:Compile", "schema.go:parse", "schema.go:parseSchema", "schema.go:parseReference", "draft.go:GetMetaSchema", "format_checkers.go:IsFormat"]}
{"id": "C60", "title": "Go values become the documents they stand for, and serialising keeps the value", "statement": "LoadJSON of NewGoLoader returns the document the Go value stands for; it succeeds exactly when nothing in the value is without JSON and the value is nested no deeper than the decoder allows; json.Marshal is what fails in the first case, the decoder in the second. A decoded document passed through NewGoLoader comes back as the same document. The text marshalWithoutNumber returns is a JSON text, and decoding it gives the value it was made of up to rounding of numbers to float64. Its two serialisations, as they are written, give the text of the one-step definition used by the properties of enum, const and uniqueItems; a value nested too deep has no text.", "quantifier": "every Go value of the tree model with distinct names, every document, every printing of numbers that satisfies Prints", "why_tests_cant": "Escaping, sorting and nesting interact for unboundedly many strings and shapes; a test compares a few texts. That a text is JSON and denotes the value is a statement about all of them.", "anchors": ["jsonLoader.go:NewGoLoader", "jsonLoader.go:LoadJSON", "jsonLoader.go:decodeJSONUsingNumber", "utils.go:marshalToJSONString", "utils.go:marshalWithoutNumber"]}
{"id": "C61", "title": "The spelling of a schema document does not matter", "statement": "Two schema documents without $ref that differ only in the order of members and in the notation of numbers (1, 1.0, 10e-1; same sign), compiled by loaders with the same settings, give the same verdict on every instance, and on every two instances that differ in the same way. Whether Compile accepts such a document does not depend on the order of members at any depth, nor on map iteration order. So a decoded schema handed to NewGoLoader behaves as the schema it was. Notation of numbers can decide acceptance: maxLength 1 is accepted and maxLength 1.0 is refused.", "quantifier": "all pairs of documents without $ref, all pairs of instances, all map iteration orders, all loader states with the same draft settings (acceptance: a loader without schemas and with meta-schema validation off)", "why_tests_cant": "The pairs of spellings are unbounded in number and depth, and every keyword has to respect them.", "anchors": ["schema.go:parseSchema", "utils.go:marshalWithoutNumber", "utils.go:mustBeInteger", "jsonLoader.go:LoadJSON", "validation.go:validateRecursive"]}
{"id": "C62", "title": "Members of a schema that ask for nothing", "statement": "Taking members out of a schema document without $ref, at any depth, changes no verdict if they ask for nothing: members that are not keywords of the draft that speak about instances (title, default, definitions, unknown names, const in draft-04, ...), empty lists (also type, enum, anyOf, oneOf: []), empty maps, {} or true for items, additionalItems, additionalProperties and propertyNames, false for uniqueItems and boolean exclusive bounds, format \"\", sizes of at least 0, additionalItems beside an items that is not a list or an empty one, then and else without if, if without both. A schema with nothing else rejects nothing. Compile accepts what is left if it accepted the schema. Every other keyword of a draft makes a difference in some schema.", "quantifier": "all documents without $ref, any number of such members at any depth taken out or put in, all instances, all map iteration orders, loaders in any state (acceptance: a loader without schemas and with meta-schema validation off)", "why_tests_cant": "The members, their places and the rest of the schema are unbounded, and every one of the 33 keywords has to ignore them.", "anchors": ["schema.go:parseSchema", "validation.go:validateRecursive", "validation.go:validateArray", "validation.go:validateCommon", "validation.go:validateSchema"]}
{"id": "C63", "title": "Closed schemas mean the same whatever the order of compilation", "statement": "A schema document, recursive or not, whose references lead (by URL, $id or JSON pointer) to the document itself or to documents already added to the loader, each to one place and all under one draft, is compiled without fetching anything. Its verdict on every instance is that of the keyword rules, each reference standing for the document it leads to, whatever the order of iteration over maps while rewriting, compiling and validating. If all its references lead into the document itself, the verdict is the same in every loader that knows nothing under the document's URLs and reads it under the same draft; for references of the form #/... they stand for what the pointer selects in the document.", "quantifier": "all closed documents, all loader states that have fetched nothing, all map iteration orders, all instances", "why_tests_cant": "Documents, reference graphs, loader contents and the iteration orders of all maps on the way are unbounded.", "anchors": ["schemaPool.go:GetDocument", "schemaPool.go:parseReferencesRecursive", "schemaLoader.go:Compile", "schema.go:parseReference"]}
{"id": "C64", "title": "Which closed schema documents Compile accepts", "statement": "A schema document whose references lead to itself or to documents already added to the loader (as in C63), and that has no place at which the compiler panics, makes Compile return a schema or an error, however deep or recursive it is. Compile accepts it if everything reachable by sub-schema keywords, definitions and references is a well-formed schema whose references stand for something. If references stand alone (no other validation keyword beside $ref), Compile accepts it only then, so acceptance does not depend on the order of iteration over maps; and for documents whose references lead into themselves, not on what else the loader knows.", "quantifier": "all closed documents without panicking places, all loader states that have fetched nothing, all map iteration orders", "why_tests_cant": "Documents, reference graphs, loader contents and iteration orders are unbounded; a refusal may depend on any of them.", "anchors": ["schema.go:parseSchema", "schema.go:parseReference", "schemaLoader.go:Compile", "schemaPool.go:GetDocument"]}
{"id": "C65", "title": "References are rewritten in place", "statement": "parseReferences changes the maps of a document in place. For a document whose maps are distinct from one another and from those of other documents, whatever the order of iteration over maps: the maps of the document hold afterwards what rewriting gives, no other map has changed, and everything the pool holds, read through memory, is what it would be if documents were immutable; GetDocument returns the same documents, drafts and errors as with immutable documents, and what it returned earlier is not changed by later calls. For a Go value that is handed to loaders twice: the second time its references are taken as the first time has left them, relative to the first URL; a closed document compiled again as the first Compile has left it is accepted or refused as before and gives the same verdicts.", "quantifier": "all documents, all memories and pools in agreement with them, all map iteration orders that are choices of positions, all URLs, all schema documents compiled twice that are closed", "why_tests_cant": "Aliasing bugs show only for particular combinations of shared maps, identifiers registered before their maps are rewritten, and orders of iteration.", "anchors": ["schemaPool.go:parseReferences", "schemaPool.go:parseReferencesRecursive", "schemaPool.go:GetDocument", "jsonLoader.go:NewRawLoader", "schemaLoader.go:AddSchema"]}
{"id": "C66", "title": "Verdicts of combined schemas", "statement": "For schemas without references, read under one draft: the verdict of allOf, anyOf, oneOf, not, if/then/else, items (schema or list), contains, properties, patternProperties, additionalProperties and propertyNames is the one that the verdicts of the parts determine, where each part is compiled on its own as a whole document, by loaders in whatever state. A schema object accepts what its keywords accept one by one, as long as keywords that are read together (properties with patternProperties and additionalProperties; items with additionalItems; if with then and else; minimum and maximum with their exclusive forms) are not separated.", "quantifier": "all schema documents without $ref, all lists of parts, all instances, all loader states, all map iteration orders", "why_tests_cant": "Tests compare single schemas with expected verdicts; that a sub-schema means the same inside any other schema as on its own is a statement about all pairs of schemas.", "anchors": ["validation.go:validateSchema", "validation.go:validateRecursive", "validation.go:validateArray", "validation.go:validateObject", "schema.go:parseSchema"]}
{"id": "C67", "title": "Laws for rewriting schemas", "statement": "Schemas that differ by the following laws, used in either direction, in the schema or its sub-schemas at any depth, any number of times, give the same verdicts: one-element allOf, anyOf and oneOf; double negation; De Morgan; order and repetition in allOf, anyOf, enum, type and required; order in oneOf; nested allOf and anyOf; distribution; absorption; oneOf of two as either-or; if/then/else as a disjunction; const as enum; enum and type lists as anyOf; required and dependencies by members; giving keywords one by one. Repetition in oneOf and giving keywords one by one that are read together are no laws, and neither is De Morgan for empty lists.", "quantifier": "all pairs of schema documents related by the laws, all instances, all loader states, all map iteration orders", "why_tests_cant": "The laws relate unboundedly many pairs of documents; tests see single documents.", "anchors": ["validation.go:validateSchema", "validation.go:validateRecursive", "validation.go:validateArray", "validation.go:validateObject", "schema.go:parseSchema"]}
{"id": "C68", "title": "The order of AddSchema calls", "statement": "The schema pool behaves as a map: two loaders that know the same under every URL, however they came to know it, give the same results, errors and compiled schemas in every later history of operations. With Validate off, AddSchema and AddSchemas of readable documents that make known different URLs and identifiers, all new to the loader, succeed in every order of the calls; the loader then knows the documents with references made absolute under their URLs and identifiers, and nothing else has changed; every later history of operations has the same results whatever the order of the calls was. If two documents declare the same identifier in their definitions, both are added without an error, and the order decides what the identifier means.", "quantifier": "all lists of documents and URLs, all permutations, all loader states, all map iteration orders, all later histories of operations", "why_tests_cant": "The claim is about all orders of calls and all histories after them; the clash shows only if both documents and a reference to the identifier come together.", "anchors": ["schemaLoader.go:AddSchema", "schemaLoader.go:AddSchemas", "schemaPool.go:parseReferences", "schemaPool.go:parseReferencesRecursive", "schemaPool.go:GetDocument"]}
{"id": "C69", "title": "Replacing references by what they stand for", "statement": "Take a schema document whose references lead to documents the loader has (or, in a document without identifiers, are JSON pointers into itself), and replace references, anywhere in it where schemas stand, by the schema objects they stand for, and the references in these again, until none is left; whatever stands beside a $ref goes with it. The resulting document, compiled on its own in any loader that reads it under the same draft, gives the verdict of the original on every instance. The same holds of every meaning that obeys the keyword rules. Keeping what stands beside a $ref gives a schema with other verdicts.", "quantifier": "all closed documents, all ways of replacing references, all instances, all loaders, all map iteration orders", "why_tests_cant": "The claim is about every schema with references, however nested and chained, and every instance; a test compares a pair of schemas on a few instances.", "anchors": ["schema.go:parseSchema", "schema.go:parseReference", "schemaPool.go:GetDocument", "validation.go:validateRecursive"]}
{"id": "C70", "title": "Rewriting schemas with references, recursive ones included", "statement": "Two schema documents whose references lead to documents the loader has (or, in documents without identifiers, are JSON pointers into themselves) give the same verdict on every instance if they come from each other by rewriting steps anywhere where schemas stand: the laws of C67, taking out or putting in members that ask for nothing (C62), and replacing references by what they stand for, the latter for a set of references that does not go round in circles; the other references, which may be recursive, must stand for documents that come from each other in the same way. Two spellings of such a document (other member order, other spellings of numbers), whose references stand for spellings of the same documents, give the same verdict on two spellings of an instance. The verdict is what every high enough layer of the keyword rules says, where references go to the layer below.", "quantifier": "all closed documents, all rewritings, all instances, all loaders, all map iteration orders", "why_tests_cant": "The claim is about all recursive schemas and all rewritings of them; a test compares a pair of schemas on a few instances.", "anchors": ["schema.go:parseSchema", "schema.go:parseReference", "schemaPool.go:GetDocument", "validation.go:validateRecursive"]}
{"id": "C71", "title": "How many calls a validation makes", "statement": "Validating an instance with the compiled form of a document without references makes at most (size of the document) * (size of the instance) calls of validateRecursive, for all map iteration orders; more generally, whenever the compiled nodes can be weighed such that every node outweighs all the sub-schemas it makes use of together, at most (weight of the root) * (size of the instance). With references no such bound holds: for the schema {\"items\": {\"allOf\": [{\"$ref\": \"#\"}, {\"$ref\": \"#\"}]}}, the instance [[[...]]] of size n+1 takes at least 2^n calls, since results are not remembered.", "quantifier": "all documents without references, all instances, all loaders, all map iteration orders; the lower bound for all n", "why_tests_cant": "A running time measured on some instances says nothing about others; the bound is about all pairs of schema and instance, and the lower bound about all sizes.", "anchors": ["validation.go:validateDocument", "validation.go:validateRecursive", "validation.go:subValidateWithContext", "validation.go:validateSchema", "validation.go:validateArray", "validation.go:validateObject"]}
{"id": "C72", "title": "How big a compiled schema is", "statement": "A compiled schema has at most as many nodes as its document has parts, plus the parts of the documents its references stand for, where every reference counts once: the references it keeps are distinct, each is the normalised text of a $ref met in the compilation and stands for what it resolves to. For documents without references the nodes are at most as many as the document has parts, and no reference is kept; for self-contained documents, recursive ones included, they are at most (size of the document) * (number of references + 1), and less than its square. (Validation has no such bound, C71.)", "quantifier": "all documents, all loaders and worlds, all map iteration orders", "why_tests_cant": "A test counts the nodes of a few schemas; that references do not multiply the work needs an argument about every order in which references can be met.", "anchors": ["schema.go:parse", "schema.go:parseSchema", "schema.go:parseReference", "schemaReferencePool.go:Get", "schemaReferencePool.go:Add"]}
{"id": "C73", "title": "What a reference loader reads, from where, and what it leaves open", "statement": "LoadJSON of a reference loader yields exactly the document that the reference leads to: for a file reference the JSON text at the start of the file whose name is the URL without file://, percent-decoded as in queries (on Windows without the leading slash and with backslashes), opened in the loader's own file system; for the three addresses of the draft schemas the documents that come with the package, without asking the network; for any other address the JSON text at the start of the body of a response with status 200. Every error is returned only for the reason it names, a response other than 200 with its status in the message. A load opens or asks at most once, and only what the reference stands for. A file that is opened is closed exactly once, after it was read, also if it cannot be read or is no JSON. What NewSchema compiles for a reference is the part it selects of that document, with its references made absolute. Two defects: the body of a response is never closed, and a file whose path contains a plus is never the one that is opened, since plus is read as a space.", "quantifier": "all references, all file systems, all answers over HTTP and their changes between loads, all bytes, both kinds of operating system", "why_tests_cant": "Tests read a few files and addresses; that no other file or address is ever touched, that files are closed on every path and bodies on none, is a statement about all references and all outsides.", "anchors": ["jsonLoader.go:LoadJSON", "jsonLoader.go:loadFromHTTP", "jsonLoader.go:loadFromFile", "jsonLoader.go:decodeJSONUsingNumber", "draft.go:GetMetaSchema", "locales.go:HttpBadStatus"]}
{"id": "C74", "title": "Exactly when Validate comes back", "statement": "Validate on a compiled schema returns the verdict b exactly if b is the answer, where answers are given inductively: a node has an answer if every question it has to ask has one. What it has to ask depends on earlier answers only for anyOf and contains, which stop at the first success in the order given, and for then/else, which depend on if; everything else is asked even if the verdict is already known, and a wrong type is answered without asking. It never comes back exactly if there is no answer, in particular whenever an endless chain of unavoidable questions starts at the root. Whether it comes back, and the verdict, do not depend on the order of map iteration; there is at most one answer, and every meaning of the schema agrees with it.", "quantifier": "all compiled schemas, cyclic ones included, all instances with numbers in range, all map iteration orders", "why_tests_cant": "That a call never returns is not observable, and for which of the infinitely many cyclic schemas and instances it returns is a question about all call trees.", "anchors": ["validation.go:validateRecursive", "validation.go:validateSchema", "validation.go:validateArray", "validation.go:validateObject", "validation.go:validatePatternProperty"]}
{"id": "C75", "title": "Compile with Validate on comes back", "statement": "A loader whose added documents contain no meta-schema of their own, so that only the built-in draft 4, 6 and 7 meta-schemas are ever used for checking, never hangs: there is one number of nested calls that suffices for every operation of every history, with Validate on or off, as long as the documents come from a finite set closed under references. For a harmless document without references Compile with Validate on returns a schema (no panic, no endless call) exactly if the document satisfies its meta-schema and what the meta-schema leaves open (identifiers, regular expressions, numbers, sizes) is in order. The restriction is needed: a document that names its own meta-schema {\"$ref\": \"#\"} compiles with Validate off, and Compile does not return with Validate on.", "quantifier": "all histories of loader operations, all documents, all drafts, all map iteration orders", "why_tests_cant": "Termination of the check for every document against recursive meta-schemas is a statement about infinitely many runs, and that a call never returns is not observable.", "anchors": ["schemaLoader.go:validateMetaschema", "schemaLoader.go:Compile", "schemaLoader.go:AddSchema", "schemaLoader.go:AddSchemas", "validation.go:validateRecursive"]}
{"id": "C76", "title": "Validation while formats are being registered", "statement": "The registry of formats is asked once per schema node with a format, and its lock is given back in between, so a validation may meet several registries. If the formats the schema names are not changed while the validation runs, the outcome is the one on the registry as it stood, whatever happens to other formats. Whatever happens to the registry, validation does not panic on numbers in range, returns if in-place references are not circular, and reports errors at places of the instance. Without not, oneOf and if, the verdict lies between the verdicts on two registries whenever all answers do. In general it is not the verdict of any registry: {\"allOf\": [{\"format\": \"f\"}, {\"not\": {\"format\": \"f\"}}]}, which accepts nothing on any fixed registry, accepts a string when f is added between the two questions.", "quantifier": "all compiled schemas, instances, histories of the registry, moments of the questions, map iteration orders", "why_tests_cant": "The moments at which other goroutines change the registry cannot be enumerated by a test, and most interleavings are rare.", "anchors": ["validation.go:validateCommon", "validation.go:validateRecursive", "format_checkers.go:IsFormat", "format_checkers.go:Add", "format_checkers.go:Remove"]}
{"id": "C77", "title": "Schemas given as Go values", "statement": "NewRawLoader hands a Go value to the compiler as it is. What encoding/json decodes a document to, or any other value made of the same types, compiles, with the same outcome, compiled form and loader state, as the document; so do whole histories of a loader, AddSchema, AddSchemas and validation against the meta-schema included. With Validate on and a draft given, what is added satisfies that draft's meta-schema as an instance. It is false that every value that compiles does so as the document it stands for: a map[interface{}]interface{} under a name the compiler does not look at is accepted, but identifiers inside it are not found, so a reference leads elsewhere and verdicts differ. Whatever compiles has, wherever the compiler looks, exactly the types a decoded document has, except that title, description and type may be of other string types and const and the elements of enum may be anything that marshals; beside a $ref only definitions, title and description are looked at. The same holds of what references lead to, unless it was loaded as JSON. The root is then a boolean or a map[string]interface{}; a map[interface{}]interface{}, which is what YAML decoders make and which is fine as an instance, never compiles, and panics unless Validate is on and detection of the draft off. For a value of any other Go type, keyword and kind decide: for a schema with one member and no draft given, a table over 39 keywords says which kinds are accepted, which panic and which are refused with an error, and under other names such values are ignored. In particular Go numbers are refused in every numeric keyword, a []string panics in required, and a type of another string type is accepted but constrains nothing.", "quantifier": "all Go values, documents, loader states, drafts, map iteration orders, depths", "why_tests_cant": "Go values of other types are unbounded in kind and nesting, and the claim is that no such value is ever accepted at any place the compiler looks.", "anchors": ["jsonLoader.go:NewRawLoader", "schemaLoader.go:Compile", "schemaLoader.go:validateMetaschema", "schemaLoader.go:AddSchema", "schemaLoader.go:AddSchemas", "schema.go:parseSchema", "schemaPool.go:parseReferencesRecursive", "draft.go:parseSchemaURL", "utils.go:isKind", "utils.go:marshalWithoutNumber"]}
{"id": "C78", "title": "One loader in several goroutines", "statement": "A call of Compile that no other call interrupts has the outcome and the effect on the loader it has alone, whatever other calls on the loader are unfinished; so calls that do not overlap have, in any order, the outcomes of Compile called in that order. It is false that calls from several goroutines have the outcomes they have one after the other in some order, even if each block of statements is atomic. If another call starts after a call has set its file system and before it reads its document, the first call behaves in every respect as if it had been given the file system of the other, and with Validate off everything it fetches comes through that one; a verdict can thus be reversed that is the same in both orders. However calls are interleaved, with Validate off it stays off and everything fetched is fetched through the file system of one of the calls. A call that comes to its check while another one has Validate switched off for compiling its meta-schema is not checked, so a schema that its meta-schema refuses in both orders can be accepted with Validate on.", "quantifier": "all worlds, loader states, calls in progress, documents, file systems, map iteration orders, depths", "why_tests_cant": "The interleavings occur rarely and depend on the Go scheduler; what a call returns in them is claimed for every pair of calls and every state.", "anchors": ["schemaLoader.go:Compile", "schemaLoader.go:validateMetaschema", "schemaPool.go:GetDocument"]}

# Formal model of xeipuuv/gojsonschema in Lean 4

The code in `/repo` is read as text and transcribed, function by function, into total Lean
functions under `lean/Verif/`.  Every definition of the model cites the Go file and lines it
stands for and says where it simplifies.  Properties are in `properties.jsonl`, the theorems for
each of them in `MANIFEST.json`.

## Layout

| files | contents |
|---|---|
| `Json`, `Num`, `Marshal`, `Model`, `Validate`, `Mon`, `Drafts`, `Pool`, `Parse`, `Loader`, `Context`, `ResultApi`, `IoLoader`, `Formats`, `Regex`, `Conc`, `Registry`, `Templates`, `Messages`, `CompileTexts`, `Raw`, `Decode`, `InPlace`, `RefLoader`, `Live` | the model |
| `Spec*` | specifications: what a property means, written without the functions of the model (a few name its data types and its outside world) |
| `Lem*`, `Corr` | proofs |
| `Prop*` | the theorems named in `MANIFEST.json`, each next to `example`s whose concrete data meet its hypotheses |
| `Demo*` | concrete worlds, schemas and instances for the examples and counterexamples |

## How the code is modelled

* **JSON values** (`Json`): what `decodeJSONUsingNumber` yields (`nil`, `bool`, `json.Number`,
  `string`, `[]interface{}`, `map[string]interface{}`).  Maps are association lists with distinct
  keys; the order of the list carries no meaning.  Numbers are decimal literals with sign, digits
  and exponent; their value is an exact rational.
* **Map iteration**: every Go `range` over a map goes through a scheduler `Sched`, an arbitrary
  permutation chosen afresh at every execution of every `range` (the scheduler gets the path of the
  execution point).  Theorems quantify over all schedulers.
* **Pointers**: a compiled schema is a heap (list of `Sub` records); `*subSchema` is an index.
  Reference cycles are real cycles.
* **Recursion**: validation and parsing are written with fuel (a bound on nested calls).  Running
  out of fuel is an outcome of its own and never confused with a result.  Theorems about results
  speak of every run that returns, whatever the fuel; separate theorems say when there is enough
  fuel (C04, C17), that above the bound the outcome does not depend on the fuel, and when no fuel is
  enough (C05, `C17_endless`).
* **Panics** (nil dereference, failed type assertion, division by zero) are an explicit outcome.
* **Error returns** are values; the state of a loader after an error is kept and can be used again.
* **Concurrency** (format registry, template cache): any number of goroutines running any programs,
  interleaved at the granularity of single map accesses, with the RWMutex of the Go library as a
  small-step machine.
* **Documents** are immutable values in `Pool` and `Loader`; rewriting of references returns a new one.  The code
  rewrites in place.  `InPlace` is the model with maps in memory; C65 relates the two for documents whose maps are distinct
  (every document that was decoded; Go values handed over by the user once they have not been shared), and says what
  happens to Go values that are used twice.
* **Slices** of `Result`: backing arrays, lengths and capacities, `append` in place or with any
  growth.

## Trusted base

1. The kernel of Lean 4.33.0.  No axioms are added; no `sorry`, `admit`, `native_decide` or
   `bv_decide`.  Every theorem depends on a subset of `propext`, `Classical.choice`, `Quot.sound`;
   the table at the end lists them theorem by theorem.
2. The reading of the Go text recorded in the comments of the model (the model is not extracted
   from the code).
3. The outside world, which is a parameter of the model (`Env`, `World`, `Std`), so theorems hold
   for every behaviour of it, subject to the hypotheses they state:
   * `regexp` on patterns written in schemas (`reOk`, `reMatch`).  The package's own patterns are
     compiled and searched in the model (`Regex`).
   * `gojsonreference` and `gojsonpointer` (`norm`, `inherits`, `base`, `canonical`, `pointer`,
     `isFile`, `fileName`): external packages.
   * reading files and HTTP (`readFile`, `http`), free to answer differently each time.  `RefLoader` models the reference
     loader down to `fs.Open`, `http.Get`, `io.ReadAll` (the bytes, or a failure) and `url.QueryUnescape`; C73 ties it to
     `readFile`, `http` and `fileName`.
   * `big.Rat.SetString` (`ratOk`): which literals it refuses (newer Go versions refuse huge
     exponents).  When it accepts, the value is the exact value of the literal.
   * how `encoding/json` prints a float64 (`fmtF64`), assumed injective where stated.  Rounding of
     a literal to float64 is modelled (round to nearest even, overflow is an error).
   * `net.ParseIP`, `net/mail`, `time.Parse`, `url.Parse`, `regexp.Compile` behind the formats.
   * `text/template` (a parameter in `Templates`; modelled for text and `{{.name}}` in `Messages`)
     and how `fmt` prints a `*big.Float`.
   * decoding of JSON texts (`decode`) and the grammar in `json.Decoder` (a scanner parameter in `IoLoader`);
     `Decode` is a model of both, written from the documentation of `encoding/json` (its source was not at hand),
     which is shown to be one of the behaviours allowed (C54).
   * Well-formedness of what these yield (distinct keys of a map) is `Spec.Lawful`.

## What is modelled

| Go | Lean |
|---|---|
| `validation.go`: everything | `Validate`; on Go values `Raw` |
| `schema.go`: `NewSchema`, `parse`, `parseSchema`, `parseReference`, `parseProperties`, `parseDependencies` | `Parse`, `Loader`; on Go values `RawSchema` |
| `schemaPool.go`, `schemaReferencePool.go`: everything | `Pool`, `Parse`; in place `InPlace`; on Go values `RawSchema` |
| `schemaLoader.go`: everything | `Loader`; on Go values `RawLoader`; `Compile` interleaved `Shared` |
| `draft.go`: everything, meta-schema texts included | `Drafts`, `Pool` |
| `subSchema.go`, `types.go`, `schemaType.go` | `Model`, `Validate`, `Parse` |
| `utils.go`: everything | `Num`, `Marshal`, `GoLoader`, `Pool`, `Validate`, `Raw` |
| `result.go`: everything but plain getters and setters | `Model`, `ResultApi`, `Messages`, `Context` |
| `jsonContext.go`: everything | `Context` |
| `errors.go`: `newError`, `formatErrorDescription`, the error types | `Model`, `Templates`, `Messages`, `CompileTexts` |
| `locales.go`: `DefaultLocale` formats, `ErrorFormat`, `STRING_*` | `Messages`, `Context`, `CompileTexts`, `RefLoader` |
| `format_checkers.go`: chain and all checkers | `Registry`, `Formats`, `Regex` |
| `jsonLoader.go`: reference loader with its factories, raw, string, bytes, Go, reader and writer loaders, `decodeJSONUsingNumber` | `Pool`, `Loader`, `IoLoader`, `Decode`, `GoLoader`, `RefLoader` |

## What is not modelled

* `internalLog.go` (a constant switches it off).
* Texts that `net/url`, `encoding/json`, `gojsonpointer`, `os` and the HTTP client give their errors, passed on by the
  compiler and the loader, are parameters of `CompileTexts` (`Outside`); the text of a response other than 200 is in `RefLoader`.
* Instances that are not JSON values (`NewRawLoader` on other Go values) are modelled in `Raw` up to: the text of
  a `json.Number` is a JSON number; what an error records as its value when it has no JSON counterpart.  Schemas
  given as such Go values are modelled in `RawSchema` and `RawLoader` (C77); what `gojsonpointer` finds
  in them is a parameter (`RawS.Outside.look`).
* `NewGoLoader` is modelled in `GoLoader` for Go values seen as trees: strings that are not UTF-8, `MarshalJSON` and
  `MarshalText` methods, `[]byte`, struct tags, keys that are not strings and cyclic pointers are not modelled; printing of
  numbers is a parameter (`Go.Lib`, assumptions in `Spec.Prints`).  The escapes of strings are those of Go before 1.22, which
  writes `\b` and `\f` as `\u0008` and `\u000c`.
* `SetRootSchemaName` and the `id`, `title`, `description`, `ref`, `parent`, `property` fields of a
  `subSchema` that validation does not read (types of `title` and the rest are checked in `Parse`).
* User-supplied `JSONLoader` implementations other than through what they return; `ErrorTemplateFuncs`.
* Data races on a `SchemaLoader` used from several goroutines (the code has no lock there) below the grain of the blocks of
  `Shared` (C78), and the Go memory model; a compiled schema is not written to by validation, so concurrent validations are independent runs, except that they ask the
  registry of formats, which may change meanwhile (`Live`, C76).
* Go's `int` is 64 bits wide; sizes of instances do not reach it.
* Stack overflow and memory exhaustion: Go's stack limit turns endless or very deep recursion into
  a crash; in the model it is running out of every fuel.

## Tests against wrong programs

`seeded/LOG.jsonl` has one line per edit of the model, made in a scratch copy and rebuilt.  How to read it:

* `failed` lists the declarations whose proofs the build reported.  A build stops at the first module that fails, so later
  modules are not checked.
* `theorems_failed` lists only theorems of the manifest among them.  `theorems_not_rechecked` lists theorems of the manifest
  that use a failed lemma.  That list is computed from dependencies; it was not observed that these theorems fail.
* `detected`: a theorem of the manifest or an example beside one stopped checking.
* `helper lemma failed`: only a lemma on the way stopped checking.  This alone does not show that a theorem would have
  noticed the edit: a proof script can break on a lemma that is still true, as it did for the edits marked
  `no change of behaviour`.
* `witness`: cases in which the edited model gives another result than the theorem named there says.  They were found by
  evaluating a table of closed expressions with Lean's interpreter in a scratch copy.  The theorem of each expression was
  assigned by hand, and some expected results were taken from the unedited model after reading them against the theorem.
  For `k01` to `k03` the negation of the theorem's statement was proved instead.
  For C77 and C78 the expected result is the other side of the theorem's equation, evaluated; long results are shown from
  shortly before the first difference.
* `not detected`, `inconclusive`: the build passed, or ended without naming a declaration; the note names the retest.

Earlier versions of the log called both kinds `detected` and listed the dependent theorems as failed.

## Properties

* **C01** Verdict agrees with the JSON Schema rules, end to end (proved). Rules of JSON Schema on documents (`Spec.DocRules`), any interpretation obeying them; heap invariant of the parser (every node represents its source, `Corr`) together with C02. Scope: from any state of a loader reached by a history of operations.
* **C02** Compiled-schema verdict is compositional (proved). Rules on compiled nodes (`Spec.NodeRules`); induction on fuel. Scope: compiled schemas as heaps.
* **C03** Verdict and error set do not depend on map iteration order (proved). Relational induction on fuel for two schedulers.
* **C04** Validate returns when references make progress (proved). Well-founded progress (rank on nodes, size of the instance); lexicographic induction.
* **C05** A reference cycle that makes no progress never returns (proved). No fuel suffices on a reference cycle, by induction on fuel; compiled witness.
* **C06** Validate does not panic on instances whose numbers are in range (proved). Abort analysis of the validator under range hypotheses; witnesses for each.
* **C07** Every reported error points at a real place in the instance (proved). Relation between contexts and places in the instance; induction on fuel.
* **C08** Missing required properties are reported exactly (proved). Filter of the error list by context and kind.
* **C09** Numeric bounds and multipleOf are exact (proved). Exact rationals against `validateNumber`. Scope: Exact for schema objects with number keywords only, sound for every schema object without $ref; every keyword other than const/enum/uniqueItems ignores the sign of zero, and C09_instance_spelling (every compiled schema) asks for equal signs. Numbers big.Rat refuses (ratOk) are as in C16.
* **C10** 'integer' means integral value (proved). Exact rationals against `checkJSONInteger`. Scope: Integer: exactly the integral values among numbers big.Rat accepts.
* **C11** enum, const and uniqueItems compare by value up to float64 rounding (proved). Encoder on characters, injectivity; spec relation on values.
* **C12** enum/const equality is exact on safe integers and not beyond (proved). Round to nearest even, exactness up to 2^53; witness.
* **C13** uniqueItems is violated exactly by equal elements (proved). Invariant of the map of seen texts.
* **C14** A failing anyOf/oneOf/contains explains itself with the best branch (proved). Invariant of best-so-far; scores given in closed form.
* **C15** Compile accepts exactly the well-formed schemas (proved). Declarative well-formedness against the parser. Scope: Iff for documents without $ref on an empty loader with meta-schema validation off; the safety half on any loader. Hypotheses on libraries: Inherits does not fail, floats printed injectively, big.Rat accepts the document's numbers (only for completeness). Fuel at least the document size.
* **C16** Compile does not panic on well-typed documents (proved). Panic analysis of the compiler; witnesses. Scope: Compile (Validate off) does not panic when the document, the pool and every loadable document are tame; every history of a loader (Validate on or off) has no panic if in addition all numbers fit float64. Tameness is required of whole documents, not only of the reachable schemas. Each of the three conditions is shown necessary by a panicking document.
* **C17** Compile returns even for recursive references (proved). Measure over (unseen references, document size). Scope: With Validate off. One bound on the nesting of calls holds for every Compile over documents of a finite set closed under references, for every history of a loader (C17_history), whatever the iteration orders and the answers of the outside world, and above the bound the outcome does not depend on it (C17_outcome). C17_endless shows the closure is needed: where each document refers to a new one Compile never returns.
* **C18** Compile's verdict may depend on map iteration order (proved). Two schedulers as witness. Scope: Witness document accepted with one map order and rejected with another; order-independence without $ref from C15.
* **C19** Draft gating of keywords (proved). Parser lemmas on drafts, carried to verdicts. Scope: C19_compiled holds for every compiled schema at every depth; the document-level C19_no_effect is for documents without $ref, because a reference may point into a keyword the draft does not have (example beside the theorem).
* **C20** Boolean exclusive bounds equal strict numeric bounds (proved). Parser step for exclusive bounds and `validateNumber`.
* **C21** $ref replaces its siblings at validation time (proved). Unfolding of the validator at compiled nodes. Scope: Whole Result (verdict, errors, score) at every node of a compiled schema.
* **C22** A document is fetched at most once per loader (proved). Invariant of the fetch log over histories of a loader.
* **C23** Registered schemas are never silently replaced (proved). Pool monotonicity over histories.
* **C24** A failing AddSchema still changes the loader (proved). Computed witness and positive part; errors of the meta-schema arise in the check only. Scope: negated property: positive part and witness.
* **C25** Meta-schema validation switch survives operations (proved). State machine; witness. Scope: negated property: positive part and witness.
* **C26** A loader compiles at most one anonymous root schema (proved). Invariant on the anonymous pool entry.
* **C27** References are loaded through the loader the user supplied (proved). Factory identity in the fetch log; witness. Scope: positive part and witness.
* **C28** The draft of a referenced document does not depend on whether it was cached (proved). `GetDocument` before and after caching; witness. Scope: positive part and witnesses.
* **C29** Reference rewriting touches only $ref strings outside literals (proved). Relation between a document and its rewriting; structural induction.
* **C30** Format registry behaves like a map under concurrency (proved). Small-step machine with RWMutex; linearization. Scope: Non-atomic sections under an RWMutex with any number of goroutines running any programs; every trace is a trace of the sequential registry with one effect point per call. C30_nil_map_blocks: Add on a chain without a map keeps the global lock.
* **C31** Built-in format checkers never reject non-strings (proved). Case analysis over checkers.
* **C32** uuid format accepts exactly the canonical shape (proved). Regular expression compiled from its text, language against direct description. Scope: The pattern text is compiled by a model of the regexp syntax and searched with derivatives.
* **C33** json-pointer and relative-json-pointer formats are exact (proved). As C32.
* **C34** hostname format is exact (proved). As C32.
* **C35** Error descriptions are independent of history and schedule (proved). Small-step machine of the template cache. Scope: For formats that define no further templates; text/template is a parameter. C35_define_interferes shows that the restriction is needed.
* **C36** Context and Field strings render the path (proved). Structural induction on contexts. Scope: String() is the delimited path for any delimiter, the precomputed length is exact in bytes, Field() at and below the root, also for every error the validator reports; collisions of keys with dots by witnesses, injectivity without dots.
* **C37** Type sets stay valid (proved). Invariant over sequences of additions, and over compiled heaps. Scope: Exact outcome of one Add; any sequence of additions, rejected ones included; rendering; every node of every compiled schema has such a set.
* **C38** Result is append-only and Valid means no error (proved). Slices, detail maps and error objects as a store; induction over programs. Scope: Model with Go slices (backing arrays, append in place or with any growth), error objects and detail maps; programs of calls of any length, going on after panics. Findings: AddError writes into the caller's details, panics on nil details when the error has a context, and a copied Result shares its backing array.
* **C39** Reader and writer loaders see exactly the transferred bytes (proved). State machine over reads, writes and loads. Scope: Any reader or writer, any program of reads, writes and loads. Findings: a write the destination takes partly is not in the source text; LoadJSON drains the buffer, so a second load fails.
* **C40** Draft table is consistent (proved). The table itself, lifted to all URLs and drafts.
* **C41** Length keywords need plain integer literals (proved). Literal spec against `mustBeInteger`, through `Compile`. Scope: Exact set of literals for the six size keywords through Compile, and in every schema position of an accepted document.
* **C42** minItems/maxItems/minLength/maxLength/minProperties/maxProperties count exactly (proved). Counting rules through `Compile`.
* **C43** The name of a definition matters (proved). Rewriting lemma and witness. Scope: positive part and witness.
* **C44** const distinguishes zeros by sign (proved). Witness through `Compile`. Scope: Shows a defect: 0 and -0 are equal for number keywords and different for const.
* **C45** uri-template, uri, ip and date-time formats relative to the Go parsers (proved). Checkers over parsers as parameters. Scope: url.Parse, net.ParseIP and time.Parse are parameters.
* **C46** The patterns of the package compile and are searched exactly (proved). Derivatives against a declarative search. Scope: For the regular expressions the package itself uses; patterns in schemas go to a parameter.
* **C47** The draft of a shared reference target depends on compilation order (proved). Witness and positive parts. Scope: Positive parts and the witness; who gives the draft of each reference is part of C01_verdict (ReadAs).
* **C48** A schema accepted with Validate on conforms to its meta-schema (proved). Loader with Validate on, C01 for the meta-schema; witness for referenced documents. Scope: Compile checks the document with references made absolute, AddSchema(s) the document as loaded; C25 says when Validate is lost.
* **C49** The error report is true and complete (proved). Fault relations on nodes, soundness and completeness of the error list by induction on fuel. Scope: Which failing branch of anyOf, oneOf and contains is shown is C14. Over compiled schemas; C50 carries it to documents.
* **C50** The error report of a compiled document speaks about the document (proved). C49 carried to documents by the parser invariant. Scope: Same hypotheses as C01_verdict; the verdicts of sub-schemas inside the rules are settled ones (rules unfolded finitely from any start).
* **C51** Error descriptions are complete and say what is wrong (proved). Formats of the locale against details of each error. Scope: text/template is modelled for text and {{.name}}; how fmt prints a *big.Float is a parameter. InternalError (followed by a panic) and InvalidPropertyPatternError (never produced) excluded from C51_details and C51_locale; C51_errors shows neither is ever in a result.
* **C52** Identifiers declared in documents become known, and only those (proved). Inductive description of schema positions against the rewriting recursion; Hoare triples for any outcome. Scope: With Validate off; positive parts for distinct identifiers not in use before.
* **C53** Instances given as Go values (proved). A second model of validation on Go values; simulation of the one on JSON values, up to panics. Scope: Map iteration order is assumed not to look at the entries; format checkers not to tell a Go value from its JSON counterpart.
* **C54** From texts to documents (proved). A recursive descent decoder against the grammar of RFC 8259 as inductive relations over bytes; results and syntax errors are stable under appending, which gives the independence of pieces. Scope: The decoder is a model of encoding/json; the numbers of decoded documents do not record the spelling of the exponent.
* **C55** Schemas checked against a built-in meta-schema (proved). An invariant of the pool (entries at the address of the meta-schema are parts of it), the determinism of rewriting on the meta-schema, and both directions of the equivalence of the keyword rules of the meta-schema documents with MetaValid, whatever the depth at which references are cut. Scope: MetaWorld lists what is asked of references (the library gojsonreference is a parameter) and that texts are decoded as in C54. MetaFor says which meta-schema applies. For Compile the document is the one with absolute references.
* **C56** What Compile accepts is well-formed, references followed (proved). An invariant of the heap of compiled nodes: for every node the run of parseSchema that filled it was seen to succeed (Ran); from a successful run the form of each keyword follows. Scope: Beside $ref only identifier, title, description and definitions are checked (Head); the other siblings are checked or not depending on the order of compilation, see C18.
* **C57** Errors of the compiler are justified (proved). A rule for errors of every function of the compiler: the error of the run is blamed on a document reached from the one that run was started with, along the same paths as Compiled. Scope: FaultIn lists the faults of one object with the error of each; Rejected, CompileRejected and AddRejected the reasons of the operations. Documents reached are taken in the sense of Compiled, which includes keywords beside $ref (see C18). The answer of the meta-schema check is justified by the keyword rules of the meta-schema (Violates).
* **C58** Texts of the errors of compilation (proved). Formats are parsed once (C51) and filled; the report is a fold over the errors of the run of the validator that C51 describes; faults come from FaultIn (C57). Scope: complaint lists the sentences; Tells lists what a text names. Texts of other packages (bad URLs, unreadable documents, pointers that lead nowhere, literals that cannot be marshalled) are parameters. Exceptions in Tells: propertyNames is named patternProperties and allOf anyOf; a bad dependency names only the value's kind.
* **C59** What the check against the meta-schema leaves to the compiler, and what it asks beyond it (proved). The shapes of C15 and C55 are compared keyword by keyword; that the built-in meta-schemas have no fault is checked by an executable checker proved sound; the loader part follows compileG_err of C57 and refused_shape of C55. Scope: Leftover: identifiers that parse, regular expressions as names of patternProperties (drafts 4, 6), numbers big.Rat takes, sizes written without fraction and exponent, minLength ≤ maxLength, minProperties ≤ maxProperties, literals in the range of float64. Stricter: formats, unused keywords, non-empty arrays, different names in dependencies. Hypothesis: what the format regex accepts compiles (format_checkers.go RegexFormatChecker). Panics and running out of fuel are not errors here (C16, C17).
* **C60** Go values become the documents they stand for, and serialising keeps the value (proved). What json.Marshal writes is derived in the grammar of C54, by recursion on the Go value; the decoder is exact for that grammar. Scope: Printing of numbers is a parameter: json.Numbers and integers are printed as JSON numbers equal to them, floats as JSON numbers that round to them. Not modelled: MarshalJSON, MarshalText, []byte, struct tags, strings that are not UTF-8, cyclic pointers.
* **C61** The spelling of a schema document does not matter (proved). Every keyword rule of SpecDoc carries over between spellings, so its unfolding to any depth does; C01_noRef ties it to the verdict. Acceptance goes through C15_accept and the invariance of WellFormed. Scope: For documents without $ref. Formats must not look at the notation of numbers (C31: the built-in ones do not). Respelled instances alone, for every compiled schema: C09_instance_spelling.
* **C62** Members of a schema that ask for nothing (proved). The rules of SpecDoc read 33 keywords only; each kind of idle member is shown to satisfy its rule; exchanging sub-schemas that say the same is shown keyword by keyword; C01_noRef ties it to the verdict and C15_accept to acceptance. Scope: For documents without $ref (a definition can be what a reference stands for). C62_needed gives for every draft and keyword one schema and one value.
* **C63** Closed schemas mean the same whatever the order of compilation (proved). C52's account of what rewriting registers gives the state of the pool; an invariant carried through the compiler for the references that can be met says that the pool holds these entries and parts of them and nothing was fetched; the references of the compiled graph then stand for the places of the specification. Scope: Identifiers declared in the document are distinct and new to the loader (C52_duplicate_order shows why), the loader does not validate against meta-schemas, and a referenced document is remembered with no other draft than the root's (C47 shows why). Assumed of the libraries: the base of a base URL is itself; for self-contained documents, a JSON pointer selects a part.
* **C64** Which closed schema documents Compile accepts (proved). C57's reasons for refusal are each excluded by the well-formedness of what is read (C57_faults, extracted); C17's bound and C16's absence of panics are carried over to closed documents with the invariant of C63. Conversely C56 gives the well-formedness of what an accepted schema reaches, which is everything readable if references stand alone. Scope: Hypotheses on documents and loader as in C63, and the name of the anonymous document (the empty URL) is free. C18_order_matters shows why references have to stand alone for the converse. Recursion depth is given to the model as fuel; the theorems give a bound from which on it plays no role.
* **C65** References are rewritten in place (proved). Simulation: a document in memory is a tree of addresses; an invariant relates the two pools, with entries that are still being rewritten left open until their map is done. For documents compiled again: rewriting is idempotent and leaves identifiers alone, so both documents mean the same under C63 and C64. Scope: JSON pointers are looked up in memory by a parameter that agrees with the outside world's pointer function (Looks; instance in the examples). Orders of iteration depend on positions only (Natural). C65_again and C65_again_accepted assume that making a reference absolute twice is the same as once (Lasting), as gojsonreference does for normalised URLs, and the hypotheses of C63 and C64. The witnesses show what sharing a Go value between URLs and loaders does.
* **C66** Verdicts of combined schemas (proved). Both the whole and the parts have the verdict of the unfolding of the documents' rules (C01 for documents without references); the rules of one keyword are read off. Scope: About verdicts of the model's Compile and Validate; the parts are assumed to be accepted under the same draft. anyOf and oneOf: for non-empty lists.
* **C67** Laws for rewriting schemas (proved). Each law holds for every relation that follows the documents' rules; congruence through the positions of sub-schemas. Scope: C67_rules is about the documents' rules, with references resolved in whatever way; C67_verdict is about the verdicts of the model for documents without $ref.
* **C68** The order of AddSchema calls (proved). Congruence of the whole compiler in the pool's answers; C52 for what each call makes known; induction over the calls. Scope: C68_added and C68_order are for documents given directly (not by reference loaders), loaders with Validate off, and assume that resolving one reference against another does not fail.
* **C69** Replacing references by what they stand for (proved). Induction on the depth of the replacement against the depth-indexed keyword rules; C63 for the original, C01 for the result. Scope: For references that stand for schema objects (not booleans) read under one draft; the result must be free of references, so recursive schemas are outside (their meaning is C63).
* **C70** Rewriting schemas with references, recursive ones included (proved). Layers of meanings indexed by the depth of references that are not replaced; uniqueness of a meaning given what references mean; a run of the validator with n levels of nesting agrees with every layer from n on. Scope: Replaced references must stand for schema objects read under the draft of the document; the set of replaced references must be acyclic.
* **C71** How many calls a validation makes (proved). Calls are observed by making one of them panic; the names of the calls a step can make are listed, and their number is bounded by induction with the size of the sub-document behind a node as its weight; the lower bound is by induction on the depth of the instance. Scope: A call counts as made if the validation panics once that call (named by the path of the calls it is nested in) does.
* **C72** How big a compiled schema is (proved). A potential: the nodes made, minus the sizes of the documents behind the references registered so far, grows by at most the size of what is parsed. Scope: The size of a document counts values and members. The bound is on the nodes of schemas that compile.
* **C73** What a reference loader reads, from where, and what it leaves open (proved). The events of a load are listed case by case; names, texts and documents are described by relations that do not mention the loader. Scope: gojsonreference (what is a reference, its URL, file scheme) stays a parameter; io.ReadAll is modelled by the bytes before the end and whether reading fails; net/url.QueryUnescape, strings.TrimPrefix, filepath.FromSlash and the decoder are modelled. C73_world ties this finer model to loadReference, on which the other properties rest.
* **C74** Exactly when Validate comes back (proved). Soundness by induction on the nested calls, each needed question being one that the loops did ask. Completeness by induction on the answer: finitely many questions are needed, so one depth of calls suffices for all of them. Scope: Returning means returning for some number of nested calls; the Go stack limit is not modelled. Complements C04 and C05, which give a sufficient condition on each side.
* **C75** Compile with Validate on comes back (proved). Ranking of the nodes of the three meta-schemas (every in-place reference goes down, `Flat`) gives termination of the check; the invariants of C16 and C57 give absence of panics and the meta-schemas' place in the pool; C59 gives the verdict. Scope: Setting: documents from a finite set closed under references, which contains the built-in meta-schemas; every $schema in them is empty, unreadable or names a built-in meta-schema. C75_accept is for documents without $ref and adds the conditions of C16 (numbers in the range of float64). Closes the gap of C59, where running out of nested calls was not excluded. The counterexample is for one map iteration order.
* **C76** Validation while formats are being registered (proved). The validator with answers that depend on the call (`Live`); congruence, and monotonicity of every keyword check other than not, oneOf and if; the lemmas of C04, C06 and C07 on one level of calls do not mention the answers. Scope: The moment of a question is any function of the call it belongs to; every execution is of this form because a call asks at most once. C30 gives that each answer is that of the registry at one moment. Checkers are pure functions. C76_mixed says how the schema {allOf, not} compiles and fixes the moments of its two questions.
* **C77** Schemas given as Go values (proved). Simulation of the compiler over JSON values by the one over Go values, function by function; for acceptance, what each keyword function ensures when it succeeds, and that rewriting references keeps types; the table by evaluation with world, iteration order and value left open. Scope: A second model of pool, parser and loader over Go values (RawSchema, RawLoader). Hypotheses: the reference # is the empty one; maps have distinct keys; JSON pointers look up in decoded documents what they look up in the document (the pointer package is outside the model); iteration orders depend on the number of entries only, for the comparison with JSON. For the comparison with JSON, formats are checked alike on decoded values. json.Number texts are JSON numbers.
* **C78** One loader in several goroutines (proved). The blocks of one call in sequence are Compile; the schedule with one foreign block is evaluated for arbitrary calls; an invariant of all schedules with Validate off; the two negations by concrete worlds. Scope: A call is cut into at most five atomic blocks (Shared); finer interleavings and the Go memory model are not modelled, so what is shown to happen can happen, while C78_serial speaks of calls that nothing interrupts. C78_overtaken: the call is given by a non-empty reference.

## Findings

Behaviour of the code that a user may not expect, each proved in the model (theorem names in
brackets):

* A `$ref` cycle without progress never returns (`C05`).
* `Validate` panics on numbers outside float64 when `const`, `enum` or `uniqueItems` apply, and on
  numbers `big.Rat` refuses (`C06`); `Compile` panics on some documents (`C16`).
* `const` tells `0` from `-0` (`C44`); `enum`/`const` compare beyond 2^53 up to rounding (`C12`).
* The verdict of `Compile` may depend on map iteration order (`C18`), and so may the draft of a
  shared reference target (`C47`); the draft of a referenced document depends on caching (`C28`).
* The name of a definition matters (`C43`): members of any object named like keywords are rewritten.
* A failing `AddSchema` leaves the loader changed (`C24`); meta-schema validation can be lost
  (`C25`); references may be loaded through another loader's file system (`C27`).
* `AddError` writes into the caller's details and panics on nil details (`C38`).
* `NewWriterLoader` drops partly written data; a second load fails (`C39`).
* `Add` on a chain without a map keeps the global lock (`C30_nil_map_blocks`).
* Dotted keys make `Context` strings collide (`C36`).
* An identifier declared twice is not reported for a nested schema, and map iteration order decides
  which declaration counts; `AddSchemas` of a document without `$id` does nothing (`C52`).
* `NewRawLoader` with Go numbers, structs or pointers: the instance is accepted whatever the schema says, even
  by `{"type":"string"}` and `{"not":{}}` (`C53_other_kind`); with `[]string` and the like it panics (`C53_panics`).
* A slice of YAML maps panics under `uniqueItems`, `enum` and `const`, since `encoding/json` refuses
  `map[interface{}]interface{}` and only maps are converted before the comparison (`C53`, examples).
* `NewStringLoader("{} garbage")` and all other loaders ignore whatever follows the first value: only one
  `Decode` is done and the rest is not looked at (`C54_trailing`; `01` is the document `0`).
* `AddSchema("http://json-schema.org/draft-07/schema", …)`, or any document with that `$id`, replaces the built-in
  meta-schema for the loader, so that `Validate` checks against it (`C55_replaced`).
* A malformed `allOf` is reported as a malformed `anyOf`, and a malformed `propertyNames` as a malformed
  `patternProperties` (`C57_misnamed`).
* The texts of `ParseError` say `given: Invalid JSON` for documents that are valid JSON of the wrong kind, and the
  text of a bad entry of `dependencies` does not tell which entry (`C58_tells`).
* With `Validate` on, `{"minLength": 2, "maxLength": 1}` and `{"maxItems": 1.0}` pass the check against the meta-schema and are
  refused by the compiler; `{"enum": []}` is refused only with `Validate` on (`C59_gap`).
* A document nested deeper than the decoder allows (only possible with `NewRawLoader`) makes `enum`, `const` and `uniqueItems`
  fail although it could be compared (`C60_twice_deep`).
* A size keyword accepts `1` and refuses `1.0`, although both are the same number (`C61_sizes`, C41).
* `{"items": [], "additionalItems": false}`, `{"enum": []}`, `{"type": []}`, `{"anyOf": []}` and `{"oneOf": []}` accept every value (`C62_vacuous`); a schema author would expect the first to accept the empty list only.
* In hybrid mode `$id` is not looked at beside `id`, so `{"id": "a", "$id": null}` is accepted and `{"$id": null}` refused (`C62_refused`).
* `Compile` and `AddSchema` change the Go value given with `NewRawLoader`: its references become absolute.  The same value given
  to `AddSchema` under a second URL keeps references to the first (`C65_two_urls_witness`), also in another loader, and what
  the first loader has may change under it (`C65_shared_witness`).
* `{"anyOf": []}`, where accepted, asks for nothing, so `{"not": {"anyOf": []}}` accepts nothing: De Morgan's law fails for empty lists (C67_no_laws).
* Two schemas added to one loader may declare the same identifier in nested schemas: neither AddSchema reports an error, and the one added first wins (C68_clash).
* Validation time can be exponential in the size of the instance for a fixed schema with recursive references (C71_exponential).
* LoadJSON over HTTP never closes the response body (jsonLoader.go 189-203): C73_body_open.
* File paths with a plus sign are opened with a space instead, since QueryUnescape is used for a path (jsonLoader.go 150): C73_plus.
* `{"anyOf": [{"$ref": "#"}, {}]}` never comes back on any instance, `{"anyOf": [{}, {"$ref": "#"}]}` always does and accepts (C74_first_never, C74_last_returns); `{"type": "string", "allOf": [{"$ref": "#"}]}` never comes back on strings and rejects everything else at once (C74_string_never).
* A document that names its own meta-schema `{"$ref": "#"}` under `$schema` compiles with `Validate` off and makes `Compile` hang with `Validate` on (C75_own_meta_schema).
* A validation is not atomic with respect to `FormatCheckers.Add` and `Remove`: verdicts are possible that no state of the registry gives (C76_mixed).
* `NewSchema(NewRawLoader(v))` panics on any `map[interface{}]interface{}` (YAML), on `[]string` in `required` and on many other values of the right kind but another type (C77_yaml, C77_kinds); `{"type": MyString("string")}` is accepted and constrains nothing (C77_type).
* A YAML map at a place of a Go schema that the compiler does not look at hides the identifiers inside it: the same schema as JSON gives other verdicts (C77_differs).
* A `SchemaLoader` must not be shared by goroutines: a call may read from the file system of another, and `Validate` may be off when it comes to its check (C78_overtaken, C78_unchecked, C78_wrong_system, C78_not_checked).
* A `Compile` of a string, bytes or Go loader that the meta-schema refuses spoils the `SchemaLoader`: every later one from such a loader fails with 'Reference already exists' (C26_refused).
* With `Validate` on only the root document is checked: a document that `Compile` refuses is used where an accepted schema refers to it (C48_root_only).

## Axioms of each theorem

`p` propext, `c` Classical.choice, `q` Quot.sound; a dash means none.

| theorem | axioms |
|---|---|
| `Api.C38_add` | c p q |
| `Api.C38_copy` | p |
| `Api.C38_increment` | p |
| `Api.C38_invalid` | p q |
| `Api.C38_merge` | p q |
| `Api.C38_nil_details` | p |
| `Api.C38_outcome` | c p q |
| `Api.C38_prefix` | p q |
| `Api.C38_shared_details` | p |
| `Api.C38_snapshot` | p q |
| `Api.C38_valid` | p q |
| `C01_history` | c p q |
| `C01_noRef` | c p q |
| `C01_noRef_same` | c p q |
| `C01_verdict` | c p q |
| `C02_meaning` | c p q |
| `C02_verdict` | c p q |
| `C02_verdict_unfold` | c p q |
| `C03_order_independent` | c p q |
| `C03_same_return` | c p q |
| `C04_terminates` | c p q |
| `C05_compile_diverges` | c p q |
| `C05_ref_chain_diverges` | c p q |
| `C06_compiled_no_panic` | c p q |
| `C06_compiled_total` | c p q |
| `C06_no_panic` | c p q |
| `C06_panics_out_of_range` | c p q |
| `C06_total` | c p q |
| `C07_locations` | c p q |
| `C08_document` | c p q |
| `C08_required` | c p q |
| `C09_exact` | c p q |
| `C09_instance_spelling` | c p q |
| `C09_not_number` | c p q |
| `C09_sound` | c p q |
| `C09_spelling` | c p q |
| `C09_value` | c p q |
| `C10_integer` | c p q |
| `C10_not_number` | c p q |
| `C10_number` | c p q |
| `C10_sound` | c p q |
| `C11_const` | c p q |
| `C11_const_document` | c p q |
| `C11_enum` | c p q |
| `C11_enum_document` | c p q |
| `C11_same_serialisation` | c p q |
| `C11_sound` | c p q |
| `C12_const_accepts_other` | c p q |
| `C12_const_document` | c p q |
| `C12_const_document_beyond` | c p q |
| `C12_equal` | c p q |
| `C12_nearest` | c p q |
| `C12_not_exact_beyond` | c p q |
| `C12_overflow` | c p q |
| `C12_safe_integers` | c p q |
| `C13_document` | c p q |
| `C13_document_sound` | c p q |
| `C13_unique_complete` | c p q |
| `C13_unique_iff` | c p q |
| `C13_unique_sound` | c p q |
| `C14_anyOf` | c p q |
| `C14_anyOf_all` | c p q |
| `C14_contains` | c p q |
| `C14_contains_all` | c p q |
| `C14_oneOf_many` | p q |
| `C14_oneOf_many_all` | c p q |
| `C14_oneOf_none` | c p q |
| `C14_oneOf_none_all` | c p q |
| `C14_score` | c p q |
| `C14_score_bool` | c p q |
| `C14_score_type` | c p q |
| `C15_accept` | c p q |
| `C15_never_malformed` | c p q |
| `C15_newSchema` | c p q |
| `C16_compile` | c p q |
| `C16_definitions_panics` | c p q |
| `C16_history` | c p q |
| `C16_newSchema` | c p q |
| `C16_number_panics` | c p q |
| `C16_type_panics` | c p q |
| `C17_compile` | c p q |
| `C17_endless` | c p q |
| `C17_finite_world` | c p q |
| `C17_history` | c p q |
| `C17_outcome` | c p q |
| `C18_order_independent` | c p q |
| `C18_order_matters` | c p q |
| `C19_boolean` | c p q |
| `C19_boolean_root` | c p q |
| `C19_boolean_sub` | c p q |
| `C19_compiled` | c p q |
| `C19_no_effect` | c p q |
| `C20_exclusiveMaximum` | c p q |
| `C20_exclusiveMinimum` | c p q |
| `C20_maximum` | c p q |
| `C20_minimum` | c p q |
| `C20_same_maximum` | c p q |
| `C20_same_minimum` | c p q |
| `C21_ref_result` | c p q |
| `C21_root` | c p q |
| `C22_bad_refetched` | c p q |
| `C22_once` | c p q |
| `C22_present_not_fetched` | c p q |
| `C22_resolved_present` | c p q |
| `C23_duplicate_rejected` | c p q |
| `C23_entries_kept` | c p q |
| `C23_nested_id_loses` | c p q |
| `C24_failure_effect` | c p q |
| `C24_failure_stores` | c p q |
| `C24_refused` | c p q |
| `C24_refused_all` | c p q |
| `C25_switch` | c p q |
| `C25_switch_lost` | c p q |
| `C26_anonymous_present` | c p q |
| `C26_refused` | c p q |
| `C26_second_fails` | c p q |
| `C27_factory` | c p q |
| `C27_factory_lost` | c p q |
| `C27_isolated` | c p q |
| `C27_reads` | c p q |
| `C28_autodetect_off` | c p q |
| `C28_entered` | c p q |
| `C28_fetched_stable` | c p q |
| `C28_id_captures` | c p q |
| `C28_present_stable` | c p q |
| `C29_literals` | c p q |
| `C29_names` | c p q |
| `C29_only_ref_strings` | c p q |
| `C29_references` | c p q |
| `C29_stored` | c p q |
| `C29_stored_strict` | c p q |
| `C36_collision` | c p q |
| `C36_errors` | c p q |
| `C36_field` | c p q |
| `C36_field_any` | c p q |
| `C36_field_injective` | c p q |
| `C36_injective` | c p q |
| `C36_length` | p q |
| `C36_nil` | p |
| `C36_root_collision` | c p q |
| `C36_string` | c p q |
| `C37_add` | c p q |
| `C37_compiled` | c p q |
| `C37_length` | c p q |
| `C37_rejected` | c p q |
| `C37_sequence` | c p q |
| `C37_string` | c p q |
| `C40_detected` | c p q |
| `C40_meta` | c p q |
| `C40_unique` | c p q |
| `C40_url` | c p q |
| `C40_version` | c p q |
| `C41_everywhere` | c p q |
| `C41_integral_rejected` | c p q |
| `C41_size_literals` | c p q |
| `C42_items` | c p q |
| `C42_length` | c p q |
| `C42_properties` | c p q |
| `C42_sound` | c p q |
| `C43_const_definition` | c p q |
| `C43_other_names` | c p q |
| `C44_const_number` | c p q |
| `C44_zero` | c p q |
| `C47_noRef` | c p q |
| `C47_one_draft` | c p q |
| `C47_order_matters` | c p q |
| `C48_addSchema` | c p q |
| `C48_addSchemas` | c p q |
| `C48_compile` | c p q |
| `C48_nothing_checked` | c p q |
| `C48_root_only` | c p q |
| `C49_complete` | c p q |
| `C49_sound` | c p q |
| `C49_type` | c p q |
| `C50_report` | c p q |
| `C51_default` | c p q |
| `C51_details` | c p q |
| `C51_errors` | c p q |
| `C51_locale` | c p q |
| `C51_missing` | c p q |
| `C51_string` | c p q |
| `C51_types` | c p q |
| `C51_types_distinct` | c p q |
| `C52_duplicate_order` | c p q |
| `C52_only_declared` | c p q |
| `C52_only_declared_by_id` | c p q |
| `C52_registered` | c p q |
| `C52_registered_by_id` | c p q |
| `C53_other_kind` | c p q |
| `C53_panics` | c p q |
| `C53_same` | c p q |
| `C53_same_or_panic` | c p q |
| `C53_verdict` | c p q |
| `C54_decode` | c p q |
| `C54_draft4` | c p q |
| `C54_draft6` | c p q |
| `C54_draft7` | c p q |
| `C54_eof` | c p q |
| `C54_lawful` | c p q |
| `C54_pieces` | c p q |
| `C54_range` | c p q |
| `C54_syntax` | c p q |
| `C54_trailing` | c p q |
| `C54_unique` | c p q |
| `C54_whole` | c p q |
| `C55_addSchema` | c p q |
| `C55_addSchema_refused` | c p q |
| `C55_addSchemas` | c p q |
| `C55_addSchemas_refused` | c p q |
| `C55_compile` | c p q |
| `C55_compile_refused` | c p q |
| `C55_history` | c p q |
| `C55_replaced` | c p q |
| `C56_compile` | c p q |
| `C56_newSchema` | c p q |
| `C56_noRef` | c p q |
| `C56_sizes` | c p q |
| `C57_accept` | c p q |
| `C57_addSchema` | c p q |
| `C57_addSchemas` | c p q |
| `C57_compile` | c p q |
| `C57_compile_off` | c p q |
| `C57_faults` | c p q |
| `C57_misnamed` | c p q |
| `C57_newSchema` | c p q |
| `C57_wellFormed` | c p q |
| `C58_locale` | c p q |
| `C58_report` | c p q |
| `C58_report_addSchema` | c p q |
| `C58_report_addSchemas` | c p q |
| `C58_tells` | c p q |
| `C58_words` | c p q |
| `C59_accept` | c p q |
| `C59_accepted` | c p q |
| `C59_compile` | c p q |
| `C59_document` | c p q |
| `C59_gap` | c p q |
| `C59_meta` | c p q |
| `C59_object` | c p q |
| `C59_residue` | c p q |
| `C60_accepts` | c p q |
| `C60_fails` | c p q |
| `C60_fmt` | c p q |
| `C60_load` | c p q |
| `C60_marshal` | c p q |
| `C60_roundtrip` | c p q |
| `C60_twice` | c p q |
| `C60_twice_deep` | c p q |
| `C61_accept` | c p q |
| `C61_go` | c p q |
| `C61_rules` | c p q |
| `C61_sizes` | c p q |
| `C61_verdict` | c p q |
| `C62_accept` | c p q |
| `C62_needed` | c p q |
| `C62_refused` | c p q |
| `C62_rules` | c p q |
| `C62_vacuous` | c p q |
| `C62_verdict` | c p q |
| `C63_deterministic` | c p q |
| `C63_everywhere` | c p q |
| `C63_local` | c p q |
| `C63_meaning` | c p q |
| `C63_no_fetch` | c p q |
| `C63_self_meaning` | c p q |
| `C64_accept` | c p q |
| `C64_everywhere` | c p q |
| `C64_exact` | c p q |
| `C64_only` | c p q |
| `C64_order` | c p q |
| `C66_allOf` | c p q |
| `C66_anyOf` | c p q |
| `C66_contains` | c p q |
| `C66_if` | c p q |
| `C66_items` | c p q |
| `C66_keywords` | c p q |
| `C66_names` | c p q |
| `C66_not` | c p q |
| `C66_oneOf` | c p q |
| `C66_patterns` | c p q |
| `C66_properties` | c p q |
| `C66_rest` | c p q |
| `C66_tuple` | c p q |
| `C67_no_laws` | c p q |
| `C67_rules` | c p q |
| `C67_verdict` | c p q |
| `C68_added` | c p q |
| `C68_clash` | c p q |
| `C68_order` | c p q |
| `C68_same_answers` | c p q |
| `C68_verdict` | c p q |
| `C69_beside_ref` | c p q |
| `C69_local` | c p q |
| `C69_meaning` | c p q |
| `C69_rules` | c p q |
| `C69_verdict` | c p q |
| `C70_layers` | c p q |
| `C70_local` | c p q |
| `C70_spelling` | c p q |
| `C70_verdict` | c p q |
| `C71_bound` | c p q |
| `C71_exponential` | c p q |
| `C71_noRef` | c p q |
| `C72_noRef` | c p q |
| `C72_nodes` | c p q |
| `C72_self` | c p q |
| `C73_body_open` | c p q |
| `C73_closed` | c p q |
| `C73_fails` | c p q |
| `C73_lawful` | c p q |
| `C73_newSchema` | c p q |
| `C73_offline` | c p q |
| `C73_only` | c p q |
| `C73_plain_names` | c p q |
| `C73_plus` | c p q |
| `C73_reads` | c p q |
| `C73_status` | c p q |
| `C73_world` | c p q |
| `C74_answers` | c p q |
| `C74_compiled` | c p q |
| `C74_document` | c p q |
| `C74_document_loop` | c p q |
| `C74_first_never` | c p q |
| `C74_last_returns` | c p q |
| `C74_loop` | c p q |
| `C74_meaning` | c p q |
| `C74_never` | c p q |
| `C74_order` | c p q |
| `C74_silent` | c p q |
| `C74_string_never` | c p q |
| `C74_unique` | c p q |
| `C75_accept` | c p q |
| `C75_compile` | c p q |
| `C75_history` | c p q |
| `C75_own_meta_schema` | c p q |
| `C76_answer` | - |
| `C76_between` | c p q |
| `C76_mixed` | c p q |
| `C76_places` | c p q |
| `C76_returns` | c p q |
| `C76_steady` | c p q |
| `C77_checked` | c p q |
| `C77_const` | c p q |
| `C77_differs` | c p q |
| `C77_history` | c p q |
| `C77_ignored` | c p q |
| `C77_json` | c p q |
| `C77_kinds` | c p q |
| `C77_new` | c p q |
| `C77_plain` | c p q |
| `C77_reached` | c p q |
| `C77_root` | c p q |
| `C77_strict` | c p q |
| `C77_type` | c p q |
| `C77_yaml` | c p q |
| `C78_fetches` | c p q |
| `C78_not_checked` | c p q |
| `C78_overtaken` | c p q |
| `C78_sequence` | c p q |
| `C78_serial` | c p q |
| `C78_systems` | c p q |
| `C78_unchecked` | c p q |
| `C78_wrong_system` | c p q |
| `Fmt.C31_blind` | c p q |
| `Fmt.C31_document` | c p q |
| `Fmt.C31_names` | c p q |
| `Fmt.C31_non_strings` | c p q |
| `Fmt.C32_document` | c p q |
| `Fmt.C32_uuid` | c p q |
| `Fmt.C33_document` | c p q |
| `Fmt.C33_pointer` | c p q |
| `Fmt.C33_relative` | c p q |
| `Fmt.C34_document` | c p q |
| `Fmt.C34_hostname` | c p q |
| `Fmt.C45_date_time_lax` | c p q |
| `Fmt.C45_ip_both` | c p q |
| `Fmt.C45_rules` | c p q |
| `Fmt.C45_template` | c p q |
| `Fmt.C45_uri` | c p q |
| `Fmt.C46_class` | c p q |
| `Fmt.C46_patterns_compile` | c p q |
| `Fmt.C46_search` | c p q |
| `Io.C39_load_small` | p |
| `Io.C39_load_twice` | p |
| `Io.C39_partial_write` | - |
| `Io.C39_reader` | p q |
| `Io.C39_reader_source` | p q |
| `Io.C39_writer` | p q |
| `Io.C39_writer_all` | p q |
| `Io.C39_writer_source` | p q |
| `Mem.C65_again` | c p q |
| `Mem.C65_again_accepted` | c p q |
| `Mem.C65_first_url` | c p q |
| `Mem.C65_getDocument` | c p q |
| `Mem.C65_lasts` | p q |
| `Mem.C65_rewrite` | c p q |
| `Mem.C65_shared_witness` | c p q |
| `Mem.C65_two_urls_witness` | c p q |
| `Reg.C30_completes` | c p q |
| `Reg.C30_linearizable` | c p q |
| `Reg.C30_nil_map_blocks` | p |
| `Reg.C30_no_fatal` | c p q |
| `Reg.C30_race_free` | c p q |
| `Reg.C30_unknown` | p |
| `Tpl.C35_as_if_alone` | c p q |
| `Tpl.C35_cache_sound` | c p q |
| `Tpl.C35_completes` | c p q |
| `Tpl.C35_define_interferes` | p |
| `Tpl.C35_define_overwrites` | p |
| `Tpl.C35_own_format` | c p q |
| `Tpl.C35_race_free` | c p q |

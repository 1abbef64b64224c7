import Verif.SpecWell
import Verif.SpecMeta
/-
What each error of the compiler says about the document, stated without the compiler.
-/
namespace GJS.Spec
open GJS

/-- Not a value of one of the kinds schemas have. -/
def NoSchema (D : Json) : Prop := (∀ b, D ≠ .bool b) ∧ ∀ m, D ≠ .obj m

/-- An integer literal that fits an int64. -/
def IntLit (n : NumLit) : Prop :=
  n.frac = [] ∧ n.exp = none ∧ (n.neg = true → n.ip ≤ 2 ^ 63) ∧ (n.neg = false → n.ip < 2 ^ 63)

/-- The exclusive bounds and the inclusive bounds they go with. -/
def exclusiveKeys : List (String × String) := [("exclusiveMinimum", "minimum"), ("exclusiveMaximum", "maximum")]

/-- The reference `u` cannot be followed, with the error reported: its document is not in the pool
and it is no absolute URL; or loading it failed; or its JSON pointer leads nowhere in the document
(and nothing is in the pool under `u` itself, unless by loading `u`). -/
inductive NotThere (w : World) (l : LState) (u : String) : CErr → Prop
  | relative : getKey u l.pool = none → getKey (w.base u) l.pool = none → w.canonical u = false →
      NotThere w l u (.referenceMustBeCanonical u)
  | unloaded (n f) : (f, u) ∈ l.log → loadReference w n f u = none → NotThere w l u (.load u)
  | inside (e) : getKey (w.base u) l.pool = some e → w.pointer u e.doc = none →
      getKey u l.pool = none ∨ (∃ f, (f, u) ∈ l.log) → NotThere w l u (.pointer u)
  | loaded (n f doc) : loadReference w n f u = some doc → (f, u) ∈ l.log → SchemaBad w doc →
      w.pointer u doc = none → NotThere w l u (.pointer u)

/-- A schema object has a fault, read under draft `d`, with the error reported.  Two errors name a
keyword other than the faulty one (propertyNames, allOf). -/
inductive FaultIn (w : World) (l : LState) (d : Draft) (m : List (String × Json)) : CErr → Prop
  -- identifiers
  | id (v) : Kw m (idKey d m) v → (∀ t, v ≠ .str t) → FaultIn w l d m (.invalidType "string" (idKey d m))
  | idText (t) : Kw m (idKey d m) (.str t) → w.norm t = none → FaultIn w l d m (.badReference t)
  | idBase (t u base) : Kw m (idKey d m) (.str t) → w.norm t = some u → w.inherits base u = none →
      FaultIn w l d m (.badReference t)
  -- definitions, texts
  | definitions (v) : Kw m "definitions" v → NoSchema v → FaultIn w l d m (.invalidType "array of schemas" "definitions")
  | definition (ps k D) : Kw m "definitions" (.obj ps) → (k, D) ∈ ps → NoSchema D →
      FaultIn w l d m (.invalidType "array of schemas" "definitions")
  | text (key v) : key ∈ ["title", "description", "$ref"] → Kw m key v → (∀ t, v ≠ .str t) →
      FaultIn w l d m (.invalidType "string" key)
  -- references
  | refText (t) : Kw m "$ref" (.str t) → w.norm t = none → FaultIn w l d m (.badReference t)
  | ref (t u e) : Kw m "$ref" (.str t) → w.norm t = some u → NotThere w l u e → FaultIn w l d m e
  | target (t u o D) : Kw m "$ref" (.str t) → w.norm t = some u → ResolvedAs w l u o D → NoSchema D →
      FaultIn w l d m (.mustBeOfType "valid schema" "object")
  -- type
  | type (v) : Kw m "type" v → (∀ t, v ≠ .str t) → (∀ ts, v ≠ .arr ts) →
      FaultIn w l d m (.invalidType "string/array of strings" "type")
  | typeElem (vs x) : Kw m "type" (.arr vs) → x ∈ vs → (∀ t, x ≠ .str t) → (∀ n, x ≠ .num n) →
      FaultIn w l d m (.invalidType "string/array of strings" "type")
  | typeName (t) : Kw m "type" (.str t) → ¬ KnownType t → FaultIn w l d m (.notAValidType t)
  | typeNames (vs t) : Kw m "type" (.arr vs) → .str t ∈ vs → ¬ KnownType t → FaultIn w l d m (.notAValidType t)
  | typeTwice (vs t) (i j : Nat) : Kw m "type" (.arr vs) → i < j → vs[i]? = some (.str t) → vs[j]? = some (.str t) →
      FaultIn w l d m (.duplicated t)
  -- objects
  | object (key v) : key ∈ ["properties", "dependencies"] → Kw m key v → (∀ c, v ≠ .obj c) →
      FaultIn w l d m (.mustBeOfType key "object")
  | additional (key v) : key ∈ ["additionalProperties", "additionalItems"] → Kw m key v → NoSchema v →
      FaultIn w l d m (.invalidType "boolean/valid schema" key)
  | patternProperties (v) : Kw m "patternProperties" v → (∀ c, v ≠ .obj c) →
      FaultIn w l d m (.invalidType "valid schema" "patternProperties")
  | patternKey (c k D) : Kw m "patternProperties" (.obj c) → (k, D) ∈ c → w.env.reOk k = false →
      FaultIn w l d m (.regexPattern k)
  | propertyNames (v) : Draft6 ≤ d → Kw m "propertyNames" v → NoSchema v →
      FaultIn w l d m (.invalidType "valid schema" "patternProperties")
  | dependency (c k D) : Kw m "dependencies" (.obj c) → (k, D) ∈ c → NoSchema D → (∀ xs, D ≠ .arr xs) →
      FaultIn w l d m (.mustBeOfType "dependency" "schema or array of strings")
  | dependencyElem (c k xs x) : Kw m "dependencies" (.obj c) → (k, .arr xs) ∈ c → x ∈ xs → (∀ t, x ≠ .str t) →
      FaultIn w l d m (.mustBeOfType "dependency" "schema or array of strings")
  | required (v) : Kw m "required" v → (∀ ts, v ≠ .arr ts) → FaultIn w l d m (.mustBeOfAn "required" "array")
  | requiredElem (vs x) : Kw m "required" (.arr vs) → x ∈ vs → (∀ t, x ≠ .str t) →
      FaultIn w l d m (.keyItemsMustBeOfType "required" "string")
  | requiredTwice (vs t) (i j : Nat) : Kw m "required" (.arr vs) → i < j → vs[i]? = some (.str t) → vs[j]? = some (.str t) →
      FaultIn w l d m (.keyItemsMustBeUnique "required")
  -- arrays
  | items (v) : Kw m "items" v → NoSchema v → (∀ vs, v ≠ .arr vs) →
      FaultIn w l d m (.invalidType "valid schema/array of schemas" "items")
  | item (vs D) : Kw m "items" (.arr vs) → D ∈ vs → NoSchema D →
      FaultIn w l d m (.invalidType "valid schema/array of schemas" "items")
  | uniqueItems (v) : Kw m "uniqueItems" v → (∀ b, v ≠ .bool b) → FaultIn w l d m (.mustBeOfA "uniqueItems" "boolean")
  -- numbers
  | multipleOf (v) : Kw m "multipleOf" v → ¬ NumValue w.env v → FaultIn w l d m (.invalidType "number" "multipleOf")
  | multipleOfSign (n) : Kw m "multipleOf" (.num n) → n.val ≤ 0 → FaultIn w l d m (.greaterThanZero "multipleOf")
  | bound (key v) : key ∈ ["minimum", "maximum"] → Kw m key v → ¬ NumValue w.env v → FaultIn w l d m (.mustBeOfA key "number")
  | exclusive4 (xkey key v) : (xkey, key) ∈ exclusiveKeys → d = Draft4 → Kw m xkey v → (∀ b, v ≠ .bool b) →
      FaultIn w l d m (.invalidType "boolean" xkey)
  | exclusiveHybrid (xkey key v) : (xkey, key) ∈ exclusiveKeys → d = Hybrid → Kw m xkey v → (∀ b, v ≠ .bool b) →
      (∀ n, v ≠ .num n) → FaultIn w l d m (.invalidType "boolean/number" xkey)
  | exclusive6 (xkey key v) : (xkey, key) ∈ exclusiveKeys → d ≠ Draft4 → d ≠ Hybrid → Kw m xkey v →
      (∀ n, v ≠ .num n) → FaultIn w l d m (.invalidType "number" xkey)
  | exclusiveAlone (xkey key b) : (xkey, key) ∈ exclusiveKeys → d = Draft4 ∨ d = Hybrid → Kw m xkey (.bool b) →
      getKey key m = none → FaultIn w l d m (.cannotBeUsedWithout xkey key)
  -- sizes
  | size (key v) : key ∈ ["minLength", "maxLength", "minItems", "maxItems", "minProperties", "maxProperties"] → Kw m key v →
      (∀ n, v = .num n → w.env.ratOk n = true → ¬ IntLit n) → FaultIn w l d m (.mustBeOfAn key "integer")
  | sizeSign (key n) : key ∈ ["minLength", "maxLength", "minItems", "maxItems", "minProperties", "maxProperties"] →
      Kw m key (.num n) → n.val < 0 → FaultIn w l d m (.mustBeGTEZero key)
  | lengths (a b) : Kw m "minLength" (.num a) → Kw m "maxLength" (.num b) → b.val < a.val →
      FaultIn w l d m (.cannotBeGT "minLength" "maxLength")
  | propertyCounts (a b) : Kw m "minProperties" (.num a) → Kw m "maxProperties" (.num b) → b.val < a.val →
      FaultIn w l d m (.keyCannotBeGreaterThan "minProperties" "maxProperties")
  -- strings
  | pattern (v) : Kw m "pattern" v → (∀ t, v ≠ .str t) → FaultIn w l d m (.mustBeOfA "pattern" "string")
  | regex (t) : Kw m "pattern" (.str t) → w.env.reOk t = false → FaultIn w l d m (.mustBeValidRegex "pattern")
  | format (v) : Kw m "format" v → (∀ t, v ≠ .str t) → FaultIn w l d m (.mustBeOfType "format" "string")
  -- literals
  | const (v) : Draft6 ≤ d → Kw m "const" v → ¬ NumsF64 v → FaultIn w l d m .marshal
  | enum (v) : Kw m "enum" v → (∀ cs, v ≠ .arr cs) → FaultIn w l d m (.mustBeOfAn "enum" "array")
  | enumElem (cs c) : Kw m "enum" (.arr cs) → c ∈ cs → ¬ NumsF64 c → FaultIn w l d m .marshal
  | enumTwice (cs a b) (i j : Nat) : Kw m "enum" (.arr cs) → i < j → cs[i]? = some a → cs[j]? = some b → SameVal a b →
      FaultIn w l d m (.keyItemsMustBeUnique "enum")
  -- combinations
  | list (key v) : key ∈ ["oneOf", "anyOf"] → Kw m key v → (∀ Ds, v ≠ .arr Ds) → FaultIn w l d m (.mustBeOfAn key "array")
  | allOf (v) : Kw m "allOf" v → (∀ Ds, v ≠ .arr Ds) → FaultIn w l d m (.mustBeOfAn "anyOf" "array")
  | not (v) : Kw m "not" v → NoSchema v → FaultIn w l d m (.mustBeOfAn "not" "object")
  | branch (key v) : key ∈ ["if", "then", "else"] → Draft7 ≤ d → Kw m key v → NoSchema v →
      FaultIn w l d m (.mustBeOfAn key "object")

/-- A document is no schema of draft `d`, or has a fault, with the error reported. -/
inductive Malformed (w : World) (l : LState) (d : Draft) : Json → CErr → Prop
  | kind (D) : NoSchema D → Malformed w l d D .parseError
  | bool (b) : ¬ Draft6 ≤ d → Malformed w l d (.bool b) .parseError
  | fault (m e) : FaultIn w l d m e → Malformed w l d (.obj m) e

/-- The `$schema` of a document cannot be read, with the error reported. -/
inductive SchemaFault (w : World) : Json → CErr → Prop
  | kind (D) : NoSchema D → SchemaFault w D .schemaInvalid
  | text (m v) : Kw m "$schema" v → (∀ t, v ≠ .str t) → SchemaFault w (.obj m) (.mustBeOfType "$schema" "string")
  | url (m t) : Kw m "$schema" (.str t) → w.norm t = none → SchemaFault w (.obj m) (.badReference t)

/-- Why `Compile` of `a` on the loader `l`, which becomes `l'`, may return the error `e` (Validate
off). -/
inductive Rejected (w : World) (l l' : LState) (a : LoaderArg) : CErr → Prop
  /-- the source is not a reference -/
  | source : a.ref w = none → Rejected w l l' a (.badReference "#")
  /-- the source cannot be loaded -/
  | notThere (ref e) : a.ref w = some ref → ref ≠ "" → NotThere w l' ref e → Rejected w l l' a e
  | noDocument : a.ref w = some "" → a = .direct none → Rejected w l l' a (.load "#")
  | notLoaded (n s f) : a.ref w = some "" → a = .reference s f → loadReference w n f s = none → Rejected w l l' a (.load s)
  /-- a schema without URL was compiled with this loader before -/
  | second : a.ref w = some "" → (getKey "" l.pool).isSome → Rejected w l l' a (.referenceAlreadyExists "")
  /-- the identifier of the schema is taken -/
  | taken (m t u k) : a.ref w = some "" → Loads w a (.obj m) → idOf m = some t → w.norm t = some u →
      w.inherits "" u = some k → (getKey k l.pool).isSome → Rejected w l l' a (.referenceAlreadyExists k)
  /-- `$schema` cannot be read -/
  | schema (D e) : l.autoDetect = true → (a.ref w = some "" ∧ Loads w a D) ∨ RootDoc w l' a D → SchemaFault w D e →
      Rejected w l l' a e
  /-- a schema that is reached has a fault -/
  | fault (D d' D' e) : RootDoc w l' a D → Compiled w l' (draftFor w l D) D d' D' → Malformed w l' d' D' e →
      Rejected w l l' a e

/-- The document `D`, as an instance, breaks the keyword rules for the document the reference `u`
stands for, to some depth that settles the matter. -/
def Violates (w : World) (l : LState) (u : String) (D : Json) : Prop :=
  ∃ (M : Json) (resolve : String → Option (Draft × Json)) (n : Nat),
    RootDoc w l (.reference u 0) M ∧
    (∀ t d' D', resolve t = some (d', D') → ∃ u', w.norm t = some u' ∧ ReadAs w l (draftFor w l M) M u' d' D') ∧
    (∀ d' m t, Used resolve (draftFor w l M) M d' (.obj m) → Kw m "$ref" (.str t) → resolve t ≠ none) ∧
    ∀ P, ¬ docUnfold w.env resolve P n (draftFor w l M) M D

/-- The reference to the meta-schema: `MetaFor`, or the empty one if the draft of the loader has no
meta-schema. -/
def MetaRef (w : World) (l : LState) (D : Json) (u : String) : Prop :=
  MetaFor w l D u ∨ (u = "" ∧ l.draft ≠ Hybrid ∧ ∀ u', ¬ Known u' l.draft)

/-- The same but for the switch `Validate`. -/
def SameRest (l l1 : LState) : Prop :=
  l1.pool = l.pool ∧ l1.autoDetect = l.autoDetect ∧ l1.draft = l.draft ∧ l1.log = l.log

/-- Why the check of `D` against its meta-schema may return the error `e`. -/
inductive MetaRejected (w : World) (l l' : LState) (D : Json) : CErr → Prop
  /-- `$schema` cannot be read -/
  | schema (e) : l.autoDetect = true → SchemaFault w D e → MetaRejected w l l' D e
  /-- the meta-schema does not compile -/
  | compile (u l1 e) : MetaRef w l D u → SameRest l l1 → Rejected w l1 l' (.reference u 0) e → MetaRejected w l l' D e
  /-- the document breaks the rules of the meta-schema -/
  | invalid (u errs) : MetaRef w l D u → errs ≠ [] → Violates w l' u D → MetaRejected w l l' D (.metaSchema errs)

/-- Why `Compile` may return the error `e`. -/
inductive CompileRejected (w : World) (l l' : LState) (a : LoaderArg) : CErr → Prop
  | plain (e) : Rejected w l l' a e → CompileRejected w l l' a e
  | check (l1 D e) : l.validate = true → RootDoc w l' a D → l1.autoDetect = l.autoDetect → l1.draft = l.draft →
      Keeps l l1 → MetaRejected w l1 l' D e → CompileRejected w l l' a e

/-- The state between the check against the meta-schema, which may fill the pool, and the
registration of the schema. -/
def Checked (l l1 l' : LState) : Prop := Keeps l l1 ∧ Keeps l1 l' ∧ (l.validate = false → l1.pool = l.pool)

/-- Why `AddSchema` (with the text of a URL) or one round of `AddSchemas` (without) may return the
error `e`. -/
inductive AddRejected (w : World) (l l' : LState) (url : Option String) (a : LoaderArg) : CErr → Prop
  | url (t) : url = some t → w.norm t = none → AddRejected w l l' url a (.badReference t)
  | noDocument : a = .direct none → AddRejected w l l' url a (.load "#")
  | notLoaded (n s f) : a = .reference s f → loadReference w n f s = none → AddRejected w l l' url a (.load s)
  | check (l1 D e) : l.validate = true → Loads w a D → l1.autoDetect = l.autoDetect → l1.draft = l.draft →
      Keeps l l1 → MetaRejected w l1 l' D e → AddRejected w l l' url a e
  | schema (D e) : l.autoDetect = true → Loads w a D → SchemaFault w D e → AddRejected w l l' url a e
  /-- the URL is taken -/
  | second (l1 t u) : Checked l l1 l' → url = some t → w.norm t = some u → (getKey u l1.pool).isSome →
      AddRejected w l l' url a (.referenceAlreadyExists u)
  /-- the identifier of the schema is taken -/
  | taken (l1 m t u k base) : Checked l l1 l' → Loads w a (.obj m) → (url = none → base = "") → (∀ t, url = some t → w.norm t = some base) →
      idOf m = some t → w.norm t = some u → w.inherits base u = some k → (getKey k l1.pool).isSome →
      AddRejected w l l' url a (.referenceAlreadyExists k)

end GJS.Spec

import Verif.Parse
import Verif.SpecDoc
import Mathlib.Data.List.Forall2
/-
How compiled nodes correspond to the documents they were parsed from: the invariant behind the
end-to-end theorem.
-/
namespace GJS
open Spec

/-- Node `c` is (being) parsed from document `D` under draft `d`. -/
def Stat (h : Heap) (d : Draft) (D : Json) (c : Id) : Prop :=
  ∃ s, h[c]? = some s ∧ s.draft = d ∧ s.doc = D

/-- An optional sub-schema keyword; `act`: the draft has it. -/
def OptOK (h : Heap) (d : Draft) (act : Prop) (m : List (String × Json)) (key : String) (o : Option Id) : Prop :=
  (o = none ∧ (act → getKey key m = none)) ∨
  (act ∧ ∃ D c, getKey key m = some D ∧ o = some c ∧ Stat h d D c)

/-- A keyword with a list of sub-schemas. -/
def ListOK (h : Heap) (d : Draft) (m : List (String × Json)) (key : String) (ids : List Id) : Prop :=
  (getKey key m = none ∧ ids = []) ∨ ∃ Ds, getKey key m = some (.arr Ds) ∧ List.Forall₂ (Stat h d) Ds ids

/-- A keyword with a map of sub-schemas. -/
def MapOK (h : Heap) (d : Draft) (m : List (String × Json)) (key : String) (ps : List (String × Id)) : Prop :=
  (getKey key m = none ∧ ps = []) ∨ ∃ Ds l, getKey key m = some (.obj Ds) ∧ l.Perm Ds ∧
    List.Forall₂ (fun kv kc => kc.1 = kv.1 ∧ Stat h d kv.2 kc.2) l ps

/-- One dependency. -/
def DepOK (h : Heap) (d : Draft) (kv : String × Json) (e : Option (String × Dep)) : Prop :=
  (∃ ks : List String, kv.2 = .arr (ks.map .str) ∧ e = depEntry kv.1 ks) ∨
  ((∀ xs, kv.2 ≠ .arr xs) ∧ ∃ c, e = some (kv.1, .schema c) ∧ Stat h d kv.2 c)

/-- dependencies -/
def DepsOK (h : Heap) (d : Draft) (m : List (String × Json)) (ds : List (String × Dep)) : Prop :=
  (getKey "dependencies" m = none ∧ ds = []) ∨ ∃ Ds l es, getKey "dependencies" m = some (.obj Ds) ∧
    l.Perm Ds ∧ List.Forall₂ (DepOK h d) l es ∧ ds = es.filterMap (fun e => e)

/-- additionalProperties, additionalItems -/
def ExtraOK (h : Heap) (d : Draft) (m : List (String × Json)) (key : String) (e : Extra) : Prop :=
  (getKey key m = none ∧ e = .absent) ∨ (∃ b, getKey key m = some (.bool b) ∧ e = .bool b) ∨
  (∃ A c, getKey key m = some (.obj A) ∧ e = .schema c ∧ Stat h d (.obj A) c)

/-- type -/
def TypesOK (m : List (String × Json)) (ts : List String) : Prop :=
  (getKey "type" m = none ∧ ts = []) ∨ (∃ t, getKey "type" m = some (.str t) ∧ ts = [t]) ∨
  (getKey "type" m = some (.arr (ts.map .str)))

/-- Type names without repetition, all of them known. -/
def TypeSet (ts : List String) : Prop := ts.Nodup ∧ ∀ t ∈ ts, t ∈ jsonTypes

/-- items -/
def ItemsOK (h : Heap) (d : Draft) (m : List (String × Json)) (is : List Id) (single : Bool) : Prop :=
  (getKey "items" m = none ∧ is = [] ∧ single = false) ∨
  (∃ Ds, getKey "items" m = some (.arr Ds) ∧ List.Forall₂ (Stat h d) Ds is ∧ single = false) ∨
  (∃ D c, getKey "items" m = some D ∧ (∀ xs, D ≠ .arr xs) ∧ is = [c] ∧ Stat h d D c ∧ single = true)

/-- A keyword whose value is a list of strings. -/
def StrsOK (m : List (String × Json)) (key : String) (qs : List String) : Prop :=
  (getKey key m = none ∧ qs = []) ∨ getKey key m = some (.arr (qs.map .str))

/-- A size keyword. -/
def SizeOK (m : List (String × Json)) (key : String) (o : Option Int) : Prop :=
  (getKey key m = none ∧ o = none) ∨ ∃ n z, getKey key m = some (.num n) ∧ o = some z ∧ n.int64? = some z

/-- A number keyword. -/
def NumOK (w : World) (m : List (String × Json)) (key : String) (o : Option Rat) : Prop :=
  (getKey key m = none ∧ o = none) ∨
  ∃ n, getKey key m = some (.num n) ∧ o = some n.val ∧ w.env.ratOk n = true

/-- A bound and its exclusive variant. -/
def BoundsOK (w : World) (m : List (String × Json)) (xkey key : String) (o x : Option Rat) : Prop :=
  ∃ b, NumOK w m key b ∧
    ((getKey xkey m = none ∧ o = b ∧ x = none) ∨
     (∃ q, b = some q ∧ getKey xkey m = some (.bool true) ∧ o = none ∧ x = some q) ∨
     (∃ q, b = some q ∧ getKey xkey m = some (.bool false) ∧ o = some q ∧ x = none) ∨
     (∃ n, getKey xkey m = some (.num n) ∧ o = b ∧ x = w.env.rat n))

/-- All fields of a node apart from `pass` and `refSchema`. -/
structure FieldsOK (w : World) (h : Heap) (d : Draft) (m : List (String × Json)) (s : Sub) : Prop where
  types : TypesOK m s.types
  typeSet : TypeSet s.types
  props : MapOK h d m "properties" s.propertiesChildren
  addProps : ExtraOK h d m "additionalProperties" s.additionalProperties
  patProps : MapOK h d m "patternProperties" s.patternProperties
  propNames : OptOK h d (Draft6 ≤ d) m "propertyNames" s.propertyNames
  deps : DepsOK h d m s.dependencies
  items : ItemsOK h d m s.itemsChildren s.itemsChildrenIsSingleSchema
  addItems : ExtraOK h d m "additionalItems" s.additionalItems
  multipleOf : NumOK w m "multipleOf" s.multipleOf
  multipleOf_pos : ∀ q, s.multipleOf = some q → 0 < q
  mins : BoundsOK w m "exclusiveMinimum" "minimum" s.minimum s.exclusiveMinimum
  maxs : BoundsOK w m "exclusiveMaximum" "maximum" s.maximum s.exclusiveMaximum
  minLength : SizeOK m "minLength" s.minLength
  maxLength : SizeOK m "maxLength" s.maxLength
  pattern : (getKey "pattern" m = none ∧ s.pattern = none) ∨
    ∃ t, getKey "pattern" m = some (.str t) ∧ s.pattern = some t
  format : (getKey "format" m = none ∧ s.format = "") ∨ getKey "format" m = some (.str s.format)
  minProperties : SizeOK m "minProperties" s.minProperties
  maxProperties : SizeOK m "maxProperties" s.maxProperties
  required : StrsOK m "required" s.required
  minItems : SizeOK m "minItems" s.minItems
  maxItems : SizeOK m "maxItems" s.maxItems
  uniqueItems : (getKey "uniqueItems" m = none ∧ s.uniqueItems = false) ∨
    getKey "uniqueItems" m = some (.bool s.uniqueItems)
  contains : OptOK h d (Draft6 ≤ d) m "contains" s.contains
  const : (s.const = none ∧ (Draft6 ≤ d → getKey "const" m = none)) ∨
    (Draft6 ≤ d ∧ ∃ c t, getKey "const" m = some c ∧ w.env.marshal c = some t ∧ s.const = some t)
  enum : (getKey "enum" m = none ∧ s.enum = []) ∨ ∃ cs, getKey "enum" m = some (.arr cs) ∧
    List.Forall₂ (fun c t => w.env.marshal c = some t) cs s.enum
  oneOf : ListOK h d m "oneOf" s.oneOf
  anyOf : ListOK h d m "anyOf" s.anyOf
  allOf : ListOK h d m "allOf" s.allOf
  not : OptOK h d True m "not" s.not
  if_ : OptOK h d (Draft7 ≤ d) m "if" s.if_
  then_ : OptOK h d (Draft7 ≤ d) m "then" s.then_
  else_ : OptOK h d (Draft7 ≤ d) m "else" s.else_

/-- A finished node. -/
inductive NodeOK (w : World) (h : Heap) (refs : List (String × Id)) (s : Sub) : Prop
  | bool (b) : s = { doc := .bool b, draft := s.draft, pass := some b } → Draft6 ≤ s.draft → NodeOK w h refs s
  | ref (m r u j) : s.doc = .obj m → getKey "$ref" m = some (.str r) → w.norm r = some u →
      getKey u refs = some j → s.refSchema = some j → s.pass = none →
      (FieldsOK w h s.draft m s ∨ s = { doc := .obj m, draft := s.draft, refSchema := some j }) →
      NodeOK w h refs s
  | plain (m) : s.doc = .obj m → getKey "$ref" m = none → s.refSchema = none → s.pass = none →
      FieldsOK w h s.draft m s → NodeOK w h refs s

/-- What a `$ref` text stands for, according to the reference pool of a compilation. -/
def resolveIn (w : World) (h : Heap) (refs : List (String × Id)) (r : String) : Option (Draft × Json) :=
  match w.norm r with
  | none => none
  | some u =>
    match getKey u refs with
    | none => none
    | some j => (h[j]?).map fun s => (s.draft, s.doc)

/-- A compiled node accepts what its document accepts. -/
def satNode (h : Heap) (Sat : Draft → Json → Json → Prop) (i : Id) (v : Json) : Prop :=
  ∃ s, h[i]? = some s ∧ Sat s.draft s.doc v

end GJS

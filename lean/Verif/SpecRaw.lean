import Verif.Raw
/-
Go values as instances: which of them stand for JSON values, and on which the code behaves alike.
-/
namespace GJS.Spec
open GJS

/-- What `encoding/json` decodes to: no maps but `map[string]interface{}`. -/
inductive PlainGo : GoVal → Prop
  | nil : PlainGo .nil
  | bool (b) : PlainGo (.bool b)
  | num (n) : PlainGo (.num n)
  | str (s) : PlainGo (.str s)
  | arr (xs) : (∀ x ∈ xs, PlainGo x) → PlainGo (.arr xs)
  | obj (kvs) : (∀ kv ∈ kvs, PlainGo kv.2) → PlainGo (.obj kvs)

/-- What YAML decoders decode to: no maps but `map[interface{}]interface{}`; all keys are strings. -/
inductive YamlGo : GoVal → Prop
  | nil : YamlGo .nil
  | bool (b) : YamlGo (.bool b)
  | num (n) : YamlGo (.num n)
  | str (s) : YamlGo (.str s)
  | arr (xs) : (∀ x ∈ xs, YamlGo x) → YamlGo (.arr xs)
  | imap (kvs) : (∀ kv ∈ kvs, kv.1.isSome = true) → (∀ kv ∈ kvs, YamlGo kv.2) → YamlGo (.imap kvs)

/-- The value is as decoded from JSON, or a map as decoded from YAML. -/
inductive TidyGo : GoVal → Prop
  | plain (g) : PlainGo g → TidyGo g
  | yaml (kvs) : YamlGo (.imap kvs) → TidyGo (.imap kvs)

/-- No node of the schema compares values. -/
def NoCompare (h : Heap) : Prop := ∀ s ∈ h, s.const = none ∧ s.enum = [] ∧ s.uniqueItems = false

/-- The iteration order depends on the number of entries only, not on what they are. -/
def _root_.GJS.Sched.Natural (σ : Sched) : Prop :=
  ∀ {α β : Type} (p : Path) (f : α → β) (l : List α), σ.order p (l.map f) = (σ.order p l).map f

/-- Format checkers do not tell a Go value from the JSON value it stands for. -/
def FormatsAlike (env : RawEnv) : Prop := ∀ f g v, g.json = some v → env.goFormat f g = env.isFormat f v

end GJS.Spec

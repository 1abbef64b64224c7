/-
JSON documents as the library sees them after decoding.
-/
namespace GJS

/-- A JSON number literal (`json.Number`), as kept by `decodeJSONUsingNumber`
(`/repo/jsonLoader.go` 372-386, `decoder.UseNumber()`).

`json.Number` is the source text of the literal.  The JSON grammar forces the shape
`-? int frac? exp?`; `int` has no leading zeros, so it is a natural number; `frac` is
kept digit by digit (so `1`, `1.0`, `1.00` are different literals); for the exponent we
keep its value only (simplification: `1e5`, `1E+5`, `1e05` are identified; the code never
distinguishes them). -/
structure NumLit where
  neg  : Bool
  ip   : Nat
  frac : List (Fin 10)
  exp  : Option Int
deriving DecidableEq, Repr

/-- Decoded documents: `interface{}` values produced by `decodeJSONUsingNumber`
(`/repo/jsonLoader.go` 372-386): `nil`, `bool`, `json.Number`, `string`, `[]interface{}`,
`map[string]interface{}`.

Simplifications: a Go string is a sequence of bytes, here it is a sequence of Unicode
scalar values (the JSON decoder only produces valid UTF-8); a map is an association list
whose order has no meaning, with distinct keys (`Json.WF`).  Other dynamic types, which
only `NewRawLoader` can introduce, are not modelled here. -/
inductive Json where
  | null
  | bool (b : Bool)
  | num  (n : NumLit)
  | str  (s : String)
  | arr  (xs : List Json)
  | obj  (kvs : List (String × Json))
deriving Repr, Inhabited

/-- Every map in the document has distinct keys, as every Go map does. -/
inductive Json.WF : Json → Prop where
  | null : WF .null
  | bool (b) : WF (.bool b)
  | num (n) : WF (.num n)
  | str (s) : WF (.str s)
  | arr (xs) : (∀ x ∈ xs, WF x) → WF (.arr xs)
  | obj (kvs) : (kvs.map Prod.fst).Nodup → (∀ kv ∈ kvs, WF kv.2) → WF (.obj kvs)

mutual
/-- Size of a document (number of nodes); used for termination arguments only. -/
def Json.size : Json → Nat
  | .arr xs  => 1 + Json.sizeL xs
  | .obj kvs => 1 + Json.sizeKV kvs
  | _        => 1
/-- Size of a list of documents. -/
def Json.sizeL : List Json → Nat
  | [] => 0
  | x :: xs => x.size + Json.sizeL xs
/-- Size of the members of an object. -/
def Json.sizeKV : List (String × Json) → Nat
  | [] => 0
  | (_, x) :: xs => 1 + x.size + Json.sizeKV xs
end

theorem Json.size_pos (v : Json) : 0 < v.size := by
  cases v <;> simp [Json.size] <;> omega

theorem Json.size_lt_of_mem {x : Json} : ∀ {xs : List Json}, x ∈ xs → x.size < (Json.arr xs).size := by
  intro xs h
  induction xs with
  | nil => simp at h
  | cons y ys ih =>
    simp only [List.mem_cons] at h
    rcases h with h | h
    · subst h; simp [Json.size, Json.sizeL]; omega
    · have := ih h; simp [Json.size, Json.sizeL] at *; omega

theorem Json.size_lt_of_mem_kv {k : String} {x : Json} :
    ∀ {kvs : List (String × Json)}, (k, x) ∈ kvs → x.size + 1 < (Json.obj kvs).size := by
  intro kvs h
  induction kvs with
  | nil => simp at h
  | cons y ys ih =>
    obtain ⟨yk, yv⟩ := y
    simp only [List.mem_cons] at h
    rcases h with h | h
    · cases h; simp [Json.size, Json.sizeKV]; omega
    · have := ih h; simp [Json.size, Json.sizeKV] at *; omega

/-- Association-list lookup: `v, ok := m[k]`. -/
abbrev getKey (k : String) (kvs : List (String × α)) : Option α := kvs.lookup k

/-- `existsMapKey` (`/repo/utils.go` 49-52). -/
def existsMapKey (kvs : List (String × α)) (k : String) : Bool := (getKey k kvs).isSome

theorem lookup_some_mem {k : String} {v : α} :
    ∀ {l : List (String × α)}, l.lookup k = some v → (k, v) ∈ l := by
  intro l h
  induction l with
  | nil => simp at h
  | cons y ys ih =>
    obtain ⟨yk, yv⟩ := y
    rw [List.lookup_cons] at h
    by_cases hk : k == yk
    · simp [hk] at h; simp at hk; subst hk; subst h; simp
    · simp [hk] at h; exact List.mem_cons_of_mem _ (ih h)

theorem lookup_eq_some_of_mem {k : String} {v : α} :
    ∀ {l : List (String × α)}, (l.map Prod.fst).Nodup → (k, v) ∈ l → l.lookup k = some v := by
  intro l hn h
  induction l with
  | nil => simp at h
  | cons y ys ih =>
    obtain ⟨yk, yv⟩ := y
    rw [List.lookup_cons]
    simp only [List.map_cons, List.nodup_cons] at hn
    simp only [List.mem_cons, Prod.mk.injEq] at h
    rcases h with ⟨h1, h2⟩ | h
    · subst h1; subst h2; simp
    · have hne : k ≠ yk := by
        intro e; subst e
        exact hn.1 (List.mem_map.2 ⟨(k, v), h, rfl⟩)
      have : (k == yk) = false := by simpa using hne
      simp [this]; exact ih hn.2 h

theorem lookup_none_iff {k : String} :
    ∀ {l : List (String × α)}, l.lookup k = none ↔ k ∉ l.map Prod.fst := by
  intro l
  induction l with
  | nil => simp
  | cons y ys ih =>
    obtain ⟨yk, yv⟩ := y
    rw [List.lookup_cons]
    by_cases hk : k = yk
    · subst hk; simp
    · have : (k == yk) = false := by simpa using hk
      simp only [this, List.map_cons, List.mem_cons, not_or]
      constructor
      · intro h; exact ⟨hk, ih.1 h⟩
      · intro h; exact ih.2 h.2

end GJS

import Verif.SpecTypes
import Verif.SpecContext
import Verif.PropCompile
import Mathlib.Data.List.Perm.Subperm
/-
Type sets: C37.
-/
namespace GJS
open Spec

theorem mem_jsonTypes {t : String} : t ∈ jsonTypes ↔ IsType t := by
  simp only [jsonTypes, IsType, List.mem_cons, List.not_mem_nil, or_false]
  constructor <;> (intro h; rcases h with h | h | h | h | h | h | h <;> simp [h])

/-- C37: one addition. It succeeds exactly for a known type that is not in the set, and puts it at
the end; otherwise it fails with the error for what is wrong. -/
theorem C37_add (ts : List String) (t : String) (s : σ) :
    (IsType t ∧ t ∉ ts ∧ (addType ts t : M σ _) s = (.ok (ts ++ [t]), s)) ∨
    (¬ IsType t ∧ (addType ts t : M σ _) s = (.error (.err (.notAValidType t)), s)) ∨
    (IsType t ∧ t ∈ ts ∧ (addType ts t : M σ _) s = (.error (.err (.duplicated t)), s)) := by
  unfold addType
  by_cases h1 : t ∈ jsonTypes
  · have e1 : ¬ (!jsonTypes.contains t) = true := by simpa using h1
    rw [if_neg e1]
    by_cases h2 : t ∈ ts
    · have e2 : ts.contains t = true := by simpa using h2
      rw [if_pos e2]
      exact .inr (.inr ⟨mem_jsonTypes.1 h1, h2, rfl⟩)
    · have e2 : ¬ ts.contains t = true := by simpa using h2
      rw [if_neg e2]
      exact .inl ⟨mem_jsonTypes.1 h1, h2, rfl⟩
  · have e1 : (!jsonTypes.contains t) = true := by simpa using h1
    rw [if_pos e1]
    exact .inr (.inl ⟨fun h => h1 (mem_jsonTypes.2 h), rfl⟩)

/-- The receiver of `Add` after a call: changed on success, left alone on an error
(`/repo/schemaType.go` 44-57). -/
def afterAdd (ts : List String) (t : String) : List String :=
  match (addType ts t : M Unit _) () with
  | (.ok ts', _) => ts'
  | (.error _, _) => ts

/-- The receiver after a sequence of calls. -/
def afterAdds (ts : List String) (l : List String) : List String := l.foldl afterAdd ts

theorem afterAdd_eq (ts : List String) (t : String) :
    (IsType t ∧ t ∉ ts ∧ afterAdd ts t = ts ++ [t]) ∨ ((¬ IsType t ∨ t ∈ ts) ∧ afterAdd ts t = ts) := by
  rcases C37_add (σ := Unit) ts t () with ⟨a, b, c⟩ | ⟨a, c⟩ | ⟨_, b, c⟩
  · exact .inl ⟨a, b, by simp only [afterAdd, c]⟩
  · exact .inr ⟨.inl a, by simp only [afterAdd, c]⟩
  · exact .inr ⟨.inr b, by simp only [afterAdd, c]⟩

/-- C37: a rejected addition leaves the set as it was. -/
theorem C37_rejected (ts : List String) (t : String) (e : Fail) (h : ((addType ts t : M Unit _) ()).1 = .error e) :
    afterAdd ts t = ts := by
  rcases C37_add (σ := Unit) ts t () with ⟨_, _, c⟩ | ⟨_, c⟩ | ⟨_, _, c⟩
  · rw [c] at h; cases h
  · simp only [afterAdd, c]
  · simp only [afterAdd, c]

theorem afterAdds_inv (l : List String) : ∀ ts, TypeSet ts →
    TypeSet (afterAdds ts l) ∧ (∀ t, t ∈ afterAdds ts l ↔ t ∈ ts ∨ (t ∈ l ∧ IsType t)) ∧
      ∃ us, us.Sublist l ∧ afterAdds ts l = ts ++ us := by
  induction l with
  | nil => intro ts h; exact ⟨h, by simp [afterAdds], [], by simp, by simp [afterAdds]⟩
  | cons a l ih =>
    intro ts h
    show TypeSet (afterAdds (afterAdd ts a) l) ∧ (∀ t, t ∈ afterAdds (afterAdd ts a) l ↔ _) ∧ ∃ us, _ ∧ afterAdds (afterAdd ts a) l = _
    rcases afterAdd_eq ts a with ⟨h1, h2, e⟩ | ⟨h1, e⟩
    · rw [e]
      have hs : TypeSet (ts ++ [a]) := by
        refine ⟨?_, ?_⟩
        · rw [List.nodup_append]
          refine ⟨h.1, by simp, ?_⟩
          simp only [List.mem_singleton]
          rintro x hx y rfl rfl
          exact h2 hx
        · intro x hx
          rcases List.mem_append.1 hx with hx | hx
          · exact h.2 x hx
          · rw [List.mem_singleton.1 hx]; exact mem_jsonTypes.2 h1
      obtain ⟨i1, i2, us, i3, i4⟩ := ih _ hs
      refine ⟨i1, ?_, a :: us, i3.cons₂ a, by rw [i4]; simp⟩
      intro t
      rw [i2]
      simp only [List.mem_append, List.mem_cons, List.not_mem_nil, or_false]
      constructor
      · rintro ((h | rfl) | ⟨h, h'⟩)
        · exact .inl h
        · exact .inr ⟨.inl rfl, h1⟩
        · exact .inr ⟨.inr h, h'⟩
      · rintro (h | ⟨rfl | h, h'⟩)
        · exact .inl (.inl h)
        · exact .inl (.inr rfl)
        · exact .inr ⟨h, h'⟩
    · rw [e]
      obtain ⟨i1, i2, us, i3, i4⟩ := ih _ h
      refine ⟨i1, ?_, us, i3.cons a, i4⟩
      intro t
      rw [i2]
      simp only [List.mem_cons]
      constructor
      · rintro (h | ⟨h, h'⟩)
        · exact .inl h
        · exact .inr ⟨.inr h, h'⟩
      · rintro (h | ⟨rfl | h, h'⟩)
        · exact .inl h
        · exact h1.elim (absurd h') .inl
        · exact .inr ⟨h, h'⟩

/-- C37: after any sequence of additions to an empty set, with any number of rejections on the way,
there is no repetition, and the members, as seen by `Contains`, are the type names among the
additions. They are listed in an order in which they were added. -/
theorem C37_sequence (l : List String) :
    (afterAdds [] l).Nodup ∧ (∀ t, typesContain (afterAdds [] l) t = true ↔ t ∈ l ∧ IsType t) ∧
      (afterAdds [] l).Sublist l ∧ (isTyped (afterAdds [] l) = true ↔ ∃ t ∈ l, IsType t) := by
  obtain ⟨h1, h2, us, h3, h4⟩ := afterAdds_inv l [] typeSet_nil
  refine ⟨h1.1, fun t => ?_, by rw [h4]; simpa using h3, ?_⟩
  · rw [typesContain, List.contains_iff_mem, h2]; simp
  · simp only [isTyped, decide_eq_true_eq, List.length_pos_iff_exists_mem, h2]
    simp

/-- C37: at most seven types. -/
theorem C37_length (l : List String) : (afterAdds [] l).length ≤ 7 := by
  obtain ⟨h1, -⟩ := afterAdds_inv l [] typeSet_nil
  exact (h1.1.subperm h1.2).length_le

theorem toList_intercalate (d : String) : ∀ ts : List String,
    (String.intercalate d ts).toList = joined d.toList (ts.map String.toList)
  | [] => by simp [joined]
  | [t] => by simp [joined]
  | t :: u :: r => by
    rw [String.intercalate_cons_cons]
    simp only [String.toList_append, toList_intercalate d (u :: r), List.map_cons, joined]

/-- C37: the text of a type set. -/
theorem C37_string (ts : List String) :
    (typesString ts).toList =
      if ts = [] then "undefined".toList
      else if ts.length = 1 then joined [','] (ts.map String.toList)
      else '[' :: joined [','] (ts.map String.toList) ++ [']'] := by
  match ts with
  | [] => rfl
  | [t] => simp [typesString, joined]
  | t :: u :: r =>
    have hc : (",").toList = [','] := rfl
    have h1 : ("[").toList = ['['] := rfl
    have h2 : ("]").toList = [']'] := rfl
    simp only [typesString, String.toList_append, toList_intercalate, hc, h1, h2]
    simp

/-- C37: in a compiled schema every node has such a type set. -/
theorem C37_compiled (w : World) (hw : Lawful w) (σ : Sched) (fuel : Fuel) (p : Path) (a : LoaderArg)
    (l l' : LState) (s : Schema) (hl : PoolWF l) (ha : ∀ D, a = .direct (some D) → D.WF)
    (hc : compile w σ fuel p a l = (.ok s, l')) (i : Nat) (n : Sub) (hn : s.heap[i]? = some n) :
    n.types.Nodup ∧ ∀ t ∈ n.types, IsType t := by
  obtain ⟨D, -, -, g⟩ := compile_good hw hl ha hc
  have ok : ∀ {ts}, TypeSet ts → ts.Nodup ∧ ∀ t ∈ ts, IsType t := fun h => ⟨h.1, fun t ht => mem_jsonTypes.1 (h.2 t ht)⟩
  rcases g.nodes i n hn with ⟨b, e, -⟩ | ⟨m, r, u, j, -, -, -, -, -, -, f⟩ | ⟨m, -, -, -, -, f⟩
  · rw [e]; exact ok typeSet_nil
  · rcases f with f | f
    · exact ok f.typeSet
    · rw [f]; exact ok typeSet_nil
  · exact ok f.typeSet

/-- Some are rejected, one of them for being there already. -/
example : afterAdds [] ["string", "text", "null", "string", "integer"] = ["string", "null", "integer"] := by decide

/-- The text of that set. -/
example : typesString (afterAdds [] ["string", "text", "null", "string", "integer"]) = "[string,null,integer]" := by rfl

end GJS

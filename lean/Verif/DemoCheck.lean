import Verif.SpecWell
import Verif.DemoWorld
/-
Executable tests of the side conditions on documents, for the examples.
-/
namespace GJS.Demo
open GJS Spec

mutual
/-- Distinct keys everywhere. -/
def wfB : Json → Bool
  | .arr xs => wfListB xs
  | .obj m => decide (m.map Prod.fst).Nodup && wfMembersB m
  | _ => true
def wfListB : List Json → Bool
  | [] => true
  | x :: xs => wfB x && wfListB xs
def wfMembersB : List (String × Json) → Bool
  | [] => true
  | (_, x) :: m => wfB x && wfMembersB m
end

mutual
theorem wf_of : ∀ D, wfB D = true → D.WF
  | .null, _ => .null
  | .bool b, _ => .bool b
  | .num n, _ => .num n
  | .str s, _ => .str s
  | .arr xs, h => .arr xs (wfList_of xs (by simpa [wfB] using h))
  | .obj m, h => by
    simp only [wfB, Bool.and_eq_true, decide_eq_true_eq] at h
    exact .obj m h.1 (wfMembers_of m h.2)
theorem wfList_of : ∀ xs, wfListB xs = true → ∀ x ∈ xs, x.WF
  | [], _ => by simp
  | y :: ys, h => by
    simp only [wfListB, Bool.and_eq_true] at h
    exact List.forall_mem_cons.2 ⟨wf_of y h.1, wfList_of ys h.2⟩
theorem wfMembers_of : ∀ m, wfMembersB m = true → ∀ kv ∈ m, kv.2.WF
  | [], _ => by simp
  | (k, y) :: m, h => by
    simp only [wfMembersB, Bool.and_eq_true] at h
    exact List.forall_mem_cons.2 ⟨wf_of y h.1, wfMembers_of m h.2⟩
end

mutual
/-- No `$ref` anywhere. -/
def noRefB : Json → Bool
  | .arr xs => noRefListB xs
  | .obj m => decide ("$ref" ∉ keysOf m) && noRefMembersB m
  | _ => true
def noRefListB : List Json → Bool
  | [] => true
  | x :: xs => noRefB x && noRefListB xs
def noRefMembersB : List (String × Json) → Bool
  | [] => true
  | (_, x) :: m => noRefB x && noRefMembersB m
end

mutual
theorem noRef_of : ∀ D, noRefB D = true → NoRef D
  | .null, _ => by intro m h; cases h
  | .bool b, _ => by intro m h; cases h
  | .num n, _ => by intro m h; cases h
  | .str s, _ => by intro m h; cases h
  | .arr xs, h => by
    intro m hm
    cases hm with
    | elem _ y _ hy hi => exact noRefList_of xs (by simpa [noRefB] using h) y hy m hi
  | .obj m, h => by
    simp only [noRefB, Bool.and_eq_true, decide_eq_true_eq] at h
    intro m' hm
    cases hm with
    | self => exact h.1
    | member _ k y _ hy hi => exact noRefMembers_of m h.2 _ hy m' hi
theorem noRefList_of : ∀ xs, noRefListB xs = true → ∀ x ∈ xs, NoRef x
  | [], _ => by simp
  | y :: ys, h => by
    simp only [noRefListB, Bool.and_eq_true] at h
    exact List.forall_mem_cons.2 ⟨noRef_of y h.1, noRefList_of ys h.2⟩
theorem noRefMembers_of : ∀ m, noRefMembersB m = true → ∀ kv ∈ m, NoRef kv.2
  | [], _ => by simp
  | (k, y) :: m, h => by
    simp only [noRefMembersB, Bool.and_eq_true] at h
    exact List.forall_mem_cons.2 ⟨noRef_of y h.1, noRefMembers_of m h.2⟩
end

/-- The demonstration environment accepts all numbers. -/
theorem numsRat (D : Json) : NumsRat env D := fun _ _ => rfl

end GJS.Demo

import Verif.Loader
/-
Helper lemmas: more fuel does not change the outcome of a compilation.
-/
namespace GJS

/-- `x` runs out of fuel or does what `y` does. -/
structure Below (x y : M σ α) : Prop where
  run : ∀ s, (x s).1 = .error .fuel ∨ x s = y s

namespace Below

theorem refl (x : M σ α) : Below x x := ⟨fun _ => .inr rfl⟩

theorem fuel {y : M σ α} : Below (M.fail .fuel) y := ⟨fun _ => .inl rfl⟩

theorem trans {x y z : M σ α} (h1 : Below x y) (h2 : Below y z) : Below x z := by
  refine ⟨fun s => ?_⟩
  rcases h1.run s with h | h
  · exact .inl h
  · rw [h]; exact h2.run s

theorem bind {x y : M σ α} {f g : α → M σ β} (h1 : Below x y) (h2 : ∀ a, Below (f a) (g a)) : Below (x >>= f) (y >>= g) := by
  refine ⟨fun s => ?_⟩
  show (M.seq x f s).1 = _ ∨ M.seq x f s = M.seq y g s
  unfold M.seq
  rcases h1.run s with h | h
  · left
    cases hx : x s with
    | mk r s' =>
      rw [hx] at h
      simp only at h
      subst h
      rfl
  · rw [← h]
    cases hx : x s with
    | mk r s' =>
      cases r with
      | ok a => exact (h2 a).run s'
      | error e => exact .inr rfl

theorem mapL {f g : Nat → α → M σ β} (h : ∀ k x, Below (f k x) (g k x)) : ∀ {k xs}, Below (GJS.mapL f k xs) (GJS.mapL g k xs) := by
  intro k xs
  induction xs generalizing k with
  | nil => exact .refl _
  | cons x xs ih => exact .bind (h k x) fun y => .bind ih fun ys => .refl _

end Below

/-- Recursive calls, one below the other. -/
def RecBelow (r1 r2 : PRec) : Prop := ∀ p pid id0 doc d c, Below (r1 p pid id0 doc d c) (r2 p pid id0 doc d c)

section
variable {w : World} {σ : Sched} {r1 r2 : PRec} {p : Path} {id : String} {d : Draft} {m : List (String × Json)}

theorem child_below (h : RecBelow r1 r2) {D} : Below (child r1 p id d D) (child r2 p id d D) :=
  .bind (.refl _) fun _ => .bind (h _ _ _ _ _ _) fun _ => .refl _

/-- Close a goal between two copies of the same code that differ in the recursive call. -/
macro "below" h:ident : tactic => `(tactic| repeat' (first
  | with_reducible exact Below.refl _
  | with_reducible exact child_below $h
  | exact $h _ _ _ _ _ _
  | with_reducible apply Below.bind
  | with_reducible apply Below.mapL
  | intro _
  | split))

theorem kwDefinitions_below (h : RecBelow r1 r2) : Below (kwDefinitions w σ r1 p id d m) (kwDefinitions w σ r2 p id d m) := by
  unfold kwDefinitions kwDefinition; below h
theorem kwProperties_below (h : RecBelow r1 r2) : Below (kwProperties w σ r1 p id d m) (kwProperties w σ r2 p id d m) := by
  unfold kwProperties; below h
theorem kwExtra_below (h : RecBelow r1 r2) {k} : Below (kwExtra w r1 p id d k m) (kwExtra w r2 p id d k m) := by
  unfold kwExtra; below h
theorem kwPatternProperties_below (h : RecBelow r1 r2) :
    Below (kwPatternProperties w σ r1 p id d m) (kwPatternProperties w σ r2 p id d m) := by
  unfold kwPatternProperties kwPattern1; below h
theorem kwSchema_below (h : RecBelow r1 r2) {a k e} : Below (kwSchema w r1 p id d a k e m) (kwSchema w r2 p id d a k e m) := by
  unfold kwSchema; below h
theorem kwDependencies_below (h : RecBelow r1 r2) : Below (kwDependencies w σ r1 p id d m) (kwDependencies w σ r2 p id d m) := by
  unfold kwDependencies kwDependency; below h
theorem kwItems_below (h : RecBelow r1 r2) : Below (kwItems w r1 p id d m) (kwItems w r2 p id d m) := by
  unfold kwItems kwItem; below h
theorem kwContains_below (h : RecBelow r1 r2) : Below (kwContains r1 p id d m) (kwContains r2 p id d m) := by
  unfold kwContains; below h
theorem kwSchemas_below (h : RecBelow r1 r2) {k e} : Below (kwSchemas w r1 p id d k e m) (kwSchemas w r2 p id d k e m) := by
  unfold kwSchemas; below h

theorem parseReference_below (h : RecBelow r1 r2) {r} : Below (parseReference w σ r1 p id d r) (parseReference w σ r2 p id d r) := by
  unfold parseReference; below h

theorem parseKeywords_below (h : RecBelow r1 r2) {c rs} :
    Below (parseKeywords w σ r1 p id d c rs m) (parseKeywords w σ r2 p id d c rs m) := by
  unfold parseKeywords
  repeat' (first
    | with_reducible exact Below.refl _
    | with_reducible exact kwProperties_below h
    | with_reducible exact kwExtra_below h
    | with_reducible exact kwPatternProperties_below h
    | with_reducible exact kwSchema_below h
    | with_reducible exact kwDependencies_below h
    | with_reducible exact kwItems_below h
    | with_reducible exact kwContains_below h
    | with_reducible exact kwSchemas_below h
    | with_reducible apply Below.bind
    | intro _)

theorem parseStep_below (h : RecBelow r1 r2) {isRoot pid id0 doc c} :
    Below (parseStep w σ r1 isRoot p pid id0 doc d c) (parseStep w σ r2 isRoot p pid id0 doc d c) := by
  unfold parseStep parseObject parseAfterRef
  repeat' (first
    | with_reducible exact Below.refl _
    | with_reducible exact kwDefinitions_below h
    | with_reducible exact parseKeywords_below h
    | with_reducible exact parseReference_below h
    | with_reducible apply Below.bind
    | intro _
    | split)

theorem parseSchema_below : ∀ n k, RecBelow (parseSchema w σ n) (parseSchema w σ (n + k)) := by
  intro n
  induction n with
  | zero => intro k p pid id0 doc d c; exact .fuel
  | succ n ih =>
    intro k p pid id0 doc d c
    rw [show n + 1 + k = (n + k) + 1 by omega]
    exact parseStep_below (ih k)

theorem parseRoot_below {n k ref doc} : Below (parseRoot w σ n p ref doc d) (parseRoot w σ (n + k) p ref doc d) :=
  .bind (.refl _) fun _ => .bind (parseStep_below (parseSchema_below n k)) fun _ => .refl _

theorem runParse_below {n k v ref doc} : Below (runParse w σ ⟨n, v⟩ p ref doc d) (runParse w σ ⟨n + k, v⟩ p ref doc d) := by
  refine ⟨fun l => ?_⟩
  unfold runParse
  rcases (parseRoot_below (w := w) (σ := σ) (n := n) (k := k) (p := p) (ref := ref) (doc := doc) (d := d)).run { l := l } with h | h
  · left
    cases hx : parseRoot w σ n p ref doc d { l := l } with
    | mk r s =>
      rw [hx] at h
      simp only at h
      subst h
      rfl
  · right
    simp only
    rw [h]

end
end GJS

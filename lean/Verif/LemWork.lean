import Verif.SpecWork
import Mathlib.Algebra.BigOperators.Group.List.Basic
/-
Helper lemmas: which nested calls one level of `validateRecursive` may make, and how many.
-/
namespace GJS
open Spec

/-- A call: its name, the schema and the value. -/
abbrev Visit := Path × Id × Json

/-- Both do the same on all these calls. -/
def AgreeOn (rec rec' : Rec) (L : List Visit) : Prop := ∀ q j x, (q, j, x) ∈ L → ∀ c, rec q j x c = rec' q j x c

theorem AgreeOn.left {rec rec' : Rec} {L L'} (h : AgreeOn rec rec' (L ++ L')) : AgreeOn rec rec' L :=
  fun q j x hm c => h q j x (List.mem_append_left _ hm) c

theorem AgreeOn.right {rec rec' : Rec} {L L'} (h : AgreeOn rec rec' (L ++ L')) : AgreeOn rec rec' L' :=
  fun q j x hm c => h q j x (List.mem_append_right _ hm) c

/-! ### The calls -/

/-- The calls of a loop over sub-schemas, on the same value. -/
def listVisits (t : Nat) (p : Path) (ids : List Id) (v : Json) : List Visit := ids.zipIdx.map fun x => (x.2 :: t :: p, x.1, v)

/-- The calls of a loop over elements, with the same sub-schema. -/
def elemVisits (t : Nat) (p : Path) (i : Id) (n : Nat) (xs : List Json) : List Visit :=
  (xs.zipIdx n).map fun x => (x.2 :: t :: p, i, x.1)

def depVisits (σ : Sched) (s : Sub) (p : Path) (v : Json) (kvs : List (String × Json)) : List Visit :=
  ((σ.order (5 :: p) kvs).zipIdx).flatMap fun x =>
    match getKey x.1.1 s.dependencies with
    | some (.schema i) => [(6 :: x.2 :: 5 :: p, i, v)]
    | _ => []

def sameVisits (s : Sub) (p : Path) (v : Json) : List Visit :=
  listVisits 1 p s.anyOf v ++ listVisits 2 p s.oneOf v ++ listVisits 3 p s.allOf v ++
  s.not.toList.map (fun i => (4 :: p, i, v)) ++ s.if_.toList.map (fun i => (7 :: p, i, v)) ++
  s.then_.toList.map (fun i => (8 :: p, i, v)) ++ s.else_.toList.map (fun i => (9 :: p, i, v))

def memberVisits (σ : Sched) (s : Sub) (p : Path) (kv : String × Json) : List Visit :=
  ((σ.order (14 :: p) s.patternProperties).zipIdx.map fun y => (y.2 :: 15 :: p, y.1.2, kv.2)) ++
    (extraId s.additionalProperties).map fun i => (16 :: p, i, kv.2)

def nameVisits (σ : Sched) (s : Sub) (p : Path) (kvs : List (String × Json)) : List Visit :=
  s.propertyNames.toList.flatMap fun i => ((σ.order (17 :: p) kvs).zipIdx).map fun x => (x.2 :: 18 :: p, i, .str x.1.1)

def propVisits (s : Sub) (p : Path) (kvs : List (String × Json)) : List Visit :=
  s.propertiesChildren.zipIdx.flatMap fun x => (getKey x.1.1 kvs).toList.map fun y => (x.2 :: 19 :: p, x.1.2, y)

def objVisits (σ : Sched) (s : Sub) (p : Path) (kvs : List (String × Json)) : List Visit :=
  ((σ.order (13 :: p) kvs).zipIdx.flatMap fun x => memberVisits σ s (x.2 :: 13 :: p) x.1) ++
  nameVisits σ s p kvs ++ propVisits s p kvs

def itemVisits (s : Sub) (p : Path) (xs : List Json) : List Visit :=
  if s.itemsChildrenIsSingleSchema then s.itemsChildren.head?.toList.flatMap fun i => elemVisits 10 p i 0 xs
  else ((s.itemsChildren.zip xs).zipIdx.map fun x => (x.2 :: 10 :: p, x.1.1, x.1.2)) ++
    (extraId s.additionalItems).flatMap fun i => elemVisits 11 p i s.itemsChildren.length (xs.drop s.itemsChildren.length)

def arrVisits (s : Sub) (p : Path) (xs : List Json) : List Visit :=
  itemVisits s p xs ++ s.contains.toList.flatMap fun i => elemVisits 12 p i 0 xs

/-- The calls a node may make. -/
def nodeVisits (σ : Sched) (s : Sub) (p : Path) (v : Json) : List Visit :=
  sameVisits s p v ++
  match v with
  | .obj kvs => depVisits σ s p v kvs ++ objVisits σ s p kvs
  | .arr xs => arrVisits s p xs
  | _ => []

/-- The calls one level of `validateRecursive` may make. -/
def stepVisits (σ : Sched) (h : Heap) (p : Path) (i : Id) (v : Json) : List Visit :=
  match h[i]? with
  | none => []
  | some s =>
    if s.pass.isSome then [] else
    match s.refSchema with
    | some j => [(20 :: p, j, v)]
    | none => nodeVisits σ s p v

/-! ### They are all -/

theorem forEach_congr {α} {f g : Nat → α → Exec Result} : ∀ {xs : List α} {k}, (∀ x j, (x, j) ∈ xs.zipIdx k → f j x = g j x) →
    forEach f k xs = forEach g k xs
  | [], _, _ => rfl
  | x :: xs, k, h => by
    unfold forEach
    rw [h x k (by simp [List.zipIdx_cons]), forEach_congr (xs := xs) fun y j hy => h y j (by simp [List.zipIdx_cons, hy])]

theorem anyOfLoop_congr {f g : Nat → Id → Exec Result} : ∀ {xs : List Id} {k b r}, (∀ x j, (x, j) ∈ xs.zipIdx k → f j x = g j x) →
    anyOfLoop f k xs b r = anyOfLoop g k xs b r
  | [], _, _, _, _ => rfl
  | x :: xs, k, b, r, h => by
    unfold anyOfLoop
    have ih := fun b r => anyOfLoop_congr (f := f) (g := g) (xs := xs) (k := k + 1) (b := b) (r := r)
      fun y j hy => h y j (by simp [List.zipIdx_cons, hy])
    rw [h x k (by simp [List.zipIdx_cons])]
    simp only [ih]

theorem oneOfLoop_congr {f g : Nat → Id → Exec Result} : ∀ {xs : List Id} {k b r}, (∀ x j, (x, j) ∈ xs.zipIdx k → f j x = g j x) →
    oneOfLoop f k xs b r = oneOfLoop g k xs b r
  | [], _, _, _, _ => rfl
  | x :: xs, k, b, r, h => by
    unfold oneOfLoop
    have ih := fun b r => oneOfLoop_congr (f := f) (g := g) (xs := xs) (k := k + 1) (b := b) (r := r)
      fun y j hy => h y j (by simp [List.zipIdx_cons, hy])
    rw [h x k (by simp [List.zipIdx_cons])]
    simp only [ih]

theorem allOfLoop_congr {f g : Nat → Id → Exec Result} : ∀ {xs : List Id} {k}, (∀ x j, (x, j) ∈ xs.zipIdx k → f j x = g j x) →
    allOfLoop f k xs = allOfLoop g k xs
  | [], _, _ => rfl
  | x :: xs, k, h => by
    unfold allOfLoop
    rw [h x k (by simp [List.zipIdx_cons]), allOfLoop_congr (xs := xs) fun y j hy => h y j (by simp [List.zipIdx_cons, hy])]

theorem containsLoop_congr {f g : Nat → Json → Exec Result} : ∀ {xs : List Json} {k r}, (∀ x j, (x, j) ∈ xs.zipIdx k → f j x = g j x) →
    containsLoop f k xs r = containsLoop g k xs r
  | [], _, _, _ => rfl
  | x :: xs, k, r, h => by
    unfold containsLoop
    have ih := fun r => containsLoop_congr (f := f) (g := g) (xs := xs) (k := k + 1) (r := r)
      fun y j hy => h y j (by simp [List.zipIdx_cons, hy])
    rw [h x k (by simp [List.zipIdx_cons])]
    simp only [ih]

section
variable {env : Env} {σ : Sched} {rec rec' : Rec} {p : Path} {s : Sub} {v : Json} {c : Ctx} {kvs : List (String × Json)} {xs : List Json}

theorem patternLoop_congr {key value} : ∀ {ps : List (String × Id)} {k},
    (∀ q j, (q, j) ∈ ps.zipIdx k → ∀ c, rec (j :: 15 :: p) q.2 value c = rec' (j :: 15 :: p) q.2 value c) →
    patternLoop env rec p key value c k ps = patternLoop env rec' p key value c k ps
  | [], _, _ => rfl
  | (pat, i) :: ps, k, h => by
    unfold patternLoop patternOne
    rw [h (pat, i) k (by simp [List.zipIdx_cons]), patternLoop_congr (ps := ps) fun y j hy => h y j (by simp [List.zipIdx_cons, hy])]

theorem listVisits_agree {t ids} (h : AgreeOn rec rec' (listVisits t p ids v)) (x : Id) (j : Nat) (hm : (x, j) ∈ ids.zipIdx) :
    rec (j :: t :: p) x v c = rec' (j :: t :: p) x v c :=
  h _ _ _ (List.mem_map.2 ⟨(x, j), hm, rfl⟩) c

theorem elemVisits_agree {t i n} (h : AgreeOn rec rec' (elemVisits t p i n xs)) (x : Json) (j : Nat) (hm : (x, j) ∈ xs.zipIdx n) :
    rec (j :: t :: p) i x c = rec' (j :: t :: p) i x c :=
  h _ _ _ (List.mem_map.2 ⟨(x, j), hm, rfl⟩) c

theorem opt_agree {q : Path} {o : Option Id} (h : AgreeOn rec rec' (o.toList.map fun i => (q, i, v))) {i} (hi : o = some i) :
    rec q i v c = rec' q i v c := h _ _ _ (by simp [hi]) c

theorem validateSchema_congr (h : AgreeOn rec rec' (sameVisits s p v))
    (hd : ∀ kvs, v = .obj kvs → AgreeOn rec rec' (depVisits σ s p v kvs)) :
    validateSchema env σ rec p s v c = validateSchema env σ rec' p s v c := by
  unfold sameVisits at h
  have h9 := h.right
  have h8 := h.left.right
  have h7 := h.left.left.right
  have h4 := h.left.left.left.right
  have h3 := h.left.left.left.left.right
  have h2 := h.left.left.left.left.left.right
  have h1 := h.left.left.left.left.left.left
  have e1 : checkAnyOf rec p s v c = checkAnyOf rec' p s v c := by
    unfold checkAnyOf
    rw [anyOfLoop_congr fun x j hx => listVisits_agree h1 x j hx]
  have e2 : checkOneOf rec p s v c = checkOneOf rec' p s v c := by
    unfold checkOneOf
    rw [oneOfLoop_congr fun x j hx => listVisits_agree h2 x j hx]
  have e3 : checkAllOf rec p s v c = checkAllOf rec' p s v c := by
    unfold checkAllOf
    rw [allOfLoop_congr fun x j hx => listVisits_agree h3 x j hx]
  have e4 : checkNot rec p s v c = checkNot rec' p s v c := by
    unfold checkNot
    split
    · rename_i i hi
      rw [opt_agree h4 hi]
    · rfl
  have e5 : checkDependencies env σ rec p s v c = checkDependencies env σ rec' p s v c := by
    unfold checkDependencies
    split
    · split
      · rename_i kvs
        refine forEach_congr fun kv j hm => ?_
        unfold checkDependency
        split
        · rfl
        · rename_i i hi
          refine hd kvs rfl _ _ _ (List.mem_flatMap.2 ⟨(kv, j), hm, ?_⟩) c
          simp only [hi, List.mem_singleton]
        · rfl
      · rfl
      · rfl
    · rfl
  have e6 : checkIf rec p s v c = checkIf rec' p s v c := by
    unfold checkIf
    split
    · rfl
    · rename_i i hi
      rw [opt_agree h7 hi]
      have b8 : ∀ on, checkBranch rec (8 :: p) s.then_ on .conditionThen v c = checkBranch rec' (8 :: p) s.then_ on .conditionThen v c := by
        intro on
        unfold checkBranch
        split
        · rename_i t ht
          rw [opt_agree h8 ht]
        · rfl
      have b9 : ∀ on, checkBranch rec (9 :: p) s.else_ on .conditionElse v c = checkBranch rec' (9 :: p) s.else_ on .conditionElse v c := by
        intro on
        unfold checkBranch
        split
        · rename_i t ht
          rw [opt_agree h9 ht]
        · rfl
      simp only [b8, b9]
  unfold validateSchema
  rw [e1, e2, e3, e4, e5, e6]

theorem validateArray_congr (h : AgreeOn rec rec' (arrVisits s p xs)) :
    validateArray env rec p s xs c = validateArray env rec' p s xs c := by
  have e1 : checkItems rec p s xs c = checkItems rec' p s xs c := by
    have h := h.left
    unfold itemVisits at h
    unfold checkItems
    split
    · rename_i hs
      rw [if_pos hs] at h
      refine forEach_congr fun x j hm => ?_
      split
      · rename_i i is hi
        rw [hi] at h
        simp only [List.head?_cons, Option.toList_some, List.flatMap_cons, List.flatMap_nil, List.append_nil] at h
        exact elemVisits_agree h x j hm
      · rfl
    · rename_i hs
      rw [if_neg hs] at h
      split
      · have a1 : ∀ (ix : Id × Json) j, (ix, j) ∈ (s.itemsChildren.zip xs).zipIdx →
            rec (j :: 10 :: p) ix.1 ix.2 (toString j :: c) = rec' (j :: 10 :: p) ix.1 ix.2 (toString j :: c) :=
          fun ix j hm => h.left _ _ _ (List.mem_map.2 ⟨(ix, j), hm, rfl⟩) _
        have a2 : checkAdditionalItems rec p s xs c = checkAdditionalItems rec' p s xs c := by
          unfold checkAdditionalItems
          simp only
          split
          · split
            · rfl
            · rename_i i hi
              have h := h.right
              rw [hi] at h
              simp only [extraId, List.flatMap_cons, List.flatMap_nil, List.append_nil] at h
              exact forEach_congr fun x j hm => elemVisits_agree h x j hm
            · rfl
          · rfl
        rw [forEach_congr a1, a2]
      · rfl
  have e2 : checkContains rec p s xs c = checkContains rec' p s xs c := by
    unfold checkContains
    split
    · rfl
    · rename_i i hi
      have h := h.right
      rw [hi] at h
      simp only [Option.toList_some, List.flatMap_cons, List.flatMap_nil, List.append_nil] at h
      rw [containsLoop_congr fun x j hm => elemVisits_agree h x j hm]
  unfold validateArray
  rw [e1, e2]

theorem checkProperty_congr {kv : String × Json} (h : AgreeOn rec rec' (memberVisits σ s p kv)) :
    checkProperty env σ rec p s kv.1 kv.2 c = checkProperty env σ rec' p s kv.1 kv.2 c := by
  have e1 : validatePatternProperty env σ rec p s kv.1 kv.2 c = validatePatternProperty env σ rec' p s kv.1 kv.2 c := by
    unfold validatePatternProperty
    rw [patternLoop_congr fun q j hm c => h.left _ _ _ (List.mem_map.2 ⟨(q, j), hm, rfl⟩) c]
  unfold checkProperty
  rw [e1]
  have h := h.right
  cases ha : s.additionalProperties with
  | absent => rfl
  | bool b => rfl
  | schema i =>
    rw [ha] at h
    simp only [extraId, List.map_cons, List.map_nil] at h
    simp only
    rw [h _ _ _ (List.mem_singleton.2 rfl) (kv.1 :: c)]

theorem validateObject_congr (h : AgreeOn rec rec' (objVisits σ s p kvs)) :
    validateObject env σ rec p s kvs c = validateObject env σ rec' p s kvs c ∧
      checkProperties rec p s kvs c = checkProperties rec' p s kvs c := by
  refine ⟨?_, ?_⟩
  · unfold validateObject
    have e1 : forEach (fun k (kv : String × Json) => checkProperty env σ rec (k :: 13 :: p) s kv.1 kv.2 c) 0 (σ.order (13 :: p) kvs) =
        forEach (fun k (kv : String × Json) => checkProperty env σ rec' (k :: 13 :: p) s kv.1 kv.2 c) 0 (σ.order (13 :: p) kvs) :=
      forEach_congr fun kv j hm => checkProperty_congr fun q i x hq =>
        h.left.left q i x (List.mem_flatMap.2 ⟨(kv, j), hm, hq⟩)
    have e2 : checkPropertyNames σ rec p s kvs c = checkPropertyNames σ rec' p s kvs c := by
      unfold checkPropertyNames
      split
      · rfl
      · rename_i i hi
        refine forEach_congr fun kv j hm => ?_
        rw [h.left.right _ _ _ (List.mem_flatMap.2 ⟨i, by simp [hi], List.mem_map.2 ⟨(kv, j), hm, rfl⟩⟩) c]
    rw [e1, e2]
  · unfold checkProperties
    refine forEach_congr fun q j hm => ?_
    split
    · rename_i x hx
      exact h.right _ _ _ (List.mem_flatMap.2 ⟨(q, j), hm, by simp [hx]⟩) _
    · rfl

theorem validateStep_congr {h : Heap} {i} (hv : AgreeOn rec rec' (stepVisits σ h p i v)) :
    validateStep env σ h rec p i v c = validateStep env σ h rec' p i v c := by
  unfold stepVisits at hv
  unfold validateStep
  split
  · rfl
  · rename_i s hs
    rw [hs] at hv
    simp only at hv
    split
    · rfl
    · rename_i hp
      rw [hp] at hv
      simp only [Option.isSome_none, Bool.false_eq_true, if_false] at hv
      split
      · rename_i j hj
        rw [hj] at hv
        exact hv _ _ _ (List.mem_singleton.2 rfl) c
      · rename_i hj
        rw [hj] at hv
        simp only at hv
        split
        · rfl
        · have e : validateNode env σ rec p s v c = validateNode env σ rec' p s v c := by
            unfold nodeVisits at hv
            unfold validateNode
            have e1 : validateSchema env σ rec p s v c = validateSchema env σ rec' p s v c := by
              refine validateSchema_congr hv.left fun kvs hk => ?_
              subst hk
              exact hv.right.left
            rw [e1]
            cases v with
            | arr xs => simp only; rw [validateArray_congr hv.right]
            | obj kvs =>
              obtain ⟨h1, h2⟩ := validateObject_congr (env := env) (c := c) hv.right.right
              simp only
              rw [h1, h2]
            | _ => rfl
          rw [e]

end

/-! ### The names of all calls -/

/-- The names of the calls that may be made. -/
def points (σ : Sched) (h : Heap) : Nat → Path → Id → Json → List Path
  | 0, p, _, _ => [p]
  | n + 1, p, i, v => p :: (stepVisits σ h p i v).flatMap fun c => points σ h n c.1 c.2.1 c.2.2

theorem stopAt_other {env : Env} {σ : Sched} {h : Heap} {q : Path} : ∀ {n p i v c}, q ∉ points σ h n p i v →
    stopAt env σ h q n p i v c = validateRecursive env σ h n p i v c
  | 0, _, _, _, _, _ => rfl
  | n + 1, p, i, v, c, hq => by
    unfold points at hq
    simp only [List.mem_cons, List.mem_flatMap, not_or, not_exists, not_and] at hq
    unfold stopAt validateRecursive
    rw [if_neg fun e => hq.1 e.symm]
    exact validateStep_congr fun q' j x hm c => stopAt_other (hq.2 (q', j, x) hm)

theorem made_points {env : Env} {σ : Sched} {h : Heap} {q : Path} {n root v} (hm : CallMade env σ h n root v q) :
    q ∈ points σ h n [] root v := by
  by_contra hq
  obtain ⟨⟨r, hr⟩, hp⟩ := hm
  rw [stopAt_other hq] at hp
  unfold validateDocument at hr
  rw [hr] at hp
  cases hp

theorem callsAtMost_points {env : Env} {σ : Sched} {h : Heap} {n root v} :
    CallsAtMost env σ h n root v (points σ h n [] root v).length := fun _ hn hL =>
  (List.subperm_of_subset hn fun q hq => made_points (hL q hq)).length_le

/-! ### How many -/

/-- What these calls cost if a call costs the weight of the schema times the size of the value. -/
def cost (W : Id → Nat) (L : List Visit) : Nat := (L.map fun c => W c.2.1 * c.2.2.size).sum

section
variable {W : Id → Nat}

theorem cost_append {L L' : List Visit} : cost W (L ++ L') = cost W L + cost W L' := by simp [cost]

theorem cost_nil : cost W [] = 0 := rfl

theorem cost_cons {c : Visit} {L : List Visit} : cost W (c :: L) = W c.2.1 * c.2.2.size + cost W L := by simp [cost]

theorem cost_flatMap {α} {f : α → List Visit} : ∀ {l : List α}, cost W (l.flatMap f) = (l.map fun a => cost W (f a)).sum
  | [] => rfl
  | a :: l => by simp only [List.flatMap_cons, cost_append, List.map_cons, List.sum_cons, cost_flatMap (l := l)]

theorem sum_le {α} {f g : α → Nat} : ∀ {l : List α}, (∀ a ∈ l, f a ≤ g a) → (l.map f).sum ≤ (l.map g).sum
  | [], _ => Nat.le_refl _
  | a :: l, h => by
    simp only [List.map_cons, List.sum_cons]
    exact Nat.add_le_add (h a (by simp)) (sum_le fun b hb => h b (by simp [hb]))

theorem sum_mul {α} {f : α → Nat} {k : Nat} : ∀ {l : List α}, (l.map fun a => f a * k).sum = (l.map f).sum * k
  | [] => by simp
  | a :: l => by simp only [List.map_cons, List.sum_cons, sum_mul (l := l), Nat.add_mul]

theorem mul_sum {α} {f : α → Nat} {k : Nat} : ∀ {l : List α}, (l.map fun a => k * f a).sum = k * (l.map f).sum
  | [] => by simp
  | a :: l => by simp only [List.map_cons, List.sum_cons, mul_sum (l := l), Nat.mul_add]

theorem sum_zipIdx {α} {f : α → Nat} {l : List α} {n} : ((l.zipIdx n).map fun x => f x.1).sum = (l.map f).sum := by
  have : (l.zipIdx n).map (fun x => f x.1) = ((l.zipIdx n).map Prod.fst).map f := by rw [List.map_map]; rfl
  rw [this, List.zipIdx_map_fst]

theorem sum_perm {α} {f : α → Nat} {l l' : List α} (h : l.Perm l') : (l.map f).sum = (l'.map f).sum := (h.map f).sum_eq

theorem sizeL_sum : ∀ {xs : List Json}, (xs.map Json.size).sum = Json.sizeL xs
  | [] => rfl
  | x :: xs => by simp only [List.map_cons, List.sum_cons, Json.sizeL, sizeL_sum (xs := xs)]

theorem sizeKV_sum : ∀ {m : List (String × Json)}, (m.map fun kv => 1 + kv.2.size).sum = Json.sizeKV m
  | [] => rfl
  | (k, x) :: m => by simp only [List.map_cons, List.sum_cons, Json.sizeKV, sizeKV_sum (m := m)]

variable {σ : Sched} {s : Sub} {p : Path} {v : Json} {kvs : List (String × Json)} {xs : List Json}

theorem listVisits_cost {t ids} : cost W (listVisits t p ids v) = (ids.map W).sum * v.size := by
  unfold cost listVisits
  rw [List.map_map, ← sum_mul]
  exact sum_zipIdx (f := fun i => W i * v.size)

theorem elemVisits_cost {t i n} : cost W (elemVisits t p i n xs) ≤ W i * Json.sizeL xs := by
  unfold cost elemVisits
  rw [List.map_map, ← sizeL_sum, ← mul_sum]
  exact Nat.le_of_eq (sum_zipIdx (f := fun x : Json => W i * x.size))

theorem opt_cost {q : Path} {o : Option Id} : cost W (o.toList.map fun i => (q, i, v)) = (o.toList.map W).sum * v.size := by
  cases o <;> simp [cost]

theorem sameVisits_cost : cost W (sameVisits s p v) =
    ((s.anyOf ++ s.oneOf ++ s.allOf ++ s.not.toList ++ s.if_.toList ++ s.then_.toList ++ s.else_.toList).map W).sum * v.size := by
  unfold sameVisits
  simp only [cost_append, listVisits_cost, opt_cost, List.map_append, List.sum_append, Nat.add_mul]

theorem key_other {β} {q k : String} {d : β} {ds : List (String × β)} (h : q ≠ k) : getKey q ((k, d) :: ds) = getKey q ds := by
  unfold getKey
  rw [List.lookup_cons]
  have : (q == k) = false := by simpa using h
  rw [this]

theorem key_first {β} {k : String} {d : β} {ds : List (String × β)} : getKey k ((k, d) :: ds) = some d := by
  unfold getKey
  rw [List.lookup_cons]
  simp

theorem key_mem {β} {k : String} {d : β} : ∀ {ds : List (String × β)}, getKey k ds = some d → (k, d) ∈ ds
  | [], h => by simp [getKey] at h
  | (k0, d0) :: ds, h => by
    by_cases e : k = k0
    · subst e
      rw [key_first] at h
      cases h
      simp
    · rw [key_other e] at h
      exact List.mem_cons_of_mem _ (key_mem h)

/-- Different keys find different entries. -/
theorem lookups_sum {β} {F : Option β → Nat} (h0 : F none = 0) : ∀ {ds : List (String × β)} {ks : List String}, ks.Nodup →
    (ks.map fun k => F (getKey k ds)).sum ≤ (ds.map fun d => F (some d.2)).sum
  | [], ks, _ => by
    have : ∀ k ∈ ks, F (getKey k ([] : List (String × β))) ≤ 0 := fun k _ => by simp [getKey, h0]
    have := sum_le this
    simpa using this
  | (k0, d) :: ds, ks, hn => by
    have ih := lookups_sum h0 (ds := ds) (ks := ks) hn
    simp only [List.map_cons, List.sum_cons]
    refine Nat.le_trans ?_ (Nat.add_le_add_left ih _)
    clear ih
    induction ks with
    | nil => simp
    | cons k ks ih =>
      obtain ⟨h1, h2⟩ := List.nodup_cons.1 hn
      simp only [List.map_cons, List.sum_cons]
      by_cases e : k = k0
      · subst e
        have same : ∀ q ∈ ks, F (getKey q ((k, d) :: ds)) ≤ F (getKey q ds) := by
          intro q hq
          have : q ≠ k := fun e => h1 (e ▸ hq)
          rw [key_other this]
          exact Nat.le_refl _
        rw [key_first]
        have := sum_le same
        omega
      · rw [key_other e]
        have := ih h2
        omega

theorem depVisits_cost (hk : (kvs.map Prod.fst).Nodup) : cost W (depVisits σ s p v kvs) ≤
    ((inPlace { doc := .null, draft := 0, dependencies := s.dependencies }).map W).sum * v.size := by
  unfold depVisits
  rw [cost_flatMap]
  let F : Option Dep → Nat := fun o => match o with | some (.schema i) => W i | _ => 0
  have e1 : ∀ x : (String × Json) × Nat, cost W (match getKey x.1.1 s.dependencies with
      | some (.schema i) => [((6 :: x.2 :: 5 :: p, i, v) : Visit)]
      | _ => []) = F (getKey x.1.1 s.dependencies) * v.size := by
    intro x
    cases getKey x.1.1 s.dependencies with
    | none => simp [cost, F]
    | some d => cases d <;> simp [cost, F]
  simp only [e1]
  rw [sum_mul]
  refine Nat.mul_le_mul_right _ ?_
  rw [sum_zipIdx (f := fun kv : String × Json => F (getKey kv.1 s.dependencies)), sum_perm (σ.perm _ _)]
  have e2 : kvs.map (fun kv : String × Json => F (getKey kv.1 s.dependencies)) =
      (kvs.map Prod.fst).map fun k => F (getKey k s.dependencies) := by simp
  rw [e2]
  refine Nat.le_trans (lookups_sum (F := F) rfl hk) (Nat.le_of_eq ?_)
  simp only [inPlace, Option.toList_none, List.append_nil, List.nil_append]
  induction s.dependencies with
  | nil => rfl
  | cons d ds ih =>
    obtain ⟨k, d⟩ := d
    cases d <;> simp [F, ih]

theorem extra_cost {q : Path} {e : Extra} {x : Json} :
    cost W ((extraId e).map fun i => (q, i, x)) = ((extraId e).map W).sum * x.size := by
  cases e <;> simp [cost, extraId]

theorem memberVisits_cost {kv : String × Json} : cost W (memberVisits σ s p kv) =
    ((s.patternProperties.map Prod.snd ++ extraId s.additionalProperties).map W).sum * kv.2.size := by
  unfold memberVisits
  rw [cost_append, extra_cost]
  unfold cost
  rw [List.map_map]
  have e : ((σ.order (14 :: p) s.patternProperties).zipIdx.map ((fun c : Visit => W c.2.1 * c.2.2.size) ∘
      fun y => (y.2 :: 15 :: p, y.1.2, kv.2))).sum = (s.patternProperties.map fun q => W q.2).sum * kv.2.size := by
    refine (sum_zipIdx (f := fun q : String × Id => W q.2 * kv.2.size)).trans ?_
    rw [sum_mul, sum_perm (σ.perm _ _)]
  rw [e]
  simp only [List.map_append, List.sum_append, List.map_map, Nat.add_mul]
  rfl

theorem members_size : (kvs.map fun kv => kv.2.size).sum + kvs.length = Json.sizeKV kvs := by
  induction kvs with
  | nil => rfl
  | cons kv kvs ih => obtain ⟨k, x⟩ := kv; simp only [List.map_cons, List.sum_cons, List.length_cons, Json.sizeKV, ← ih]; omega

theorem nameVisits_cost : cost W (nameVisits σ s p kvs) ≤ (s.propertyNames.toList.map W).sum * (Json.obj kvs).size := by
  unfold nameVisits
  cases s.propertyNames with
  | none => simp [cost]
  | some i =>
    simp only [Option.toList_some, List.flatMap_cons, List.flatMap_nil, List.append_nil, List.map_cons, List.map_nil, List.sum_cons,
      List.sum_nil, Nat.add_zero]
    unfold cost
    rw [List.map_map]
    refine Nat.le_trans (Nat.le_of_eq (sum_zipIdx (f := fun _ : String × Json => W i * 1))) ?_
    rw [sum_perm (σ.perm _ _), mul_sum]
    refine Nat.mul_le_mul_left _ ?_
    have := members_size (kvs := kvs)
    have : (kvs.map fun _ => 1).sum = kvs.length := by simp
    simp only [Json.size]
    omega

theorem propVisits_cost : cost W (propVisits s p kvs) ≤ ((s.propertiesChildren.map Prod.snd).map W).sum * (Json.obj kvs).size := by
  unfold propVisits
  rw [cost_flatMap, List.map_map, ← sum_mul]
  refine Nat.le_trans (sum_le (g := fun x => W x.1.2 * (Json.obj kvs).size) fun x _ => ?_) (Nat.le_of_eq ?_)
  · cases hx : getKey x.1.1 kvs with
    | none => simp [cost]
    | some y =>
      simp only [Option.toList_some, List.map_cons, List.map_nil, cost_cons, cost_nil, Nat.add_zero]
      exact Nat.mul_le_mul_left _ (Nat.le_of_lt (Nat.lt_of_succ_lt (Json.size_lt_of_mem_kv (key_mem hx))))
  · exact sum_zipIdx (f := fun x : String × Id => W x.2 * (Json.obj kvs).size)

theorem objVisits_cost : cost W (objVisits σ s p kvs) ≤ ((s.propertiesChildren.map Prod.snd ++ s.patternProperties.map Prod.snd ++
    extraId s.additionalProperties ++ s.propertyNames.toList).map W).sum * (Json.obj kvs).size := by
  unfold objVisits
  have e1 : cost W ((σ.order (13 :: p) kvs).zipIdx.flatMap fun x => memberVisits σ s (x.2 :: 13 :: p) x.1) ≤
      ((s.patternProperties.map Prod.snd ++ extraId s.additionalProperties).map W).sum * (Json.obj kvs).size := by
    rw [cost_flatMap]
    simp only [memberVisits_cost]
    rw [sum_zipIdx (f := fun kv : String × Json =>
      ((s.patternProperties.map Prod.snd ++ extraId s.additionalProperties).map W).sum * kv.2.size), mul_sum, sum_perm (σ.perm _ _)]
    refine Nat.mul_le_mul_left _ ?_
    have := members_size (kvs := kvs)
    simp only [Json.size]
    omega
  have e2 := nameVisits_cost (W := W) (σ := σ) (s := s) (p := p) (kvs := kvs)
  have e3 := propVisits_cost (W := W) (s := s) (p := p) (kvs := kvs)
  simp only [cost_append, List.map_append, List.sum_append, Nat.add_mul] at e1 e2 e3 ⊢
  omega

theorem zip_cost {k : Nat} : ∀ {is : List Id} {xs : List Json}, (∀ x ∈ xs, x.size ≤ k) →
    ((is.zip xs).map fun ix => W ix.1 * ix.2.size).sum ≤ (is.map W).sum * k
  | [], _, _ => by simp
  | _ :: _, [], _ => by simp
  | i :: is, x :: xs, h => by
    simp only [List.zip_cons_cons, List.map_cons, List.sum_cons, Nat.add_mul]
    exact Nat.add_le_add (Nat.mul_le_mul_left _ (h x (by simp))) (zip_cost fun y hy => h y (by simp [hy]))

theorem sizeL_drop (n : Nat) : Json.sizeL (xs.drop n) ≤ Json.sizeL xs := by
  induction xs generalizing n with
  | nil => simp
  | cons x xs ih =>
    cases n with
    | zero => exact Nat.le_refl _
    | succ n => simp only [List.drop_succ_cons, Json.sizeL]; have := ih n; omega

theorem itemVisits_cost : cost W (itemVisits s p xs) ≤ ((s.itemsChildren ++ extraId s.additionalItems).map W).sum * (Json.arr xs).size := by
  unfold itemVisits
  have le : Json.sizeL xs ≤ (Json.arr xs).size := by simp only [Json.size]; omega
  split
  · cases s.itemsChildren with
    | nil => simp [cost]
    | cons i is =>
      simp only [List.head?_cons, Option.toList_some, List.flatMap_cons, List.flatMap_nil, List.append_nil, List.cons_append,
        List.map_cons, List.sum_cons, Nat.add_mul]
      refine Nat.le_trans elemVisits_cost (Nat.le_trans (Nat.mul_le_mul_left _ le) (Nat.le_add_right _ _))
  · rw [cost_append]
    simp only [List.map_append, List.sum_append, Nat.add_mul]
    refine Nat.add_le_add ?_ ?_
    · unfold cost
      rw [List.map_map]
      refine Nat.le_trans (Nat.le_of_eq (sum_zipIdx (f := fun ix : Id × Json => W ix.1 * ix.2.size))) ?_
      exact zip_cost fun x hx => Nat.le_of_lt (Json.size_lt_of_mem hx)
    · cases s.additionalItems with
      | absent => simp [cost, extraId]
      | bool b => simp [cost, extraId]
      | schema i =>
        simp only [extraId, List.flatMap_cons, List.flatMap_nil, List.append_nil, List.map_cons, List.map_nil, List.sum_cons,
          List.sum_nil, Nat.add_zero]
        exact Nat.le_trans elemVisits_cost (Nat.mul_le_mul_left _ (Nat.le_trans (sizeL_drop _) le))

theorem arrVisits_cost : cost W (arrVisits s p xs) ≤
    ((s.itemsChildren ++ extraId s.additionalItems ++ s.contains.toList).map W).sum * (Json.arr xs).size := by
  unfold arrVisits
  have le : Json.sizeL xs ≤ (Json.arr xs).size := by simp only [Json.size]; omega
  have e1 := itemVisits_cost (W := W) (s := s) (p := p) (xs := xs)
  have e2 : cost W (s.contains.toList.flatMap fun i => elemVisits 12 p i 0 xs) ≤ (s.contains.toList.map W).sum * (Json.arr xs).size := by
    cases s.contains with
    | none => simp [cost]
    | some i =>
      simp only [Option.toList_some, List.flatMap_cons, List.flatMap_nil, List.append_nil, List.map_cons, List.map_nil, List.sum_cons,
          List.sum_nil, Nat.add_zero]
      exact Nat.le_trans elemVisits_cost (Nat.mul_le_mul_left _ le)
  simp only [cost_append, List.map_append, List.sum_append, Nat.add_mul] at e1 e2 ⊢
  omega

theorem nodeVisits_cost (hv : v.WF) (hr : s.refSchema = none) :
    cost W (nodeVisits σ s p v) ≤ ((inPlace s ++ nested s).map W).sum * v.size := by
  unfold nodeVisits inPlace nested
  rw [cost_append, sameVisits_cost, hr]
  cases v with
  | obj kvs =>
    have e1 := depVisits_cost (W := W) (σ := σ) (s := s) (p := p) (v := .obj kvs) (by cases hv; assumption)
    have e2 := objVisits_cost (W := W) (σ := σ) (s := s) (p := p) (kvs := kvs)
    simp only [inPlace, Option.toList_none, List.append_nil, List.nil_append] at e1
    simp only [cost_append, List.map_append, List.sum_append, Nat.add_mul, Option.toList_none, List.nil_append] at e1 e2 ⊢
    omega
  | arr xs =>
    have e1 := arrVisits_cost (W := W) (s := s) (p := p) (xs := xs)
    simp only [List.map_append, List.sum_append, Nat.add_mul, Option.toList_none, List.nil_append] at e1 ⊢
    omega
  | _ =>
    simp only [cost_nil, List.map_append, List.sum_append, Nat.add_mul, Option.toList_none, List.nil_append]
    omega

theorem order_mem {α} {q : Path} {l : List α} {x : α} {k n} (h : (x, k) ∈ (σ.order q l).zipIdx n) : x ∈ l :=
  (σ.perm q l).subset (List.fst_mem_of_mem_zipIdx h)

theorem elemVisits_wf {t i n} (hv : ∀ x ∈ xs, x.WF) {c : Visit} (hc : c ∈ elemVisits t p i n xs) : c.2.2.WF := by
  obtain ⟨x, hx, rfl⟩ := List.mem_map.1 hc
  exact hv _ (List.fst_mem_of_mem_zipIdx hx)

theorem stepVisits_wf {h : Heap} {i} (hv : v.WF) {c : Visit} (hc : c ∈ stepVisits σ h p i v) : c.2.2.WF := by
  unfold stepVisits at hc
  split at hc
  · cases hc
  · split at hc
    · cases hc
    · split at hc
      · rw [List.mem_singleton.1 hc]; exact hv
      · unfold nodeVisits sameVisits listVisits at hc
        replace hc := List.mem_append.1 hc
        rcases hc with hc | hc
        · simp only [List.mem_append, List.mem_map] at hc
          rcases hc with (((((⟨_, _, rfl⟩ | ⟨_, _, rfl⟩) | ⟨_, _, rfl⟩) | ⟨_, _, rfl⟩) | ⟨_, _, rfl⟩) | ⟨_, _, rfl⟩) | ⟨_, _, rfl⟩ <;> exact hv
        · split at hc
          · rename_i kvs
            have hm : ∀ kv ∈ kvs, kv.2.WF := by cases hv; assumption
            rcases List.mem_append.1 hc with hc | hc
            · obtain ⟨x, _, hx⟩ := List.mem_flatMap.1 hc
              split at hx
              · rw [List.mem_singleton.1 hx]; exact hv
              · cases hx
            · unfold objVisits at hc
              rcases List.mem_append.1 hc with hc | hc
              · rcases List.mem_append.1 hc with hc | hc
                · obtain ⟨⟨kv, k⟩, hk, hx⟩ := List.mem_flatMap.1 hc
                  have := hm kv (order_mem hk)
                  unfold memberVisits at hx
                  rcases List.mem_append.1 hx with hx | hx <;> obtain ⟨_, _, rfl⟩ := List.mem_map.1 hx <;> exact this
                · obtain ⟨_, _, hx⟩ := List.mem_flatMap.1 hc
                  obtain ⟨_, _, rfl⟩ := List.mem_map.1 hx
                  exact .str _
              · obtain ⟨q, _, hx⟩ := List.mem_flatMap.1 hc
                obtain ⟨y, hy, rfl⟩ := List.mem_map.1 hx
                exact hm _ (key_mem (Option.mem_toList.1 hy))
          · rename_i xs
            have hm : ∀ x ∈ xs, x.WF := by cases hv; assumption
            unfold arrVisits itemVisits at hc
            rcases List.mem_append.1 hc with hc | hc
            · split at hc
              · obtain ⟨_, _, hx⟩ := List.mem_flatMap.1 hc
                exact elemVisits_wf hm hx
              · rcases List.mem_append.1 hc with hc | hc
                · obtain ⟨⟨x, k⟩, hk, rfl⟩ := List.mem_map.1 hc
                  exact hm _ (List.of_mem_zip (List.fst_mem_of_mem_zipIdx hk)).2
                · obtain ⟨_, _, hx⟩ := List.mem_flatMap.1 hc
                  exact elemVisits_wf (fun x h => hm x (List.mem_of_mem_drop h)) hx
            · obtain ⟨_, _, hx⟩ := List.mem_flatMap.1 hc
              exact elemVisits_wf hm hx
          · cases hc

theorem stepVisits_cost {h : Heap} (hW : Weight h W) {i} (hv : v.WF) : 1 + cost W (stepVisits σ h p i v) ≤ W i * v.size := by
  have hs := v.size_pos
  have one : 1 ≤ W i * v.size := Nat.mul_pos (hW.pos i) hs
  unfold stepVisits
  split
  · simpa [cost] using one
  · rename_i s hi
    have := hW.more i s hi
    unfold uses at this
    split
    · simpa [cost] using one
    · rename_i hp
      rw [if_neg hp] at this
      split
      · rename_i j hj
        rw [hj] at this
        simp only [List.map_cons, List.map_nil, List.sum_cons, List.sum_nil, Nat.add_zero] at this
        simp only [cost_cons, cost_nil, Nat.add_zero]
        calc 1 + W j * v.size ≤ v.size + W j * v.size := Nat.add_le_add_right hs _
          _ = (1 + W j) * v.size := by rw [Nat.add_mul, Nat.one_mul]
          _ ≤ W i * v.size := Nat.mul_le_mul_right _ this
      · rename_i hj
        rw [hj] at this
        simp only at this
        have e := nodeVisits_cost (W := W) (σ := σ) (p := p) hv hj
        calc 1 + cost W (nodeVisits σ s p v) ≤ v.size + ((inPlace s ++ nested s).map W).sum * v.size := Nat.add_le_add hs e
          _ = (1 + ((inPlace s ++ nested s).map W).sum) * v.size := by rw [Nat.add_mul, Nat.one_mul]
          _ ≤ W i * v.size := Nat.mul_le_mul_right _ this

theorem points_length {h : Heap} (hW : Weight h W) : ∀ {n p i v}, v.WF → (points σ h n p i v).length ≤ W i * v.size
  | 0, p, i, v, _ => Nat.mul_pos (hW.pos i) v.size_pos
  | n + 1, p, i, v, hv => by
    have e := stepVisits_cost (σ := σ) (p := p) hW (i := i) hv
    unfold points
    simp only [List.length_cons, List.length_flatMap]
    have : ((stepVisits σ h p i v).map fun c => (points σ h n c.1 c.2.1 c.2.2).length).sum ≤ cost W (stepVisits σ h p i v) :=
      sum_le fun c hc => points_length hW (stepVisits_wf hv hc)
    omega

end
end GJS

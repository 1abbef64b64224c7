import Verif.SpecMetaWorld
import Verif.DemoWorld
import Verif.LemMetaPool
import Verif.PropDraft
import Verif.PropText
/-
A concrete world in which the built-in meta-schemas are found, for the examples.
-/
namespace GJS.Demo
open GJS Spec

/-- The world with the given documents, none of them in files. -/
def webWorld (docs : List (String × Json)) : World :=
  { world docs with isFile := fun _ => false, decode := fun t => (Text.decode Text.maxDepth (utf8 t)).toOption }

theorem baseOf_idem (r : String) : baseOf (baseOf r) = baseOf r := by
  unfold baseOf
  rw [String.toList_ofList]
  congr 1
  generalize r.toList = cs
  induction cs with
  | nil => rfl
  | cons c cs ih =>
    by_cases h : (c != '#') = true
    · simp [List.takeWhile, h, ih]
    · simp [List.takeWhile, h]

theorem baseOf_normOf (r : String) : baseOf (normOf r) = baseOf r := by
  unfold normOf
  split
  · exact baseOf_idem r
  · rfl

theorem webWorld_lawful {docs} (h : ∀ k d, getKey k docs = some d → d.WF) : Lawful (webWorld docs) where
  readFile := (world_lawful h).readFile
  http := (world_lawful h).http
  decode := (C54_lawful _ (world_lawful h)).decode
  pointer := (world_lawful h).pointer

theorem pointerOf_whole {r D} (h : fragOf r = []) : pointerOf r D = some D := by
  unfold pointerOf; rw [h]

theorem pointerOf_two {r cs a b m ds X} (h : fragOf r = '#' :: '/' :: cs) (ht : tokens cs = [a, b])
    (h1 : Kw m (String.ofList a) (.obj ds)) (h2 : Kw ds (String.ofList b) X) : pointerOf r (.obj m) = some X := by
  unfold Kw at h1 h2
  unfold pointerOf; rw [h]
  simp [ht, walk, h1, h2]

/-- A reference with a fragment. -/
theorem split_at {u x : String} (h : '#' ∉ u.toList) :
    baseOf (u ++ "#" ++ x) = u ∧ fragOf (u ++ "#" ++ x) = '#' :: x.toList := by
  have key : ∀ cs : List Char, '#' ∉ cs → (cs ++ '#' :: x.toList).takeWhile (· != '#') = cs ∧
      (cs ++ '#' :: x.toList).dropWhile (· != '#') = '#' :: x.toList := by
    intro cs
    induction cs with
    | nil => intro _; simp
    | cons c cs ih =>
      intro hc
      simp only [List.mem_cons, not_or] at hc
      obtain ⟨h1, h2⟩ := ih hc.2
      have : (c != '#') = true := by simpa using Ne.symm hc.1
      simp [this, h1, h2]
  have e : (u ++ "#" ++ x).toList = u.toList ++ '#' :: x.toList := by
    rw [String.toList_append, String.toList_append, List.append_assoc]
    rfl
  unfold baseOf fragOf
  rw [e, (key _ h).1, (key _ h).2, String.ofList_toList]
  exact ⟨rfl, rfl⟩

theorem normOf_part {u x : String} (h : '#' ∉ u.toList) (hx : x.toList ≠ []) : normOf (u ++ "#" ++ x) = u ++ "#" ++ x := by
  unfold normOf
  rw [(split_at h).2, if_neg]
  simpa using hx

theorem webInherits (docs b t) : ((webWorld docs).norm t).bind ((webWorld docs).inherits b) =
    some (if baseOf (normOf t) == "" then (if fragOf (normOf t) == [] then b else baseOf b ++ normOf t) else normOf t) := rfl

theorem webWorld_meta (docs) {u d} (hk : Known u d) : MetaWorld (webWorld docs) u := by
  have hu : '#' ∉ u.toList ∧ fragOf u = [] ∧ baseOf u = u ∧ u ≠ "" := by
    rcases hk with ⟨rfl, _⟩ | ⟨rfl, _⟩ | ⟨rfl, _⟩ <;> decide +kernel
  obtain ⟨h1, h2, h3, h4⟩ := hu
  have hn : normOf u = u := by unfold normOf; rw [h2]; rfl
  have hs : ∀ s ∈ Meta.names, Meta.part u s = u ++ "#" ++ ("/definitions/" ++ s) ∧ ("/definitions/" ++ s).toList ≠ [] ∧
      normOf ("#/definitions/" ++ s) = "#" ++ ("/definitions/" ++ s) ∧ baseOf ("#/definitions/" ++ s) = "" ∧
      fragOf ("#/definitions/" ++ s) ≠ [] ∧ ("/definitions/" ++ s).toList = '/' :: ("definitions/".toList ++ s.toList) ∧
      tokens ("definitions/".toList ++ s.toList) = ["definitions".toList, s.toList] := by
    intro s hs
    refine ⟨?_, ?_⟩
    · unfold Meta.part
      rw [← String.toList_inj]
      simp [String.toList_append]
    · revert s
      decide +kernel
  refine {
    decode := fun _ => rfl
    inherits := fun _ _ h => by cases h
    base := baseOf_idem
    root := fun e => h4 ((show baseOf "" = u from e).symm.trans (show baseOf "" = "" by decide +kernel))
    self := ⟨congrArg some hn, h3, congrArg some ?_, fun D => (pointerOf_whole h2 : pointerOf u D = some D)⟩
    hash := congrArg some ?_
    inside := ⟨?_, fun s h => ?_⟩
    part := fun s h => ⟨congrArg some ?_, ?_, fun m ds X k1 k2 => ?_⟩
    base_norm := fun r r' h => by cases h; exact baseOf_normOf r
    web := fun _ _ => rfl
    zero := rfl
    one := rfl }
  · rw [h3, if_neg (by simpa using h4)]
  · have e := split_at (x := "") h1
    rw [show u ++ "#" ++ "" = u ++ "#" by simp] at e
    unfold normOf
    rw [e.2]
    exact e.1
  · rw [webInherits, show normOf "#" = "" by decide +kernel, show baseOf "" = "" by decide +kernel, show fragOf "" = [] by decide +kernel]
    rfl
  · obtain ⟨a1, a2, a3, a4, a5, _⟩ := hs s h
    rw [webInherits, baseOf_normOf, a4, a3]
    have : (fragOf ("#" ++ ("/definitions/" ++ s)) == []) = false := by
      have e := split_at (u := "") (x := "/definitions/" ++ s) (by decide)
      rw [show "" ++ "#" = "#" by rfl] at e
      rw [e.2]; rfl
    rw [this, h3, a1, ← String.append_assoc]
    rfl
  · obtain ⟨a1, a2, _⟩ := hs s h
    rw [a1]; exact normOf_part h1 a2
  · rw [(hs s h).1]; exact (split_at h1).1
  · obtain ⟨a1, _, _, _, _, a6, a7⟩ := hs s h
    have e := (split_at (x := "/definitions/" ++ s) h1).2
    rw [← a1, a6] at e
    exact pointerOf_two e a7 (by rw [String.ofList_toList]; exact k1) (by rw [String.ofList_toList]; exact k2)

theorem known_unique {u d d'} (h : Known u d) (h' : Known u d') : d' = d := by
  rcases h with ⟨rfl, rfl⟩ | ⟨rfl, rfl⟩ | ⟨rfl, rfl⟩ <;> rcases h' with ⟨h, h'⟩ | ⟨h, h'⟩ | ⟨h, h'⟩ <;>
    first | exact h' | exact absurd h (by decide)

/-- The identifier of a meta-schema is absolute. -/
theorem webWorld_ids (docs) {u d} (hk : Known u d) (b : String) : idsIn (webWorld docs) b (Meta.doc d) = [u] := by
  have h := (abs_doc (webWorld_meta docs hk) hk).2
  obtain ⟨m, e, hm⟩ : ∃ m, Meta.doc d = .obj m ∧ idOf m = some (u ++ "#") := by
    rcases hk with ⟨rfl, rfl⟩ | ⟨rfl, rfl⟩ | ⟨rfl, rfl⟩ <;> exact ⟨_, rfl, by decide +kernel⟩
  have hu : (baseOf (normOf (u ++ "#")) == "") = false := by
    rcases hk with ⟨rfl, _⟩ | ⟨rfl, _⟩ | ⟨rfl, _⟩ <;> decide +kernel
  have key : ∀ b, ((webWorld docs).norm (u ++ "#")).bind ((webWorld docs).inherits b) = some (normOf (u ++ "#")) := by
    intro b
    rw [webInherits, hu]
    rfl
  have sc : ∀ b, scopeOf (webWorld docs) b m = normOf (u ++ "#") := by
    intro b; unfold scopeOf; rw [hm]; simp only; rw [key]; rfl
  have ids : ∀ b, absId (webWorld docs) b m = [normOf (u ++ "#")] := by
    intro b; unfold absId; rw [hm]; simp only; rw [key]; rfl
  rw [← h, e, idsIn, idsIn, sc, sc, ids, ids]

theorem web_other {docs n a} (h : getMetaSchema a = "") : loadFromHTTP (webWorld docs) n a = getKey a docs := by
  unfold loadFromHTTP
  rw [if_neg (by simp [h])]
  rfl

theorem web_known {docs n a d} (h : Known a d) : loadFromHTTP (webWorld docs) n a = some (Meta.doc d) := by
  have hg : getMetaSchema a ≠ "" := (C40_meta a).2 ⟨d, h⟩
  unfold loadFromHTTP
  rw [if_pos (by simpa using hg), (webWorld_meta docs h).decode, known_text h]
  rfl

theorem web_load {docs n f s} : loadReference (webWorld docs) n f s = loadFromHTTP (webWorld docs) n (baseOf s) := by
  unfold loadReference
  rw [show (webWorld docs).norm s = some (normOf s) from rfl]
  simp only
  rw [if_neg (by simp [webWorld]), show (webWorld docs).base (normOf s) = baseOf (normOf s) from rfl, baseOf_normOf]

theorem webWorld_apart {docs u} (h : ∀ k D, getKey k docs = some D → Foreign (webWorld docs) u D) :
    Apart (webWorld docs) u := by
  intro n f s D hs hl
  rw [web_load] at hl
  by_cases hg : getMetaSchema (baseOf s) = ""
  · exact h _ _ ((web_other hg).symm.trans hl)
  · obtain ⟨d', hk'⟩ := (C40_meta _).1 hg
    rw [web_known hk', Option.some.injEq] at hl
    intro b _ k hk2
    rw [← hl, webWorld_ids docs hk', List.mem_singleton] at hk2
    rw [hk2]
    exact fun e => hs (((baseOf_idem s).symm.trans e : baseOf s = u))

end GJS.Demo

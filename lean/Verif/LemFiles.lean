import Verif.LemAlike
import Verif.LemHistory
/-
Helper lemmas: file systems that are not in force are not read.
-/
namespace GJS
open Spec

variable {w : World} {σ : Sched} {g : Nat → Factory → String → Option Json} {fuel : Fuel} {p : Path}

/-- Both hold the same under every name. -/
def AgreeAt (w : World) (g : Nat → Factory → String → Option Json) (f : Factory) : Prop :=
  ∀ n name, g n f name = w.readFile n f name

/-- The file system in force is one on which both agree, and so is the default one if it may come into force. -/
def FilesOK (w : World) (g : Nat → Factory → String → Option Json) (l : LState) : Prop :=
  AgreeAt w g l.factory ∧ (l.validate = true → AgreeAt w g 0)

/-- The same loader, with nothing but agreed file systems in force. -/
def SameFiles (w : World) (g : Nat → Factory → String → Option Json) (l l' : LState) : Prop := l = l' ∧ FilesOK w g l

theorem Twin.diag {P : τ → Prop} {x : M τ α} (h : Tri P x (fun _ => True)) : Twin (fun s s' => s = s' ∧ P s) x x := by
  refine ⟨?_⟩
  rintro s _ ⟨rfl, hs⟩
  exact ⟨rfl, rfl, (h s hs).1⟩

theorem filesOK_cfg {l l' : LState} (h1 : l'.factory = l.factory) (h2 : l'.validate = l.validate) (h : FilesOK w g l) :
    FilesOK w g l' := by
  unfold FilesOK
  rw [h1, h2]
  exact h

theorem loadReference_files {n f s} (h : AgreeAt w g f) : loadReference w n f s = loadReference { w with readFile := g } n f s := by
  unfold loadReference
  simp only
  split
  · rfl
  · have : w.readFile n f = g n f := funext fun x => (h n x).symm
    rw [this]
    rfl

theorem fetch_files {r} : Twin (SameFiles w g) (fetch w r) (fetch { w with readFile := g } r) := by
  refine ⟨?_⟩
  rintro l _ ⟨rfl, hl⟩
  unfold fetch
  simp only
  rw [← loadReference_files hl.1]
  split <;> exact ⟨rfl, rfl, hl⟩

theorem parseReferences_kept {doc ref pooled} : Tri (FilesOK w g) (parseReferences w σ p doc ref pooled) (fun _ => True) := by
  intro l hl
  obtain ⟨h1, _⟩ := parseReferences_tri (W := False) (w := w) (σ := σ) (p := p) (doc := doc) (ref := ref)
    (pooled := pooled) (l0 := l) False.elim False.elim
  exact ⟨filesOK_cfg h1.cfg.1 (parseReferences_keep l) hl, fun _ _ _ => trivial⟩

theorem rewrite_files {draft} : ∀ {n p ref doc}, rewrite { w with readFile := g } σ draft n p ref doc = rewrite w σ draft n p ref doc
  | 0, _, _, _ => rfl
  | n + 1, p, ref, doc => by
    have : rewrite { w with readFile := g } σ draft n = rewrite w σ draft n :=
      funext fun _ => funext fun _ => funext fun _ => rewrite_files
    cases doc with
    | arr xs => unfold rewrite; simp only [this]
    | obj m => unfold rewrite; simp only [this]; rfl
    | _ => rfl

theorem parseReferences_files {doc ref pooled} :
    parseReferences { w with readFile := g } σ p doc ref pooled = parseReferences w σ p doc ref pooled := by
  unfold parseReferences
  simp only [rewrite_files]
  rfl

theorem parseReferencesIgnore_files {doc ref} :
    parseReferencesIgnore { w with readFile := g } σ p doc ref = parseReferencesIgnore w σ p doc ref := by
  unfold parseReferencesIgnore
  simp only [parseReferences_files]
  rfl

theorem parseReferencesIgnore_kept {doc ref} : Tri (FilesOK w g) (parseReferencesIgnore w σ p doc ref) (fun _ => True) := by
  intro l hl
  have h := (parseReferences_kept (σ := σ) (p := p) (doc := doc) (ref := ref) (pooled := true) l hl).1
  refine ⟨?_, fun _ _ _ => trivial⟩
  unfold parseReferencesIgnore
  rcases hx : parseReferences w σ p doc ref true l with ⟨(e | _ | _) | x, t⟩ <;> rw [hx] at h <;> exact h

theorem schemaDraftIgnore_kept {doc} : Tri (FilesOK w g) (schemaDraftIgnore w doc) (fun _ => True) := schemaDraftIgnore_still.tri

theorem putPool_kept {k d} : Tri (FilesOK w g) (putPool k d) (fun _ => True) := fun _ h => ⟨h, fun _ _ _ => trivial⟩

theorem poolGet_same {k} : Twin (SameFiles w g) (poolGet k) (poolGet k) := .diag fun _ h => ⟨h, fun _ _ _ => trivial⟩

theorem pointerGet_same {r d} : Twin (SameFiles w g) (pointerGet w r d) (pointerGet { w with readFile := g } r d) := by
  unfold pointerGet
  simp only
  split
  · exact .pure
  · exact .err

theorem getDocument_files : GetAlike w σ (SameFiles w g) g := by
  intro p u
  unfold getDocument getCached getRemote
  simp only [parseReferencesIgnore_files]
  refine .bind poolGet_same fun e => ?_
  split
  · exact .pure
  · refine .bind poolGet_same fun e => ?_
    split
    · exact .bind pointerGet_same fun _ => .bind (.diag putPool_kept) fun _ => .pure
    · split
      · exact .err
      · exact .bind fetch_files fun _ => .bind (.diag parseReferencesIgnore_kept) fun _ =>
          .bind (.diag schemaDraftIgnore_kept) fun _ => .bind pointerGet_same fun _ => .pure

/-! ### The loader -/

theorem loadJSON_files {a} (ha : AgreeAt w g a.factory) :
    Twin (SameFiles w g) (loadJSON w a) (loadJSON { w with readFile := g } a) := by
  refine ⟨?_⟩
  rintro l _ ⟨rfl, hl⟩
  unfold loadJSON
  split
  · exact ⟨rfl, rfl, hl⟩
  · exact ⟨rfl, rfl, hl⟩
  · rename_i source fs
    simp only
    rw [← loadReference_files (f := fs) ha]
    split <;> exact ⟨rfl, rfl, hl⟩

theorem rootDocument_files {a ref} (ha : AgreeAt w g a.factory) :
    Twin (SameFiles w g) (rootDocument w σ p a ref) (rootDocument { w with readFile := g } σ p a ref) := by
  unfold rootDocument
  simp only [parseReferences_files]
  split
  · exact .bind (getDocument_files _ _) fun _ => .pure
  · exact .bind (loadJSON_files ha) fun _ => .bind (.diag parseReferences_kept) fun _ => .diag failIf_still.tri

theorem whenValidate_files {x y} (h : AgreeAt w g 0 → Twin (SameFiles w g) x y) :
    Twin (SameFiles w g) (whenValidate x) (whenValidate y) := by
  refine .getBind ?_
  rintro l _ ⟨rfl, hl⟩
  split
  · rename_i hv
    exact h (hl.2 hv)
  · exact .pure

theorem compileG_files {hook hook' a} (ha : AgreeAt w g a.factory)
    (h : AgreeAt w g 0 → ∀ p D, Twin (SameFiles w g) (hook p D) (hook' p D)) {l : LState} (hv : l.validate = true → AgreeAt w g 0) :
    compileG w σ fuel hook p a l = compileG { w with readFile := g } σ fuel hook' p a l ∧
      ((compileG w σ fuel hook p a l).2 = l ∨ FilesOK w g (compileG w σ fuel hook p a l).2) := by
  unfold compileG
  show (match a.ref w with
      | none => _
      | some ref => _ : M LState Schema) l = (match a.ref w with
      | none => _
      | some ref => _ : M LState Schema) l ∧ _
  cases a.ref w with
  | none => exact ⟨rfl, .inl rfl⟩
  | some ref =>
    have T : Twin (SameFiles w g)
        (do let doc ← rootDocument w σ p a ref
            whenValidate (hook p doc)
            let draft ← rootDraft w doc
            runParse w σ fuel (62 :: p) ref doc draft)
        (do let doc ← rootDocument { w with readFile := g } σ p a ref
            whenValidate (hook' p doc)
            let draft ← rootDraft { w with readFile := g } doc
            runParse { w with readFile := g } σ fuel (62 :: p) ref doc draft) :=
      .bind (rootDocument_files ha) fun _ => .bind (whenValidate_files fun h0 => h h0 _ _) fun _ =>
        .bind (.diag rootDraft_still.tri) fun _ => runParse_files getDocument_files
    obtain ⟨h1, h2, h3⟩ := T.run { l with factory := a.factory } _ ⟨rfl, ha, hv⟩
    exact ⟨Prod.ext h1 h2, .inr h3⟩

theorem metaSchemaURL_kept {doc} : Tri (FilesOK w g) (metaSchemaURL w doc) (fun _ => True) := metaSchemaURL_still.tri

theorem validateMetaschema_files {doc} (h0 : AgreeAt w g 0) :
    Twin (SameFiles w g) (validateMetaschema w σ fuel p doc) (validateMetaschema { w with readFile := g } σ fuel p doc) := by
  unfold validateMetaschema compileInner
  refine .bind (.diag metaSchemaURL_kept) fun u => ?_
  cases u with
  | none => exact .pure
  | some s =>
    refine .bind (.modify ?_) fun _ => .bind ?_ fun _ => .bind (.modify ?_) fun _ => ?_
    · rintro l _ ⟨rfl, hl⟩
      exact ⟨rfl, hl.1, fun h => by simp at h⟩
    · refine ⟨?_⟩
      rintro l _ ⟨rfl, hl⟩
      obtain ⟨h1, h2⟩ := compileG_files (σ := σ) (fuel := fuel) (p := 63 :: p) (hook := fun _ _ => return ()) (hook' := fun _ _ => return ())
        (a := .reference s 0) h0 (fun _ _ _ => .pure) (l := l) hl.2
      refine ⟨by rw [h1], by rw [h1], ?_⟩
      rcases h2 with h2 | h2
      · rw [h2]; exact hl
      · exact h2
    · rintro l _ ⟨rfl, hl⟩
      exact ⟨rfl, hl.1, fun _ => h0⟩
    · exact .diag checkDocument_still.tri

end GJS

import Verif.LemRefLoader
import Verif.DemoWorld
import Verif.PropMeta
import Verif.CasesValidate
/-
C73: what a reference loader reads, from which file or address, and what it leaves open.
-/
namespace GJS
open Spec Ref
open GJS.Io (Bytes)

namespace Ref

theorem status_text (pr : Msg.Printer) (s : String) :
    Msg.formatErrorDescription pr "Could not read schema from HTTP, response status is {{.status}}" [("status", .str s)] =
      "Could not read schema from HTTP, response status is " ++ s := by
  have h : Msg.parseFormat "Could not read schema from HTTP, response status is {{.status}}" =
      some [.text "Could not read schema from HTTP, response status is ", .field "status", .text ""] := by decide +kernel
  simp [Msg.formatErrorDescription, h, Msg.renderPieces, Msg.renderPiece, getKey, Msg.Printer.print]

/-- The three ways of a load. -/
theorem load_cases (w : World) (pr : Msg.Printer) (m : Machine) (n : Nat) (f : Factory) (source : String) :
    (w.norm source = none ∧ loadJSON w pr m n f source = ([], .error .reference)) ∨
    (∃ r, w.norm source = some r ∧ w.isFile r = true ∧ (∀ name, ¬ FileNamed m.windows (utf8 (w.base r)) name) ∧
      loadJSON w pr m n f source = ([], .error .escape)) ∨
    (∃ r name, w.norm source = some r ∧ w.isFile r = true ∧ FileNamed m.windows (utf8 (w.base r)) name ∧
      loadJSON w pr m n f source = loadFromFile m n f name) ∨
    (∃ r D, w.norm source = some r ∧ w.isFile r = false ∧ (w.base r, D) ∈ embedded ∧
      loadJSON w pr m n f source = ([], .ok D)) ∨
    (∃ r, w.norm source = some r ∧ w.isFile r = false ∧ w.base r ∉ embedded.map Prod.fst ∧
      loadJSON w pr m n f source =
        match m.get n (w.base r) with
        | none => ([.unanswered (w.base r)], .error .get)
        | some a =>
          if a.code = 200 then ([.answered (w.base r), .readAll], readBytes a.body)
          else ([.answered (w.base r)], .error (.status ("Could not read schema from HTTP, response status is " ++ a.status)))) := by
  cases hn : w.norm source with
  | none => exact .inl ⟨rfl, by simp [Ref.loadJSON, hn]⟩
  | some r =>
    right
    cases hf : w.isFile r with
    | true =>
      cases hm : fileName m.windows (utf8 (w.base r)) with
      | none =>
        exact .inl ⟨r, rfl, hf, fun name h => (by rw [fileName_iff.2 h] at hm; cases hm), by simp [Ref.loadJSON, hn, hf, hm]⟩
      | some name => exact .inr (.inl ⟨r, name, rfl, hf, fileName_iff.1 hm, by simp [Ref.loadJSON, hn, hf, hm]⟩)
    | false =>
      right; right
      by_cases he : w.base r ∈ embedded.map Prod.fst
      · obtain ⟨⟨u, D⟩, hD, hu⟩ := List.mem_map.1 he
        simp only at hu
        subst hu
        refine .inl ⟨r, D, rfl, hf, hD, ?_⟩
        simp [Ref.loadJSON, hn, hf, loadFromHTTP, metaSchema_embedded.2 he, (embedded_decode he).2 hD, Except.mapError]
      · refine .inr ⟨r, rfl, hf, he, ?_⟩
        have : getMetaSchema (w.base r) = "" := not_not.1 fun h => he (metaSchema_embedded.1 h)
        simp only [Ref.loadJSON, hn, hf, loadFromHTTP, this]
        cases m.get n (w.base r) with
        | none => simp
        | some a => by_cases hc : a.code = 200 <;> simp [hc, status_text]

theorem readBytes_error {s : Source} {e : LoadErr} (h : readBytes s = .error e) : Unreadable s e := by
  unfold readBytes at h
  cases hf : s.fails with
  | true => simp [hf] at h; subst h; exact .read hf
  | false =>
    simp only [hf, Bool.false_eq_true, if_false] at h
    cases hd : Text.decode Text.maxDepth s.bytes with
    | ok D => simp [hd, Except.mapError] at h
    | error x =>
      simp only [hd, Except.mapError, Except.error.injEq] at h
      subst h
      refine .decode x hf fun D hD => ?_
      rw [(C54_decode _ _ _).2 hD] at hd
      cases hd

/-- The name of a file is determined by the reference. -/
theorem fileNamed_unique {win : Bool} {u a b : Bytes} (h : FileNamed win u a) (h' : FileNamed win u b) : a = b :=
  Option.some.inj ((fileName_iff.2 h).symm.trans (fileName_iff.2 h'))

end Ref

namespace Ref

/-- What `getRemote` returns is a part of the document that is loaded, with its references made absolute unless its
`$schema` cannot be read. -/
theorem getRemote_loads {w : World} {σ : Sched} {p r l e l'} (hw : Lawful w) (h2 : getKey (w.base r) l.pool = none)
    (h : getRemote w σ p r l = (.ok e, l')) :
    ∃ d0 D, loadReference w l.clock l.factory r = some d0 ∧ (Rw w (w.base r) d0 D ∨ (SchemaBad w d0 ∧ D = d0)) ∧
      w.pointer r D = some e.doc := by
  unfold getRemote at h
  split at h
  · simp at h
  · obtain ⟨doc, l1, h3, h4⟩ := M.bind_ok.1 h
    unfold fetch at h3
    simp only at h3
    cases hl : loadReference w l.clock l.factory r with
    | none => rw [hl] at h3; simp at h3
    | some d0 =>
      rw [hl] at h3
      simp only [Prod.mk.injEq, Except.ok.injEq] at h3
      obtain ⟨rfl, rfl⟩ := h3
      obtain ⟨D, l2, h5, h6⟩ := M.bind_ok.1 h4
      obtain ⟨dr2, l4, h7, h8⟩ := M.bind_ok.1 h6
      obtain ⟨d, l5, h9, h10⟩ := M.bind_ok.1 h8
      rw [M.pure_ok] at h10
      obtain ⟨rfl, rfl⟩ := h10
      refine ⟨d0, D, rfl, ?_, ?_⟩
      · unfold parseReferencesIgnore at h5
        cases hx : parseReferences w σ p d0 (w.base r) true { l with log := l.log ++ [(l.factory, r)] } with
        | mk rx l3 =>
          rw [hx] at h5
          cases rx with
          | error f =>
            cases f with
            | err ce =>
              simp only [Prod.mk.injEq, Except.ok.injEq] at h5
              exact .inr ⟨((parseReferences_pooled (l0 := { l with log := l.log ++ [(l.factory, r)] }) h2).2 _ _ hx).2, h5.1.symm⟩
            | panic => simp at h5
            | fuel => simp at h5
          | ok x =>
            simp only [Prod.mk.injEq, Except.ok.injEq] at h5
            obtain ⟨rfl, rfl⟩ := h5
            left
            have hin : inPool (w.base r) { l with log := l.log ++ [(l.factory, r)] } =
                (.ok (existsMapKey l.pool (w.base r)), { l with log := l.log ++ [(l.factory, r)] }) := inPool_ok.2 ⟨rfl, rfl⟩
            have hf : existsMapKey l.pool (w.base r) = false := existsMapKey_false.2 h2
            simp only [parseReferences, M.bind_ok, hin, hf] at hx
            obtain ⟨b, l1, h1, hx⟩ := hx
            simp only [Prod.mk.injEq, Except.ok.injEq] at h1
            obtain ⟨rfl, rfl⟩ := h1
            simp only [Bool.and_false, Bool.false_eq_true, if_false, M.bind_ok, putIf, if_true, putPool_run, M.pure_ok] at hx
            obtain ⟨dr, l1, hd, y, l2, hy, _, l3, h3, rfl, rfl⟩ := hx
            exact (rewrite_rw _ _ _ _ (loadReference_wf hw hl) l1 trivial).2 _ _ hy
      · unfold pointerGet at h9
        cases hp : w.pointer r D with
        | none => rw [hp] at h9; simp at h9
        | some x => rw [hp] at h9; simp only [M.pure_ok] at h9; rw [h9.1]

end Ref

/-- C73, what is read.  `LoadJSON` of a reference yields exactly the document that the reference leads to: the text
in the file of that name, or the document that comes with the package, or the text answered by that address. -/
theorem C73_reads (w : World) (pr : Msg.Printer) (m : Machine) (n : Nat) (f : Factory) (source : String) (D : Json) :
    (Ref.loadJSON w pr m n f source).2 = .ok D ↔ LeadsTo w m n f source D := by
  constructor
  · intro h
    rcases load_cases w pr m n f source with ⟨_, e⟩ | ⟨_, _, _, _, e⟩ | ⟨r, name, h1, h2, h3, e⟩ | ⟨r, D', h1, h2, h3, e⟩ |
      ⟨r, h1, h2, h3, e⟩ <;> rw [e] at h
    · cases h
    · cases h
    · unfold loadFromFile at h
      cases ho : m.openFile n f name with
      | none => simp [ho] at h
      | some s =>
        simp only [ho] at h
        exact .file r name s D h1 h2 h3 ho (readBytes_iff.1 h).1 (readBytes_iff.1 h).2
    · cases h; exact .own r D h1 h2 h3
    · cases hg : m.get n (w.base r) with
      | none => simp [hg] at h
      | some a =>
        simp only [hg] at h
        by_cases hc : a.code = 200
        · rw [if_pos hc] at h
          exact .web r a D h1 h2 h3 hg hc (readBytes_iff.1 h).1 (readBytes_iff.1 h).2
        · rw [if_neg hc] at h; cases h
  · intro h
    cases h with
    | file r name s D h1 h2 h3 ho hf hs =>
      simp only [Ref.loadJSON, h1, h2, if_true, fileName_iff.2 h3, loadFromFile, ho]
      exact readBytes_iff.2 ⟨hf, hs⟩
    | own r D h1 h2 h3 =>
      have he : w.base r ∈ embedded.map Prod.fst := List.mem_map.2 ⟨_, h3, rfl⟩
      simp [Ref.loadJSON, h1, h2, Ref.loadFromHTTP, metaSchema_embedded.2 he, (embedded_decode he).2 h3, Except.mapError]
    | web r a D h1 h2 h3 hg hc hf hs =>
      have : getMetaSchema (w.base r) = "" := not_not.1 fun h => h3 (metaSchema_embedded.1 h)
      simp only [Ref.loadJSON, h1, h2, Ref.loadFromHTTP, this, hg, hc]
      exact readBytes_iff.2 ⟨hf, hs⟩

/-- C73, why it fails.  Each error is returned only for the reason it names. -/
theorem C73_fails (w : World) (pr : Msg.Printer) (m : Machine) (n : Nat) (f : Factory) (source : String) (e : LoadErr)
    (h : (Ref.loadJSON w pr m n f source).2 = .error e) : FailsFor w m n f source e := by
  rcases load_cases w pr m n f source with ⟨h0, e'⟩ | ⟨r, h1, h2, h3, e'⟩ | ⟨r, name, h1, h2, h3, e'⟩ | ⟨r, D', h1, h2, h3, e'⟩ |
    ⟨r, h1, h2, h3, e'⟩ <;> rw [e'] at h
  · cases h; exact .reference h0
  · cases h; exact .escape r h1 h2 h3
  · unfold loadFromFile at h
    cases ho : m.openFile n f name with
    | none => simp only [ho] at h; cases h; exact .open_ name ⟨r, h1, h2, h3⟩ ho
    | some s => simp only [ho] at h; exact .file name s e ⟨r, h1, h2, h3⟩ ho (readBytes_error h)
  · cases h
  · cases hg : m.get n (w.base r) with
    | none => simp only [hg] at h; cases h; exact .get _ ⟨r, h1, h2, rfl, h3⟩ hg
    | some a =>
      simp only [hg] at h
      by_cases hc : a.code = 200
      · rw [if_pos hc] at h; exact .web _ a e ⟨r, h1, h2, rfl, h3⟩ hg hc (readBytes_error h)
      · rw [if_neg hc] at h; cases h; exact .status _ a ⟨r, h1, h2, rfl, h3⟩ hg hc

/-- C73, where it looks.  A load opens no file and asks no address but the one the reference stands for, and at most
one of either kind. -/
theorem C73_only (w : World) (pr : Msg.Printer) (m : Machine) (n : Nat) (f : Factory) (source : String) :
    (∀ name, .opened name ∈ (Ref.loadJSON w pr m n f source).1 ∨ .refused name ∈ (Ref.loadJSON w pr m n f source).1 →
      AsksFile w m source name) ∧
    (∀ a, .answered a ∈ (Ref.loadJSON w pr m n f source).1 ∨ .unanswered a ∈ (Ref.loadJSON w pr m n f source).1 →
      AsksWeb w source a) ∧
    ((Ref.loadJSON w pr m n f source).1.filter fun e => e matches .opened _ | .refused _ | .answered _ | .unanswered _).length ≤ 1 := by
  rcases load_cases w pr m n f source with ⟨h0, e'⟩ | ⟨r, h1, h2, h3, e'⟩ | ⟨r, name, h1, h2, h3, e'⟩ | ⟨r, D', h1, h2, h3, e'⟩ |
    ⟨r, h1, h2, h3, e'⟩ <;> rw [e']
  · simp
  · simp
  · unfold loadFromFile
    cases m.openFile n f name <;> simp <;> exact ⟨r, h1, h2, h3⟩
  · simp
  · have ha : AsksWeb w source (w.base r) := ⟨r, h1, h2, rfl, h3⟩
    cases m.get n (w.base r) with
    | none => simpa using ha
    | some a => by_cases hc : a.code = 200 <;> simpa [hc] using ha

/-- C73, the documents of the package need no network: they are found whatever the outside is, and nothing is asked
of it. -/
theorem C73_offline (w : World) (pr : Msg.Printer) (m : Machine) (n : Nat) (f : Factory) (source r : String) (D : Json)
    (h1 : w.norm source = some r) (h2 : w.isFile r = false) (h3 : (w.base r, D) ∈ embedded) :
    Ref.loadJSON w pr m n f source = ([], .ok D) := by
  have he : w.base r ∈ embedded.map Prod.fst := List.mem_map.2 ⟨_, h3, rfl⟩
  simp [Ref.loadJSON, h1, h2, Ref.loadFromHTTP, metaSchema_embedded.2 he, (embedded_decode he).2 h3, Except.mapError]

/-- C73, files.  A file that is opened is read and then closed, once, whatever comes of reading and decoding it. -/
theorem C73_closed (w : World) (pr : Msg.Printer) (m : Machine) (n : Nat) (f : Factory) (source : String) (i : Nat) (name : Bytes)
    (h : (Ref.loadJSON w pr m n f source).1[i]? = some (.opened name)) :
    (∃ j k, i < j ∧ j < k ∧ (Ref.loadJSON w pr m n f source).1[j]? = some .readAll ∧
      (Ref.loadJSON w pr m n f source).1[k]? = some .closed) ∧
    (Ref.loadJSON w pr m n f source).1.count .closed = 1 := by
  rcases load_cases w pr m n f source with ⟨h0, e'⟩ | ⟨r, h1, h2, h3, e'⟩ | ⟨r, name, h1, h2, h3, e'⟩ | ⟨r, D', h1, h2, h3, e'⟩ |
    ⟨r, h1, h2, h3, e'⟩ <;> rw [e'] at h ⊢
  · simp at h
  · simp at h
  · unfold loadFromFile at h ⊢
    cases ho : m.openFile n f name with
    | none =>
      simp only [ho] at h
      match i, h with
      | 0, h => simp at h
      | i + 1, h => simp at h
    | some s =>
      simp only [ho] at h ⊢
      match i, h with
      | 0, h => exact ⟨⟨1, 2, by decide, by decide, rfl, rfl⟩, rfl⟩
      | 1, h => simp at h
      | 2, h => simp at h
      | i + 3, h => simp at h
  · simp at h
  · cases hg : m.get n (w.base r) with
    | none =>
      simp only [hg] at h
      match i, h with
      | 0, h => simp at h
      | i + 1, h => simp at h
    | some a =>
      simp only [hg] at h
      by_cases hc : a.code = 200
      · rw [if_pos hc] at h
        match i, h with
        | 0, h => simp at h
        | 1, h => simp at h
        | i + 2, h => simp at h
      · rw [if_neg hc] at h
        match i, h with
        | 0, h => simp at h
        | i + 1, h => simp at h

/-- C73 (finding), responses.  The body of a response is never closed. -/
theorem C73_body_open (w : World) (pr : Msg.Printer) (m : Machine) (n : Nat) (f : Factory) (source : String) :
    .bodyClosed ∉ (Ref.loadJSON w pr m n f source).1 := by
  rcases load_cases w pr m n f source with ⟨h0, e'⟩ | ⟨r, h1, h2, h3, e'⟩ | ⟨r, name, h1, h2, h3, e'⟩ | ⟨r, D', h1, h2, h3, e'⟩ |
    ⟨r, h1, h2, h3, e'⟩ <;> rw [e']
  · simp
  · simp
  · unfold loadFromFile
    cases m.openFile n f name <;> simp
  · simp
  · cases m.get n (w.base r) with
    | none => simp
    | some a => by_cases hc : a.code = 200 <;> simp [hc]

/-- C73, responses other than `200` are refused with their status, and not read. -/
theorem C73_status (w : World) (pr : Msg.Printer) (m : Machine) (n : Nat) (f : Factory) (source u : String) (a : Response)
    (h : AsksWeb w source u) (hg : m.get n u = some a) (hc : a.code ≠ 200) :
    Ref.loadJSON w pr m n f source =
      ([.answered u], .error (.status ("Could not read schema from HTTP, response status is " ++ a.status))) := by
  obtain ⟨r, h1, h2, rfl, h3⟩ := h
  have : getMetaSchema (w.base r) = "" := not_not.1 fun h => h3 (metaSchema_embedded.1 h)
  simp [Ref.loadJSON, h1, h2, Ref.loadFromHTTP, this, hg, hc, status_text]

/-- C73, names of files, positive part: where neither `%` nor `+` occurs, the name is what is written. -/
theorem C73_plain_names (p t : Bytes) (hp : ∀ c ∈ p, c ∉ ascii "%+") : Unescapes p t ↔ t = p := by
  induction p generalizing t with
  | nil =>
    constructor
    · intro h; cases h; rfl
    · rintro rfl; exact .nil
  | cons c p ih =>
    have hc := hp c (by simp)
    rw [ascii_both] at hc
    constructor
    · intro h
      have ih := ih (t := t.tail) (fun c h => hp c (by simp [h]))
      generalize hs : c :: p = s at h
      cases h with
      | nil => cases hs
      | hex a b i j s t _ _ h => rw [ascii_percent] at hs; cases hs; simp at hc
      | plus s t h => rw [ascii_plus] at hs; cases hs; simp at hc
      | same c' s t _ h => cases hs; have := ih.1 h; simp only [List.tail_cons] at this; rw [this]
    · rintro rfl
      exact .same _ _ _ (hp c (by simp)) ((ih _ fun c h => hp c (by simp [h])).2 rfl)

/-- C73 (finding), names of files: a path with a `+` in it never leads to the file of that name. -/
theorem C73_plus (p t : Bytes) (h : Unescapes p t) (hp : (0x2B : UInt8) ∈ p) : t ≠ p := by
  have key : t.length ≤ p.length ∧ (t = p → (0x2B : UInt8) ∉ p) := by
    clear hp
    induction h with
    | nil => simp
    | hex a b i j s t _ _ _ ih =>
      rw [ascii_percent]
      refine ⟨by simp; omega, fun e => ?_⟩
      have := congrArg List.length e
      simp at this
      omega
    | plus s t _ ih =>
      rw [ascii_plus, ascii_space]
      exact ⟨by simpa using ih.1, fun e => absurd (List.cons.inj e).1 (by decide)⟩
    | same c s t hc _ ih =>
      rw [ascii_both] at hc
      simp only [List.mem_cons, List.not_mem_nil, or_false, not_or] at hc
      refine ⟨by simpa using ih.1, fun e hm => ?_⟩
      rcases List.mem_cons.1 hm with e' | hm
      · exact hc.2 e'.symm
      · exact ih.2 (List.cons.inj e).2 hm
  exact fun e => key.2 e hp

/-- C73, the rest of the model.  What the schema pool and the loaders of the API see of the outside is what these
loads yield; so everything proved of them holds of files and addresses too. -/
theorem C73_world (w : World) (pr : Msg.Printer) (m : Machine) (n : Nat) (f : Factory) (source : String) :
    loadReference (m.world w) n f source = (Ref.loadJSON w pr m n f source).2.toOption := by
  unfold loadReference Ref.loadJSON Machine.world
  simp only
  cases w.norm source with
  | none => rfl
  | some r =>
    simp only
    cases hf : w.isFile r with
    | true =>
      simp only [if_true]
      cases hm : fileName m.windows (utf8 (w.base r)) with
      | none => simp [Except.toOption]
      | some name => simp [hm]
    | false =>
      simp only [Bool.false_eq_true, if_false]
      unfold GJS.loadFromHTTP Ref.loadFromHTTP
      by_cases he : getMetaSchema (w.base r) = ""
      · simp only [he, bne_self_eq_false, Bool.false_eq_true, if_false]
        cases m.get n (w.base r) with
        | none => rfl
        | some a => by_cases hc : a.code = 200 <;> simp [hc, Except.toOption]
      · simp only [bne_iff_ne, ne_eq, he, not_false_eq_true, if_true]
        cases Text.decode Text.maxDepth (utf8 (getMetaSchema (w.base r))) <;> rfl

/-- C73, the documents found are well-formed, as the other theorems demand. -/
theorem C73_lawful (w : World) (m : Machine) (hp : ∀ r D d, w.pointer r D = some d → D.WF → d.WF) : Lawful (m.world w) where
  pointer := hp
  decode := fun t d h => by
    simp only [Machine.world] at h
    cases hd : Text.decode Text.maxDepth (utf8 t) with
    | error e => rw [hd] at h; cases h
    | ok v => rw [hd] at h; cases h; exact ((C54_range _ _).1 ⟨_, hd⟩).1
  readFile := fun n f name d h => by
    simp only [Machine.world, Option.bind_eq_some_iff] at h
    obtain ⟨name', _, h⟩ := h
    unfold loadFromFile at h
    cases ho : m.openFile n f name' with
    | none => simp [ho, Except.toOption] at h
    | some s =>
      simp only [ho] at h
      cases hr : readBytes s with
      | error e => rw [hr] at h; cases h
      | ok v => rw [hr] at h; cases h; exact ((C54_range _ _).1 ⟨_, (C54_decode _ _ _).2 (readBytes_iff.1 hr).2⟩).1
  http := fun n u d h => by
    simp only [Machine.world] at h
    cases hg : m.get n u with
    | none => simp [hg] at h
    | some a =>
      simp only [hg] at h
      by_cases hc : a.code = 200
      · simp only [hc, bne_self_eq_false, Bool.false_eq_true, if_false] at h
        cases hr : readBytes a.body with
        | error e => rw [hr] at h; cases h
        | ok v => rw [hr] at h; cases h; exact ((C54_range _ _).1 ⟨_, (C54_decode _ _ _).2 (readBytes_iff.1 hr).2⟩).1
      · simp [hc] at h

/-- C73 for `NewSchema`.  The schema that `NewSchema` compiles for a reference is the part that the reference selects
of the document it leads to (through the file system of its loader), with the references in it made absolute. -/
theorem C73_newSchema (w : World) (m : Machine) (hp : ∀ r D d, w.pointer r D = some d → D.WF → d.WF) (σ : Sched) (fuel : Fuel)
    (source : String) (f : Factory) (ref : String) (hr : w.norm source = some ref) (hne : ref ≠ "") (s : Schema)
    (h : newSchema (m.world w) σ fuel (.reference source f) = .ok s) :
    ∃ D0 D X n, LeadsTo w m 0 f ref D0 ∧ (Rw (m.world w) (w.base ref) D0 D ∨ (SchemaBad (m.world w) D0 ∧ D = D0)) ∧
      w.pointer ref D = some X ∧ s.heap[s.root]? = some n ∧ n.doc = X := by
  have hw := C73_lawful w m hp
  unfold newSchema at h
  have hc : compile (m.world w) σ fuel [] (.reference source f) newSchemaLoader =
      (.ok s, (compile (m.world w) σ fuel [] (.reference source f) newSchemaLoader).2) := Prod.ext h rfl
  have hr' : LoaderArg.ref (m.world w) (.reference source f) = some ref := hr
  unfold compile compileG at hc
  rw [hr'] at hc
  simp only at hc
  obtain ⟨_, l1, h1, hc⟩ := M.bind_ok.1 hc
  obtain ⟨X, l2, h2, hc⟩ := M.bind_ok.1 hc
  obtain ⟨_, l3, h3, hc⟩ := M.bind_ok.1 hc
  obtain ⟨d, l4, h4, h5⟩ := M.bind_ok.1 hc
  rw [M.modify_ok] at h1
  have wf1 : PoolWF l1 := by rw [← h1]; intro k e h; cases h
  have ha : ∀ D, LoaderArg.reference source f = .direct (some D) → D.WF := by intro D h; cases h
  have R2 := rootDocument_safe (p := []) (ref := ref) (poolWF_inv hw σ) (fun _ => argOK_wf hw ha) trivial l1 wf1
  rw [h2] at R2
  have hX := R2.2.1 _ _ rfl
  have R3 := whenValidate_safe (validateMetaschema_safe (doc := X) (fuel := fuel) (p := []) (poolWF_inv hw σ) id
    (refsOK_wf hw) hX) l2 R2.1
  rw [h3] at R3
  obtain ⟨rfl, rfl⟩ := rootDraft_ok h4
  obtain ⟨n, g1, _, g3⟩ := (runParse_good hw R3.1 hX h5).root
  unfold rootDocument at h2
  rw [if_pos (by simpa using hne)] at h2
  obtain ⟨e, l5, h6, h7⟩ := M.bind_ok.1 h2
  rw [M.pure_ok] at h7
  have hg : getRemote (m.world w) σ (60 :: []) ref l1 = (.ok e, l5) := by
    unfold getDocument at h6
    obtain ⟨e1, l6, p1, h6⟩ := M.bind_ok.1 h6
    have q : ∀ k, poolGet k l1 = (.ok none, l1) := by
      intro k; rw [← h1]; rfl
    rw [q] at p1
    cases p1
    simp only at h6
    obtain ⟨e2, l7, p2, h6⟩ := M.bind_ok.1 h6
    rw [q] at p2
    cases p2
    exact h6
  obtain ⟨d0, D, k1, k2, k3⟩ := getRemote_loads hw (by rw [← h1]; rfl) hg
  refine ⟨d0, D, X, n, ?_, k2, ?_, g1, g3⟩
  · rw [← h1] at k1
    rw [← C73_reads w ⟨fun _ => "", fun _ _ => ""⟩ m 0 f ref d0]
    have e1 : loadReference (m.world w) 0 f ref = some d0 := k1
    rw [C73_world w ⟨fun _ => "", fun _ _ => ""⟩] at e1
    cases hl : (Ref.loadJSON w ⟨fun _ => "", fun _ _ => ""⟩ m 0 f ref).2 with
    | error e => rw [hl] at e1; cases e1
    | ok v => rw [hl] at e1; cases e1; rfl
  · rw [← h7.1]; exact k3

namespace Demo

/-- References that start with `file:` are files. -/
def netWorld : World := { world [] with isFile := fun r => r.toList.take 5 == "file:".toList }

/-- One file with a space in its name, one that cannot be read, one that is no JSON; one address that answers and one
that answers with an error. -/
def machine : Machine where
  openFile _ f name :=
    if f != 0 then none
    else if name = ascii "/a b.json" then some ⟨ascii "{\"x\": {\"type\": \"string\"}} rest", false⟩
    else if name = ascii "/broken" then some ⟨ascii "{}", true⟩
    else if name = ascii "/no.json" then some ⟨ascii "{\"x\"", false⟩
    else none
  get _ u :=
    if u = "http://x/s" then some ⟨200, "200 OK", ⟨ascii "{\"type\": \"null\"}", false⟩⟩
    else if u = "http://x/gone" then some ⟨404, "404 Not Found", ⟨ascii "{}", false⟩⟩
    else none

/-- A printer. -/
def silent : Msg.Printer := ⟨fun _ => "", fun _ _ => ""⟩

/-- What a load fails with. -/
def failsB (o : List Event × Except LoadErr Json) (e : LoadErr) : Bool :=
  match o.2 with
  | .error x => x == e
  | .ok _ => false

theorem fails_eq {o e} (h : failsB o e = true) : o.2 = .error e := by
  match o, h with
  | (_, .error _), h => exact congrArg _ (by simpa [failsB] using h)

-- the document of a file, its name percent-encoded or with a plus, and what is done for it
theorem file_bytes : loadFromFile machine 0 0 (ascii "/a b.json") =
    ([.opened (ascii "/a b.json"), .readAll, .closed], .ok (.obj [("x", .obj [("type", .str "string")])])) := by
  have h : machine.openFile 0 0 (ascii "/a b.json") = some ⟨ascii "{\"x\": {\"type\": \"string\"}} rest", false⟩ := by
    simp [machine]
  simp only [loadFromFile, h]
  rfl
theorem file_found : (Ref.loadJSON netWorld silent machine 0 0 "file:///a%20b.json#/x") =
    ([.opened (ascii "/a b.json"), .readAll, .closed], .ok (.obj [("x", .obj [("type", .str "string")])])) := by
  have h1 : netWorld.norm "file:///a%20b.json#/x" = some "file:///a%20b.json#/x" := by decide +kernel
  have h2 : netWorld.isFile "file:///a%20b.json#/x" = true := by decide +kernel
  have h3 : fileName machine.windows (utf8 (netWorld.base "file:///a%20b.json#/x")) = some (ascii "/a b.json") := by decide +kernel
  simp only [Ref.loadJSON, h1, h2, h3, if_true, file_bytes]
example : LeadsTo netWorld machine 0 0 "file:///a%20b.json#/x" (.obj [("x", .obj [("type", .str "string")])]) :=
  (C73_reads _ silent _ _ _ _ _).1 (by rw [file_found])
example : (Ref.loadJSON netWorld silent machine 0 0 "file:///a+b.json") =
    ([.opened (ascii "/a b.json"), .readAll, .closed], .ok (.obj [("x", .obj [("type", .str "string")])])) := by
  have h1 : netWorld.norm "file:///a+b.json" = some "file:///a+b.json" := by decide +kernel
  have h2 : netWorld.isFile "file:///a+b.json" = true := by decide +kernel
  have h3 : fileName machine.windows (utf8 (netWorld.base "file:///a+b.json")) = some (ascii "/a b.json") := by decide +kernel
  simp only [Ref.loadJSON, h1, h2, h3, if_true, file_bytes]
example : Unescapes (ascii "a+b") (ascii "a b") := unescape_iff.1 rfl
example : ascii "a b" ≠ ascii "a+b" := C73_plus _ _ (unescape_iff.1 rfl) (by decide)
example : Unescapes (ascii "/a.json") (ascii "/a.json") := (C73_plain_names _ _ (by decide)).2 rfl
-- on Windows
example : fileName true (utf8 "file:///C:/a%20b.json") = some (ascii "C:\\a b.json") := by decide +kernel
example : FileNamed true (utf8 "file:///C:/a%20b.json") (ascii "C:\\a b.json") := fileName_iff.1 (by decide +kernel)
-- another file system does not have the file
example : (Ref.loadJSON netWorld silent machine 0 1 "file:///a%20b.json#/x").2 = .error .open_ := fails_eq (by decide +kernel)
example : (Ref.loadJSON netWorld silent machine 0 1 "file:///a%20b.json#/x").1 = [.refused (ascii "/a b.json")] := by
  decide +kernel
-- each of the errors
example : FailsFor netWorld machine 0 0 "file:///%zz" .escape := 
  C73_fails _ silent _ _ _ _ _ (fails_eq (by decide +kernel))
example : FailsFor netWorld machine 0 1 "file:///a" .open_ := 
  C73_fails _ silent _ _ _ _ _ (fails_eq (by decide +kernel))
example : FailsFor netWorld machine 0 0 "file:///broken" .read := 
  C73_fails _ silent _ _ _ _ _ (fails_eq (by decide +kernel))
example : FailsFor netWorld machine 0 0 "file:///no.json" (.decode .unexpectedEof) := 
  C73_fails _ silent _ _ _ _ _ (fails_eq (by decide +kernel))
example : FailsFor netWorld machine 0 0 "http://y" .get := 
  C73_fails _ silent _ _ _ _ _ (fails_eq (by decide +kernel))
example : FailsFor { netWorld with norm := fun _ => none } machine 0 0 "%" .reference := 
  C73_fails _ silent _ _ _ _ _ (fails_eq (by decide +kernel))
-- where it looks
example : AsksFile netWorld machine "file:///a%20b.json#/x" (ascii "/a b.json") :=
  (C73_only netWorld silent machine 0 0 _).1 _ (.inl (by rw [file_found]; simp))
example : AsksWeb netWorld "http://x/s#/definitions/a" "http://x/s" :=
  (C73_only netWorld silent machine 0 0 _).2.1 _ (.inl (by decide +kernel))
-- closed
example := C73_closed netWorld silent machine 0 0 "file:///broken" 0 (ascii "/broken") (by decide +kernel)
example := C73_closed netWorld silent machine 0 0 "file:///no.json" 0 (ascii "/no.json") (by decide +kernel)
-- a response is read and left open
theorem web_found : (Ref.loadJSON netWorld silent machine 0 0 "http://x/s") =
    ([.answered "http://x/s", .readAll], .ok (.obj [("type", .str "null")])) := rfl
example : LeadsTo netWorld machine 0 0 "http://x/s" (.obj [("type", .str "null")]) :=
  (C73_reads _ silent _ _ _ _ _).1 (by rw [web_found])
example : .bodyClosed ∉ (Ref.loadJSON netWorld silent machine 0 0 "http://x/s").1 := C73_body_open _ _ _ _ _ _
-- and refused if it is not 200
example : Ref.loadJSON netWorld silent machine 0 0 "http://x/gone#" =
    ([.answered "http://x/gone"], .error (.status "Could not read schema from HTTP, response status is 404 Not Found")) :=
  C73_status netWorld silent machine 0 0 _ _ ⟨404, "404 Not Found", ⟨ascii "{}", false⟩⟩
    ⟨"http://x/gone", rfl, rfl, rfl, by decide⟩ rfl (by decide)
-- a document of the package, with nothing outside
example : Ref.loadJSON netWorld silent ⟨false, fun _ _ _ => none, fun _ _ => none⟩ 0 0 "http://json-schema.org/draft-07/schema#" =
    ([], .ok Meta.draft7) :=
  C73_offline _ _ _ _ _ _ _ _ rfl rfl (.tail _ (.tail _ (.head _)))

theorem netWorld_pointer : ∀ r D d, netWorld.pointer r D = some d → D.WF → d.WF :=
  (world_lawful (docs := []) (by intro k d h; cases h)).pointer
example : Lawful (machine.world netWorld) := C73_lawful _ _ netWorld_pointer
example : loadReference (machine.world netWorld) 0 0 "http://x/s" = some (.obj [("type", .str "null")]) := by
  rw [C73_world _ silent, web_found]
  rfl

-- NewSchema of a reference
theorem net_compiles : okE (newSchema (machine.world netWorld) Sched.id ⟨50, 50⟩ (.reference "file:///a%20b.json#/x" 0)) = true := by
  decide +kernel
example := C73_newSchema netWorld machine netWorld_pointer Sched.id ⟨50, 50⟩ "file:///a%20b.json#/x" 0
  "file:///a%20b.json#/x" rfl (by decide) _ (outE_eq net_compiles)

end Demo

end GJS

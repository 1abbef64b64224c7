import Verif.SpecIo
/-
Loaders fed by a reader or a writer: C39.
-/
namespace GJS.Io
open Spec

theorem decodeLoop_suffix (sc : Scanner α) : ∀ n cap have_ buf, (decodeLoop sc n cap have_ buf).2 <:+ buf
  | 0, _, _, buf => List.suffix_refl buf
  | n + 1, cap, have_, buf => by
    unfold decodeLoop
    split
    · exact List.suffix_refl buf
    · split
      · exact List.suffix_refl _
      · exact (decodeLoop_suffix sc n _ _ _).trans (List.drop_suffix _ _)

theorem load_suffix (sc : Scanner α) (buf : Bytes) : (loadJSON sc buf).2 <:+ buf := decodeLoop_suffix sc _ _ _ _

/-- C39: for any reader and any program, with loads in between: the program gets from the returned reader
what it would have got from the source, the source ends up in the same state, and the bytes
taken by loads followed by the source text of the loader are the bytes transferred, in order. -/
theorem C39_reader (source : Reader τ) (sc : Scanner α) (ops : List ReadOp) (t : τ) (buf : Bytes) :
    let out := runReads source sc ops (t, buf)
    out.1 = (direct source (sizes ops) t).1 ∧ out.2.1 = (direct source (sizes ops) t).2 ∧
      jsonSource out.2.2 <:+ buf ++ (out.1.map Prod.fst).flatten := by
  induction ops generalizing t buf with
  | nil => simp [runReads, direct, sizes, jsonSource]
  | cons op ops ih =>
    cases op with
    | load =>
      obtain ⟨h1, h2, h3⟩ := ih t (loadJSON sc buf).2
      refine ⟨h1, h2, h3.trans ?_⟩
      obtain ⟨c, hc⟩ := load_suffix sc buf
      exact ⟨c, by rw [← List.append_assoc, hc]; rfl⟩
    | read n =>
      cases hr : source.read t n with
      | mk r t' =>
        obtain ⟨p, err⟩ := r
        have hb : ((teeReader source).read (t, buf) n) = ((p, err), (t', buf ++ p)) := by
          simp only [teeReader, hr]
          split
          · rfl
          · have : p = [] := List.length_eq_zero_iff.1 (by omega)
            simp [this]
        obtain ⟨h1, h2, h3⟩ := ih t' (buf ++ p)
        simp only [runReads, hb, direct, sizes, hr]
        refine ⟨by rw [h1], h2, ?_⟩
        simpa using h3

/-- C39: without loads, the source text is exactly what was transferred. -/
theorem C39_reader_source (source : Reader τ) (sc : Scanner α) (ns : List Nat) (t : τ) :
    let out := runReads source sc (ns.map .read) (t, [])
    jsonSource out.2.2 = (out.1.map Prod.fst).flatten := by
  suffices h : ∀ buf, jsonSource (runReads source sc (ns.map .read) (t, buf)).2.2 =
      buf ++ ((runReads source sc (ns.map .read) (t, buf)).1.map Prod.fst).flatten by simpa using h []
  induction ns generalizing t with
  | nil => intro buf; simp [runReads, jsonSource]
  | cons n ns ih =>
    intro buf
    cases hr : source.read t n with
    | mk r t' =>
      obtain ⟨p, err⟩ := r
      have hb : ((teeReader source).read (t, buf) n) = ((p, err), (t', buf ++ p)) := by
        simp only [teeReader, hr]
        split
        · rfl
        · have : p = [] := List.length_eq_zero_iff.1 (by omega)
          simp [this]
      simp only [List.map_cons, runReads, hb, ih t' (buf ++ p)]
      simp

theorem multi_write (source : Writer τ) (t : τ) (buf p : Bytes) :
    (multiWriter source).write (t, buf) p = (reported p (source.write t p).1,
      ((source.write t p).2, buf ++ (if (source.write t p).1.2 = none ∧ (source.write t p).1.1 = p.length then p else []))) := by
  cases hr : source.write t p with
  | mk r t' =>
    obtain ⟨n, err⟩ := r
    cases err with
    | some e => simp [multiWriter, hr, reported]
    | none =>
      by_cases h : n = p.length
      · simp [multiWriter, hr, reported, h]
      · simp [multiWriter, hr, reported, h]

/-- C39: for any writer and any program, with loads in between: the source gets the writes of the
program, the answers are those of the source (a short write becomes an error), and the bytes taken by
loads followed by the source text of the loader are the texts the source took completely, in order. -/
theorem C39_writer (source : Writer τ) (sc : Scanner α) (ops : List WriteOp) (t : τ) (buf : Bytes) :
    let out := runWrites source sc ops (t, buf)
    out.1 = List.zipWith reported (texts ops) (directW source (texts ops) t).1 ∧
      out.2.1 = (directW source (texts ops) t).2 ∧
      jsonSource out.2.2 <:+ buf ++ taken (texts ops) (directW source (texts ops) t).1 := by
  induction ops generalizing t buf with
  | nil => simp [runWrites, directW, texts, jsonSource, taken]
  | cons op ops ih =>
    cases op with
    | load =>
      obtain ⟨h1, h2, h3⟩ := ih t (loadJSON sc buf).2
      refine ⟨h1, h2, h3.trans ?_⟩
      obtain ⟨c, hc⟩ := load_suffix sc buf
      exact ⟨c, by rw [← List.append_assoc, hc]; rfl⟩
    | write p =>
      obtain ⟨h1, h2, h3⟩ := ih (source.write t p).2
        (buf ++ (if (source.write t p).1.2 = none ∧ (source.write t p).1.1 = p.length then p else []))
      simp only [runWrites, multi_write, directW, texts, List.zipWith_cons_cons]
      refine ⟨by rw [h1], h2, ?_⟩
      simpa [taken] using h3

/-- C39: without loads, the source text is exactly the texts taken completely. -/
theorem C39_writer_source (source : Writer τ) (sc : Scanner α) (ps : List Bytes) (t : τ) :
    jsonSource (runWrites source sc (ps.map .write) (t, [])).2.2 = taken ps (directW source ps t).1 := by
  suffices h : ∀ buf, jsonSource (runWrites source sc (ps.map .write) (t, buf)).2.2 = buf ++ taken ps (directW source ps t).1 by
    simpa using h []
  induction ps generalizing t with
  | nil => intro buf; simp [runWrites, jsonSource, taken]
  | cons p ps ih =>
    intro buf
    simp only [List.map_cons, runWrites, multi_write, ih, directW]
    simp [taken]

/-- C39: for a writer that takes everything, the source text is all that was written. -/
theorem C39_writer_all (source : Writer τ) (sc : Scanner α) (ps : List Bytes) (t : τ)
    (h : ∀ t p, (source.write t p).1 = (p.length, none)) :
    jsonSource (runWrites source sc (ps.map .write) (t, [])).2.2 = ps.flatten := by
  rw [C39_writer_source]
  induction ps generalizing t with
  | nil => rfl
  | cons p ps ih => simp [directW, taken, h, ih]

/-- C39: loading empties the buffer, if it has less than 512 bytes and is not already
decided without looking at it. The text is decoded as a whole. -/
theorem C39_load_small (sc : Scanner α) (buf : Bytes) (hn : sc.scan [] = none) (h : buf.length ≤ 512) :
    loadJSON sc buf = ((sc.scan buf).getD (sc.atEnd buf), []) := by
  cases buf with
  | nil => simp [loadJSON, decodeLoop, hn]
  | cons b r =>
    have ht : (b :: r).take 512 = b :: r := List.take_of_length_le h
    have hd : (b :: r).drop 512 = [] := List.drop_eq_nil_of_le h
    unfold loadJSON
    rw [List.length_cons, decodeLoop]
    simp only [hn, List.length_nil, Nat.sub_zero, Nat.zero_lt_succ, if_true, Nat.mul_zero, Nat.zero_add, ht, hd]
    simp only [List.nil_append]
    rw [decodeLoop]
    split
    · rename_i x hx; simp [hx]
    · rename_i hx; simp [hx]

/-- C39 (finding): so a reader or writer loader loads its document once. A second load finds an empty
buffer. -/
theorem C39_load_twice (sc : Scanner α) (buf : Bytes) (hn : sc.scan [] = none) (h : buf.length ≤ 512) :
    loadJSON sc (loadJSON sc buf).2 = (sc.atEnd [], []) := by
  rw [C39_load_small sc buf hn h]
  simp [loadJSON, decodeLoop, hn]

namespace Demo

/-- A reader of a fixed text that delivers at most two bytes at a time, the last ones together with the end. -/
def pairs : Reader Bytes where
  read t n := ((t.take (min n 2), if t.length ≤ min n 2 then some .eof else none), t.drop (min n 2))

/-- A writer that has room for three bytes. -/
def small : Writer Bytes where
  write t p := ((min p.length (3 - t.length), if p.length ≤ 3 - t.length then none else some (.other "full")), t ++ p.take (3 - t.length))

/-- A scanner for texts ending in 0. -/
def zeroScan : Scanner Bytes where
  scan b := if b.contains 0 then some (.ok (b.takeWhile (· != 0))) else none
  atEnd b := if b = [] then .error .eof else .error .unexpectedEof

example : runReads pairs zeroScan [.read 5, .read 1, .read 5] ([7, 8, 9, 0], []) =
    ([([7, 8], none), ([9], none), ([0], some .eof)], ([], [7, 8, 9, 0])) := by rfl

example : (loadJSON zeroScan [7, 8, 9, 0]).2 = [] ∧ (loadJSON zeroScan [7, 8, 9, 0]).1.toOption = some [7, 8, 9] := by decide

end Demo

/-- C39 (finding): the text of a writer loader can lack bytes that reached the destination, namely those of a
write that was not completed. -/
theorem C39_partial_write :
    ∃ out, runWrites Demo.small Demo.zeroScan [.write [1, 2], .write [3, 4]] ([], []) = out ∧
      out.1 = [(2, none), (1, some (.other "full"))] ∧ out.2.1 = [1, 2, 3] ∧ jsonSource out.2.2 = [1, 2] :=
  ⟨_, rfl, by decide, by decide, by decide⟩

end GJS.Io

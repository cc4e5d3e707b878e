import Verif.Compression.Lemmas
/-
Property theorems C01-C08 about /repo/utilities/compression.
-/
namespace Disko.Compression
open Disko Disko.Compression.Spec

/-- **C01** Decompressing what CompressRLE8 wrote returns the input, with nil errors and
exact counts, for every input. -/
theorem C01_rle8_roundtrip (x : Bytes) :
    (compressRLE8 bufferSink ⟨x, none⟩ []).err = none ∧
    decompressRLE8 bufferSink ⟨(compressRLE8 bufferSink ⟨x, none⟩ []).out, none⟩ [] =
      ⟨x, x.length, none⟩ := by
  obtain ⟨h1, h2, _⟩ := runLoop_buffer chunks8 _ (emitRun8_eq bufferSink) ⟨x, none⟩
  obtain ⟨h3, o, h4⟩ := idealRun_rle8 ⟨x, none⟩ rfl RLE8.empty (by simp)
  refine ⟨by rw [compressRLE8, h2, h3], ?_⟩
  unfold compressRLE8 decompressRLE8
  rw [h1]
  have := decLoop_grammar h4 none [] [] 0
  simp only [List.nil_append, List.append_nil] at this
  rw [this]; simp [decLoop]

-- a non-trivial case: a run longer than 257 bytes next to short runs
example : (compressRLE8 bufferSink ⟨List.replicate 259 7 ++ [1, 1, 2], none⟩ []).out =
    [7, 7, 255, 7, 7, 0, 1, 1, 0, 2] := by decide +kernel

/-- **C02** Repeated GetNextRun calls return exactly the maximal runs of the input and then
io.EOF (inputs shorter than math.MaxInt; a longer input cannot exist in memory). -/
theorem C02_runs_maximal (x : Bytes) (hx : x.length < maxInt) :
    MaximalRuns x (collectRuns ⟨x, none⟩).1 ∧ (collectRuns ⟨x, none⟩).2 = .eof ∧
    ∀ rs, MaximalRuns x rs → rs = (collectRuns ⟨x, none⟩).1 := by
  obtain ⟨rs, h⟩ := maximalRuns_exist x
  have := collectRuns_eq h hx
  refine ⟨by rw [this]; exact h, by rw [this], fun rs' h' => ?_⟩
  rw [collectRuns_eq h' hx]

/-- **C02** (second part) When the reader fails, the runs before the failure are returned and
then exactly that error with the invalid run; the run being read is dropped. -/
theorem C02_read_error (x : Bytes) (e : Nat) :
    (collectRuns ⟨x, some e⟩).2 = .io e ∧
    (∃ n b, x = expand (collectRuns ⟨x, some e⟩).1 ++ List.replicate n b) ∧
    (∀ r ∈ (collectRuns ⟨x, some e⟩).1, 1 ≤ r.runLength) := by
  induction h : x.length using Nat.strongRecOn generalizing x with
  | ind l ih =>
    cases x with
    | nil =>
      rw [collectRuns_end (getNextRun_nil (some e))]
      simp [Src.endErr, invalidRLERun, expand]
    | cons b cs =>
      obtain ⟨n, t, h1, h2, h3, h4⟩ := getNextRun_spec b cs (some e)
      rcases h4 with ⟨hg, h4⟩ | ⟨_, _, he, _⟩ | ⟨ht, h5, e', he, hg⟩
      · have hlt : t.length < l := by
          have := congrArg List.length h1; simp at this h; omega
        obtain ⟨i1, ⟨m, b', i2⟩, i3⟩ := ih _ hlt t rfl
        rw [collectRuns_more hg]
        refine ⟨i1, ⟨m, b', ?_⟩, ?_⟩
        · rw [expand_cons, List.append_assoc, ← i2, h1]
        · intro r hr
          simp only [List.mem_cons] at hr
          rcases hr with rfl | hr
          · exact h2
          · exact i3 r hr
      · simp at he
      · rw [collectRuns_end hg]
        simp only [Option.some.injEq] at he
        refine ⟨by rw [he], ⟨n, b, ?_⟩, by simp [invalidRLERun]⟩
        simp [invalidRLERun, expand, h1, ht]

/-- **C02** (second part, exactly) When the reader fails, all maximal runs of what it delivered but
the last are returned, and then its error. -/
theorem C02_read_error_exact (x : Bytes) (e : Nat) (hx : x.length < maxInt) (rs : List ByteRun)
    (h : MaximalRuns x rs) : collectRuns ⟨x, some e⟩ = (rs.dropLast, .io e) :=
  collectRuns_fail e h hx

example : collectRuns ⟨[5, 5, 5, 9, 5], none⟩ = ([⟨5, 3⟩, ⟨9, 1⟩, ⟨5, 1⟩], .eof) := by decide +kernel
example : collectRuns ⟨[5, 5, 9, 9], some 3⟩ = ([⟨5, 2⟩], .io 3) := by decide +kernel

/-- **C03** CompressRLE8 with an arbitrary (possibly failing) output and an arbitrary input
stream: full delivery and exact count, or the write error, a prefix, and no over-count. -/
theorem C03_compressRLE8 {W : Type} (k : Sink W) (w : W) (hw : k.failure w = none) (s : Src) :
    DeliversOrReports k .write w (compressRLE8 bufferSink s []).out (compressRLE8 bufferSink s []).err
      (compressRLE8 k s w) := by
  obtain ⟨h1, h2, _⟩ := runLoop_buffer chunks8 _ (emitRun8_eq bufferSink) s
  have := runLoop_spec k chunks8 _ (emitRun8_eq k) s w 0 hw
  unfold DeliversOrReports compressRLE8
  rw [h1, h2]; simpa using this

/-- **C03** for CompressRLERecursive. -/
theorem C03_compressRLERecursive {W : Type} (k : Sink W) (w : W) (hw : k.failure w = none)
    (s : Src) :
    DeliversOrReports k .write w (compressRLERecursive bufferSink s []).out
      (compressRLERecursive bufferSink s []).err (compressRLERecursive k s w) := by
  obtain ⟨h1, h2, _⟩ := runLoop_buffer chunksRec _ (emitRunRec_eq bufferSink) s
  have := runLoop_spec k chunksRec _ (emitRunRec_eq k) s w 0 hw
  unfold DeliversOrReports compressRLERecursive
  rw [h1, h2]; simpa using this

/-- **C03** for DecompressRLERecursive. -/
theorem C03_decompressRLERecursive {W : Type} (k : Sink W) (w : W) (hw : k.failure w = none)
    (s : Src) :
    DeliversOrReports k .write w (decompressRLERecursive bufferSink s []).out
      (decompressRLERecursive bufferSink s []).err (decompressRLERecursive k s w) := by
  obtain ⟨h1, h2, _⟩ := runLoop_buffer chunksRec _ (emitRunRec_eq bufferSink) s
  have := runLoop_spec k chunksRec _ (emitRunRec_eq k) s w 0 hw
  unfold DeliversOrReports decompressRLERecursive
  rw [h1, h2]; simpa using this

/-- **C03** for DecompressRLE8. -/
theorem C03_decompressRLE8 {W : Type} (k : Sink W) (w : W) (hw : k.failure w = none) (s : Src) :
    DeliversOrReports k .writeWrapped w (decompressRLE8 bufferSink s []).out
      (decompressRLE8 bufferSink s []).err (decompressRLE8 k s w) := by
  obtain ⟨h1, h2, _⟩ := decLoop_buffer s.fin none s.rest
  have := decLoop_spec k s.fin none s.rest w 0 hw
  unfold DeliversOrReports decompressRLE8
  rw [h1, h2]; simpa using this

/-- An output with room for only `cap` bytes: the write that overflows it is cut short and
fails.  Used to show that the failing branch of C03 occurs. -/
def cappedSink (cap : Nat) : Sink (Bytes × Option Nat) where
  write w p :=
    if w.1.length + p.length ≤ cap then ((w.1 ++ p, w.2), p.length, none)
    else ((w.1 ++ p.take (cap - w.1.length), some 28), min (cap - w.1.length) p.length, some 28)
  accepted w := w.1
  failure w := w.2
  law := by
    intro w p
    by_cases h : w.1.length + p.length ≤ cap
    · simp [h]
    · simp only [h, if_false]
      refine ⟨by omega, ?_, by simp⟩
      simp [List.take_eq_take_iff]
  failure_law := by
    intro w p
    by_cases h : w.1.length + p.length ≤ cap <;> simp [h]

example : (cappedSink 4).failure ([], none) = none := rfl
example : (compressRLE8 (cappedSink 4) ⟨[5, 5, 9, 9], none⟩ ([], none)).err = some (.write 28) ∧
    (compressRLE8 (cappedSink 4) ⟨[5, 5, 9, 9], none⟩ ([], none)).out.1 = [5, 5, 0, 9] ∧
    (compressRLE8 (cappedSink 4) ⟨[5, 5, 9, 9], none⟩ ([], none)).count = 3 := by decide +kernel

/-- **C04** Every readable input is either a sequence of complete groups, decoded without
error to exactly the data it stands for, or such a sequence followed by an unfinished pair
`a a`: then the error wraps io.ErrUnexpectedEOF and everything before (and the first half of
the pair) has been written.  There is no other outcome. -/
theorem C04_decompressRLE8_total (e : Bytes) :
    (∃ d o, RLE8 e d o ∧ decompressRLE8 bufferSink ⟨e, none⟩ [] = ⟨d, d.length, none⟩) ∨
    (∃ e' a d o, e = e' ++ [a, a] ∧ RLE8 e' d o ∧ o ≠ some a ∧
      decompressRLE8 bufferSink ⟨e, none⟩ [] =
        ⟨d ++ [a], d.length + 1, some .unexpectedEOF⟩) := by
  rcases rle8_total e RLE8.empty (by simp) with ⟨d, o, h⟩ | ⟨e', a, d, o, h1, h2, h3⟩
  · left
    refine ⟨d, o, h, ?_⟩
    have := decLoop_grammar h none [] [] 0
    simp only [List.nil_append, List.append_nil] at this
    unfold decompressRLE8
    rw [this]; simp [decLoop]
  · right
    simp only [List.nil_append] at h1
    refine ⟨e', a, d, o, h1, h2, h3, ?_⟩
    have := decLoop_grammar h2 none [a, a] [] 0
    unfold decompressRLE8
    rw [h1, this, decLoop_cons_ne _ _ _ _ _ _ _ h3]
    simp [bufferSink, decLoop]

/-- **C04** The accepted inputs are exactly the complete encodings. -/
theorem C04_accepts_iff (e d : Bytes) :
    decompressRLE8 bufferSink ⟨e, none⟩ [] = ⟨d, d.length, none⟩ ↔ ∃ o, RLE8 e d o := by
  constructor
  · intro h
    rcases C04_decompressRLE8_total e with ⟨d', o, h1, h2⟩ | ⟨e', a, d', o, h1, h2, h3, h4⟩
    · rw [h2] at h; simp at h; rw [← h.1]; exact ⟨o, h1⟩
    · rw [h4] at h; simp at h
  · rintro ⟨o, h⟩
    have := decLoop_grammar h none [] [] 0
    simp only [List.nil_append, List.append_nil] at this
    unfold decompressRLE8
    rw [this]; simp [decLoop]

/-- **C04** A read error other than EOF is reported (never swallowed), whatever came before. -/
theorem C04_read_error_reported (e : Bytes) (n : Nat) :
    (decompressRLE8 bufferSink ⟨e, some n⟩ []).err = some (.readWrapped n) := by
  have h := (decLoop_buffer (some n) none e).2.1
  unfold decompressRLE8
  rw [h]; clear h
  generalize (none : Option UInt8) = last
  fun_induction idealDec (some n) last e <;> simp_all

example : RLE8 ([7, 7, 3] ++ [1]) ([7, 7, 7, 7, 7] ++ [1]) (some 1) :=
  .literal 1 (.repeated 7 3 .empty (by simp)) (by simp)
example : (decompressRLE8 bufferSink ⟨[7, 7, 1, 4, 4], none⟩ []).err = some .unexpectedEOF ∧
    (decompressRLE8 bufferSink ⟨[7, 7, 1, 4, 4], none⟩ []).out = [7, 7, 7, 4] := by decide +kernel

/-- **C05** Exact output size of CompressRLE8 in terms of the maximal runs. -/
theorem C05_rle8_size (x : Bytes) (rs : List ByteRun) (h : MaximalRuns x rs)
    (hx : x.length < maxInt) :
    (compressRLE8 bufferSink ⟨x, none⟩ []).out.length = (rs.map (rle8Cost ·.runLength)).sum := by
  obtain ⟨h1, h2, _⟩ := runLoop_buffer chunks8 _ (emitRun8_eq bufferSink) ⟨x, none⟩
  unfold compressRLE8
  rw [h1, idealRun_eq_collect chunks8 (by rw [chunks8]; simp) _ rfl, collectRuns_eq h hx]
  clear h hx h1 h2
  induction rs with
  | nil => rfl
  | cons r rs ih =>
    simp only [List.flatMap_cons, List.length_append, List.map_cons, List.sum_cons]
    rw [chunks8_length]; simp only at ih; omega

/-- **C05** The output is never more than one and a half times the input. -/
theorem C05_rle8_worst_case (x : Bytes) (hx : x.length < maxInt) :
    2 * (compressRLE8 bufferSink ⟨x, none⟩ []).out.length ≤ 3 * x.length := by
  obtain ⟨rs, h⟩ := maximalRuns_exist x
  rw [C05_rle8_size x rs h hx, ← h.expands]
  clear h hx
  induction rs with
  | nil => simp [expand]
  | cons r rs ih =>
    rw [expand_cons]
    simp only [List.length_append, List.length_replicate, List.map_cons, List.sum_cons]
    have : 2 * rle8Cost r.runLength ≤ 3 * r.runLength := by
      unfold rle8Cost; (repeat' split) <;> omega
    omega

/-- **C05** A run of `n` equal bytes takes at most three bytes per started 257. -/
theorem C05_rle8_single_run (b : UInt8) (n : Nat) (hn : n < maxInt) :
    (compressRLE8 bufferSink ⟨List.replicate n b, none⟩ []).out.length ≤ 3 * ((n + 256) / 257) := by
  by_cases h0 : n = 0
  · subst h0; rw [C05_rle8_size (List.replicate 0 b) [] ⟨rfl, by simp, trivial⟩ (by simp [maxInt])]; simp
  · have h : MaximalRuns (List.replicate n b) [⟨b, n⟩] :=
      ⟨by simp [expand], by simp; omega, by simp [NeighboursDiffer]⟩
    rw [C05_rle8_size _ _ h (by simpa using hn)]
    simp only [List.map_cons, List.map_nil, List.sum_cons, List.sum_nil]
    unfold rle8Cost; (repeat' split) <;> omega

example : MaximalRuns [4, 4, 4, 6] [⟨4, 3⟩, ⟨6, 1⟩] :=
  ⟨by decide, by simp, by simp [NeighboursDiffer]⟩

/-- **C06** What CompressRLERecursive writes is a correct recursive encoding, and a reader that
follows the documented format recovers the input. -/
theorem C06_rrle_decodable (x : Bytes) :
    (compressRLERecursive bufferSink ⟨x, none⟩ []).err = none ∧
    (∃ o, RRLE (compressRLERecursive bufferSink ⟨x, none⟩ []).out x o) ∧
    readRRLE (compressRLERecursive bufferSink ⟨x, none⟩ []).out = some x := by
  obtain ⟨h1, h2, _⟩ := runLoop_buffer chunksRec _ (emitRunRec_eq bufferSink) ⟨x, none⟩
  obtain ⟨h3, o, h4⟩ := idealRun_rrle ⟨x, none⟩ rfl RRLE.empty (by simp)
  simp only [List.nil_append] at h4
  unfold compressRLERecursive
  rw [h1, h2]
  refine ⟨h3, ⟨o, h4⟩, ?_⟩
  have := readRRLE_grammar h4 [] (by simp)
  simpa [readRRLE] using this

/-- **C06** The encoding determines the data: two inputs with the same output are equal. -/
theorem C06_rrle_injective (x y : Bytes)
    (h : (compressRLERecursive bufferSink ⟨x, none⟩ []).out =
      (compressRLERecursive bufferSink ⟨y, none⟩ []).out) : x = y := by
  have hx := (C06_rrle_decodable x).2.2
  rw [h, (C06_rrle_decodable y).2.2] at hx
  simpa using hx.symm

/-- **C06** No group of an RRLE encoding is ambiguous: an encoding stands for one byte string. -/
theorem C06_rrle_unambiguous {e d d' : Bytes} {o o' : Option UInt8} (h : RRLE e d o)
    (h' : RRLE e d' o') : d = d' := by
  have a := readRRLE_grammar h [] (by simp)
  have b := readRRLE_grammar h' [] (by simp)
  rw [a] at b; simpa [readRRLE] using b

/-- **C06** When no run exceeds 256 bytes the output is the same as CompressRLE8's. -/
theorem C06_same_as_rle8 (x : Bytes) (hx : x.length < maxInt)
    (h : ∀ rs, MaximalRuns x rs → ∀ r ∈ rs, r.runLength ≤ 256) :
    compressRLERecursive bufferSink ⟨x, none⟩ [] = compressRLE8 bufferSink ⟨x, none⟩ [] := by
  obtain ⟨a1, a2, a3⟩ := runLoop_buffer chunksRec _ (emitRunRec_eq bufferSink) ⟨x, none⟩
  obtain ⟨b1, b2, b3⟩ := runLoop_buffer chunks8 _ (emitRun8_eq bufferSink) ⟨x, none⟩
  have hc : idealRun chunksRec ⟨x, none⟩ = idealRun chunks8 ⟨x, none⟩ := by
    apply idealRun_congr
    · intro r hr
      have hl := h _ (C02_runs_maximal x hx).1 r hr
      have hp := (C02_runs_maximal x hx).1.nonempty r hr
      rw [chunks8, chunksRec]
      by_cases h1 : r.runLength = 1
      · simp [h1]
      · have h2 : r.runLength ≥ 2 := by omega
        have h3 : ¬ r.runLength > 257 := by omega
        have h4 : (r.runLength - 2) / 255 = 0 := by omega
        have h5 : (r.runLength - 2) % 255 = r.runLength - 2 := by omega
        have h6 : r.runLength - (r.runLength - 2 + 2) = 0 := by omega
        have h7 : chunks8 r.byte 0 = [] := by rw [chunks8]; simp
        simp [h1, h2, h3, h4, h5, h7]
    · rw [chunks8, chunksRec]; simp
  have e1 : compressRLERecursive bufferSink ⟨x, none⟩ [] =
      ⟨(idealRun chunksRec ⟨x, none⟩).1, (idealRun chunksRec ⟨x, none⟩).1.length,
        (idealRun chunksRec ⟨x, none⟩).2⟩ := by
    rw [← a3, ← a1, ← a2]; rfl
  have e2 : compressRLE8 bufferSink ⟨x, none⟩ [] =
      ⟨(idealRun chunks8 ⟨x, none⟩).1, (idealRun chunks8 ⟨x, none⟩).1.length,
        (idealRun chunks8 ⟨x, none⟩).2⟩ := by
    rw [← b3, ← b1, ← b2]; rfl
  rw [e1, e2, hc]

example : ∀ rs, MaximalRuns [4, 4, 4, 6] rs → ∀ r ∈ rs, r.runLength ≤ 256 := by
  intro rs h r hr
  have h' := collectRuns_eq h (by decide)
  have : rs = [⟨4, 3⟩, ⟨6, 1⟩] := by
    have h2 : collectRuns ⟨[4, 4, 4, 6], none⟩ = ([⟨4, 3⟩, ⟨6, 1⟩], .eof) := by decide +kernel
    rw [h2] at h'; simpa using h'.symm
  subst this; simp at hr; rcases hr with rfl | rfl <;> decide

/-- The intended **C07**, in full. -/
def C07_statement : Prop := ∀ x : Bytes,
  (decompressRLERecursive bufferSink
    ⟨(compressRLERecursive bufferSink ⟨x, none⟩ []).out, none⟩ []).out = x

/-- **C07 is false of the code**: DecompressRLERecursive compresses again. -/
theorem C07_refuted : ¬ C07_statement := by
  intro h
  have := h [0, 0]
  have h2 : (decompressRLERecursive bufferSink
    ⟨(compressRLERecursive bufferSink ⟨[0, 0], none⟩ []).out, none⟩ []).out = [0, 0, 1] := by
    decide +kernel
  rw [h2] at this; simp at this

/-- **C07** (what the code does instead) DecompressRLERecursive re-encodes: its output is a
recursive encoding of its *input*. -/
theorem C07_decompressor_compresses (x : Bytes) :
    readRRLE (decompressRLERecursive bufferSink ⟨x, none⟩ []).out = some x :=
  (C06_rrle_decodable x).2.2

/-- No two neighbouring bytes are equal. -/
def NoRepeats : Bytes → Prop
  | a :: b :: t => a ≠ b ∧ NoRepeats (b :: t)
  | _ => True

theorem noRepeats_runs {x : Bytes} (h : NoRepeats x) : MaximalRuns x (x.map fun b => ⟨b, 1⟩) := by
  induction x with
  | nil => exact ⟨rfl, by simp, by simp [NeighboursDiffer]⟩
  | cons a t ih =>
    have ht : NoRepeats t := by
      cases t with
      | nil => simp [NoRepeats]
      | cons b t => exact h.2
    obtain ⟨h1, h2, h3⟩ := ih ht
    refine ⟨?_, ?_, ?_⟩
    · rw [List.map_cons, expand_cons, h1]; rfl
    · simp
    · cases t with
      | nil => simp [NeighboursDiffer]
      | cons b t => exact ⟨h.1, h3⟩

theorem noRepeats_compress {x : Bytes} (h : NoRepeats x) (hx : x.length < maxInt) :
    (compressRLERecursive bufferSink ⟨x, none⟩ []).out = x := by
  obtain ⟨h1, h2, _⟩ := runLoop_buffer chunksRec _ (emitRunRec_eq bufferSink) ⟨x, none⟩
  unfold compressRLERecursive
  rw [h1, idealRun_eq_collect chunksRec (by simp [chunksRec]) _ rfl,
    collectRuns_eq (noRepeats_runs h) hx]
  simp only [List.flatMap_map, chunksRec]
  simp

/-- **C07, partial**: only inputs in which no two neighbouring bytes are equal come back.
Missing: every input with a repeated byte (see C07_refuted). -/
theorem C07_roundtrip_partial (x : Bytes) (hx : x.length < maxInt) (h : NoRepeats x) :
    (decompressRLERecursive bufferSink
      ⟨(compressRLERecursive bufferSink ⟨x, none⟩ []).out, none⟩ []).out = x := by
  rw [noRepeats_compress h hx]; exact noRepeats_compress h hx

example : NoRepeats [3, 1, 3, 2] := by simp [NoRepeats]

/-- **C08** CompressImage over any output and any lossless gzip: on success the reported size
is the number of bytes delivered and no write failed; if a write failed, an error is returned. -/
theorem C08_compress_size (z : Gzip) {W : Type} (k : Sink W) (w : W) (hw : k.failure w = none)
    (x : Bytes) :
    ((compressImage z k ⟨x, none⟩ w).2.2 = none ↔
      k.failure (compressImage z k ⟨x, none⟩ w).1 = none) ∧
    ((compressImage z k ⟨x, none⟩ w).2.2 = none →
      ∃ delivered, k.accepted (compressImage z k ⟨x, none⟩ w).1 = k.accepted w ++ delivered ∧
        (compressImage z k ⟨x, none⟩ w).2.1 = delivered.length ∧
        decompressImage z bufferSink ⟨delivered, none⟩ [] = (x, x.length, none)) := by
  obtain ⟨ps, hp, hrun⟩ := compress_pieces ⟨x, none⟩ rfl
  have hgz := gz_run z (countingSink k) ps z.init ⟨w, 0⟩ [] 0
  have hr := hrun (gzSink z (countingSink k)) ⟨z.init, ⟨w, 0⟩, none, []⟩ 0
  have hc := writeAll_counting k (z.emitted z.init ps) ⟨w, 0⟩ hw
  have hdec : decompressImage z bufferSink ⟨(z.emitted z.init ps).flatten, none⟩ [] =
      (x, x.length, none) := by
    unfold decompressImage
    rw [z.lossless]
    have h1 := C01_rle8_roundtrip x
    have h2 : (compressRLE8 bufferSink ⟨x, none⟩ []).out = ps.flatten := by
      rw [hp]; exact (runLoop_buffer chunks8 _ (emitRun8_eq bufferSink) ⟨x, none⟩).1
    rw [h2] at h1
    simp only [h1.2]; rfl
  generalize writeAll (countingSink k) ⟨w, 0⟩ (z.emitted z.init ps) = r at hgz hc
  obtain ⟨c, _ | e⟩ := r
  · simp only [reduceCtorEq, false_and, exists_false, or_false, true_and] at hc
    simp only at hgz
    obtain ⟨st, t', h1, h2⟩ := hgz
    rw [h1] at hr
    have : compressImage z k ⟨x, none⟩ w = (c.inner, c.bytesWritten, none) := by
      simp only [compressImage, compressRLE8, hr, h2]
    rw [this]
    refine ⟨by simp [hc.1], fun _ => ⟨(z.emitted z.init ps).flatten, hc.2.1, by simpa using hc.2.2, hdec⟩⟩
  · simp only [reduceCtorEq, false_and, false_or, Option.some.injEq, exists_eq_left'] at hc
    simp only at hgz
    rcases hgz with ⟨st, t', h1, h2⟩ | ⟨st, t', h1, h2⟩
    · rw [h1] at hr
      have : compressImage z k ⟨x, none⟩ w = (c.inner, c.bytesWritten, some (.gzipClose e)) := by
        simp only [compressImage, compressRLE8, hr, h2]
      rw [this]; simp [hc]
    · rw [h1] at hr
      have : compressImage z k ⟨x, none⟩ w = (c.inner, c.bytesWritten, some (.rle (.write e))) := by
        simp only [compressImage, compressRLE8, hr, h2]
      rw [this]; simp [hc]

/-- **C08** The round trip through an in-memory buffer always succeeds and is exact, through
DecompressImage and DecompressImageToBytes. -/
theorem C08_image_roundtrip (z : Gzip) (x : Bytes) :
    (compressImage z bufferSink ⟨x, none⟩ []).2.2 = none ∧
    (compressImage z bufferSink ⟨x, none⟩ []).2.1 =
      (compressImage z bufferSink ⟨x, none⟩ []).1.length ∧
    decompressImage z bufferSink ⟨(compressImage z bufferSink ⟨x, none⟩ []).1, none⟩ [] =
      (x, x.length, none) ∧
    decompressImageToBytes z ⟨(compressImage z bufferSink ⟨x, none⟩ []).1, none⟩ = (x, none) := by
  obtain ⟨h1, h2⟩ := C08_compress_size z bufferSink [] rfl x
  have h3 := h1.2 rfl
  obtain ⟨d, h4, h5, h6⟩ := h2 h3
  have h7 : (compressImage z bufferSink ⟨x, none⟩ []).1 = d := by simpa [bufferSink] using h4
  refine ⟨h3, by rw [h5, h7], by rw [h7, h6], ?_⟩
  rw [h7]; simp [decompressImageToBytes, h6]

/-- **C08** DecompressImageToBytes on an arbitrary stream, whatever the gzip layer makes of it:
a rejected header, an incomplete RLE8 stream and a read error are all reported, with no data;
success is returned exactly for complete encodings, with exactly the data they stand for. -/
theorem C08_toBytes_errors (z : Gzip) (s : Src) :
    (z.gunzip s = none → decompressImageToBytes z s = ([], some .gzipHeader)) ∧
    (∀ e d o, z.gunzip s = some ⟨e, none⟩ → RLE8 e d o → decompressImageToBytes z s = (d, none)) ∧
    (∀ e, z.gunzip s = some ⟨e, none⟩ → (¬ ∃ d o, RLE8 e d o) →
      decompressImageToBytes z s = ([], some (.rle .unexpectedEOF))) ∧
    (∀ e n, z.gunzip s = some ⟨e, some n⟩ →
      decompressImageToBytes z s = ([], some (.rle (.readWrapped n)))) := by
  refine ⟨?_, ?_, ?_, ?_⟩
  · intro h; simp [decompressImageToBytes, decompressImage, h]
  · intro e d o h hg
    have := (C04_accepts_iff e d).2 ⟨o, hg⟩
    simp [decompressImageToBytes, decompressImage, h, this]
  · intro e h hg
    rcases C04_decompressRLE8_total e with ⟨d, o, h1, _⟩ | ⟨e', a, d, o, _, _, _, h4⟩
    · exact absurd ⟨d, o, h1⟩ hg
    · simp [decompressImageToBytes, decompressImage, h, h4]
  · intro e n h
    have := C04_read_error_reported e n
    simp [decompressImageToBytes, decompressImage, h, this]

/-- **C08** DecompressImage into an output that may fail: the same delivers-or-reports contract
as DecompressRLE8, on the decompressed stream; a rejected header writes nothing. -/
theorem C08_decompress_delivers (z : Gzip) {W : Type} (k : Sink W) (w : W)
    (hw : k.failure w = none) (s : Src) :
    (z.gunzip s = none → decompressImage z k s w = (w, 0, some .gzipHeader)) ∧
    (∀ src, z.gunzip s = some src → ∃ r : Res W, decompressImage z k s w =
        (r.out, r.count, r.err.map .rle) ∧
      DeliversOrReports k .writeWrapped w (decompressRLE8 bufferSink src []).out
        (decompressRLE8 bufferSink src []).err r) := by
  refine ⟨fun h => by simp [decompressImage, h], fun src h => ⟨decompressRLE8 k src w, ?_, ?_⟩⟩
  · simp [decompressImage, h]
  · exact C03_decompressRLE8 k w hw src

/-- A trivial lossless codec ("store": one header byte, then the data), to show that the
`Gzip` hypotheses of C08 are satisfiable. -/
def storeGzip : Gzip where
  G := Bool
  init := false
  feed started p := (true, if started then [p] else [[31], p])
  finish started := if started then [] else [[31]]
  gunzip s := match s.rest with
    | 31 :: rest => some ⟨rest, s.fin⟩
    | _ => none
  emitted started ps := if started then ps else
    match ps with
    | [] => [[31]]
    | p :: ps => [[31], p] ++ ps
  emitted_nil := by intro g; cases g <;> rfl
  emitted_cons := by intro g p ps; cases g <;> rfl
  lossless := by intro ps; cases ps <;> simp

example : (compressImage storeGzip bufferSink ⟨[9, 9, 9, 4], none⟩ []).1 = [31, 9, 9, 1, 4] := by
  decide +kernel
example : decompressImageToBytes storeGzip ⟨[31, 9, 9], none⟩ = ([], some (.rle .unexpectedEOF)) ∧
    decompressImageToBytes storeGzip ⟨[30, 9, 9], none⟩ = ([], some .gzipHeader) ∧
    decompressImageToBytes storeGzip ⟨[31, 9, 9, 1], none⟩ = ([9, 9, 9], none) := by decide +kernel

end Disko.Compression

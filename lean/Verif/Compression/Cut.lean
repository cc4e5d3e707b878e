import Verif.Compression.Props
/-! Compressed images that are not complete: the vocabulary of C150 and C151, and lemmas. -/
namespace Disko.Compression
open Disko Compression.Spec

namespace Spec

/-- What CompressImage writes for an image when nothing fails. -/
def complete (z : Gzip) (x : Bytes) : Bytes := (compressImage z bufferSink ⟨x, none⟩ []).1

/-- The source delivers a beginning of `full`, and not all of it followed by io.EOF: it ends too early, or reading fails. -/
def CutShort (full : Bytes) (s : Src) : Prop := s.rest <+: full ∧ (s.rest ≠ full ∨ s.fin ≠ none)

/-- What the documentation of compress/gzip says of streams that end too early or cannot be read to their end: NewReader fails, or reading
gives a beginning of the data and then an error other than io.EOF (the checksum and the length come last).  An assumption about the library. -/
def NoticesCuts (z : Gzip) : Prop := ∀ (ps : List Bytes) (s : Src), CutShort (z.emitted z.init ps).flatten s →
  z.gunzip s = none ∨ ∃ data n, z.gunzip s = some ⟨data, some n⟩ ∧ data <+: ps.flatten

end Spec

/-! ### Decompressing a beginning -/

theorem idealDec_prefix (f : Option Nat) (last : Option UInt8) (p q : Bytes) : (idealDec f last p).1 <+: (idealDec none last (p ++ q)).1 := by
  fun_induction idealDec f last p with
  | case1 => simp
  | case2 => simp
  | case3 => simp
  | case4 last c h =>
    cases q with
    | nil => simp [idealDec, h]
    | cons r q => simp [idealDec, h]
  | case5 c r rest ih =>
    simp only [List.cons_append, idealDec, if_true]
    exact (List.prefix_append_right_inj _).mpr ih
  | case6 last c r rest h ih =>
    simp only [List.cons_append, idealDec, h, if_false] at ih ⊢
    exact List.cons_prefix_cons.mpr ⟨rfl, ih⟩

/-- DecompressRLE8 of a beginning of an encoding gives a beginning of the data. -/
theorem decompress_prefix {e e' : Bytes} (h : e' <+: e) (f : Option Nat) :
    (decompressRLE8 bufferSink ⟨e', f⟩ []).out <+: (decompressRLE8 bufferSink ⟨e, none⟩ []).out := by
  obtain ⟨q, rfl⟩ := h
  unfold decompressRLE8
  rw [(decLoop_buffer _ _ _).1, (decLoop_buffer _ _ _).1]
  exact idealDec_prefix f none e' q

/-! ### The writes of CompressImage -/

/-- The writes CompressRLE8 makes for a list of runs. -/
def pieces (rs : List ByteRun) : List Bytes := rs.flatMap fun r => chunks8 r.byte r.runLength

theorem chunks8_zero (b : UInt8) : chunks8 b 0 = [] := by
  rw [chunks8, if_neg (by omega), if_neg (by omega)]

theorem runs_of_end (run : ByteRun) : pieces (if 1 ≤ run.runLength then [run] else []) = chunks8 run.byte run.runLength := by
  split
  · simp [pieces]
  · rename_i h
    have h0 : run.runLength = 0 := by omega
    rw [h0, chunks8_zero]
    rfl

theorem invalid_of_io {s s' : Src} {run : ByteRun} {e : Nat} (h : getNextRun s = ((run, some (.io e)), s')) : run = invalidRLERun := by
  obtain ⟨rest, fin⟩ := s
  cases rest with
  | nil => rw [getNextRun_nil, Prod.mk.injEq, Prod.mk.injEq] at h; exact h.1.1.symm
  | cons b cs =>
    obtain ⟨n, t, h1, h2, h3, h4⟩ := getNextRun_spec b cs fin
    rcases h4 with ⟨hg, _⟩ | ⟨_, _, _, hg⟩ | ⟨_, _, e', _, hg⟩
    · rw [hg] at h; cases h
    · rw [hg] at h; cases h
    · rw [hg] at h; cases h; rfl

/-- The writes CompressRLE8 makes, whatever the reader: those of the runs it gets. -/
theorem compress_runs {W : Type} (k : Sink W) (s : Src) (w : W) (t : Nat) :
    runLoop (emitRun8 k) s w t = match writeCount k (pieces (collectRuns s).1) w t with
      | (w', t', some e) => ⟨w', t', some (.write e)⟩
      | (w', t', none) => ⟨w', t', match (collectRuns s).2 with | .eof => none | .io e => some (.read e)⟩ := by
  induction h : s.rest.length using Nat.strongRecOn generalizing s w t with
  | ind l ih =>
    rcases heq : getNextRun s with ⟨⟨run, _ | _ | e⟩, s'⟩
    · have hlt := getNextRun_rest_lt (s := s) (by rw [heq])
      rw [heq] at hlt
      rw [runLoop_more heq, emitRun8_eq, collectRuns_more heq]
      rw [show pieces (run :: (collectRuns s').1) = chunks8 run.byte run.runLength ++ pieces (collectRuns s').1 from rfl]
      rw [writeCount_append]
      rcases writeCount k (chunks8 run.byte run.runLength) w t with ⟨w', t', _ | e⟩
      · exact ih _ (by rw [← h]; exact hlt) s' w' t' rfl
      · rfl
    · rw [runLoop_eof heq, emitRun8_eq, collectRuns_end heq, runs_of_end]
      rfl
    · rw [runLoop_io heq, collectRuns_end heq, invalid_of_io heq]
      rfl

/-- CompressImage, whatever the reader: it writes what it writes for the runs it gets, and fails if reading fails. -/
theorem compressImage_runs (z : Gzip) {W : Type} (k : Sink W) (s : Src) (w : W) :
    (compressImage z k s w).1 = (writeAll (countingSink k) ⟨w, 0⟩ (z.emitted z.init (pieces (collectRuns s).1))).1.inner ∧
    (compressImage z k s w).2.1 = (writeAll (countingSink k) ⟨w, 0⟩ (z.emitted z.init (pieces (collectRuns s).1))).1.bytesWritten ∧
    ((compressImage z k s w).2.2 = none ↔
      (writeAll (countingSink k) ⟨w, 0⟩ (z.emitted z.init (pieces (collectRuns s).1))).2 = none ∧ (collectRuns s).2 = .eof) := by
  have hr := compress_runs (gzSink z (countingSink k)) s ⟨z.init, ⟨w, 0⟩, none, []⟩ 0
  have hgz := gz_run z (countingSink k) (pieces (collectRuns s).1) z.init ⟨w, 0⟩ [] 0
  generalize writeAll (countingSink k) ⟨w, 0⟩ (z.emitted z.init (pieces (collectRuns s).1)) = r at hgz
  obtain ⟨c, _ | e⟩ := r
  · simp only at hgz
    obtain ⟨st, t', h1, h2⟩ := hgz
    rw [h1] at hr
    simp only [compressImage, compressRLE8, hr, h2]
    rcases (collectRuns s).2 with _ | e <;> simp
  · simp only at hgz
    rcases hgz with ⟨st, t', h1, h2⟩ | ⟨st, t', h1, h2⟩
    · rw [h1] at hr
      simp only [compressImage, compressRLE8, hr, h2]
      rcases (collectRuns s).2 with _ | e <;> simp
    · rw [h1] at hr
      simp only [compressImage, compressRLE8, hr, h2]
      simp

/-- What a writer that takes less than all has taken is a beginning. -/
theorem writeAll_prefix {W : Type} (k : Sink W) : ∀ (ps : List Bytes) (w : W), ∃ d, d <+: ps.flatten ∧ k.accepted (writeAll k w ps).1 = k.accepted w ++ d ∧
    ((writeAll k w ps).2 = none → d = ps.flatten)
  | [], w => ⟨[], by simp, by simp [writeAll], by simp⟩
  | p :: ps, w => by
    have l := k.law w p
    rcases h : k.write w p with ⟨w', m, _ | e⟩
    · rw [h] at l
      simp only at l
      have hm := l.2.2 trivial
      subst hm
      obtain ⟨d, h1, h2, h3⟩ := writeAll_prefix k ps w'
      refine ⟨p ++ d, by simpa using h1, ?_, ?_⟩
      · simp only [writeAll, h, h2, l.2.1]; simp
      · simp only [writeAll, h]
        intro hn
        simp [h3 hn]
    · rw [h] at l
      simp only at l
      refine ⟨p.take m, (List.take_prefix _ _).trans (by simp), by simp only [writeAll, h, l.2.1], by simp [writeAll, h]⟩

theorem complete_eq (z : Gzip) (x : Bytes) : complete z x = (z.emitted z.init (pieces (collectRuns ⟨x, none⟩).1)).flatten := by
  unfold complete
  have h := compressImage_runs z bufferSink ⟨x, none⟩ []
  rw [h.1]
  have hn := (h.2.2.mp ((C08_image_roundtrip z x).1)).1
  obtain ⟨d, _, h2, h3⟩ := writeAll_prefix (countingSink bufferSink) (z.emitted z.init (pieces (collectRuns ⟨x, none⟩).1)) ⟨[], 0⟩
  rw [← h3 hn]
  simpa [countingSink, bufferSink] using h2

theorem pieces_eq (x : Bytes) : (pieces (collectRuns ⟨x, none⟩).1).flatten = (compressRLE8 bufferSink ⟨x, none⟩ []).out := by
  unfold compressRLE8
  rw [(runLoop_buffer chunks8 _ (emitRun8_eq bufferSink) ⟨x, none⟩).1, idealRun_eq_collect chunks8 (chunks8_zero 0) _ rfl]
  simp only [pieces]
  induction (collectRuns ⟨x, none⟩).1 with
  | nil => rfl
  | cons r rs ih => simp [ih]

end Disko.Compression

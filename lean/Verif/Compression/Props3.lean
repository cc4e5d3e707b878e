import Verif.Compression.Cut
/-! C150, C151: compressed images that are not complete. -/
namespace Disko.Compression
open Disko Compression.Spec

/-- **C150** What CompressImage has delivered to any output when it stops (because a write failed, or at any moment before that) is a beginning of the complete compressed image, and all of it if nil is returned. -/
theorem C150_delivered (z : Gzip) {W : Type} (k : Sink W) (w : W) (x : Bytes) :
    ∃ d, d <+: complete z x ∧ k.accepted (compressImage z k ⟨x, none⟩ w).1 = k.accepted w ++ d ∧
      ((compressImage z k ⟨x, none⟩ w).2.2 = none → d = complete z x) := by
  obtain ⟨h1, _, h3⟩ := compressImage_runs z k ⟨x, none⟩ w
  obtain ⟨d, h4, h5, h6⟩ := writeAll_prefix (countingSink k) (z.emitted z.init (pieces (collectRuns ⟨x, none⟩).1)) ⟨w, 0⟩
  rw [complete_eq, h1]
  exact ⟨d, h4, h5, fun h => h6 (h3.mp h).1⟩

/-- **C150** A compressed image that ends too early, by however little, or that cannot be read to its end, is never taken for a complete one: DecompressImage returns an error, whatever it writes to;
what it has written is a beginning of the image. -/
theorem C150_cut (z : Gzip) (hz : NoticesCuts z) (x : Bytes) (s : Src) (hc : CutShort (complete z x) s) {W : Type} (k : Sink W) (w : W) (hw : k.failure w = none) :
    (decompressImage z k s w).2.2 ≠ none ∧ ∃ d, d <+: x ∧ k.accepted (decompressImage z k s w).1 = k.accepted w ++ d := by
  rw [complete_eq] at hc
  rcases hz _ s hc with h | ⟨data, n, h, hp⟩
  · rw [(C08_decompress_delivers z k w hw s).1 h]
    exact ⟨by simp, [], by simp, by simp⟩
  · obtain ⟨r, hr, hd⟩ := (C08_decompress_delivers z k w hw s).2 _ h
    rw [hr]
    rw [pieces_eq] at hp
    have hpre := decompress_prefix hp (some n)
    rw [(C01_rle8_roundtrip x).2] at hpre
    rcases hd with ⟨_, h2, h3, _⟩ | ⟨e, p, _, h2, h3, h4, _⟩
    · refine ⟨?_, _, hpre, h2⟩
      rw [C04_read_error_reported] at h3
      simp [h3]
    · exact ⟨by simp [h2], p, h4.trans hpre, h3⟩

/-- **C150** DecompressImageToBytes gives no data for such a compressed image. -/
theorem C150_toBytes (z : Gzip) (hz : NoticesCuts z) (x : Bytes) (s : Src) (hc : CutShort (complete z x) s) :
    ∃ e, decompressImageToBytes z s = ([], some e) := by
  have h := (C150_cut z hz x s hc bufferSink [] rfl).1
  unfold decompressImageToBytes
  rcases hd : decompressImage z bufferSink s [] with ⟨o, n, _ | e⟩
  · rw [hd] at h; exact absurd rfl h
  · exact ⟨e, rfl⟩

/-! ### A codec that notices cuts -/

/-- Reading what `sealGzip` writes: a byte 1 before every byte of data, 0 at the end. -/
def openSeal : Bytes → Option Nat → Src
  | [0], f => ⟨[], f⟩
  | 1 :: b :: t, f => ⟨b :: (openSeal t f).rest, (openSeal t f).fin⟩
  | _, f => ⟨[], some (f.getD 0)⟩

theorem openSeal_data (d t : Bytes) (f : Option Nat) : openSeal (d.flatMap (fun b => [1, b]) ++ t) f = ⟨d ++ (openSeal t f).rest, (openSeal t f).fin⟩ := by
  induction d with
  | nil => rfl
  | cons b d ih => simp [openSeal, ih]

theorem feed_flatten (ps : List Bytes) : (ps.map fun p => p.flatMap fun b => [(1 : UInt8), b]).flatten = ps.flatten.flatMap fun b => [1, b] := by
  induction ps with
  | nil => rfl
  | cons p ps ih => simp [ih]

/-- A lossless codec that marks every byte of data and the end of the data. -/
def sealGzip : Gzip where
  G := Unit
  init := ()
  feed _ p := ((), [p.flatMap fun b => [1, b]])
  finish _ := [[0]]
  gunzip s := some (openSeal s.rest s.fin)
  emitted _ ps := (ps.map fun p => p.flatMap fun b => [1, b]) ++ [[0]]
  emitted_nil := by intro g; rfl
  emitted_cons := by intro g p ps; rfl
  lossless := by
    intro ps
    rw [List.flatten_append, feed_flatten]
    show some (openSeal (_ ++ [0]) none) = _
    rw [openSeal_data]
    simp [openSeal]

theorem openSeal_cut : ∀ (d t : Bytes) (f : Option Nat), t <+: d.flatMap (fun b => [1, b]) ++ [0] → (t ≠ d.flatMap (fun b => [1, b]) ++ [0] ∨ f ≠ none) →
    ∃ n, (openSeal t f).fin = some n ∧ (openSeal t f).rest <+: d
  | d, [], f, _, _ => ⟨f.getD 0, by simp [openSeal], by simp [openSeal]⟩
  | [], [a], f, hp, hc => by
    have ha : a = 0 := by simpa using hp
    subst ha
    rcases hc with hc | hc
    · simp at hc
    · rcases f with _ | n
      · exact absurd rfl hc
      · exact ⟨n, rfl, by simp [openSeal]⟩
  | [], a :: b :: t, f, hp, _ => by
    have := hp.length_le
    simp at this
  | c :: d, [a], f, hp, _ => by
    have ha : a = 1 := by simpa using hp
    subst ha
    exact ⟨f.getD 0, by simp [openSeal], by simp [openSeal]⟩
  | c :: d, a :: b :: t, f, hp, hc => by
    simp only [List.flatMap_cons, List.cons_append, List.nil_append, List.cons_prefix_cons] at hp hc
    obtain ⟨rfl, rfl, hp⟩ := hp
    obtain ⟨n, h1, h2⟩ := openSeal_cut d t f hp (by
      rcases hc with hc | hc
      · exact .inl fun h => hc (by rw [h])
      · exact .inr hc)
    exact ⟨n, by simp [openSeal, h1], by simp [openSeal, h2]⟩

/-- The assumption of C150 can be met. -/
theorem sealGzip_notices : NoticesCuts sealGzip := by
  intro ps s ⟨h1, h2⟩
  right
  have he : (sealGzip.emitted sealGzip.init ps).flatten = ps.flatten.flatMap (fun b => [1, b]) ++ [0] := by
    show ((ps.map fun (p : Bytes) => p.flatMap fun b => [(1 : UInt8), b]) ++ [[0]]).flatten = _
    rw [List.flatten_append, feed_flatten]; simp
  rw [he] at h1 h2
  obtain ⟨n, h3, h4⟩ := openSeal_cut _ _ _ h1 h2
  refine ⟨(openSeal s.rest s.fin).rest, n, ?_, h4⟩
  show some (openSeal s.rest s.fin) = _
  rw [← h3]

/-- An image, its compressed form, and the latter without its last three bytes. -/
example : complete sealGzip [9, 9, 9, 4] = [1, 9, 1, 9, 1, 1, 1, 4, 0] ∧ CutShort (complete sealGzip [9, 9, 9, 4]) ⟨[1, 9, 1, 9, 1, 1], none⟩ ∧
    decompressImage sealGzip bufferSink ⟨[1, 9, 1, 9, 1, 1], none⟩ [] = ([9, 9, 9], 3, some (.rle (.readWrapped 0))) := by
  have h : complete sealGzip [9, 9, 9, 4] = [1, 9, 1, 9, 1, 1, 1, 4, 0] := by decide +kernel
  exact ⟨h, by rw [h]; exact ⟨by decide, .inl (by decide)⟩, by decide +kernel⟩
/-- Without the assumption it does not hold: a codec that does not mark the end (`storeGzip`) takes the first half of an image for an image. -/
example : complete storeGzip [9, 9, 9, 4] = [31, 9, 9, 1, 4] ∧ decompressImage storeGzip bufferSink ⟨[31, 9, 9, 1], none⟩ [] = ([9, 9, 9], 3, none) := by decide +kernel
/-- An output that takes seven bytes: CompressImage fails and has delivered these. -/
example : (compressImage sealGzip (cappedSink 7) ⟨[9, 9, 9, 4], none⟩ ([], none)).1.1 = [1, 9, 1, 9, 1, 1, 1] ∧
    (compressImage sealGzip (cappedSink 7) ⟨[9, 9, 9, 4], none⟩ ([], none)).2.2 ≠ none := by decide +kernel

/-! ### C151: when reading the image fails -/

/-- C151, what it says: what a CompressImage that failed has written is not accepted by DecompressImage. -/
def C151_statement : Prop := ∀ (z : Gzip), NoticesCuts z → ∀ (s : Src), (compressImage z bufferSink s []).2.2 ≠ none →
  (decompressImage z bufferSink ⟨(compressImage z bufferSink s []).1, none⟩ []).2.2 ≠ none

/-- C151 is FALSE: the gzip stream is closed also when reading the image failed: here after two of its bytes; what was written is a complete compressed image of one byte. -/
theorem C151_refuted : ¬ C151_statement := by
  intro h
  exact h sealGzip sealGzip_notices ⟨[1, 2], some 5⟩ (by decide +kernel) (by decide +kernel)

theorem maximal_dropLast {x : Bytes} {rs : List ByteRun} (h : MaximalRuns x rs) : MaximalRuns (expand rs.dropLast) rs.dropLast := by
  refine ⟨rfl, fun r hr => h.nonempty r ((List.dropLast_prefix rs).subset hr), ?_⟩
  have hm := h.maximal
  clear h
  induction rs with
  | nil => exact hm
  | cons a rs ih =>
    cases rs with
    | nil => simp [NeighboursDiffer]
    | cons b rs =>
      cases rs with
      | nil => simp [NeighboursDiffer]
      | cons c rs => exact ⟨hm.1, ih hm.2⟩

/-- **C151, exactly**: when reading the image fails after the bytes `x`, CompressImage returns an error, but whatever it writes to, it has written exactly what it would have
written for a complete image consisting of `x` without its last run of equal bytes. -/
theorem C151_exact_partial (z : Gzip) (x : Bytes) (e : Nat) (hx : x.length < maxInt) (rs : List ByteRun) (hr : MaximalRuns x rs) {W : Type} (k : Sink W) (w : W) :
    (compressImage z k ⟨x, some e⟩ w).2.2 ≠ none ∧
    (compressImage z k ⟨x, some e⟩ w).1 = (compressImage z k ⟨expand rs.dropLast, none⟩ w).1 := by
  have h1 := collectRuns_fail e hr hx
  have hle : (expand rs.dropLast).length < maxInt := by
    have : expand rs.dropLast <+: expand rs := by
      obtain ⟨q, hq⟩ := List.dropLast_prefix rs
      refine ⟨expand q, ?_⟩
      unfold expand
      rw [← List.flatMap_append, hq]
    rw [hr.expands] at this
    have := this.length_le
    omega
  have h2 := collectRuns_eq (maximal_dropLast hr) hle
  have c1 := compressImage_runs z k ⟨x, some e⟩ w
  have c2 := compressImage_runs z k ⟨expand rs.dropLast, none⟩ w
  rw [h1] at c1
  rw [h2] at c2
  refine ⟨fun h => ?_, by rw [c1.1, c2.1]⟩
  have := (c1.2.2.mp h).2
  cases this

/-- **C151 (partial)**: so what a CompressImage that could not read all of the image has written to a buffer is accepted, as a shorter image. -/
theorem C151_accepted_partial (z : Gzip) (x : Bytes) (e : Nat) (hx : x.length < maxInt) (rs : List ByteRun) (hr : MaximalRuns x rs) :
    decompressImage z bufferSink ⟨(compressImage z bufferSink ⟨x, some e⟩ []).1, none⟩ [] = (expand rs.dropLast, (expand rs.dropLast).length, none) := by
  rw [(C151_exact_partial z x e hx rs hr bufferSink []).2]
  exact (C08_image_roundtrip z _).2.2.1

/-- **C151 (partial)**: it is true of everything but failing reads: if writing fails and less than all was written, the result is not accepted. -/
theorem C151_writes_partial (z : Gzip) (hz : NoticesCuts z) {W : Type} (k : Sink W) (w : W) (x d : Bytes)
    (hd : k.accepted (compressImage z k ⟨x, none⟩ w).1 = k.accepted w ++ d) (hl : d ≠ complete z x) :
    (decompressImage z bufferSink ⟨d, none⟩ []).2.2 ≠ none := by
  obtain ⟨d', h1, h2, _⟩ := C150_delivered z k w x
  have : d = d' := by rw [hd] at h2; exact List.append_cancel_left h2
  subst this
  exact (C150_cut z hz x ⟨d, none⟩ ⟨h1, .inl hl⟩ bufferSink [] rfl).1

/-- Reading fails after 7 7 7 8 8: what is written stands for 7 7 7. -/
example : MaximalRuns [7, 7, 7, 8, 8] [⟨7, 3⟩, ⟨8, 2⟩] ∧ compressImage sealGzip bufferSink ⟨[7, 7, 7, 8, 8], some 5⟩ [] = ([1, 7, 1, 7, 1, 1, 0], 7, some (.rle (.read 5))) ∧
    decompressImage sealGzip bufferSink ⟨[1, 7, 1, 7, 1, 1, 0], none⟩ [] = ([7, 7, 7], 3, none) := by
  refine ⟨⟨by decide, by decide, by simp [NeighboursDiffer]⟩, by decide +kernel, by decide +kernel⟩

end Disko.Compression

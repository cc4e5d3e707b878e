import Verif.Base.Go
/-
Model of /repo/utilities/compression: rle_grouper.go, rle8.go, compression.go.

Simplifications common to the whole file:
* `bufio.NewReader(input)` + `ReadByte`/`UnreadByte` is modelled as a list of
  bytes still to come, plus what happens after them (`io.EOF` or another read
  error, numbered by a `Nat`).  Buffering itself is not modelled: the buffered
  reader delivers the same byte sequence.
* An `io.Writer` is any state machine that obeys the documented contract of
  io.Writer (`Sink.law`): it accepts `n ≤ len(p)` bytes, and if it accepts
  fewer than `len(p)` it returns an error.
* Counters of type `int64` are natural numbers (no more than 2^63 bytes are
  ever written).
-/
namespace Disko.Compression

/-- A reader: the bytes it will still deliver and how it ends
(`none` = io.EOF, `some e` = some other read error). -/
structure Src where
  rest : Bytes
  fin : Option Nat
deriving DecidableEq, Repr

/-- An error delivered by `ReadByte`: io.EOF or another error. -/
inductive RErr where
  | eof
  | io (e : Nat)
deriving DecidableEq, Repr

/-- The error a reader delivers at its end. -/
def Src.endErr (s : Src) : RErr :=
  match s.fin with
  | none => .eof
  | some e => .io e

/-- An `io.Writer` with internal state `W`.  `write w p` = new state, number of
bytes accepted, error.  `accepted` is the log of all bytes accepted so far and
`failure` the last error the writer returned, if any. -/
structure Sink (W : Type) where
  write : W → Bytes → W × Nat × Option Nat
  accepted : W → Bytes
  failure : W → Option Nat
  /-- io.Writer's documented contract. -/
  law : ∀ w p, (write w p).2.1 ≤ p.length ∧
    accepted (write w p).1 = accepted w ++ p.take (write w p).2.1 ∧
    ((write w p).2.2 = none → (write w p).2.1 = p.length)
  /-- `failure` is the error of the last failing write. -/
  failure_law : ∀ w p, failure (write w p).1 = ((write w p).2.2).or (failure w)

/-- The writer that never fails (`bytes.Buffer`). -/
def bufferSink : Sink Bytes where
  write w p := (w ++ p, p.length, none)
  accepted w := w
  failure _ := none
  law := by intro w p; simp
  failure_law := by intro w p; simp

/-- rle_grouper.go:10-19, type ByteRun. -/
structure ByteRun where
  byte : UInt8
  runLength : Nat
deriving DecidableEq, Repr

/-- rle_grouper.go:21-23, InvalidRLERun. -/
def invalidRLERun : ByteRun := ⟨0, 0⟩

/-- rle_grouper.go:56-82, the `for` loop of GetNextRun: `n` is `runLength`,
the list is what the byte scanner still has.  The model does not consume the
differing byte, which is the net effect of ReadByte followed by UnreadByte. -/
def scanRun (b : UInt8) (fin : Option Nat) : Nat → Bytes → (ByteRun × Option RErr) × Src
  | n, [] =>
    if n < maxInt then
      match fin with
      | none => ((⟨b, n⟩, some .eof), ⟨[], fin⟩)
      | some e => ((invalidRLERun, some (.io e)), ⟨[], fin⟩)
    else ((⟨b, n⟩, none), ⟨[], fin⟩)
  | n, c :: cs =>
    if n < maxInt then
      if c ≠ b then ((⟨b, n⟩, none), ⟨c :: cs, fin⟩)
      else scanRun b fin (n + 1) cs
    else ((⟨b, n⟩, none), ⟨c :: cs, fin⟩)

/-- rle_grouper.go:49-83, RLEGrouper.GetNextRun. -/
def getNextRun (s : Src) : (ByteRun × Option RErr) × Src :=
  match s.rest with
  | [] => ((invalidRLERun, some s.endErr), s)
  | b :: cs => scanRun b s.fin 1 cs

/-- Errors returned by the (de)compressors. `read` and `write` carry the
underlying error; `readWrapped`/`writeWrapped` are the same under a
`fmt.Errorf("...: %w")`; `unexpectedEOF` wraps io.ErrUnexpectedEOF. -/
inductive CErr where
  | read (e : Nat)
  | write (e : Nat)
  | readWrapped (e : Nat)
  | writeWrapped (e : Nat)
  | unexpectedEOF
deriving DecidableEq, Repr

/-- What one of these functions returns: output state, byte count, error. -/
structure Res (W : Type) where
  out : W
  count : Nat
  err : Option CErr

/-- rle8.go:25-48, the part of CompressRLE8's loop body that writes one run:
first the `for run.RunLength >= 2` loop, then the single left-over byte.
Returns the new output state, the new total, and a write error if any. -/
def emitRun8 {W : Type} (k : Sink W) (b : UInt8) (n : Nat) (w : W) (total : Nat) :
    W × Nat × Option Nat :=
  if n ≥ 2 then
    let repeatCount := if n > 257 then 255 else n - 2
    match k.write w [b, b, UInt8.ofNat repeatCount] with
    | (w', _, some e) => (w', total, some e)
    | (w', m, none) => emitRun8 k b (n - (repeatCount + 2)) w' (total + m)
  else if n = 1 then
    match k.write w [b] with
    | (w', _, some e) => (w', total, some e)
    | (w', m, none) => (w', total + m, none)
  else (w, total, none)
termination_by n
decreasing_by grind

/-- rle8.go:138-166, the part of CompressRLERecursive's loop body that writes
one run (identical text at rle8.go:189-217 in DecompressRLERecursive). -/
def emitRunRec {W : Type} (k : Sink W) (b : UInt8) (n : Nat) (w : W) (total : Nat) :
    W × Nat × Option Nat :=
  if n = 1 then
    match k.write w [b] with
    | (w', _, some e) => (w', total, some e)
    | (w', _, none) => (w', total + 1, none)
  else if n ≥ 2 then
    match k.write w [b, b] with
    | (w', _, some e) => (w', total, some e)
    | (w1, _, none) =>
      let num255 := (n - 2) / 255
      let remainder := (n - 2) % 255
      match k.write w1 (List.replicate num255 255) with
      | (w', _, some e) => (w', total + 2, some e)
      | (w2, _, none) =>
        match k.write w2 [UInt8.ofNat remainder] with
        | (w', _, some e) => (w', total + 2 + num255, some e)
        | (w3, _, none) => (w3, total + 2 + num255 + 1, none)
  else (w, total, none)

theorem scanRun_rest_le (b : UInt8) (fin : Option Nat) (n : Nat) (cs : Bytes) :
    (scanRun b fin n cs).2.rest.length ≤ cs.length := by
  induction cs generalizing n with
  | nil => simp only [scanRun]; split <;> (try split) <;> simp
  | cons c cs ih =>
    simp only [scanRun]
    split
    · split
      · simp
      · exact Nat.le_trans (ih _) (by simp)
    · simp

/-- Only used for termination of the outer loops: a run returned without an
error consumed at least one byte. -/
theorem getNextRun_rest_lt {s : Src} (h : (getNextRun s).1.2 = none) :
    (getNextRun s).2.rest.length < s.rest.length := by
  unfold getNextRun at *
  split at h
  · simp at h
  · next b cs heq =>
    have := scanRun_rest_le b s.fin 1 cs
    simp only [heq, List.length_cons]; omega

/-- The outer `for` loop shared by CompressRLE8 (rle8.go:18-55),
CompressRLERecursive (rle8.go:131-174) and DecompressRLERecursive
(rle8.go:182-225); `emit` is the part of the body that writes one run. -/
def runLoop {W : Type} (emit : UInt8 → Nat → W → Nat → W × Nat × Option Nat)
    (s : Src) (w : W) (total : Nat) : Res W :=
  match _h : getNextRun s with
  | ((_, some (.io e)), _) => ⟨w, total, some (.read e)⟩
  | ((run, some .eof), _) =>
    match emit run.byte run.runLength w total with
    | (w', total', some e) => ⟨w', total', some (.write e)⟩
    | (w', total', none) => ⟨w', total', none⟩
  | ((run, none), s') =>
    match emit run.byte run.runLength w total with
    | (w', total', some e) => ⟨w', total', some (.write e)⟩
    | (w', total', none) => runLoop emit s' w' total'
termination_by s.rest.length
decreasing_by
  have := getNextRun_rest_lt (s := s) (by rw [_h])
  rw [_h] at this; exact this

/-- rle8.go:14-56, CompressRLE8. -/
def compressRLE8 {W : Type} (k : Sink W) (input : Src) (output : W) : Res W :=
  runLoop (emitRun8 k) input output 0

/-- rle8.go:127-175, CompressRLERecursive. -/
def compressRLERecursive {W : Type} (k : Sink W) (input : Src) (output : W) : Res W :=
  runLoop (emitRunRec k) input output 0

/-- rle8.go:178-226, DecompressRLERecursive.  The body in the repository is, line
for line, the body of CompressRLERecursive. -/
def decompressRLERecursive {W : Type} (k : Sink W) (input : Src) (output : W) : Res W :=
  runLoop (emitRunRec k) input output 0

/-- rle8.go:63-107, the loop of DecompressRLE8; `last` is lastByteRead
(`none` = -1). -/
def decLoop {W : Type} (k : Sink W) (fin : Option Nat) :
    Option UInt8 → Bytes → W → Nat → Res W
  | _, [], w, total =>
    match fin with
    | none => ⟨w, total, none⟩
    | some e => ⟨w, total, some (.readWrapped e)⟩
  | last, [c], w, total =>
    if last = some c then
      match fin with
      | none => ⟨w, total, some .unexpectedEOF⟩
      | some e => ⟨w, total, some (.readWrapped e)⟩
    else
      match k.write w [c] with
      | (w', _, some e) => ⟨w', total, some (.writeWrapped e)⟩
      | (w', m, none) => decLoop k fin (some c) [] w' (total + m)
  | last, c :: r :: rest, w, total =>
    if last = some c then
      match k.write w (List.replicate (r.toNat + 1) c) with
      | (w', _, some e) => ⟨w', total, some (.writeWrapped e)⟩
      | (w', m, none) => decLoop k fin none rest w' (total + m)
    else
      match k.write w [c] with
      | (w', _, some e) => ⟨w', total, some (.writeWrapped e)⟩
      | (w', m, none) => decLoop k fin (some c) (r :: rest) w' (total + m)

/-- rle8.go:58-108, DecompressRLE8. -/
def decompressRLE8 {W : Type} (k : Sink W) (input : Src) (output : W) : Res W :=
  decLoop k input.fin none input.rest output 0

/-- compression.go:73-90, countingWriter: the wrapped writer's state and
BytesWritten; only error-free writes are counted. -/
structure Counting (W : Type) where
  inner : W
  bytesWritten : Nat

/-- compression.go:83-90, countingWriter.Write. -/
def countingSink {W : Type} (k : Sink W) : Sink (Counting W) where
  write c p :=
    match k.write c.inner p with
    | (w', n, none) => (⟨w', c.bytesWritten + n⟩, n, none)
    | (w', n, some e) => (⟨w', c.bytesWritten⟩, n, some e)
  accepted c := k.accepted c.inner
  failure c := k.failure c.inner
  law := by
    intro c p
    have h := k.law c.inner p
    generalize k.write c.inner p = r at *
    obtain ⟨w', n, e⟩ := r
    cases e <;> simpa using h
  failure_law := by
    intro c p
    have h := k.failure_law c.inner p
    generalize k.write c.inner p = r at *
    obtain ⟨w', n, e⟩ := r
    cases e <;> simpa using h

/-- The Go library's compress/gzip, abstractly.  A compressor is a state machine
that now and then emits pieces of compressed data (`feed`, `finish`); the only
assumption is losslessness: reading back everything emitted gives everything
fed in, followed by io.EOF.  `gunzip` is `none` when NewReader rejects the
header. -/
structure Gzip where
  G : Type
  init : G
  feed : G → Bytes → G × List Bytes
  finish : G → List Bytes
  gunzip : Src → Option Src
  /-- pieces emitted for a whole sequence of writes followed by Close -/
  emitted : G → List Bytes → List Bytes
  emitted_nil : ∀ g, emitted g [] = finish g
  emitted_cons : ∀ g p ps, emitted g (p :: ps) = (feed g p).2 ++ emitted (feed g p).1 ps
  lossless : ∀ ps, gunzip ⟨(emitted init ps).flatten, none⟩ = some ⟨ps.flatten, none⟩

/-- Writing several pieces to a writer, stopping at the first error. -/
def writeAll {W : Type} (k : Sink W) : W → List Bytes → W × Option Nat
  | w, [] => (w, none)
  | w, p :: ps =>
    match k.write w p with
    | (w', _, some e) => (w', some e)
    | (w', _, none) => writeAll k w' ps

/-- State of a gzip.Writer over an underlying writer: compressor state, the
underlying writer, the sticky error (`z.err` in the library), and the log of
bytes fed in without error. -/
structure GzState (z : Gzip) (W : Type) where
  g : z.G
  w : W
  err : Option Nat
  fed : Bytes

/-- gzip.Writer.Write (Go library): forwards what the compressor emits; errors
of the underlying writer are sticky.  On error the model reports 0 bytes
accepted; CompressRLE8 ignores the number in that case. -/
def gzSink (z : Gzip) {W : Type} (k : Sink W) : Sink (GzState z W) where
  write s p :=
    match s.err with
    | some e => (s, 0, some e)
    | none =>
      match writeAll k s.w (z.feed s.g p).2 with
      | (w', some e) => (⟨(z.feed s.g p).1, w', some e, s.fed⟩, 0, some e)
      | (w', none) => (⟨(z.feed s.g p).1, w', none, s.fed ++ p⟩, p.length, none)
  accepted s := s.fed
  failure s := s.err
  law := by
    intro s p
    cases h : s.err with
    | some e => simp
    | none =>
      simp only []
      generalize writeAll k s.w (z.feed s.g p).2 = r
      obtain ⟨w', e⟩ := r
      cases e <;> simp
  failure_law := by
    intro s p
    cases h : s.err with
    | some e => simp [h]
    | none =>
      simp only []
      generalize writeAll k s.w (z.feed s.g p).2 = r
      obtain ⟨w', e⟩ := r
      cases e <;> simp

/-- gzip.Writer.Close (Go library). -/
def gzClose (z : Gzip) {W : Type} (k : Sink W) (s : GzState z W) : W × Option Nat :=
  match s.err with
  | some e => (s.w, some e)
  | none => writeAll k s.w (z.finish s.g)

/-- Errors of CompressImage / DecompressImage. -/
inductive ImgErr where
  | rle (e : CErr)
  | gzipClose (e : Nat)
  | gzipHeader
deriving DecidableEq, Repr

/-- compression.go:15-37, CompressImage.  gzip.NewWriterLevel cannot fail for the
constant gzip.BestCompression, so that error branch is dropped.  Returns the
final output state, the reported size, and the error. -/
def compressImage (z : Gzip) {W : Type} (k : Sink W) (input : Src) (output : W) :
    W × Nat × Option ImgErr :=
  let r := compressRLE8 (gzSink z (countingSink k)) input ⟨z.init, ⟨output, 0⟩, none, []⟩
  let c := gzClose z (countingSink k) r.out
  match r.err with
  | some e => (c.1.inner, c.1.bytesWritten, some (.rle e))
  | none =>
    match c.2 with
    | some e => (c.1.inner, c.1.bytesWritten, some (.gzipClose e))
    | none => (c.1.inner, c.1.bytesWritten, none)

/-- compression.go:45-52, DecompressImage. -/
def decompressImage (z : Gzip) {W : Type} (k : Sink W) (input : Src) (output : W) :
    W × Nat × Option ImgErr :=
  match z.gunzip input with
  | none => (output, 0, some .gzipHeader)
  | some src =>
    let r := decompressRLE8 k src output
    (r.out, r.count, r.err.map .rle)

/-- compression.go:58-71, DecompressImageToBytes: `bytes.Buffer` never fails, and
the bufio.Writer over it is flushed before the buffer is copied out. -/
def decompressImageToBytes (z : Gzip) (input : Src) : Bytes × Option ImgErr :=
  match decompressImage z bufferSink input [] with
  | (_, _, some e) => ([], some e)
  | (out, _, none) => (out, none)

end Disko.Compression

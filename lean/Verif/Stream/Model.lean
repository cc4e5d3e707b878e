import Verif.BlockCache.Model
import Verif.Compression.Model
import Verif.Flags.Model
/-
Model of /repo/file_systems/common/basicstream/basicstream.go, on top of the model of the
block cache.

* `int64` values are integers; every sum the code computes is wrapped with `i64`.  Conversions
  from int64 to uint are `toUint` (two's complement, 64-bit).
* `len(buffer)` is a natural number; a Go slice is never longer than math.MaxInt.
* `uint64(size) > math.MaxUint` (basicstream.go:230) is never true on a 64-bit platform; that
  branch is dropped.
-/
namespace Disko.Stream
open Disko Disko.BlockCache

/-- Errors returned by the stream. -/
inductive SErr where
  | notPermitted
  | invalidArgument
  | invalidSeek
  | invalidSize
  | eof
  | cache (e : BlockCache.Err)
  | source (n : Nat)
deriving DecidableEq, Repr

/-- Conversion of an int64 to uint. -/
def toUint (z : Int) : Nat := (z % 2 ^ 64).toNat

/-- basicstream.go:18-23, type BasicStream; `st` is the block cache (with its storage). -/
structure Stm (S : Type) where
  size : Int
  position : Int
  st : St S
  flags : Flags.IOFlags
deriving DecidableEq

/-- basicstream.go:61-70, convertLinearAddr: Go's `/` and `%` truncate towards zero; division by
zero panics. -/
def convertLinearAddr {S : Type} (x : Stm S) (offset : Int) : Outcome (Nat × Nat) :=
  let bytesPerBlock := i64 x.st.c.bpb
  if bytesPerBlock = 0 then .panic
  else .ret (toUint (i64 (offset.tdiv bytesPerBlock)), toUint (offset.tmod bytesPerBlock))

/-- What Read and ReadAt return: the caller's buffer after the call, the count, the error. -/
structure ReadRes where
  buf : Bytes
  n : Int
  err : Option SErr
deriving DecidableEq, Repr

/-- basicstream.go:87-128, ReadAt.  Slicing `sourceData[lo:hi]` is checked against the capacity,
which extends to the end of the cache's memory. -/
def readAt {S : Type} (b : Backend S) (x : Stm S) (buffer : Bytes) (offset : Int) :
    Outcome (Stm S × ReadRes) := do
  if !Flags.read x.flags then return (x, ⟨buffer, 0, some .notPermitted⟩)
  else if buffer.length = 0 then return (x, ⟨buffer, 0, none⟩)
  else if offset ≥ x.size then return (x, ⟨buffer, 0, some .eof⟩)
  else
    let bufLen : Int := buffer.length
    let numBytesToRead := if i64 (offset + bufLen) ≥ x.size then i64 (x.size - offset) else bufLen
    let (firstBlock, startOffset) ← convertLinearAddr x offset
    let (lastBlock, _) ← convertLinearAddr x (i64 (i64 (offset + numBytesToRead) - 1))
    match ← getSlice b x.st firstBlock (u64 (u64sub lastBlock firstBlock + 1)) with
    | (st', .error e) => return ({ x with st := st' }, ⟨buffer, 0, some (.cache e)⟩)
    | (st', .ok w) =>
      let lo := startOffset
      let hi := u64 (startOffset + toUint numBytesToRead)
      if lo ≤ hi ∧ w.off + hi ≤ st'.c.data.length then
        let err := if numBytesToRead < bufLen then some SErr.eof else none
        return ({ x with st := st' },
          ⟨goCopy buffer (slice st'.c.data (w.off + lo) (hi - lo)), numBytesToRead, err⟩)
      else .panic

/-- basicstream.go:78-85, Read. -/
def read {S : Type} (b : Backend S) (x : Stm S) (buffer : Bytes) : Outcome (Stm S × ReadRes) := do
  let (x', r) ← readAt b x buffer x.position
  match r.err with
  | none => return ({ x' with position := i64 (x'.position + r.n) }, r)
  | some _ => return (x', r)

/-- basicstream.go:164-200, Seek (io.SeekStart = 0, io.SeekCurrent = 1, io.SeekEnd = 2). -/
def seek {S : Type} (x : Stm S) (offset whence : Int) : Stm S × Int × Option SErr :=
  let absolute : Option Int :=
    if whence = 0 then some offset
    else if whence = 1 then some (i64 (x.position + offset))
    else if whence = 2 then some (i64 (x.size + offset))
    else none
  match absolute with
  | none => (x, x.position, some .invalidSeek)
  | some a =>
    if a < 0 then (x, x.position, some .invalidSeek)
    else ({ x with position := a }, a, none)

/-- basicstream.go:202-205, Size. -/
def Stm.size' {S : Type} (x : Stm S) : Int := x.size

/-- basicstream.go:213-217, Tell. -/
def Stm.tell {S : Type} (x : Stm S) : Int := x.position

/-- basicstream.go:207-211, Sync; also 72-76, Close. -/
def sync {S : Type} (b : Backend S) (x : Stm S) : Outcome (Stm S × Option SErr) := do
  match ← flush b x.st with
  | (st', .error e) => return ({ x with st := st' }, some (.cache e))
  | (st', .ok ()) => return ({ x with st := st' }, none)

/-- basicstream.go:219-248, Truncate. -/
def truncate {S : Type} (b : Backend S) (x : Stm S) (size : Int) : Outcome (Stm S × Option SErr) := do
  if !Flags.write x.flags then return (x, some .notPermitted)
  else if size < 0 then return (x, some .invalidArgument)
  else
    let newTotalBlocks ← x.st.c.getMinBlocksForSize (toUint size)
    match ← resize b x.st newTotalBlocks with
    | (st', .error e) => return ({ x with st := st' }, some (.cache e))
    | (st', .ok ()) =>
      let x' := { x with st := st', size := size }
      if Flags.synchronous x.flags then sync b x' else return (x', none)

/-- basicstream.go:25-59, New: `none` is a nil stream. -/
def new {S : Type} (b : Backend S) (size : Int) (st : St S) (flags : Flags.IOFlags) :
    Outcome (Option (Stm S) × Option SErr) := do
  if size < 0 ∨ size > st.c.size then return (none, some .invalidSize)
  else
    let x : Stm S := { size, position := 0, st, flags }
    if Flags.truncate flags then
      let (x', e) ← truncate b x 0
      return (some x', e)
    else return (some x, none)

/-- basicstream.go:273-304, implWriteAt: returns the count and the error. -/
def implWriteAt {S : Type} (b : Backend S) (x : Stm S) (buffer : Bytes) (offset : Int) :
    Outcome (Stm S × Int × Option SErr) := do
  if !Flags.write x.flags then return (x, 0, some .notPermitted)
  else
    let bufLen : Int := buffer.length
    let (startBlock, startOffset) ← convertLinearAddr x offset
    let (lastBlock, _) ← convertLinearAddr x (i64 (offset + bufLen))
    let (x1, e1) ← (if lastBlock ≥ x.st.c.totalBlocks then truncate b x (i64 (offset + bufLen))
      else .ret (x, none))
    match e1 with
    | some e => return (x1, 0, some e)
    | none =>
      match ← getSlice b x1.st startBlock (u64 (lastBlock + 1)) with
      | (st', .error e) => return ({ x1 with st := st' }, 0, some (.cache e))
      | (st', .ok w) =>
        if startOffset ≤ w.len then
          let target := slice st'.c.data (w.off + startOffset) (w.len - startOffset)
          let c' := { st'.c with data := splice st'.c.data (w.off + startOffset) (goCopy target buffer) }
          let x2 := { x1 with st := ⟨c', st'.s⟩ }
          if Flags.synchronous x.flags then
            let (x3, e) ← sync b x2
            return (x3, bufLen, e)
          else return (x2, bufLen, none)
        else .panic

/-- basicstream.go:250-271, Write (also 315-318, WriteString). -/
def write {S : Type} (b : Backend S) (x : Stm S) (buffer : Bytes) :
    Outcome (Stm S × Int × Option SErr) := do
  if !Flags.write x.flags then return (x, 0, some .notPermitted)
  else
    let (x0, _, e0) := if Flags.append x.flags then seek x 0 2 else (x, 0, none)
    match e0 with
    | some e => return (x0, 0, some e)
    | none =>
      let (x', n, e) ← implWriteAt b x0 buffer x0.position
      return ({ x' with position := i64 (x'.position + n) }, n, e)

/-- basicstream.go:306-313, WriteAt. -/
def writeAt {S : Type} (b : Backend S) (x : Stm S) (buffer : Bytes) (offset : Int) :
    Outcome (Stm S × Int × Option SErr) := do
  if Flags.append x.flags then return (x, 0, some .notPermitted)
  else implWriteAt b x buffer offset

/-- basicstream.go:320-342, WriteTo.  `k` is the io.Writer; the loop runs for at most `fuel`
iterations (an exhausted budget is `timeout`).  What the writer returns is ignored, as in the
code. The first argument of the recursion is the buffer reused between iterations. -/
def writeToLoop {S W : Type} (b : Backend S) (k : Compression.Sink W) :
    Nat → Bytes → Stm S → W → Int → Outcome (Stm S × W × Int × Option SErr)
  | 0, _, _, _, _ => .timeout
  | fuel + 1, buffer, x, w, totalWritten => do
    let (x', r) ← read b x buffer
    let (w', total') :=
      if r.n > 0 then ((k.write w (r.buf.take r.n.toNat)).1, i64 (totalWritten + r.n))
      else (w, totalWritten)
    match r.err with
    | some .eof => return (x', w', total', none)
    | some e => return (x', w', total', some e)
    | none => writeToLoop b k fuel r.buf x' w' total'

/-- basicstream.go:320-342, WriteTo: buffer of one block. -/
def writeTo {S W : Type} (b : Backend S) (k : Compression.Sink W) (fuel : Nat) (x : Stm S) (w : W) :
    Outcome (Stm S × W × Int × Option SErr) :=
  writeToLoop b k fuel (List.replicate x.st.c.bpb 0) x w 0

/-- An io.Reader with state `R`: what `Read(p)` puts at the start of a buffer of the given
length, and the error it returns with it (io.EOF or another one). -/
structure Source (R : Type) where
  read : R → Nat → R × Bytes × Option Compression.RErr
  law : ∀ r n, (read r n).2.1.length ≤ n

/-- basicstream.go:148-161, the loop of ReadFrom, at most `fuel` iterations. -/
def readFromLoop {S R : Type} (b : Backend S) (src : Source R) (blockSize : Nat) :
    Nat → Stm S → R → Int → Outcome (Stm S × R × Int × Option SErr)
  | 0, _, _, _ => .timeout
  | fuel + 1, x, r, total => do
    let (r', chunk, readErr) := src.read r blockSize
    let total' := i64 (total + chunk.length)
    let (x', _, writeErr) ← write b x chunk
    match readErr with
    | some .eof => return (x', r', total', none)
    | some (.io e) => return (x', r', total', some (.source e))
    | none =>
      match writeErr with
      | some e => return (x', r', total', some e)
      | none => readFromLoop b src blockSize fuel x' r' total'

/-- basicstream.go:130-162, ReadFrom; `blockSize` is 512, or the block size of the source when
that is another BasicStream (the stream itself as a source is `selfFrom` in Copy.lean). -/
def readFrom {S R : Type} (b : Backend S) (src : Source R) (blockSize fuel : Nat) (x : Stm S) (r : R) :
    Outcome (Stm S × R × Int × Option SErr) :=
  if !Flags.write x.flags then .ret (x, r, 0, some .notPermitted)
  else readFromLoop b src blockSize fuel x r 0

end Disko.Stream

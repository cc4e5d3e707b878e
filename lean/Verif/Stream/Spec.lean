import Verif.Stream.Model
import Verif.BlockCache.Spec
/-
Specification vocabulary for streams (C23-C34): the file as a list of bytes, calls and
histories.
-/
namespace Disko.Stream.Spec
open Disko Disko.BlockCache Disko.BlockCache.Spec Disko.Stream

/-- The file: the first `size` bytes of the cached object. -/
def file {S : Type} (view : S → Bytes) (x : Stm S) : Bytes := (contents view x.st).take x.size.toNat

/-- The number of bytes the cached object has room for. -/
abbrev capacity {S : Type} (x : Stm S) : Nat := x.st.c.totalBlocks * x.st.c.bpb

/-- Calls a client can make on an open stream.  Sync is also Close; Write is also WriteString.
WriteTo and ReadFrom come with the writer or reader (in any state), the number of loop
iterations after which the model gives up, and for ReadFrom the size of its buffer. -/
inductive Call : Type 1 where
  | read (buf : Bytes)
  | readAt (buf : Bytes) (off : Int)
  | seek (off whence : Int)
  | sync
  | truncate (n : Int)
  | write (buf : Bytes)
  | writeAt (buf : Bytes) (off : Int)
  | writeTo {W : Type} (k : Compression.Sink W) (w : W) (fuel : Nat)
  | readFrom {R : Type} (src : Source R) (r : R) (blockSize fuel : Nat)

/-- The stream after a call. -/
def stepCall {S : Type} (b : Backend S) (x : Stm S) : Call → Outcome (Stm S)
  | .read buf => do let (x', _) ← Stream.read b x buf; return x'
  | .readAt buf off => do let (x', _) ← Stream.readAt b x buf off; return x'
  | .seek off whence => .ret (Stream.seek x off whence).1
  | .sync => do let (x', _) ← Stream.sync b x; return x'
  | .truncate n => do let (x', _) ← Stream.truncate b x n; return x'
  | .write buf => do let (x', _) ← Stream.write b x buf; return x'
  | .writeAt buf off => do let (x', _) ← Stream.writeAt b x buf off; return x'
  | .writeTo k w fuel => do let (x', _) ← Stream.writeTo b k fuel x w; return x'
  | .readFrom src r blockSize fuel => do
    let (x', _) ← Stream.readFrom b src blockSize fuel x r; return x'

/-- A buffer that fits in memory together with the cached object. -/
abbrev FitsRead {S : Type} (x : Stm S) (len : Nat) : Prop := capacity x + len ≤ maxInt

/-- A size that can be allocated (rounded up to whole blocks). -/
abbrev FitsSize {S : Type} (x : Stm S) (n : Int) : Prop := n + x.st.c.bpb ≤ maxInt

/-- A write of `len` bytes at `off`: the buffer fits in memory with the cached object, and the
end of the write is either a size that can be allocated, or not even an int64. -/
abbrev FitsWrite {S : Type} (x : Stm S) (len : Nat) (off : Int) : Prop :=
  off ≤ maxInt ∧ capacity x + len + x.st.c.bpb ≤ maxInt ∧ (FitsSize x (off + len) ∨ maxInt < off + len)

/-- The offset at which Write writes. -/
def writeOffset {S : Type} (x : Stm S) : Int := if Flags.append x.flags then x.size else x.position

/-- Every iteration of ReadFrom writes something that fits. -/
inductive FitsReadFrom {S R : Type} (b : Backend S) (src : Source R) (blockSize : Nat) : Stm S → R → Prop where
  | mk (x : Stm S) (r : R) (h : FitsWrite x (src.read r blockSize).2.1.length (writeOffset x))
      (next : ∀ x' n, Stream.write b x (src.read r blockSize).2.1 = .ret (x', n, none) →
        FitsReadFrom b src blockSize x' (src.read r blockSize).1) : FitsReadFrom b src blockSize x r

/-- Calls whose numbers are small enough for the code's arithmetic not to overflow (buffers and
the cached object lie in the same address space, so their lengths add up to less than 2^63),
and whose offsets are not negative. -/
def Fits {S : Type} (b : Backend S) (x : Stm S) : Call → Prop
  | .read buf => FitsRead x buf.length
  | .readAt buf off => FitsRead x buf.length ∧ 0 ≤ off
  | .seek off _ => -(2 ^ 63) ≤ off ∧ off < 2 ^ 63
  | .sync => True
  | .truncate n => FitsSize x n
  | .write buf => FitsWrite x buf.length (writeOffset x)
  | .writeAt buf off => FitsWrite x buf.length off ∧ 0 ≤ off
  | .writeTo _ _ _ => FitsRead x x.st.c.bpb
  | .readFrom src r blockSize _ => FitsReadFrom b src blockSize x r

/-- Streams that exist: opened (with any size and flags) on a cache with any history, and used
in any way. -/
inductive Reachable {S : Type} (b : Backend S) (bpb total : Nat) (s0 : S) : Stm S → Prop where
  | opened {ops : List Op} {st : St S} {rs : List Result} {size : Int} {flags : Flags.IOFlags}
      {x : Stm S} {e : Option SErr} (ha : After b bpb total s0 ops st rs)
      (hn : new b size st flags = .ret (some x, e)) : Reachable b bpb total s0 x
  | call {x x' : Stm S} {c : Call} (hr : Reachable b bpb total s0 x) (hf : Fits b x c)
      (hs : stepCall b x c = .ret x') : Reachable b bpb total s0 x'

/-- `x'` is reached from `x` by calls. -/
inductive Steps {S : Type} (b : Backend S) : Stm S → Stm S → Prop where
  | refl (x : Stm S) : Steps b x x
  | call {x x1 x2 : Stm S} {c : Call} (hs : Steps b x x1) (hf : Fits b x1 c)
      (h : stepCall b x1 c = .ret x2) : Steps b x x2

/-- The setting of the theorems. -/
structure StreamSetup {S : Type} (b : Backend S) (bpb total : Nat) (view : S → Bytes) (s0 : S) : Prop where
  cache : BlockCache.Spec.Setup b bpb total view s0
  bpb_le : bpb ≤ maxInt

/-- A call of the storage callbacks failed with this error. -/
def CallbackFailed {S : Type} (b : Backend S) : SErr → Prop
  | .cache (.fetchFailed j be) => ∃ s buf, (b.fetch s j buf).2.2 = some be
  | .cache (.flushFailed j be) => ∃ s buf, (b.flush s j buf).2 = some be
  | .cache (.resizeFailed be) => ∃ s n, (b.resize s n).2 = some be
  | _ => False

/-- A writer that also records what it was given. -/
def recording {W : Type} (k : Compression.Sink W) : Compression.Sink (W × List Bytes) where
  write w p := (((k.write w.1 p).1, w.2 ++ [p]), (k.write w.1 p).2)
  accepted w := k.accepted w.1
  failure w := k.failure w.1
  law w p := k.law w.1 p
  failure_law w p := k.failure_law w.1 p

/-- A reader that also records what it delivered. -/
def recordingSource {R : Type} (src : Source R) : Source (R × List Bytes) where
  read r n := (((src.read r.1 n).1, r.2 ++ [(src.read r.1 n).2.1]), (src.read r.1 n).2)
  law r n := src.law r.1 n

/-- `x'` is the stream after writing the chunks one after the other, each Write returning nil. -/
inductive Written {S : Type} (b : Backend S) : Stm S → List Bytes → Stm S → Prop where
  | nil (x : Stm S) : Written b x [] x
  | cons {x x1 x2 : Stm S} {chunk : Bytes} {chunks : List Bytes}
      (h : Stream.write b x chunk = .ret (x1, (chunk.length : Int), none))
      (hr : Written b x1 chunks x2) : Written b x (chunk :: chunks) x2

/-- A call of Write (at the offset the stream dictates) or WriteAt, with what it returned. -/
inductive WriteCall {S : Type} (b : Backend S) (x : Stm S) (buf : Bytes) :
    Nat → Stm S → Int → Option SErr → Prop where
  | write {off : Nat} {x' : Stm S} {n : Int} {e : Option SErr} (ho : writeOffset x = off)
      (h : Stream.write b x buf = .ret (x', n, e)) : WriteCall b x buf off x' n e
  | writeAt {off : Nat} {x' : Stm S} {n : Int} {e : Option SErr} (ha : Flags.append x.flags = false)
      (h : Stream.writeAt b x buf off = .ret (x', n, e)) : WriteCall b x buf off x' n e

/-- Callbacks that never fail. -/
structure AllReliable {S : Type} (b : Backend S) : Prop where
  cache : Reliable b
  resize : ∀ s n, (b.resize s n).2 = none

/-- The number of blocks of the cached object after a write that ends at byte `end_`. -/
def blocksAfter {S : Type} (x : Stm S) (end_ : Nat) : Nat :=
  if capacity x ≤ end_ then (end_ + (x.st.c.bpb - 1)) / x.st.c.bpb else x.st.c.totalBlocks

/-- Several Reads in a row. -/
def reads {S : Type} (b : Backend S) (x : Stm S) : List Bytes → Outcome (Stm S × List ReadRes)
  | [] => .ret (x, [])
  | buf :: bufs => do
    let (x', r) ← Stream.read b x buf
    let (x'', rs) ← reads b x' bufs
    return (x'', r :: rs)

end Disko.Stream.Spec

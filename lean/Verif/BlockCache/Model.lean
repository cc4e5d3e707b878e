import Verif.Base.Go
/-
Model of /repo/file_systems/common/blockcache/blockcache.go.

* `uint`/`LogicalBlock` values are natural numbers below 2^64; every addition and
  multiplication the code performs on them is wrapped with `u64` where it can overflow.
* The three callbacks are an arbitrary `Backend` over an arbitrary storage state.  A fetch
  callback receives the buffer (a window of the cache's memory) and returns its new
  contents; a buffer keeps its length (`goCopy`), and may be changed even when the callback
  fails.  Flush callbacks do not modify the buffer they are given.
* A slice returned by GetSlice/Data is a window (offset, length) of the cache's memory:
  `peek` reads through it, `poke` writes through it.
* github.com/boljen/go-bitmap: `NewSlice(n)` has room for n rounded up to a multiple of 8
  bits; Get and Set panic beyond that.
-/
namespace Disko.BlockCache

/-- Errors a callback returns. -/
inductive BErr where
  | notSupported
  | notPermitted
  | argumentOutOfRange
  | other (n : Nat)
deriving DecidableEq, Repr

/-- Errors of the cache. The callback's error is wrapped with the block index (`%w`) for
fetch and flush, and returned as it is for resize. -/
inductive Err where
  | argumentOutOfRange
  | fetchFailed (block : Nat) (e : BErr)
  | flushFailed (block : Nat) (e : BErr)
  | resizeFailed (e : BErr)
deriving DecidableEq, Repr

/-- blockcache.go:19-50, the callbacks. -/
structure Backend (S : Type) where
  fetch : S → Nat → Bytes → S × Bytes × Option BErr
  flush : S → Nat → Bytes → S × Option BErr
  resize : S → Nat → S × Option BErr

/-- blockcache.go:52-66, type BlockCache (without the callbacks). -/
structure Cache where
  bpb : Nat
  total : Nat
  loaded : List Bool
  dirty : List Bool
  data : Bytes
deriving DecidableEq, Repr

/-- go-bitmap NewSlice: number of bits allocated. -/
def bitmapLen (n : Nat) : Nat := 8 * ((n + 7) / 8)

/-- go-bitmap Set: panics when out of range. -/
def bitSet (m : List Bool) (i : Nat) (v : Bool) : Outcome (List Bool) :=
  if i < m.length then .ret (m.set i v) else .panic

/-- go-bitmap Get: panics when out of range. -/
def bitGet (m : List Bool) (i : Nat) : Outcome Bool :=
  match m[i]? with
  | some b => .ret b
  | none => .panic

/-- blockcache.go:77-106, New.  `make` panics when the (wrapped) size is not a valid int. -/
def new (bpb total : Nat) : Outcome Cache :=
  if total ≤ maxInt ∧ u64 (bpb * total) ≤ maxInt then
    .ret { bpb, total, loaded := List.replicate (bitmapLen total) false,
           dirty := List.replicate (bitmapLen total) false,
           data := List.replicate (u64 (bpb * total)) 0 }
  else .panic

/-- blockcache.go:84-94, the stub used when `resizeCb` is nil. -/
def nilResize {S : Type} (s : S) (_n : Nat) : S × Option BErr := (s, some .notSupported)

/-- blockcache.go:209-213, TotalBlocks. -/
def Cache.totalBlocks (c : Cache) : Nat := c.total

/-- blockcache.go:215-218, Size. -/
def Cache.size (c : Cache) : Int := i64 (i64 c.bpb * i64 c.total)

/-- blockcache.go:220-224, GetMinBlocksForSize; panics (division by zero) for a block size of
zero.  `size + bpb - 1` is computed modulo 2^64. -/
def Cache.getMinBlocksForSize (c : Cache) (size : Nat) : Outcome Nat :=
  if c.bpb = 0 then .panic else .ret (u64 (size + (c.bpb - 1)) / c.bpb)

/-- blockcache.go:226-250, CheckBounds. -/
def Cache.checkBounds (c : Cache) (start bufferSize : Nat) : Outcome (Option Err) := do
  let numBlocks ← c.getMinBlocksForSize bufferSize
  if start ≥ c.total then return some .argumentOutOfRange
  else if u64 (start + numBlocks) > c.total then return some .argumentOutOfRange
  else return none

/-- Cache and storage together. -/
structure St (S : Type) where
  c : Cache
  s : S
deriving DecidableEq

/-- blockcache.go:293-317, the loop of loadBlockRange: `n` iterations left, at block `i`. -/
def loadLoop {S : Type} (b : Backend S) : Nat → Nat → St S → Outcome (St S × Option Err)
  | 0, _, st => .ret (st, none)
  | n + 1, i, st => do
    let isLoaded ← bitGet st.c.loaded i
    if isLoaded then loadLoop b n (i + 1) st
    else
      let startByteOffset := u64 (i * st.c.bpb)
      let endByteOffset := u64 (startByteOffset + st.c.bpb)
      if startByteOffset ≤ endByteOffset ∧ endByteOffset ≤ st.c.data.length then
        let buffer := slice st.c.data startByteOffset (endByteOffset - startByteOffset)
        match b.fetch st.s i buffer with
        | (s', buf', some e) =>
          return (⟨{ st.c with data := splice st.c.data startByteOffset (goCopy buffer buf') }, s'⟩,
            some (.fetchFailed i e))
        | (s', buf', none) =>
          let data' := splice st.c.data startByteOffset (goCopy buffer buf')
          let loaded' ← bitSet st.c.loaded i true
          let dirty' ← bitSet st.c.dirty i false
          loadLoop b n (i + 1) ⟨{ st.c with data := data', loaded := loaded', dirty := dirty' }, s'⟩
      else .panic

/-- blockcache.go:285-320, loadBlockRange.  The loop runs from `start` up to the (wrapped)
`start + count`. -/
def loadBlockRange {S : Type} (b : Backend S) (st : St S) (start count : Nat) :
    Outcome (St S × Option Err) := do
  match ← st.c.checkBounds start (u64 (count * st.c.bpb)) with
  | some e => return (st, some e)
  | none => loadLoop b (u64 (start + count) - start) start st

/-- A window of the cache's memory, as returned by GetSlice and Data. -/
structure Window where
  off : Nat
  len : Nat
deriving DecidableEq, Repr

/-- Reading through a returned slice. -/
def Cache.peek (c : Cache) (w : Window) : Bytes := slice c.data w.off w.len

/-- Writing `v` into a returned slice, starting at index `at_` of the slice
(used with `at_ + v.length ≤ w.len`). -/
def Cache.poke (c : Cache) (w : Window) (at_ : Nat) (v : Bytes) : Cache :=
  { c with data := splice c.data (w.off + at_) v }

/-- blockcache.go:252-269, GetSlice. -/
def getSlice {S : Type} (b : Backend S) (st : St S) (start count : Nat) : Outcome (St S × Except Err Window) := do
  match ← loadBlockRange b st start count with
  | (st', some e) => return (st', .error e)
  | (st', none) =>
    let startOffset := u64 (start * st'.c.bpb)
    let endOffset := u64 (startOffset + u64 (count * st'.c.bpb))
    if startOffset ≤ endOffset ∧ endOffset ≤ st'.c.data.length then
      return (st', .ok ⟨startOffset, endOffset - startOffset⟩)
    else .panic

/-- blockcache.go:357-360, LoadAll. -/
def loadAll {S : Type} (b : Backend S) (st : St S) : Outcome (St S × Except Err Unit) := do
  match ← loadBlockRange b st 0 st.c.total with
  | (st', some e) => return (st', .error e)
  | (st', none) => return (st', .ok ())

/-- blockcache.go:271-283, Data. -/
def data {S : Type} (b : Backend S) (st : St S) : Outcome (St S × Except Err Window) := do
  match ← loadAll b st with
  | (st', .error e) => return (st', .error e)
  | (st', .ok ()) => return (st', .ok ⟨0, st'.c.data.length⟩)

/-- blockcache.go:330-352, the loop of flushBlockRange. -/
def flushLoop {S : Type} (b : Backend S) : Nat → Nat → St S → Outcome (St S × Option Err)
  | 0, _, st => .ret (st, none)
  | n + 1, i, st => do
    let isDirty ← bitGet st.c.dirty i
    if !isDirty then flushLoop b n (i + 1) st
    else
      match ← getSlice b st i 1 with
      | (st', .error e) => return (st', some e)
      | (st', .ok w) =>
        match b.flush st'.s i (st'.c.peek w) with
        | (s', some e) => return (⟨st'.c, s'⟩, some (.flushFailed i e))
        | (s', none) =>
          let dirty' ← bitSet st'.c.dirty i false
          flushLoop b n (i + 1) ⟨{ st'.c with dirty := dirty' }, s'⟩

/-- blockcache.go:322-355, flushBlockRange. -/
def flushBlockRange {S : Type} (b : Backend S) (st : St S) (start count : Nat) :
    Outcome (St S × Option Err) := do
  match ← st.c.checkBounds start (u64 (count * st.c.bpb)) with
  | some e => return (st, some e)
  | none => flushLoop b (u64 (start + count) - start) start st

/-- blockcache.go:362-366, Flush. -/
def flush {S : Type} (b : Backend S) (st : St S) : Outcome (St S × Except Err Unit) := do
  match ← flushBlockRange b st 0 st.c.total with
  | (st', some e) => return (st', .error e)
  | (st', none) => return (st', .ok ())

/-- blockcache.go:368-394, ReadAt.  Returns the caller's buffer after the call and the
reported count (on error the count is 0 and the buffer is untouched). -/
def readAt {S : Type} (b : Backend S) (st : St S) (buffer : Bytes) (start : Nat) :
    Outcome (St S × Except Err (Bytes × Nat)) := do
  match ← st.c.checkBounds start buffer.length with
  | some e => return (st, .error e)
  | none =>
    let numBlocks ← st.c.getMinBlocksForSize buffer.length
    match ← loadBlockRange b st start numBlocks with
    | (st', some e) => return (st', .error e)
    | (st', none) =>
      match ← getSlice b st' start numBlocks with
      | (st'', .error e) => return (st'', .error e)
      | (st'', .ok w) =>
        let sourceData := st''.c.peek w
        return (st'', .ok (goCopy buffer sourceData, sourceData.length))

/-- The loop that sets both bits of `n` blocks from `i` (blockcache.go:419-423 and
480-485). -/
def markLoop : Nat → Nat → Cache → Outcome Cache
  | 0, _, c => .ret c
  | n + 1, i, c => do
    let loaded' ← bitSet c.loaded i true
    let dirty' ← bitSet c.dirty i true
    markLoop n (i + 1) { c with loaded := loaded', dirty := dirty' }

/-- blockcache.go:396-425, WriteAt. -/
def writeAt {S : Type} (b : Backend S) (st : St S) (buffer : Bytes) (start : Nat) : Outcome (St S × Except Err Nat) := do
  match ← st.c.checkBounds start buffer.length with
  | some e => return (st, .error e)
  | none =>
    let totalBlocks ← st.c.getMinBlocksForSize buffer.length
    match ← getSlice b st start totalBlocks with
    | (st', .error e) => return (st', .error e)
    | (st', .ok w) =>
      let target := st'.c.peek w
      let c1 := { st'.c with data := splice st'.c.data w.off (goCopy target buffer) }
      let c2 ← markLoop totalBlocks start c1
      return (⟨c2, st'.s⟩, .ok buffer.length)

/-- A Go `copy` between bitmaps of different sizes: the bits of the new (all false) bitmap. -/
def bitCopy (newLen : Nat) (old : List Bool) : List Bool :=
  old.take newLen ++ List.replicate (newLen - old.length) false

/-- blockcache.go:427-467, Resize.  `make` panics when the size is not a valid int. -/
def resize {S : Type} (b : Backend S) (st : St S) (newTotal : Nat) : Outcome (St S × Except Err Unit) := do
  match b.resize st.s newTotal with
  | (s', some e) => return (⟨st.c, s'⟩, .error (.resizeFailed e))
  | (s', none) =>
    if newTotal ≤ maxInt ∧ u64 (newTotal * st.c.bpb) ≤ maxInt then
      let newData := goCopy (List.replicate (u64 (newTotal * st.c.bpb)) 0) st.c.data
      let c1 := { st.c with
        data := newData
        dirty := bitCopy (bitmapLen newTotal) st.c.dirty
        loaded := bitCopy (bitmapLen newTotal) st.c.loaded }
      let c2 ← markLoop (newTotal - st.c.total) st.c.total c1
      return (⟨{ c2 with total := newTotal }, s'⟩, .ok ())
    else .panic

/-- blockcache.go:469-487, MarkBlockRangeDirty. -/
def markBlockRangeDirty {S : Type} (st : St S) (start count : Nat) : Outcome (St S × Except Err Unit) := do
  match ← st.c.checkBounds start (u64 (count * st.c.bpb)) with
  | some e => return (st, .error e)
  | none =>
    let c' ← markLoop count start st.c
    return (⟨c', st.s⟩, .ok ())

/-! ### WrapStream -/

/-- A seekable stream (`io.ReadWriteSeeker`) over a file-like byte array, in the manner of
os.File: reads stop at the end, writes past the end extend it.  `canTruncate` says whether it
implements common.Truncator.  The position is set before every access by seekToBlock, so it
is not part of the state.  (The stream's own I/O errors are not modelled.) -/
structure Stream where
  bytes : Bytes
  canTruncate : Bool
deriving DecidableEq, Repr

/-- os.File.Write at an offset. -/
def Stream.writeAt (f : Stream) (off : Nat) (v : Bytes) : Stream :=
  let padded := f.bytes ++ List.replicate (off - f.bytes.length) 0
  { f with bytes := padded.take off ++ v ++ padded.drop (off + v.length) }

/-- os.File.Truncate. -/
def Stream.truncate (f : Stream) (n : Nat) : Stream :=
  { f with bytes := f.bytes.take n ++ List.replicate (n - f.bytes.length) 0 }

/-- blockcache.go:108-168, the callbacks WrapStream installs (with seekToBlock, 187-202).
`totalBlocks` is the value given to WrapStream: the closure captures it.  A read that hits the
end of the stream (io.EOF) is not an error and leaves the rest of the buffer as it was. -/
def wrapStream (bpb totalBlocks : Nat) (allowResize : Bool) : Backend Stream where
  fetch f i buf :=
    if i ≥ totalBlocks then (f, buf, some .argumentOutOfRange)
    else (f, goCopy buf (slice f.bytes (i * bpb) buf.length), none)
  flush f i buf :=
    if i ≥ totalBlocks then (f, some .argumentOutOfRange)
    else (f.writeAt (i * bpb) buf, none)
  resize f n :=
    if allowResize && f.canTruncate then (f.truncate (n * bpb), none)
    else if allowResize then (f, some .notSupported)
    else (f, some .notPermitted)

end Disko.BlockCache

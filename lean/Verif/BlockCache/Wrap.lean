import Verif.BlockCache.Model
/-
Model of WrapStream, WrapStreamWithInferredSize and WrapSlice (blockcache.go:108-202) over an arbitrary
io.ReadWriteSeeker: one whose Read may return less than was asked for, and all of whose methods may fail.
(`wrapStream` in Model.lean is the same over an os.File that never fails.)
-/
namespace Disko.BlockCache

/-- Errors of a stream: io.EOF or another. -/
inductive IOErr where
  | eof
  | other (n : Nat)
deriving DecidableEq, Repr

/-- io.ReadWriteSeeker (Go library), with common.Truncator (types.go:17-21) if the stream implements it. `read s n` is Read with a buffer
of `n` bytes and gives the bytes put at its beginning. -/
structure RWS (S : Type) where
  read : S → Nat → S × Bytes × Option IOErr
  write : S → Bytes → S × Nat × Option IOErr
  /-- Seek(offset, io.SeekStart) -/
  seekStart : S → Int → S × Int × Option Nat
  /-- Seek(offset, io.SeekEnd) -/
  seekEnd : S → Int → S × Int × Option Nat
  truncate : Option (S → Int → S × Option Nat)

variable {S : Type}

/-- blockcache.go:187-202, seekToBlock. -/
def seekToBlock (r : RWS S) (s : S) (block totalBlocks bytesPerBlock : Nat) : S × Option BErr :=
  if block ≥ totalBlocks then (s, some .argumentOutOfRange)
  else
    let blockOffset := i64 (i64 block * i64 bytesPerBlock)
    match r.seekStart s blockOffset with
    | (s', _, none) => (s', none)
    | (s', _, some e) => (s', some (.other e))

/-- blockcache.go:131-134: an error other than io.EOF is returned. -/
def dropEOF : Option IOErr → Option BErr
  | some (.other e) => some (.other e)
  | _ => none

/-- blockcache.go:108-168, the callbacks of WrapStream. -/
def wrapRWS (r : RWS S) (bytesPerBlock totalBlocks : Nat) (allowResize : Bool) : Backend S where
  fetch s block buffer :=
    match seekToBlock r s block totalBlocks bytesPerBlock with
    | (s', some e) => (s', buffer, some e)
    | (s', none) =>
      match r.read s' buffer.length with
      | (s'', d, err) => (s'', goCopy buffer d, dropEOF err)
  flush s block buffer :=
    match seekToBlock r s block totalBlocks bytesPerBlock with
    | (s', some e) => (s', some e)
    | (s', none) =>
      match r.write s' buffer with
      | (s'', _, err) => (s'', dropEOF err)
  resize s newTotalBlocks :=
    if allowResize then
      match r.truncate with
      | some truncate =>
        match truncate s (i64 (i64 newTotalBlocks * i64 bytesPerBlock)) with
        | (s', none) => (s', none)
        | (s', some e) => (s', some (.other e))
      | none => (s, some .notSupported)
    else (s, some .notPermitted)

/-- blockcache.go:170-180, WrapStreamWithInferredSize: the number of blocks (the callbacks are those of `wrapRWS`
for that number), the cache and the stream. -/
def wrapInferred (r : RWS S) (s : S) (bytesPerBlock : Nat) : Outcome (Nat × St S) :=
  match r.seekEnd s 0 with
  | (s1, eofOffset, _) =>
    if bytesPerBlock = 0 then .panic
    else
      let totalBlocks := (eofOffset % (2 ^ 64 : Int)).toNat / bytesPerBlock
      match r.seekStart s1 0 with
      | (s2, _, _) => do
        let c ← new bytesPerBlock totalBlocks
        return (totalBlocks, ⟨c, s2⟩)

/-- The stream over a slice of github.com/xaionaro-go/bytesextra (NewReadWriteSeeker): it never changes the length of the slice. -/
structure SliceStream where
  storage : Bytes
  pos : Nat
deriving DecidableEq, Repr

/-- Its methods (third-party library, from its documentation). -/
def sliceRWS : RWS SliceStream where
  read s n :=
    if s.storage.length ≤ s.pos then (s, [], some .eof)
    else
      let d := slice s.storage s.pos n
      ({ s with pos := s.pos + d.length }, d, none)
  write s b :=
    let v := b.take (s.storage.length - s.pos)
    (⟨if s.pos ≤ s.storage.length then splice s.storage s.pos v else s.storage, s.pos + v.length⟩, v.length,
      if v.length < b.length then some (.other 1) else none)
  seekStart s off := if off < 0 then (s, s.pos, some 2) else ({ s with pos := off.toNat }, off, none)
  seekEnd s off := if s.storage.length + off < 0 then (s, s.pos, some 2) else ({ s with pos := (s.storage.length + off).toNat }, s.storage.length + off, none)
  truncate := none

/-- blockcache.go:182-185, WrapSlice: as `wrapInferred`. -/
def wrapSlice (storage : Bytes) (bytesPerBlock : Nat) : Outcome (Nat × St SliceStream) :=
  if bytesPerBlock = 0 then .panic
  else do
    let c ← new bytesPerBlock (storage.length / bytesPerBlock)
    return (storage.length / bytesPerBlock, ⟨c, ⟨storage, 0⟩⟩)

end Disko.BlockCache

import Verif.BlockCache.Wrap
import Verif.Compression.Model
/-!
Model of /repo/testing: the fixtures that tests of file systems are given (blockcache.go, images.go).

* `t.Error` and a failing `assert` mark the test as failed and go on: they are recorded.  A failing `require` ends the test.
* Random data (CreateRandomImage) are not modelled: the image is given.
-/
namespace Disko.Testing
open Disko BlockCache

/-- What a fixture can complain about. -/
inductive Complaint where
  | readOutside (block : Nat)
  | writeOutside (block : Nat)
  | writeToReadOnly (len block : Nat)
  | wrongBytesPerBlock
  | wrongTotalBlocks
  | wrongSize
deriving DecidableEq, Repr

/-- The image (`backingData`) and the complaints to `t` so far. -/
structure Fixture where
  image : Bytes
  complaints : List Complaint
deriving DecidableEq

/-- disko.ErrIOFailed, as the callbacks return it. -/
def ioFailed : BErr := .other 1
/-- disko.ErrReadOnlyFileSystem, as the callback returns it. -/
def readOnlyFileSystem : BErr := .other 2

/-- blockcache.go:62-102, the callbacks, and nil for resizing (line 105).  Simplified: `backingData` is taken to be as long as documented (lines
41-43); slicing a shorter one would panic. -/
def callbacks (bytesPerBlock totalBlocks : Nat) (writable : Bool) : Backend Fixture where
  fetch f blockIndex buffer :=
    if blockIndex ≥ totalBlocks then ({ f with complaints := f.complaints ++ [.readOutside blockIndex] }, buffer, some ioFailed)
    else
      let start := u64 (blockIndex * bytesPerBlock)
      (f, goCopy buffer (slice f.image start bytesPerBlock), none)
  flush f blockIndex buffer :=
    if writable then
      if blockIndex ≥ totalBlocks then ({ f with complaints := f.complaints ++ [.writeOutside blockIndex] }, some ioFailed)
      else
        let start := u64 (blockIndex * bytesPerBlock)
        ({ f with image := splice f.image start (goCopy (slice f.image start bytesPerBlock) buffer) }, none)
    else ({ f with complaints := f.complaints ++ [.writeToReadOnly buffer.length blockIndex] }, some readOnlyFileSystem)
  resize := nilResize

/-- blockcache.go:51-113, CreateDefaultCache with the given image: the cache on its fixture, after the three assertions about it. -/
def createDefaultCache (bytesPerBlock totalBlocks : Nat) (image : Bytes) : Outcome (St Fixture) :=
  (new bytesPerBlock totalBlocks).bind fun cache =>
  .ret ⟨cache, ⟨image, (if bytesPerBlock = cache.bpb then [] else [.wrongBytesPerBlock]) ++ (if totalBlocks = cache.totalBlocks then [] else [.wrongTotalBlocks]) ++
    (if (u64 (bytesPerBlock * totalBlocks) : Int) = cache.size then [] else [.wrongSize])⟩⟩

/-- images.go:17-35, LoadDiskImage: the stream over the uncompressed image, or nothing if a `require` ends the test.  Sizes are Go `uint`s. -/
def loadDiskImage (z : Compression.Gzip) (compressedImageBytes : Bytes) (sectorSize totalSectors : Nat) : Option SliceStream :=
  if compressedImageBytes.length > 0 then
    match Compression.decompressImageToBytes z ⟨compressedImageBytes, none⟩ with
    | (_, some _) => none
    | (imageBytes, none) => if u64 (totalSectors * sectorSize) = u64 imageBytes.length then some ⟨imageBytes, 0⟩ else none
  else none

end Disko.Testing

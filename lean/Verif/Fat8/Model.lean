import Verif.Base.Go
/-
Model of /repo/file_systems/fat8: common.go, formattingdriver.go, iobase.go, driver.go and
readingdriver.go.

* The disk image is an os.File.  `FileOps` is the part of it the driver uses; `LawfulFile`
  (Spec.lean) is its documented behaviour.  Any call may fail at any time.
* `uint` values are natural numbers, sums and products are reduced with `u64`; `int64` values are
  integers, wrapped with `i64`.
* Error values are modelled by their kind; messages are not modelled.
* A driver method is a function of the driver (`M`): it may panic, or return an error, and may
  have changed the driver and the image in either case.
-/
namespace Disko.Fat8
open Disko

/-- Errors returned by the driver. -/
inductive Err where
  | badBlockCount
  | busy
  | invalidArgument
  | nameTooLong
  | ioFailed
  | pastEnd
  | badCluster
  | wrongSize
  | badIndex
  | corrupted
  | alreadyInProgress
  | notFound
  | notImplemented
  | file (n : Nat)
deriving DecidableEq, Repr

/-- The methods of *os.File the driver uses, on a file in state `F` (Go standard library). -/
structure FileOps (F : Type) where
  /-- `Seek(0, io.SeekEnd)` -/
  seekEnd : F → F × Except Nat Int
  /-- `ReadAt(make([]byte, n), off)`: the buffer afterwards, and the error -/
  readAt : F → Nat → Int → F × Bytes × Option Nat
  /-- `WriteAt(buf, off)` -/
  writeAt : F → Bytes → Int → F × Option Nat
  /-- `Truncate(n)` -/
  truncate : F → Int → F × Option Nat

/-- common.go:11-30, type Geometry. -/
structure Geometry where
  totalTracks : Nat := 0
  trueTotalTracks : Nat := 0
  totalClusters : Nat := 0
  sectorsPerTrack : Nat := 0
  sectorsPerFAT : Nat := 0
  sectorsPerCluster : Nat := 0
  bytesPerCluster : Nat := 0
  directoryTrackNumber : Nat := 0
  directoryTrackStart : Nat := 0
  infoSectorStart : Nat := 0
  fatsStart : Nat := 0
deriving DecidableEq, Repr

/-- common.go:58-84, the second half of GetGeometry. -/
def deriveGeometry (totalTracks trueTotalTracks sectorsPerTrack directoryTrackNumber : Nat) : Geometry :=
  let totalClusters := u64 (totalTracks * 2)
  let sectorsPerCluster := sectorsPerTrack / 2
  let bytesPerCluster := u64 (sectorsPerCluster * 128)
  let sectorsPerFAT := u64 (totalClusters + u64sub 0 totalClusters % 128) / 128
  let directoryTrackStart := u64 (u64sub directoryTrackNumber 1 * sectorsPerTrack)
  let fatsStart := u64sub (u64 (directoryTrackStart + sectorsPerTrack)) (u64 (sectorsPerFAT * 3))
  { totalTracks, trueTotalTracks, totalClusters, sectorsPerTrack, sectorsPerFAT, sectorsPerCluster,
    bytesPerCluster, directoryTrackNumber, directoryTrackStart,
    infoSectorStart := u64sub fatsStart 1, fatsStart }

/-- common.go:32-85, GetGeometry. -/
def getGeometry (totalBlocks : Nat) : Except Err Geometry :=
  if totalBlocks = 640 then .ok (deriveGeometry 40 40 16 18)
  else if totalBlocks = 1898 then .ok (deriveGeometry 73 73 26 35)
  else if totalBlocks = 2002 then .ok (deriveGeometry 73 77 26 35)
  else .error .badBlockCount

/-- The fields of disko.FSStat that FormatImage sets (api.go); the others stay zero. -/
structure FSStat where
  blockSize : Nat := 0
  totalBlocks : Nat := 0
  blocksFree : Nat := 0
  blocksAvailable : Nat := 0
  files : Nat := 0
  filesFree : Nat := 0
  maxNameLength : Nat := 0
deriving DecidableEq, Repr

/-- api.go:514-516, FSStat.TotalSizeBytes: `int64(BlockSize) * int64(TotalBlocks)`. -/
def FSStat.totalSizeBytes (s : FSStat) : Int := i64 (i64 s.blockSize * i64 s.totalBlocks)

/-- driver.go:15-25, type DirectoryEntry: the fields the driver uses. -/
structure DirectoryEntry where
  clusters : List Nat
  index : Nat
  isBinary : Bool
  unusedSectorsInLastCluster : Nat
deriving DecidableEq, Repr

/-- driver.go:28-44, type FAT8Driver.  The map `dirents` is a list of pairs without duplicate
keys. -/
structure Drv (F : Type) where
  image : F
  geometry : Geometry
  defaultFileAttrFlags : UInt8
  stat : FSStat
  freeClusters : List UInt8
  fat : Bytes
  isMounted : Bool
  dirents : List (Bytes × DirectoryEntry)
deriving DecidableEq

/-- driver.go:46-48, NewDriverFromFile. -/
def newDriver {F : Type} (image : F) : Drv F :=
  { image, geometry := {}, defaultFileAttrFlags := 0, stat := {}, freeClusters := [], fat := [],
    isMounted := false, dirents := [] }

/-- A method of the driver. -/
def M (F α : Type) := Drv F → Outcome (Drv F × Except Err α)

/-- `x, err := m(); if err != nil { return err }; ...` -/
def M.bind {F α β : Type} (m : M F α) (f : α → M F β) : M F β := fun d =>
  match m d with
  | .ret (d', .ok a) => f a d'
  | .ret (d', .error e) => .ret (d', .error e)
  | .panic => .panic
  | .timeout => .timeout

instance {F : Type} : Monad (M F) where
  pure a := fun d => .ret (d, .ok a)
  bind := M.bind

/-- `return err` -/
def throw {F α : Type} (e : Err) : M F α := fun d => .ret (d, .error e)
/-- A run-time panic. -/
def panic {F α : Type} : M F α := fun _ => .panic
/-- Reading the driver. -/
def get {F : Type} : M F (Drv F) := fun d => .ret (d, .ok d)
/-- Assigning to fields of the driver. -/
def modify {F : Type} (f : Drv F → Drv F) : M F Unit := fun d => .ret (f d, .ok ())
/-- A check. -/
def orThrow {F α : Type} (r : Except Err α) : M F α := fun d => .ret (d, r)

/-- iobase.go:12-28, ReadDiskBlocks.  `make` panics for lengths above MaxInt (smaller ones that
do not fit in memory are not modelled). -/
def readDiskBlocks {F : Type} (o : FileOps F) (start count : Nat) : M F Bytes := fun d =>
  if u64 (start + count) ≥ d.stat.totalBlocks then .ret (d, .error .pastEnd)
  else
    let n := u64 (128 * count)
    if n > maxInt then .panic
    else
      let r := o.readAt d.image n (i64 (i64 start * 128))
      match r.2.2 with
      | some e => .ret ({ d with image := r.1 }, .error (.file e))
      | none => .ret ({ d with image := r.1 }, .ok r.2.1)

/-- iobase.go:30-51, WriteDiskBlocks. -/
def writeDiskBlocks {F : Type} (o : FileOps F) (start : Nat) (data : Bytes) : M F Unit := fun d =>
  if data.length % 128 ≠ 0 then .ret (d, .error .ioFailed)
  else
    let numBlocksToWrite := data.length / 128
    if u64 (start + numBlocksToWrite) > d.stat.totalBlocks then .ret (d, .error .ioFailed)
    else
      let r := o.writeAt d.image data (i64 (i64 start * 128))
      match r.2 with
      | some e => .ret ({ d with image := r.1 }, .error (.file e))
      | none => .ret ({ d with image := r.1 }, .ok ())

/-- iobase.go:55-59, IsValidCluster. -/
def isValidCluster {F : Type} (d : Drv F) (clusterID : Nat) : Bool :=
  clusterID ≥ 1 && clusterID ≤ d.geometry.totalClusters

/-- iobase.go:68-76, ReadAbsoluteCluster. -/
def readAbsoluteCluster {F : Type} (o : FileOps F) (clusterID : Nat) : M F Bytes := do
  let d ← get
  if !isValidCluster d clusterID then throw .badCluster
  else
    let block := u64 (u64sub clusterID 1 * d.geometry.sectorsPerCluster)
    readDiskBlocks o block d.geometry.sectorsPerCluster

/-- iobase.go:78-93, WriteAbsoluteCluster. -/
def writeAbsoluteCluster {F : Type} (o : FileOps F) (clusterID : Nat) (data : Bytes) : M F Unit := do
  let d ← get
  if !isValidCluster d clusterID then throw .badCluster
  else if (data.length : Int) ≠ i64 d.geometry.bytesPerCluster then throw .wrongSize
  else
    let physicalBlock := u64 (u64sub clusterID 1 * d.geometry.sectorsPerTrack)
    writeDiskBlocks o physicalBlock data

/-- iobase.go:95-128, GetFAT. -/
def getFAT {F : Type} (o : FileOps F) : M F Bytes := do
  let d ← get
  let firstFAT ← readDiskBlocks o d.geometry.fatsStart d.geometry.sectorsPerFAT
  let secondFAT ← readDiskBlocks o (u64 (d.geometry.fatsStart + d.geometry.sectorsPerFAT)) d.geometry.sectorsPerFAT
  let thirdFAT ← readDiskBlocks o (u64 (d.geometry.fatsStart + u64 (2 * d.geometry.sectorsPerFAT))) d.geometry.sectorsPerFAT
  if firstFAT ≠ secondFAT then throw .corrupted
  else if firstFAT ≠ thirdFAT then throw .corrupted
  else return firstFAT

/-- bytes.Repeat (Go standard library). -/
def repeatBytes (b : Bytes) (n : Nat) : Bytes := (List.replicate n b).flatten

/-- iobase.go:130-132, writeFAT; driver.go:98-101, Flush. -/
def flush {F : Type} (o : FileOps F) : M F Unit := do
  let d ← get
  writeDiskBlocks o d.geometry.fatsStart (repeatBytes d.fat 3)

/-- iobase.go:136-150, ReadFileCluster (`int(cluster)` is negative from 2^63 on). -/
def readFileCluster {F : Type} (o : FileOps F) (dirent : DirectoryEntry) (cluster : Nat) : M F Bytes := do
  let d ← get
  if i64 cluster ≥ dirent.clusters.length then throw .badIndex
  else match dirent.clusters[cluster]? with
  | none => panic
  | some physicalCluster =>
    let physicalBlock := u64 (physicalCluster * d.geometry.sectorsPerCluster)
    readDiskBlocks o physicalBlock d.geometry.sectorsPerCluster

/-- iobase.go:152-165, WriteFileCluster. -/
def writeFileCluster {F : Type} (o : FileOps F) (dirent : DirectoryEntry) (cluster : Nat) (data : Bytes) :
    M F Unit :=
  if i64 cluster ≥ dirent.clusters.length then throw .badIndex
  else match dirent.clusters[cluster]? with
  | none => panic
  | some physicalCluster => writeAbsoluteCluster o physicalCluster data

/-- formattingdriver.go:69-74: writing 0xFF to sectors `i`, `i+1`, ..., `n` of them. -/
def fillSectors {F : Type} (o : FileOps F) : Nat → Nat → M F Unit
  | 0, _ => return ()
  | n + 1, i => do
    writeDiskBlocks o i (List.replicate 128 0xff)
    fillSectors o n (i + 1)

/-- `b[i] = v`; panics if out of range. -/
def setByte {F : Type} (b : Bytes) (i : Nat) (v : UInt8) : M F Bytes :=
  if i < b.length then pure (b.set i v) else panic

/-- formattingdriver.go:16-96, FormatImage; `size` is options.TotalSizeBytes().  The result of
Truncate is ignored, as in the code. -/
def formatImage {F : Type} (o : FileOps F) (size : Int) : M F Unit := do
  let d ← get
  if d.isMounted then throw .busy
  else if size.tmod 128 ≠ 0 then throw .invalidArgument
  else
    let totalBlocks := (size % 2 ^ 64).toNat / 128
    let geo ← orThrow (getGeometry totalBlocks)
    let availableBlocks := u64 (u64sub geo.totalTracks 1 * geo.sectorsPerTrack)
    let direntSectors := u64sub (u64sub geo.sectorsPerTrack 1) (u64 (geo.sectorsPerFAT * 3))
    let totalDirents := u64 (direntSectors * 8)
    modify fun d => { d with
      geometry := geo
      stat := { blockSize := 128, totalBlocks, blocksFree := availableBlocks,
                blocksAvailable := availableBlocks, files := 0, filesFree := totalDirents,
                maxNameLength := 10 } }
    let fileSize := u64 (u64 (128 * geo.trueTotalTracks) * geo.sectorsPerTrack)
    modify fun d => { d with image := (o.truncate d.image (i64 fileSize)).1 }
    fillSectors o (geo.infoSectorStart - geo.directoryTrackStart) geo.directoryTrackStart
    writeDiskBlocks o geo.infoSectorStart (List.replicate 128 0)
    let fat := List.replicate (geo.sectorsPerFAT * 128) (0xff : UInt8)
    let directoryClusterNumber := geo.directoryTrackStart / geo.sectorsPerTrack
    let fat ← setByte fat directoryClusterNumber 0xfe
    let fat ← setByte fat (directoryClusterNumber + 1) 0xfe
    writeDiskBlocks o geo.fatsStart (repeatBytes fat 3)

/-- driver.go:79-84, the loop of Mount that collects the free clusters: `uint8(i+1)` for every
index `i` (counting from `i`) of a byte 0xFF. -/
def freeOf : Bytes → Nat → List UInt8
  | [], _ => []
  | c :: rest, i => if c = 0xff then UInt8.ofNat (i + 1) :: freeOf rest (i + 1) else freeOf rest (i + 1)

/-- driver.go:53-96, Mount (the flags are ignored by the code). -/
def mount {F : Type} (o : FileOps F) : M F Unit := do
  let d ← get
  if d.isMounted then throw .alreadyInProgress
  else
    let r := o.seekEnd d.image
    modify fun d => { d with image := r.1 }
    match r.2 with
    | .error e => throw (.file e)
    | .ok offset =>
      match getGeometry ((offset % 2 ^ 64).toNat / 128) with
      | .error _ => throw .corrupted
      | .ok geo =>
        modify fun d => { d with geometry := geo }
        let fat ← getFAT o
        modify fun d => { d with fat := fat, freeClusters := d.freeClusters ++ freeOf fat 0 }
        let infoSector ← readDiskBlocks o geo.infoSectorStart 1
        match infoSector.head? with
        | none => panic
        | some c => modify fun d => { d with defaultFileAttrFlags := c, isMounted := true }

/-- driver.go:103-107, Unmount. -/
def unmount {F : Type} : M F Unit := modify fun d => { d with isMounted := false }

/-- driver.go:109-112, FSStat. -/
def fsStat {F : Type} (d : Drv F) : FSStat := d.stat

/-! ### File names (ASCII only: strings are byte strings with all bytes below 128, on which
strings.ToUpper and fmt's padding work byte by byte) -/

/-- unicode.ToUpper on an ASCII byte. -/
def upperByte (c : UInt8) : UInt8 := if 97 ≤ c ∧ c ≤ 122 then c - 32 else c

/-- strings.ToUpper on an ASCII string. -/
def toUpper (s : Bytes) : Bytes := s.map upperByte

/-- `strings.SplitN(name, ".", 2)`: the part before the first period, and the part after it if
there is one. -/
def splitDot : Bytes → Bytes × Option Bytes
  | [] => ([], none)
  | c :: rest =>
    if c = 46 then ([], some rest)
    else
      let (a, b) := splitDot rest
      (c :: a, b)

/-- `fmt.Sprintf("%-<n>s", s)` -/
def padRight (n : Nat) (s : Bytes) : Bytes := s ++ List.replicate (n - s.length) 32

/-- common.go:87-127, FilenameToBytes. -/
def filenameToBytes (name : Bytes) : Except Err Bytes :=
  if name = [] then .error .invalidArgument
  else
    let (stem, ext) := splitDot name
    if stem.length > 6 then .error .nameTooLong
    else match ext with
      | some ext =>
        if ext.length = 0 then .ok (toUpper (padRight 6 stem ++ padRight 3 [46]))
        else if ext.length > 3 then .error .nameTooLong
        else .ok (toUpper (padRight 6 stem ++ padRight 3 ext))
      | none => .ok (toUpper (padRight 9 stem))

/-- bytes.TrimRight(s, " ") -/
def trimRight (s : Bytes) : Bytes := (s.reverse.dropWhile (· = 32)).reverse

/-- common.go:129-143, BytesToFilename; slicing panics if there are fewer than 6 bytes. -/
def bytesToFilename (rawName : Bytes) : Outcome Bytes :=
  if rawName.length < 6 then .panic
  else
    let stem := trimRight (rawName.take 6)
    let extension := trimRight (rawName.drop 6)
    .ret (toUpper (if extension.length > 0 then stem ++ [46] ++ extension else stem))

/-- The fields of disko.FileStat that Stat sets. -/
structure FileStat where
  inodeNumber : Nat
  nlinks : Nat
  modeFlags : Nat
  size : Int
  blockSize : Nat
  numBlocks : Int
deriving DecidableEq, Repr

/-- strings.TrimPrefix(s, "/") -/
def trimSlash : Bytes → Bytes
  | [] => []
  | c :: rest => if c = 47 then rest else c :: rest

/-- readingdriver.go:22-62, Stat. -/
def stat {F : Type} (d : Drv F) (path : Bytes) : Except Err FileStat :=
  match d.dirents.lookup (trimSlash (toUpper path)) with
  | none => .error .notFound
  | some info =>
    let clusterSectorsUsed := u64 (info.clusters.length * d.geometry.sectorsPerCluster)
    let totalSectors := u64sub clusterSectorsUsed info.unusedSectorsInLastCluster
    if info.isBinary then
      .ok { inodeNumber := info.index, nlinks := 1, modeFlags := 0o777, size := i64 (i64 totalSectors * 128),
            blockSize := 128, numBlocks := i64 (u64sub clusterSectorsUsed info.unusedSectorsInLastCluster) }
    else .error .notImplemented

/-- readingdriver.go:13-16, SameFile: strings.EqualFold on ASCII names. -/
def sameFile (name1 name2 : Bytes) : Bool := toUpper name1 == toUpper name2

end Disko.Fat8

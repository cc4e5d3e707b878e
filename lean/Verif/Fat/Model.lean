import Verif.Base.Path
/-!
Model of /repo/file_systems/fat (common.go, dirent.go, driverbase.go).

* The version-specific driver (interface FATDriverCommon, driverbase.go:17-29) has no
  implementation in /repo; it is a parameter here: any functions on any state.
* The disk image (FATDriver.diskFile) is a function from offset and length to bytes and an error.
* Error messages are not modelled, only the sentinel error.
* Go's time.Date panics when its location is nil.  The code always passes nil (dirent.go:178,198);
  the calendar is a parameter `date` (none = nil location), so that what the code computes before
  the call can be stated too.  Functions without the parameter are the shipped ones.
* Loops that need not end run under a step budget (`Outcome.timeout`).
-/
namespace Disko.Fat
open Disko

/-- The sentinel errors of package disko used here, and errors of the version-specific driver and
of the disk image. -/
inductive Err where
  | ioFailed | corrupted | invalidArgument | notADirectory | isADirectory | notFound | notSupported
  | outOfRange | foreign (n : Nat)
deriving DecidableEq, Repr

/-- A Go function that returns (value, error), panics or runs on. -/
abbrev R (α : Type) := Outcome (Except Err α)

/-- `x, err := …; if err != nil { return err }; …` -/
def R.andThen {α β : Type} (r : R α) (f : α → R β) : R β :=
  match r with
  | .ret (.ok a) => f a
  | .ret (.error e) => .ret (.error e)
  | .panic => .panic
  | .timeout => .timeout

/-! ### common.go -/

/-- common.go:20-35, type RawFATBootSectorWithBPB. -/
structure RawBPB where
  jmpBoot : Bytes
  oemName : Bytes
  bytesPerSector : UInt16
  sectorsPerCluster : UInt8
  reservedSectors : UInt16
  numFATs : UInt8
  rootEntryCount : UInt16
  totalSectors16 : UInt16
  media : UInt8
  sectorsPerFAT16 : UInt16
  sectorsPerTrack : UInt16
  numHeads : UInt16
  hiddenSectors : UInt32
  totalSectors32 : UInt32
deriving DecidableEq

/-- common.go:39-50, type FATBootSector. -/
structure BootSector where
  raw : RawBPB
  sectorsPerFAT : Nat
  totalFATSectors : Nat
  rootDirSectors : Nat
  bytesPerCluster : Nat
  totalClusters : Nat
  totalDataSectors : Nat
  firstDataSector : UInt32
  fatVersion : Nat
  direntsPerCluster : Nat
deriving DecidableEq

/-- common.go:54-64, DetermineFATVersion. -/
def determineFATVersion (totalClusters : Nat) : Nat :=
  if totalClusters < 4085 then 12
  else if totalClusters < 65525 then 16
  else 32

/-- binary.Read(reader, LittleEndian, &rawHeader) (common.go:74) on the rest of a stream.  The
struct takes 36 bytes; with fewer the read fails.  With enough, encoding/binary sets the fields by
reflection, which panics at the first unexported one (`totalSectors16`, common.go:28). -/
def readHeader (stream : Bytes) : R (RawBPB × Bytes) :=
  if stream.length < 36 then .ret (.error .ioFailed) else .panic

/-- binary.Read of a uint32 (common.go:80). -/
def readUint32 (stream : Bytes) : R UInt32 :=
  match stream with
  | a :: b :: c :: d :: _ => .ret (.ok (a.toUInt32 ||| b.toUInt32 <<< 8 ||| c.toUInt32 <<< 16 ||| d.toUInt32 <<< 24))
  | _ => .ret (.error .ioFailed)

/-- dirent.go:169 -/
def direntSize : Nat := 32

/-- common.go:85-90. -/
def pickSectorsPerFAT (raw : RawBPB) (sectorsPerFAT32 : UInt32) : Nat :=
  if raw.sectorsPerFAT16 ≠ 0 then raw.sectorsPerFAT16.toNat else sectorsPerFAT32.toNat

/-- common.go:92-97. -/
def pickTotalSectors (raw : RawBPB) : Nat :=
  if raw.totalSectors16 ≠ 0 then raw.totalSectors16.toNat else raw.totalSectors32.toNat

/-- common.go:85-185: the boot sector computed from a header. -/
def bootSectorOf (raw : RawBPB) (sectorsPerFAT32 : UInt32) : R BootSector :=
  let sectorsPerFAT := pickSectorsPerFAT raw sectorsPerFAT32
  let totalSectors := pickTotalSectors raw
  -- line 101: uint16 arithmetic; division by zero panics
  if raw.bytesPerSector = 0 then .panic
  else
    let rootDirSectors : Nat := ((raw.rootEntryCount * 32 + (raw.bytesPerSector - 1)) / raw.bytesPerSector).toNat
    let totalFATSectors := u64 (raw.numFATs.toNat * sectorsPerFAT)
    let dataSectors := u64 (u64 (u64sub totalSectors raw.reservedSectors.toNat + totalFATSectors) + rootDirSectors)
    -- line 106
    if raw.sectorsPerCluster = 0 then .panic
    else
      let totalClusters := dataSectors / raw.sectorsPerCluster.toNat
      if ¬ (raw.bytesPerSector = 512 ∨ raw.bytesPerSector = 1024 ∨ raw.bytesPerSector = 2048 ∨ raw.bytesPerSector = 4096) then
        .ret (.error .corrupted)
      else if ¬ (raw.sectorsPerCluster = 1 ∨ raw.sectorsPerCluster = 2 ∨ raw.sectorsPerCluster = 4 ∨ raw.sectorsPerCluster = 8 ∨
          raw.sectorsPerCluster = 16 ∨ raw.sectorsPerCluster = 32 ∨ raw.sectorsPerCluster = 64 ∨ raw.sectorsPerCluster = 128) then
        .ret (.error .corrupted)
      else
        let fatVersion := determineFATVersion totalClusters
        if fatVersion = 32 ∧ rootDirSectors ≠ 0 then .ret (.error .corrupted)
        else
          let bytesPerCluster := u64 (raw.bytesPerSector.toNat * raw.sectorsPerCluster.toNat)
          if bytesPerCluster > 32768 then .ret (.error .corrupted)
          else
            .ret (.ok {
              raw := raw
              sectorsPerFAT := sectorsPerFAT
              totalFATSectors := totalFATSectors
              rootDirSectors := rootDirSectors
              bytesPerCluster := bytesPerCluster
              totalClusters := totalClusters
              totalDataSectors := u64sub totalSectors (u64 (u64 (raw.reservedSectors.toNat + totalFATSectors) + rootDirSectors))
              firstDataSector := UInt32.ofNat (u64 (raw.reservedSectors.toNat + rootDirSectors))
              fatVersion := fatVersion
              direntsPerCluster := bytesPerCluster / direntSize })

/-- common.go:71-186, NewFATBootSectorFromStream. -/
def newFATBootSectorFromStream (stream : Bytes) : R BootSector :=
  R.andThen (readHeader stream) fun (raw, rest) =>
  R.andThen (readUint32 rest) fun sectorsPerFAT32 =>
  bootSectorOf raw sectorsPerFAT32

/-! ### dirent.go -/

/-- A point in time (nanoseconds since some origin). -/
abbrev Time := Int

/-- Go's calendar in some time zone: time.Date and the date parts of a time. -/
structure Calendar where
  date : (year month day hour min sec nsec : Nat) → Time
  year : Time → Nat
  month : Time → Nat
  day : Time → Nat

/-- time.Date with the given location (nil panics). -/
def timeDate (cal : Option Calendar) (y mo d h mi s ns : Nat) : Outcome Time :=
  match cal with
  | none => .panic
  | some c => .ret (c.date y mo d h mi s ns)

/-- dirent.go:173-179, DateFromInt, with the location as a parameter. -/
def dateFromIntIn (cal : Option Calendar) (value : UInt16) : Outcome Time :=
  let createDay := (value &&& 0x001f).toNat
  let createMonth := ((value >>> 5) &&& 0x000f).toNat
  let createYear := ((1980 : UInt16) + (value >>> 9)).toNat
  timeDate cal createYear createMonth createDay 0 0 0 0

/-- dirent.go:173-179, DateFromInt. -/
def dateFromInt (value : UInt16) : Outcome Time := dateFromIntIn none value

/-- The date parts of a time in the calendar's zone; only reached after a call to time.Date. -/
def datePartsOf (cal : Option Calendar) (t : Time) : Nat × Nat × Nat :=
  match cal with
  | none => (0, 0, 0)
  | some c => (c.year t, c.month t, c.day t)

/-- dirent.go:184-199, TimestampFromParts, with the location as a parameter. -/
def timestampFromPartsIn (cal : Option Calendar) (datePart timePart : UInt16) (hundredths : UInt8) : Outcome Time := do
  let dateDt ← dateFromIntIn cal datePart
  let seconds := ((timePart &&& 0x001f) * 2).toNat
  let seconds := if hundredths ≥ 100 then seconds + 1 else seconds
  let minutes := ((timePart >>> 5) &&& 0x003f).toNat
  let hours := (timePart >>> 11).toNat
  let nanoseconds := (timePart * 10000).toNat
  timeDate cal (datePartsOf cal dateDt).1 (datePartsOf cal dateDt).2.1 (datePartsOf cal dateDt).2.2 hours minutes seconds nanoseconds

/-- dirent.go:184-199, TimestampFromParts. -/
def timestampFromParts (datePart timePart : UInt16) (hundredths : UInt8) : Outcome Time :=
  timestampFromPartsIn none datePart timePart hundredths

/-- os.FileMode. -/
abbrev FileMode := BitVec 32

/-- Go package os: ModeDir. -/
def modeDir : FileMode := 0x80000000#32
/-- Go package os: the type bits. -/
def modeType : FileMode := 0x8f280000#32
/-- Go package syscall on Linux: S_IFDIR, S_IFCHR, S_IFREG. -/
def S_IFDIR : FileMode := 0x4000#32
/-- S_IFCHR -/
def S_IFCHR : FileMode := 0x2000#32
/-- S_IFREG -/
def S_IFREG : FileMode := 0x8000#32

/-- os.FileMode.IsDir. -/
def FileMode.isDir (m : FileMode) : Bool := m &&& modeDir != 0
/-- os.FileMode.IsRegular. -/
def FileMode.isRegular (m : FileMode) : Bool := m &&& modeType == 0

/-- dirent.go:203-223, AttrFlagsToFileMode (constants: lines 19, 45, 56). -/
def attrFlagsToFileMode (flags : BitVec 8) : FileMode :=
  let mode : FileMode := if flags &&& 1#8 ≠ 0#8 then 0o755 else 0o777
  if flags &&& 16#8 ≠ 0#8 then mode ||| S_IFDIR
  else if flags &&& 64#8 ≠ 0#8 then mode ||| S_IFCHR
  else mode ||| S_IFREG

/-- dirent.go:65-79, type RawDirent. -/
structure RawDirent where
  name : Bytes
  extension : Bytes
  attributeFlags : UInt8
  ntReserved : UInt8
  createdTimeMillis : UInt8
  createdTime : UInt16
  createdDate : UInt16
  lastAccessedDate : UInt16
  firstClusterHigh : UInt16
  lastModifiedTime : UInt16
  lastModifiedDate : UInt16
  firstClusterLow : UInt16
  fileSize : UInt32
deriving DecidableEq

/-- Go: `data[i]`. -/
def goIndex (d : Bytes) (i : Nat) : Outcome UInt8 :=
  match d[i]? with
  | some b => .ret b
  | none => .panic

/-- Go: `data[i:j]` (the capacity of the slices used here is their length). -/
def goSlice (d : Bytes) (i j : Nat) : Outcome Bytes :=
  if i ≤ j ∧ j ≤ d.length then .ret ((d.drop i).take (j - i)) else .panic

/-- encoding/binary: LittleEndian.Uint16. -/
def le16 (d : Bytes) : Outcome UInt16 :=
  match d with
  | a :: b :: _ => .ret (a.toUInt16 ||| b.toUInt16 <<< 8)
  | _ => .panic

/-- encoding/binary: LittleEndian.Uint32. -/
def le32 (d : Bytes) : Outcome UInt32 :=
  match d with
  | a :: b :: c :: e :: _ => .ret (a.toUInt32 ||| b.toUInt32 <<< 8 ||| c.toUInt32 <<< 16 ||| e.toUInt32 <<< 24)
  | _ => .panic

/-- dirent.go:227-245, NewRawDirentFromBytes (it never returns an error). -/
def newRawDirentFromBytes (data : Bytes) : Outcome RawDirent := do
  let attributeFlags ← goIndex data 12
  let ntReserved ← goIndex data 13
  let createdTimeMillis ← goIndex data 14
  let createdTime ← (goSlice data 15 17).bind le16
  let createdDate ← (goSlice data 17 19).bind le16
  let lastAccessedDate ← (goSlice data 19 21).bind le16
  let firstClusterHigh ← (goSlice data 21 23).bind le16
  let lastModifiedTime ← (goSlice data 23 25).bind le16
  let lastModifiedDate ← (goSlice data 25 27).bind le16
  let firstClusterLow ← (goSlice data 27 29).bind le16
  let fileSize ← (goSlice data 29 32).bind le32
  let name ← goSlice data 0 8
  let extension ← goSlice data 8 11
  pure { name, extension, attributeFlags, ntReserved, createdTimeMillis, createdTime, createdDate,
         lastAccessedDate, firstClusterHigh, lastModifiedTime, lastModifiedDate, firstClusterLow, fileSize }

/-- The fields of disko.FileStat used here (api.go:401-454). -/
structure FileStat where
  inodeNumber : Nat
  nlinks : Nat
  modeFlags : FileMode
  size : Int
  blockSize : Int
  numBlocks : Int
  lastAccessed : Time
  lastModified : Time
  createdAt : Time
  deletedAt : Time
deriving DecidableEq

/-- A FileStat with every field zero (the zero time is some fixed time). -/
def FileStat.zero (z : Time) : FileStat := ⟨0, 0, 0, 0, 0, 0, z, z, z, z⟩

/-- dirent.go:83-94, type Dirent. -/
structure Dirent where
  name : Str
  attributeFlags : Nat
  ntReserved : Nat
  firstCluster : UInt32
  isDeleted : Bool
  size : Int
  mode : FileMode
  stat : FileStat
deriving DecidableEq

/-- Go's zero time.Time and time.Unix(0, 0). -/
def zeroTime : Time := -62135596800000000000
/-- time.Unix(0, 0) -/
def unixEpoch : Time := 0

/-- `Dirent{}`. -/
def Dirent.zero : Dirent := ⟨[], 0, 0, 0, false, 0, 0, FileStat.zero zeroTime⟩

/-- dirent.go:383, IsDir. -/
def Dirent.isDir (d : Dirent) : Bool := FileMode.isDir d.mode

/-- strings.TrimRight(s, " "). -/
def trimRight (s : Str) : Str := (s.reverse.dropWhile (· = 32)).reverse

/-- dirent.go:302-321, the name of an entry; indexing an empty string panics. -/
def direntName (raw : RawDirent) : R Str :=
  let trimmedName := trimRight raw.name
  let trimmedExt := trimRight raw.extension
  match trimmedName with
  | [] => .panic
  | c :: rest =>
    if c = 0 then .ret (.error .notFound)
    else
      let trimmedName := if c = 0xE5 then raw.createdTimeMillis :: rest else if c = 0x05 then 0xE5 :: rest else c :: rest
      .ret (.ok (if trimmedExt = [] then trimmedName else trimmedName ++ 46 :: trimmedExt))

/-- What must be repaired before an entry of a directory can be read at all: the location passed to time.Date (C75), NewRawDirentFromBytes (C55) and
AttrFlagsToFileMode (C56).  The functions below are modelled for any choice; the code that exists is `shipped`. -/
structure Cfg where
  cal : Option Calendar
  parse : Bytes → Outcome RawDirent
  modeOf : BitVec 8 → FileMode

/-- The code that exists. -/
def shipped : Cfg := ⟨none, newRawDirentFromBytes, attrFlagsToFileMode⟩

/-- Not in /repo: what NewRawDirentFromBytes (dirent.go:227-245) should do, with the offsets of Microsoft's specification; used to state what the rest
of the code would do if it were repaired. -/
def specParse (data : Bytes) : Outcome RawDirent := do
  let attributeFlags ← goIndex data 11
  let ntReserved ← goIndex data 12
  let createdTimeMillis ← goIndex data 13
  let createdTime ← (goSlice data 14 16).bind le16
  let createdDate ← (goSlice data 16 18).bind le16
  let lastAccessedDate ← (goSlice data 18 20).bind le16
  let firstClusterHigh ← (goSlice data 20 22).bind le16
  let lastModifiedTime ← (goSlice data 22 24).bind le16
  let lastModifiedDate ← (goSlice data 24 26).bind le16
  let firstClusterLow ← (goSlice data 26 28).bind le16
  let fileSize ← (goSlice data 28 32).bind le32
  let name ← goSlice data 0 8
  let extension ← goSlice data 8 11
  pure { name, extension, attributeFlags, ntReserved, createdTimeMillis, createdTime, createdDate,
         lastAccessedDate, firstClusterHigh, lastModifiedTime, lastModifiedDate, firstClusterLow, fileSize }

/-- Not in /repo: AttrFlagsToFileMode (dirent.go:203-223) with Go's own type bit for directories. -/
def specMode (flags : BitVec 8) : FileMode :=
  let mode : FileMode := if flags &&& 1#8 ≠ 0#8 then 0o555 else 0o777
  if flags &&& 16#8 ≠ 0#8 then mode ||| modeDir else mode

/-- Not in /repo: decoding of entries repaired, with the calendar of some time zone. -/
def repaired (cal : Calendar) : Cfg := ⟨some cal, specParse, specMode⟩

/-- dirent.go:253-324, NewDirentFromRaw.  The only field of the boot sector used is BytesPerCluster (division by zero panics). -/
def newDirentFromRawIn (cfg : Cfg) (bs : BootSector) (raw : RawDirent) : R Dirent :=
  (timestampFromPartsIn cfg.cal raw.lastModifiedDate raw.lastModifiedTime 0).bind fun lastModified =>
  let size := raw.fileSize.toNat
  if bs.bytesPerCluster = 0 then .panic
  else
    let sizeInClusters := if size % bs.bytesPerCluster ≠ 0 then size / bs.bytesPerCluster + 1 else size / bs.bytesPerCluster
    let mode := cfg.modeOf raw.attributeFlags.toBitVec
    let firstCluster : UInt32 := raw.firstClusterHigh.toUInt32 <<< 16 ||| raw.firstClusterLow.toUInt32
    let isDeleted := raw.name.head? == some 0xE5
    (if isDeleted then .ret unixEpoch
      else timestampFromPartsIn cfg.cal raw.createdDate raw.createdTime raw.createdTimeMillis).bind fun createdAt =>
    (dateFromIntIn cfg.cal raw.lastAccessedDate).bind fun lastAccessed =>
    R.andThen (direntName raw) fun name =>
    .ret (.ok {
      name := name
      attributeFlags := raw.attributeFlags.toNat
      ntReserved := raw.ntReserved.toNat
      firstCluster := firstCluster
      isDeleted := isDeleted
      size := size
      mode := mode
      stat := {
        inodeNumber := firstCluster.toNat
        nlinks := 1
        modeFlags := mode
        size := size
        blockSize := bs.bytesPerCluster
        numBlocks := sizeInClusters
        lastAccessed := lastAccessed
        lastModified := lastModified
        createdAt := createdAt
        deletedAt := zeroTime } })

/-- dirent.go:253-324, NewDirentFromRaw. -/
def newDirentFromRaw (bs : BootSector) (raw : RawDirent) : R Dirent := newDirentFromRawIn shipped bs raw

/-- dirent.go:332-356, the loop of clusterToDirentSlice: `n` entries left, `i` done. -/
def clusterToDirentLoop (cfg : Cfg) (bs : BootSector) (data : Bytes) : (n i : Nat) → (acc : List Dirent) → R (List Dirent)
  | 0, _, acc => .ret (.ok acc)
  | n + 1, i, acc =>
    match (goSlice data (i * direntSize) (i * direntSize + direntSize)).bind cfg.parse with
    | .panic => .panic
    | .timeout => .timeout
    | .ret raw =>
      match newDirentFromRawIn cfg bs raw with
      | .ret (.ok d) => clusterToDirentLoop cfg bs data n (i + 1) (acc ++ [d])
      | .ret (.error .notFound) => .ret (.ok acc)
      | .ret (.error e) => .ret (.error e)
      | .panic => .panic
      | .timeout => .timeout

/-- dirent.go:328-359, clusterToDirentSlice. -/
def clusterToDirentSlice (cfg : Cfg) (bs : BootSector) (data : Bytes) : R (List Dirent) :=
  clusterToDirentLoop cfg bs data bs.direntsPerCluster 0 []

/-! #### Timestamps (dirent.go:96-166).  A setter returns the new entry and an error, if any. -/

/-- dirent.go:103-109, SetLastAccessedAt. -/
def Dirent.setLastAccessedAt (fatEpoch : Time) (d : Dirent) (t : Time) : Dirent × Option Err :=
  if t < fatEpoch then (d, some .outOfRange) else ({ d with stat := { d.stat with lastAccessed := t } }, none)
/-- dirent.go:117-123, SetLastModifiedAt. -/
def Dirent.setLastModifiedAt (fatEpoch : Time) (d : Dirent) (t : Time) : Dirent × Option Err :=
  if t < fatEpoch then (d, some .outOfRange) else ({ d with stat := { d.stat with lastModified := t } }, none)
/-- dirent.go:137-146, SetCreatedAt. -/
def Dirent.setCreatedAt (fatEpoch : Time) (d : Dirent) (t : Time) : Dirent × Option Err :=
  if t < fatEpoch then (d, some .outOfRange)
  else if d.isDeleted then (d, some .notFound)
  else ({ d with stat := { d.stat with createdAt := t } }, none)
/-- dirent.go:160-166, SetDeletedAt. -/
def Dirent.setDeletedAt (fatEpoch : Time) (d : Dirent) (t : Time) : Dirent × Option Err :=
  if t < fatEpoch then (d, some .outOfRange) else Dirent.setCreatedAt fatEpoch { d with isDeleted := true } t
/-- dirent.go:97-99, GetLastAccessedAt. -/
def Dirent.getLastAccessedAt (d : Dirent) : Time := d.stat.lastAccessed
/-- dirent.go:111-113, GetLastModifiedAt. -/
def Dirent.getLastModifiedAt (d : Dirent) : Time := d.stat.lastModified
/-- dirent.go:127-132, GetCreatedAt. -/
def Dirent.getCreatedAt (d : Dirent) : Except Err Time := if d.isDeleted then .error .notFound else .ok d.stat.createdAt
/-- dirent.go:150-155, GetDeletedAt. -/
def Dirent.getDeletedAt (d : Dirent) : Except Err Time := if ¬ d.isDeleted then .error .invalidArgument else .ok d.stat.deletedAt

/-! ### driverbase.go -/

/-- driverbase.go:17-34: the version-specific driver and the disk image, on a state `σ`.
Operations that may change the volume return the new state, whether or not they fail. -/
structure FS (σ : Type) where
  bootSector : BootSector
  getClusterAtIndex : σ → UInt32 → Except Err UInt32
  isValidCluster : UInt32 → Bool
  isEndOfChain : UInt32 → Bool
  listRootDirectory : σ → Except Err (List Dirent)
  freeCluster : σ → UInt32 → σ × Option Err
  updateDirent : σ → Dirent → σ × Option Err
  deleteDirent : σ → Dirent → Dirent → σ × Option Err
  /-- diskFile.ReadAt: the bytes read into a buffer of the given length at an offset, and an error. -/
  readAt : σ → Int → Nat → Bytes × Option Err

variable {σ : Type}

/-- driverbase.go:36-40, getFirstSectorOfCluster. -/
def getFirstSectorOfCluster (fs : FS σ) (cluster : UInt32) : UInt32 :=
  fs.bootSector.firstDataSector + fs.bootSector.raw.sectorsPerCluster.toUInt32 * cluster

/-- driverbase.go:42-58, readAbsoluteSectors.  (The contents of the buffer after a failed read are
not used by any caller.) -/
def readAbsoluteSectors (fs : FS σ) (st : σ) (sector : UInt32) (numSectors : Nat) : Except Err Bytes :=
  let bps := fs.bootSector.raw.bytesPerSector.toNat
  match fs.readAt st (i64 (i64 ((bps : Int) * sector.toNat) * numSectors)) bps with
  | (_, some e) => .error e
  | (b, none) => if b.length < bps then .error (.foreign 0) else .ok b

/-- driverbase.go:61-69, readCluster. -/
def readCluster (fs : FS σ) (st : σ) (cluster : UInt32) : Except Err Bytes :=
  readAbsoluteSectors fs st (getFirstSectorOfCluster fs cluster) fs.bootSector.raw.sectorsPerCluster.toNat

/-- driverbase.go:85-107, the loop of listClusters, with a step budget. -/
def listLoop (fs : FS σ) (st : σ) : (fuel : Nat) → (cur : UInt32) → (chain : List UInt32) → R (List UInt32)
  | 0, _, _ => .timeout
  | fuel + 1, cur, chain =>
    if fs.isEndOfChain cur then .ret (.ok chain)
    else
      match fs.getClusterAtIndex st cur with
      | .error e => .ret (.error e)
      | .ok next =>
        if ¬ fs.isValidCluster next then .ret (.error .corrupted)
        else listLoop fs st fuel next (chain ++ [cur])

/-- driverbase.go:75-111, listClusters. -/
def listClusters (fuel : Nat) (fs : FS σ) (st : σ) (chainStart : UInt32) : R (List UInt32) :=
  if ¬ fs.isValidCluster chainStart then .ret (.error .invalidArgument)
  else listLoop fs st fuel chainStart []

/-- driverbase.go:116-148, getClusterInChain. -/
def getClusterInChain (fs : FS σ) (st : σ) (cur : UInt32) : (index : Nat) → Except Err UInt32
  | 0 => .ok cur
  | index + 1 =>
    match fs.getClusterAtIndex st cur with
    | .error e => .error e
    | .ok next =>
      if fs.isEndOfChain next then .error .invalidArgument
      else if ¬ fs.isValidCluster next then .error .corrupted
      else getClusterInChain fs st next index

/-- driverbase.go:150-156, readClusterOfDirent. -/
def readClusterOfDirent (fs : FS σ) (st : σ) (d : Dirent) (index : Nat) : Except Err Bytes :=
  match getClusterInChain fs st d.firstCluster index with
  | .error e => .error e
  | .ok c => readCluster fs st c

/-- driverbase.go:210-228, the loop of readDirFromDirent, with a step budget. -/
def readDirLoop (cfg : Cfg) (fs : FS σ) (st : σ) (d : Dirent) : (fuel i : Nat) → (acc : List Dirent) → R (List Dirent)
  | 0, _, _ => .timeout
  | fuel + 1, i, acc =>
    match readClusterOfDirent fs st d i with
    | .error e => .ret (.error e)
    | .ok data =>
      R.andThen (clusterToDirentSlice cfg fs.bootSector data) fun ds =>
      if ds.length < fs.bootSector.direntsPerCluster then .ret (.ok (acc ++ ds))
      else readDirLoop cfg fs st d fuel (i + 1) (acc ++ ds)

/-- driverbase.go:202-231, readDirFromDirent. -/
def readDirFromDirent (cfg : Cfg) (fuel : Nat) (fs : FS σ) (st : σ) (d : Dirent) : R (List Dirent) :=
  if ¬ d.isDir then .ret (.error .notADirectory) else readDirLoop cfg fs st d fuel 0 []

/-- driverbase.go:186-194, the inner loop of resolvePathToDirent over one directory's entries
(`range` fixes the slice iterated over; the contents read replace it for the next component). -/
def matchEntries (cfg : Cfg) (fuel : Nat) (fs : FS σ) (st : σ) (component : Str) :
    (entries : List Dirent) → (cur : Dirent) → (contents : List Dirent) → R (Dirent × List Dirent)
  | [], cur, contents => .ret (.ok (cur, contents))
  | e :: rest, cur, contents =>
    if e.name = component then
      R.andThen (readDirFromDirent cfg fuel fs st e) fun contents' => matchEntries cfg fuel fs st component rest e contents'
    else matchEntries cfg fuel fs st component rest cur contents

/-- driverbase.go:185-195, the outer loop. -/
def walk (cfg : Cfg) (fuel : Nat) (fs : FS σ) (st : σ) : (parts : List Str) → (cur : Dirent) → (contents : List Dirent) → R Dirent
  | [], cur, _ => .ret (.ok cur)
  | p :: parts, cur, contents =>
    R.andThen (matchEntries cfg fuel fs st p contents cur contents) fun (cur', contents') =>
    walk cfg fuel fs st parts cur' contents'

/-- driverbase.go:165-198, resolvePathToDirent. -/
def resolvePathToDirent (cfg : Cfg) (fuel : Nat) (fs : FS σ) (st : σ) (path : Str) : R Dirent :=
  let parts := Path.splitList (Path.clean path)
  if parts.length = 0 then .ret (.error .invalidArgument)
  else
    match fs.listRootDirectory st with
    | .error _ => .ret (.ok Dirent.zero)
    | .ok contents => walk cfg fuel fs st parts Dirent.zero contents

/-- driverbase.go:257-279, Readdir. -/
def readdir (cfg : Cfg) (fuel : Nat) (fs : FS σ) (st : σ) (path : Str) : R (List Dirent) :=
  R.andThen (resolvePathToDirent cfg fuel fs st path) fun d =>
  if ¬ d.isDir then .ret (.error .notADirectory) else readDirFromDirent cfg fuel fs st d

/-- driverbase.go:304-326, the loop of ReadFile; slicing past the end of the cluster's bytes, or
with a negative count, panics. -/
def readFileLoop (fs : FS σ) (st : σ) : (clusters : List UInt32) → (remaining : Int) → (buf : Bytes) → R Bytes
  | [], _, buf => .ret (.ok buf)
  | c :: cs, remaining, buf =>
    match readCluster fs st c with
    | .error e => .ret (.error e)
    | .ok data =>
      let bpc : Int := fs.bootSector.bytesPerCluster
      if remaining < bpc then
        if remaining < 0 ∨ (data.length : Int) < remaining then .panic
        else readFileLoop fs st cs (remaining - bpc) (buf ++ data.take remaining.toNat)
      else readFileLoop fs st cs (remaining - bpc) (buf ++ data)

/-- driverbase.go:282-329, ReadFile. -/
def readFile (cfg : Cfg) (fuel : Nat) (fs : FS σ) (st : σ) (path : Str) : R Bytes :=
  R.andThen (resolvePathToDirent cfg fuel fs st path) fun d =>
  if d.isDir then .ret (.error .isADirectory)
  else
    R.andThen (listClusters fuel fs st d.firstCluster) fun cs => readFileLoop fs st cs d.size []

/-- driverbase.go:332-339, Stat (and Lstat, 345-347). -/
def stat (cfg : Cfg) (fuel : Nat) (fs : FS σ) (st : σ) (path : Str) : R FileStat :=
  R.andThen (resolvePathToDirent cfg fuel fs st path) fun d => .ret (.ok d.stat)

/-- A call that may change the volume: the new state and the error, if any. -/
abbrev W (σ : Type) := Outcome (σ × Option Err)

/-- `x, err := …; if err != nil { return err }` in a function that only returns an error. -/
def W.from {α : Type} (st : σ) (r : R α) (f : α → W σ) : W σ :=
  match r with
  | .ret (.ok a) => f a
  | .ret (.error e) => .ret (st, some e)
  | .panic => .panic
  | .timeout => .timeout

/-- driverbase.go:356-373, Chmod. -/
def chmod (cfg : Cfg) (fuel : Nat) (fs : FS σ) (st : σ) (path : Str) (mode : FileMode) : W σ :=
  W.from st (resolvePathToDirent cfg fuel fs st path) fun d =>
  let flags := if mode &&& 0b010010010#32 = 0 then d.stat.modeFlags &&& ~~~0b010010010#32 else d.stat.modeFlags ||| 0b010010010#32
  .ret (fs.updateDirent st { d with stat := { d.stat with modeFlags := flags } })

/-- driverbase.go:382-391, Chtimes: the setters' errors are ignored. -/
def chtimes (cfg : Cfg) (fatEpoch : Time) (fuel : Nat) (fs : FS σ) (st : σ) (path : Str) (atime mtime : Time) : W σ :=
  W.from st (resolvePathToDirent cfg fuel fs st path) fun d =>
  let d := (d.setLastAccessedAt fatEpoch atime).1
  let d := (d.setLastModifiedAt fatEpoch mtime).1
  .ret (fs.updateDirent st d)

/-- driverbase.go:442-447, the loop that frees clusters: i counts down to 0. -/
def freeLoop (fs : FS σ) : (n : Nat) → σ → σ × Option Err
  | 0, st => (st, none)
  | i + 1, st =>
    match fs.freeCluster st (UInt32.ofNat i) with
    | (st', some e) => (st', some e)
    | (st', none) => freeLoop fs i st'

/-- driverbase.go:409-450, Remove. -/
def remove (cfg : Cfg) (fuel : Nat) (fs : FS σ) (st : σ) (path : Str) : W σ :=
  W.from st (resolvePathToDirent cfg fuel fs st path) fun d =>
  if d.isDir then .ret (st, some .isADirectory)
  else
    W.from st (resolvePathToDirent cfg fuel fs st (Path.dir path)) fun parent =>
    match fs.deleteDirent st d parent with
    | (st', some e) => .ret (st', some e)
    | (st', none) =>
      W.from st' (listClusters fuel fs st' d.firstCluster) fun cs => .ret (freeLoop fs cs.length st')

/-! ### SameFile and TimeToTimespec -/

/-- What a FileInfo's Sys() returns, as far as SameFile looks at it: a Dirent or something else. -/
inductive Sys where
  | dirent (d : Dirent)
  | fileStat (s : FileStat)
  | other

/-- dirent.go:385, Dirent.Sys. -/
def Dirent.sys (d : Dirent) : Sys := .fileStat d.stat

/-- `x.(Dirent)`: panics if the value is not a Dirent. -/
def Sys.asDirent : Sys → Outcome Dirent
  | .dirent d => .ret d
  | _ => .panic

/-- driverbase.go:248-253, SameFile, on the Sys() of its arguments. -/
def sameFile (fi1 fi2 : Sys) : Outcome Bool := do
  let dirLeft ← fi1.asDirent
  let dirRight ← fi2.asDirent
  pure (dirLeft.firstCluster == dirRight.firstCluster)

/-- A syscall.Timespec. -/
structure Timespec where
  sec : Int
  nsec : Int
deriving DecidableEq

/-- Go package time: t.UnixNano(), for a time given in nanoseconds since 1970-01-01 UTC: "undefined if it cannot be represented by an int64", in fact the
64-bit product and sum wrap around. -/
def unixNano (t : Int) : Int := i64 t

/-- Go package syscall: NsecToTimespec (division truncates towards zero). -/
def nsecToTimespec (nsec : Int) : Timespec :=
  let sec := nsec.tdiv 1000000000
  let rest := nsec.tmod 1000000000
  if rest < 0 then ⟨sec - 1, rest + 1000000000⟩ else ⟨sec, rest⟩

/-- dirent.go:247-249, TimeToTimespec. -/
def timeToTimespec (t : Int) : Timespec := nsecToTimespec (unixNano t)

end Disko.Fat

import Verif.Base.Go
/-!
Model of /repo/file_systems/unixv6/dirents.go (mode conversion and RawInodeToStat).  Flag words are
bit vectors.  Error messages are not modelled.
-/
namespace Disko.UnixV6
open Disko

/-! Constants of package os (Go standard library, os.FileMode). -/
def modeDir : BitVec 32 := 0x80000000#32
def modeSymlink : BitVec 32 := 0x08000000#32
def modeDevice : BitVec 32 := 0x04000000#32
def modeNamedPipe : BitVec 32 := 0x02000000#32
def modeSocket : BitVec 32 := 0x01000000#32
def modeSetuid : BitVec 32 := 0x00800000#32
def modeSetgid : BitVec 32 := 0x00400000#32
def modeCharDevice : BitVec 32 := 0x00200000#32
def modeIrregular : BitVec 32 := 0x00080000#32
def modePerm : BitVec 32 := 0x1ff#32
/-- os.ModeType -/
def modeType : BitVec 32 :=
  modeDir ||| modeSymlink ||| modeNamedPipe ||| modeSocket ||| modeDevice ||| modeCharDevice ||| modeIrregular

/-! dirents.go:38-61, constants. -/
def flagIsAllocated : BitVec 16 := 0x8000#16
def fileTypeMask : BitVec 16 := 0x6000#16
def fileTypeBlockDevice : BitVec 16 := 0x6000#16
def fileTypeDirectory : BitVec 16 := 0x4000#16
def fileTypeCharDevice : BitVec 16 := 0x2000#16
def flagSetUID : BitVec 16 := 0x0800#16
def flagSetGID : BitVec 16 := 0x0400#16

/-- dirents.go:63-86, ConvertFSFlagsToStandard (never returns an error). -/
def fsToStd (flags : BitVec 16) : BitVec 32 :=
  let mode := flags.setWidth 32 &&& modePerm
  let mode :=
    if flags &&& fileTypeMask = fileTypeBlockDevice then mode ||| modeDevice
    else if flags &&& fileTypeMask = fileTypeCharDevice then mode ||| modeCharDevice
    else if flags &&& fileTypeMask = fileTypeDirectory then mode ||| modeDir
    else mode
  let mode := if flags &&& flagSetGID ≠ 0 then mode ||| modeSetgid else mode
  if flags &&& flagSetUID ≠ 0 then mode ||| modeSetuid else mode

/-- dirents.go:91-107, the switch on the file type in ConvertStandardFlagsToFS. -/
def typeToFs (flags : BitVec 32) : Option (BitVec 16) :=
  if flags &&& modeType = modeCharDevice then some fileTypeCharDevice
  else if flags &&& modeType = modeDevice then some fileTypeBlockDevice
  else if flags &&& modeType = modeDir then some fileTypeDirectory
  else if flags &&& modeType = 0 then some 0
  else none

/-- dirents.go:88-118, ConvertStandardFlagsToFS; `none` stands for the error. -/
def stdToFs (flags : BitVec 32) : Option (BitVec 16) :=
  let mode := (flags &&& modePerm).setWidth 16 ||| flagIsAllocated
  match typeToFs flags with
  | none => none
  | some t =>
    let mode := mode ||| t
    let mode := if flags &&& modeSetgid ≠ 0 then mode ||| flagSetGID else mode
    some (if flags &&& modeSetuid ≠ 0 then mode ||| flagSetUID else mode)

/-- dirents.go:27-36, type RawInode (without Addr). -/
structure RawInode where
  flags : BitVec 16
  nlink : UInt8
  uid : UInt8
  gid : UInt8
  size0 : UInt8
  size1 : UInt8
  size2 : UInt8
  accessedTime : UInt32
  modifiedTime : UInt32

/-- The fields of disko.FileStat that RawInodeToStat sets (Rdev is the constant 0). -/
structure FileStat where
  inodeNumber : Nat
  nlinks : Nat
  modeFlags : BitVec 32
  uid : Nat
  gid : Nat
  size : Int
  blockSize : Int
  numBlocks : Int
  lastAccessed : Int
  lastModified : Int
deriving DecidableEq

/-- dirents.go:120-148, RawInodeToStat (a time.Time is its Unix seconds). -/
def rawInodeToStat (inumber : UInt16) (inode : RawInode) : FileStat :=
  let size := inode.size0.toNat ||| (inode.size1.toNat <<< 8) ||| (inode.size2.toNat <<< 16)
  let blocks := size / 512
  let blocks := if size % 512 ≠ 0 then blocks + 1 else blocks
  { inodeNumber := inumber.toNat, nlinks := inode.nlink.toNat, modeFlags := fsToStd inode.flags,
    uid := inode.uid.toNat, gid := inode.gid.toNat, size := i64 size, blockSize := 512, numBlocks := i64 blocks,
    lastAccessed := inode.accessedTime.toNat, lastModified := inode.modifiedTime.toNat }

end Disko.UnixV6

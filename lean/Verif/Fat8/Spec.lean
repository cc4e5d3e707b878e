import Verif.Fat8.Model
/-
Specification vocabulary for the FAT8 driver (C39-C48 and others): the behaviour of os.File, the
layout of a volume, histories of calls.
-/
namespace Disko.Fat8.Spec
open Disko Disko.Fat8

/-- A file of contents `d` after writing `v` at `off` (a gap is filled with nulls). -/
def overwrite (d : Bytes) (off : Nat) (v : Bytes) : Bytes :=
  if v = [] then d else splice (d ++ List.replicate (off + v.length - d.length) 0) off v

/-- What os.File documents.  `view` is the contents of the file.  Any call may fail; a failed
write may have written part of its data. -/
structure LawfulFile {F : Type} (o : FileOps F) (view : F → Bytes) : Prop where
  seek_view : ∀ f, view (o.seekEnd f).1 = view f
  seek_ok : ∀ f n, (o.seekEnd f).2 = .ok n → n = (view f).length
  read_view : ∀ f n off, view (o.readAt f n off).1 = view f
  read_ok : ∀ f n off, (o.readAt f n off).2.2 = none →
    0 ≤ off ∧ (n = 0 ∨ off.toNat + n ≤ (view f).length) ∧ (o.readAt f n off).2.1 = slice (view f) off.toNat n
  write_ok : ∀ f buf off, (o.writeAt f buf off).2 = none →
    0 ≤ off ∧ view (o.writeAt f buf off).1 = overwrite (view f) off.toNat buf
  write_neg : ∀ f buf off, off < 0 → view (o.writeAt f buf off).1 = view f
  write_fail : ∀ f buf off, (o.writeAt f buf off).2 ≠ none →
    (view f).length ≤ (view (o.writeAt f buf off).1).length ∧
    (view (o.writeAt f buf off).1).length ≤ max (view f).length (off.toNat + buf.length) ∧
    ∀ k, k < (view f).length → (k < off.toNat ∨ off.toNat + buf.length ≤ k) →
      (view (o.writeAt f buf off).1)[k]? = (view f)[k]?
  truncate_ok : ∀ f n, (o.truncate f n).2 = none → 0 ≤ n ∧
    view (o.truncate f n).1 = (view f).take n.toNat ++ List.replicate (n.toNat - (view f).length) 0
  truncate_fail : ∀ f n, (o.truncate f n).2 ≠ none → view (o.truncate f n).1 = view f

/-- Truncate does not fail. -/
def Truncates {F : Type} (o : FileOps F) : Prop := ∀ f n, 0 ≤ n → (o.truncate f n).2 = none

/-- Reads inside the file, and Seek, do not fail. -/
structure Readable {F : Type} (o : FileOps F) (view : F → Bytes) : Prop where
  seek : ∀ f, ∃ n, (o.seekEnd f).2 = .ok n
  read : ∀ f n off, 0 ≤ off → off.toNat + n ≤ (view f).length → (o.readAt f n off).2.2 = none

/-- Writes at non-negative offsets do not fail. -/
def Writable {F : Type} (o : FileOps F) : Prop := ∀ f buf off, 0 ≤ off → (o.writeAt f buf off).2 = none

/-- A write that stops, for whatever reason, has stored a prefix of its data (of any length), as
os.File.WriteAt does, which counts the bytes it wrote. -/
def PrefixWrites {F : Type} (o : FileOps F) (view : F → Bytes) : Prop :=
  ∀ f buf off, 0 ≤ off → ∃ t, t ≤ buf.length ∧ view (o.writeAt f buf off).1 = overwrite (view f) off.toNat (buf.take t)

/-- The layout of a volume, in sectors of 128 bytes (see the comments in common.go and the IBM
format): `tracks` of `spt` sectors hold data; one of them, `dirTrack` (counting from 0), is the
directory track, which ends with three FAT copies of `fatSectors` sectors, preceded by one info
sector, preceded by directory entries. A cluster is half a track. -/
structure Layout where
  tracks : Nat
  spt : Nat
  dirTrack : Nat
  fatSectors : Nat
deriving DecidableEq

/-- The layouts of the supported numbers of blocks: minifloppy, floppy, and floppy with its 4
spare tracks. -/
def layout (blocks : Nat) : Option Layout :=
  if blocks = 640 then some ⟨40, 16, 17, 1⟩
  else if blocks = 1898 ∨ blocks = 2002 then some ⟨73, 26, 34, 2⟩
  else none

/-- The first sector of the directory track. -/
def Layout.dirStart (l : Layout) : Nat := l.dirTrack * l.spt
/-- The number of sectors of directory entries. -/
def Layout.direntSectors (l : Layout) : Nat := l.spt - 1 - 3 * l.fatSectors
/-- The info sector. -/
def Layout.info (l : Layout) : Nat := l.dirStart + l.direntSectors
/-- The first sector of FAT copy `i` (0, 1, 2). -/
def Layout.fatStart (l : Layout) (i : Nat) : Nat := l.info + 1 + i * l.fatSectors
/-- Sectors per cluster. -/
def Layout.spc (l : Layout) : Nat := l.spt / 2
/-- The number of clusters; they are numbered from 1, two per track. -/
def Layout.clusters (l : Layout) : Nat := l.tracks * 2

/-- `n` sectors of the image, starting with sector `s`. -/
def sectors (image : Bytes) (s n : Nat) : Bytes := slice image (s * 128) (n * 128)

/-- A write of whole sectors inside the file that stops has stored each of these sectors completely
or not at all, in any order (a disk that reorders the sectors of its cache). -/
def SectorWrites {F : Type} (o : FileOps F) (view : F → Bytes) : Prop :=
  ∀ f buf s, buf.length % 128 = 0 → s * 128 + buf.length ≤ (view f).length → ∀ k,
    sectors (view (o.writeAt f buf (s * 128 : Nat)).1) k 1 = sectors (view f) k 1 ∨
    sectors (view (o.writeAt f buf (s * 128 : Nat)).1) k 1 = sectors (overwrite (view f) (s * 128) buf) k 1

/-- The contents of cluster `c`. -/
def cluster (l : Layout) (image : Bytes) (c : Nat) : Bytes := sectors image ((c - 1) * l.spc) l.spc

/-- FAT copy `i`. -/
def fatCopy (l : Layout) (image : Bytes) (i : Nat) : Bytes := sectors image (l.fatStart i) l.fatSectors

/-- A volume without files: the given FAT, directory entries filled with 0xFF, nulls elsewhere. -/
def emptyVolume (l : Layout) (blocks : Nat) (fat : Bytes) : Bytes :=
  List.replicate (l.dirStart * 128) 0 ++
  List.replicate (l.direntSectors * 128) 0xff ++
  List.replicate 128 0 ++
  (fat ++ fat ++ fat) ++
  List.replicate ((blocks - (l.dirStart + l.spt)) * 128) 0

/-- Cluster `c` lies in the directory track. -/
def inDirectoryTrack (l : Layout) (c : Nat) : Prop :=
  ∃ s, (c - 1) * l.spc ≤ s ∧ s < (c - 1) * l.spc + l.spc ∧ l.dirStart ≤ s ∧ s < l.dirStart + l.spt

/-- A name in upper case (Lean's own `Char.toUpper`, which changes the letters a-z only). -/
def upper (s : Bytes) : Bytes := s.map fun c => UInt8.ofNat (Char.ofNat c.toNat).toUpper.toNat

/-- Calls a client can make on a driver. -/
inductive Call where
  | format (size : Int)
  | mount
  | unmount
  | flush
  | getFAT
  | readBlocks (start count : Nat)
  | writeBlocks (start : Nat) (data : Bytes)
  | readCluster (c : Nat)
  | writeCluster (c : Nat) (data : Bytes)
  | readFile (e : DirectoryEntry) (i : Nat)
  | writeFile (e : DirectoryEntry) (i : Nat) (data : Bytes)

/-- Arguments that are Go values: `uint`, int64, and slices no longer than MaxInt. -/
def Call.Valid : Call → Prop
  | .format size => -(2 ^ 63) ≤ size ∧ size < 2 ^ 63
  | .readBlocks start count => start < 2 ^ 64 ∧ count < 2 ^ 64
  | .writeBlocks start data => start < 2 ^ 64 ∧ data.length ≤ maxInt
  | .readCluster c => c < 2 ^ 64
  | .writeCluster c data => c < 2 ^ 64 ∧ data.length ≤ maxInt
  | .readFile e i => i < 2 ^ 64 ∧ e.clusters.length ≤ maxInt ∧ ∀ c ∈ e.clusters, c < 2 ^ 64
  | .writeFile e i data => i < 2 ^ 64 ∧ e.clusters.length ≤ maxInt ∧ (∀ c ∈ e.clusters, c < 2 ^ 64) ∧ data.length ≤ maxInt
  | _ => True

/-- What is left of a call when only the driver is of interest. -/
def after {F α : Type} (o : Outcome (Drv F × Except Err α)) : Outcome (Drv F) :=
  match o with
  | .ret (d, _) => .ret d
  | .panic => .panic
  | .timeout => .timeout

/-- The driver after a call. -/
def step {F : Type} (o : FileOps F) (d : Drv F) : Call → Outcome (Drv F)
  | .format size => after (formatImage o size d)
  | .mount => after (mount o d)
  | .unmount => after (unmount d)
  | .flush => after (flush o d)
  | .getFAT => after (getFAT o d)
  | .readBlocks start count => after (readDiskBlocks o start count d)
  | .writeBlocks start data => after (writeDiskBlocks o start data d)
  | .readCluster c => after (readAbsoluteCluster o c d)
  | .writeCluster c data => after (writeAbsoluteCluster o c data d)
  | .readFile e i => after (readFileCluster o e i d)
  | .writeFile e i data => after (writeFileCluster o e i data d)

/-- Drivers that exist: created on an image file, and used in any way. -/
inductive Reachable {F : Type} (o : FileOps F) (f0 : F) : Drv F → Prop where
  | new : Reachable o f0 (newDriver f0)
  | call {d d' : Drv F} {c : Call} (hr : Reachable o f0 d) (hv : c.Valid) (hs : step o d c = .ret d') :
      Reachable o f0 d'

end Disko.Fat8.Spec

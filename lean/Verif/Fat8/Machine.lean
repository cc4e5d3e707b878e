import Verif.Fat8.Spec
/-
Specification for C156: a FAT8 driver on an image file that does not fail is a small machine. Its state
is the bytes of the image, the size of the volume, what the driver knows of its layout, whether it is
mounted, and the FAT it read when it was last mounted. Nothing here refers to the model's functions.
-/
namespace Disko.Fat8.Spec
open Disko Disko.Fat8

/-- What a client can ask a driver: the calls of `Call`, and the questions that cannot change anything. -/
inductive Ask where
  | call (c : Call)
  | isValidCluster (c : Nat)
  | fsStat
  | stat (path : Bytes)

/-- Answers. -/
inductive Answer where
  | done
  | bytes (b : Bytes)
  | bool (b : Bool)
  | space (s : FSStat)
  | file (s : FileStat)
  | failed (e : Err)
deriving DecidableEq

/-- The machine. `blocks` is the size of the volume that was formatted, 0 if none was; `shape` is the
layout the driver goes by. -/
structure Volume where
  image : Bytes
  blocks : Nat := 0
  shape : Option Layout := none
  mounted : Bool := false
  fat : Bytes := []
deriving DecidableEq

/-- Reading `n` sectors from sector `s` on: they must lie in the volume, and the last sector of the
volume cannot be read. -/
def Volume.get (v : Volume) (s n : Nat) : Answer :=
  if s + n < v.blocks then .bytes (sectors v.image s n) else .failed .pastEnd

/-- Writing from sector `s` on: whole sectors, in the volume. -/
def Volume.put (v : Volume) (s : Nat) (data : Bytes) : Volume × Answer :=
  if data.length % 128 = 0 ∧ s + data.length / 128 ≤ v.blocks then
    ({ v with image := overwrite v.image (s * 128) data }, .done)
  else (v, .failed .ioFailed)

/-- The clusters of the layout, numbered from 1. -/
def Volume.hasCluster (v : Volume) (c : Nat) : Bool :=
  match v.shape with
  | none => false
  | some l => decide (1 ≤ c ∧ c ≤ l.clusters)

/-- Sectors per cluster, and per track, of the layout; there are none without a layout. -/
def Volume.spc (v : Volume) : Nat := match v.shape with | none => 0 | some l => l.spc
def Volume.spt (v : Volume) : Nat := match v.shape with | none => 0 | some l => l.spt

/-- The FAT, if there is a volume and its three copies agree. -/
def Volume.readFAT (v : Volume) : Answer :=
  match layout v.blocks with
  | none => .failed .pastEnd
  | some l =>
    if fatCopy l v.image 0 = fatCopy l v.image 1 ∧ fatCopy l v.image 0 = fatCopy l v.image 2 then
      .bytes (fatCopy l v.image 0)
    else .failed .corrupted

/-- Writing to cluster `c`. (The place is not that of the cluster: C43.) -/
def Volume.putCluster (v : Volume) (c : Nat) (data : Bytes) : Volume × Answer :=
  if v.hasCluster c = false then (v, .failed .badCluster)
  else if data.length ≠ v.spc * 128 then (v, .failed .wrongSize)
  else v.put ((c - 1) * v.spt) data

/-- The FAT of a new volume: all clusters free, except for two that are marked as reserved. (They are not
those of the directory: C41.) -/
def blankFAT (l : Layout) : Bytes :=
  (List.range (l.fatSectors * 128)).map fun c => if c = l.dirTrack ∨ c = l.dirTrack + 1 then 0xfe else 0xff

/-- The directory track of a new volume. -/
def blankTrack (l : Layout) : Bytes :=
  List.replicate (l.direntSectors * 128) 0xff ++ List.replicate 128 0 ++ (blankFAT l ++ blankFAT l ++ blankFAT l)

/-- An image after formatting: cut or filled with nulls to the size of the volume, and the directory
track rewritten. -/
def formatted (l : Layout) (blocks : Nat) (image : Bytes) : Bytes :=
  let old := (image ++ List.replicate (blocks * 128) 0).take (blocks * 128)
  old.take (l.dirStart * 128) ++ blankTrack l ++ old.drop ((l.dirStart + l.spt) * 128)

/-- What FSStat tells about a volume (all zero if there is none). -/
def spaceOf (blocks : Nat) : FSStat :=
  match layout blocks with
  | none => {}
  | some l => { blockSize := 128, totalBlocks := blocks, blocksFree := (l.tracks - 1) * l.spt,
                blocksAvailable := (l.tracks - 1) * l.spt, files := 0, filesFree := l.direntSectors * 8,
                maxNameLength := 10 }

/-- The machine's answer. -/
def Volume.step (v : Volume) : Ask → Volume × Answer
  | .isValidCluster c => (v, .bool (v.hasCluster c))
  | .fsStat => (v, .space (spaceOf v.blocks))
  | .stat _ => (v, .failed .notFound)
  | .call (.format size) =>
    if v.mounted then (v, .failed .busy)
    else if size % 128 ≠ 0 then (v, .failed .invalidArgument)
    else match layout (size / 128).toNat with
      | none => (v, .failed .badBlockCount)
      | some l => ({ v with image := formatted l (size / 128).toNat v.image, blocks := (size / 128).toNat, shape := some l }, .done)
  | .call .mount =>
    if v.mounted then (v, .failed .alreadyInProgress)
    else match layout (v.image.length / 128) with
      | none => (v, .failed .corrupted)
      | some l => match v.readFAT with
        | .bytes fat => ({ v with shape := some l, fat := fat, mounted := true }, .done)
        | a => ({ v with shape := some l }, a)
  | .call .unmount => ({ v with mounted := false }, .done)
  | .call .flush =>
    match v.shape with
    | none => (v, .done)
    | some l => v.put (l.fatStart 0) (v.fat ++ v.fat ++ v.fat)
  | .call .getFAT => (v, v.readFAT)
  | .call (.readBlocks s n) => (v, v.get s n)
  | .call (.writeBlocks s data) => v.put s data
  | .call (.readCluster c) =>
    (v, if v.hasCluster c then v.get ((c - 1) * v.spc) v.spc else .failed .badCluster)
  | .call (.writeCluster c data) => v.putCluster c data
  | .call (.readFile e i) =>
    (v, match e.clusters[i]? with
      | none => .failed .badIndex
      | some c => v.get (c * v.spc) v.spc)
  | .call (.writeFile e i data) =>
    match e.clusters[i]? with
    | none => (v, .failed .badIndex)
    | some c => v.putCluster c data

/-- A program. -/
def Volume.run (v : Volume) : List Ask → Volume × List Answer
  | [] => (v, [])
  | a :: rest =>
    let (v1, x) := v.step a
    let (v2, xs) := v1.run rest
    (v2, x :: xs)

/-- Arguments that are Go values, with block numbers below 2^56 (the byte offsets of such blocks are
int64 values) and cluster numbers of files below 2^40. -/
def Ask.Fits : Ask → Prop
  | .call (.format size) => -(2 ^ 63) ≤ size ∧ size < 2 ^ 63
  | .call (.readBlocks start count) => start + count < 2 ^ 56
  | .call (.writeBlocks start data) => start < 2 ^ 56 ∧ data.length ≤ maxInt
  | .call (.readCluster c) => c < 2 ^ 64
  | .call (.writeCluster c data) => c < 2 ^ 64 ∧ data.length ≤ maxInt
  | .call (.readFile e i) => i ≤ maxInt ∧ e.clusters.length ≤ maxInt ∧ ∀ c ∈ e.clusters, c < 2 ^ 40
  | .call (.writeFile e i data) => i ≤ maxInt ∧ e.clusters.length ≤ maxInt ∧ (∀ c ∈ e.clusters, c < 2 ^ 40) ∧ data.length ≤ maxInt
  | _ => True

/-- What a client sees of a call. -/
def seen {F α : Type} (f : α → Answer) (r : Outcome (Drv F × Except Err α)) : Outcome (Drv F × Answer) :=
  match r with
  | .ret (d, .ok a) => .ret (d, f a)
  | .ret (d, .error e) => .ret (d, .failed e)
  | .panic => .panic
  | .timeout => .timeout

/-- The driver's answer. -/
def ask {F : Type} (o : FileOps F) (d : Drv F) : Ask → Outcome (Drv F × Answer)
  | .isValidCluster c => .ret (d, .bool (isValidCluster d c))
  | .fsStat => .ret (d, .space (fsStat d))
  | .stat path => .ret (d, match stat d path with | .ok s => .file s | .error e => .failed e)
  | .call (.format size) => seen (fun _ => .done) (formatImage o size d)
  | .call .mount => seen (fun _ => .done) (mount o d)
  | .call .unmount => seen (fun _ => .done) (unmount d)
  | .call .flush => seen (fun _ => .done) (flush o d)
  | .call .getFAT => seen .bytes (getFAT o d)
  | .call (.readBlocks s n) => seen .bytes (readDiskBlocks o s n d)
  | .call (.writeBlocks s data) => seen (fun _ => .done) (writeDiskBlocks o s data d)
  | .call (.readCluster c) => seen .bytes (readAbsoluteCluster o c d)
  | .call (.writeCluster c data) => seen (fun _ => .done) (writeAbsoluteCluster o c data d)
  | .call (.readFile e i) => seen .bytes (readFileCluster o e i d)
  | .call (.writeFile e i data) => seen (fun _ => .done) (writeFileCluster o e i data d)

/-- A program on a driver. -/
def askAll {F : Type} (o : FileOps F) (d : Drv F) : List Ask → Outcome (Drv F × List Answer)
  | [] => .ret (d, [])
  | a :: rest =>
    match ask o d a with
    | .ret (d1, x) =>
      match askAll o d1 rest with
      | .ret (d2, xs) => .ret (d2, x :: xs)
      | .panic => .panic
      | .timeout => .timeout
    | .panic => .panic
    | .timeout => .timeout

/-! ### A file that may fail -/

/-- The images have the same size, and differ at most in `n` bytes from byte `a` on. -/
def OnlyIn (a n : Nat) (image image' : Bytes) : Prop :=
  image'.length = image.length ∧ ∀ k, (k < a ∨ a + n ≤ k) → image'[k]? = image[k]?

/-- The bytes of the image a call writes: the first, and how many. -/
def Volume.range (v : Volume) : Ask → Nat × Nat
  | .call (.format size) =>
    match layout (size / 128).toNat with
    | none => (0, 0)
    | some l => (l.dirStart * 128, l.spt * 128)
  | .call .flush =>
    match v.shape with
    | none => (0, 0)
    | some l => (l.fatStart 0 * 128, 3 * v.fat.length)
  | .call (.writeBlocks s data) => (s * 128, data.length)
  | .call (.writeCluster c data) => ((c - 1) * v.spt * 128, data.length)
  | .call (.writeFile e i data) =>
    match e.clusters[i]? with
    | none => (0, 0)
    | some c => ((c - 1) * v.spt * 128, data.length)
  | _ => (0, 0)

/-- What a call can leave behind when it gives up because the file failed. A call that writes, and that
the machine would not refuse, has done what it does, except for the bytes it writes. A call that reads has
changed nothing. Mount may have stopped anywhere before its end. -/
def Volume.Interrupted (v : Volume) (a : Ask) (v' : Volume) : Prop :=
  match a with
  | .call .mount =>
    v.mounted = false ∧ (v' = v ∨ ∃ l, layout (v.image.length / 128) = some l ∧
      (v' = { v with shape := some l } ∨ ∃ fat, v.readFAT = .bytes fat ∧ v' = { v with shape := some l, fat := fat }))
  | .call .getFAT => layout v.blocks ≠ none ∧ v' = v
  | .call (.readBlocks _ _) | .call (.readCluster _) | .call (.readFile _ _) => (∃ b, (v.step a).2 = .bytes b) ∧ v' = v
  | .call (.format _) | .call .flush | .call (.writeBlocks _ _) | .call (.writeCluster _ _) | .call (.writeFile _ _ _) =>
    (v.step a).2 = .done ∧ v' = { (v.step a).1 with image := v'.image } ∧
      OnlyIn (v.range a).1 (v.range a).2 (v.step a).1.image v'.image
  | _ => False

/-- The runs of a program on a file that may fail: each call gets the machine's answer, or an error of the
file (of any kind). -/
inductive Volume.Behaves : Volume → List Ask → Volume → List Answer → Prop where
  | nil {v} : Behaves v [] v []
  | served {v a rest v2 xs} : Behaves (v.step a).1 rest v2 xs → Behaves v (a :: rest) v2 ((v.step a).2 :: xs)
  | failed {v a rest v1 v2 xs} {e : Nat} : v.Interrupted a v1 → Behaves v1 rest v2 xs →
      Behaves v (a :: rest) v2 (.failed (.file e) :: xs)

/-- Repeating a call until it does not fail because of the file: the driver before, the driver after and
the answer. -/
inductive Repeated {F : Type} (o : FileOps F) (a : Ask) : Drv F → Drv F → Answer → Prop where
  | once {d d' x} : ask o d a = .ret (d', x) → (∀ e, x ≠ .failed (.file e)) → Repeated o a d d' x
  | again {d d1 d' x} {e : Nat} : ask o d a = .ret (d1, .failed (.file e)) → Repeated o a d1 d' x → Repeated o a d d' x

end Disko.Fat8.Spec

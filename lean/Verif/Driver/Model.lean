import Verif.Base.Path
import Verif.Stream.Model
/-!
Model of /repo/driver (driver.go, file.go, dirent.go, fsobject.go, nopobject.go) and of the mount
flags in /repo/api.go.

* The file system implementation (interfaces FileSystemImplementer and ObjectHandle, api.go:80-352)
  is a parameter: any functions on any state `σ` and any type `H` of handles.  Stat, Name and SameAs
  do not change the state.
* Error messages are not modelled, only the sentinel error (and, for I/O errors, the cause).
* A Go call returns, panics or (under a step budget) has not returned yet.  A stack overflow by
  endless recursion is an exhausted budget, whatever the budget.
* wrapObjectHandle (fsobject.go:16-22) as shipped drops the handle it is given, so that every method
  of the result except AbsolutePath dereferences a nil interface.  The source says so itself
  ("FIXME: This is hella wrong").  The model has a configuration `Cfg`: `shipped` is the code as it
  is; `keepHandle` lets wrapObjectHandle store the handle, as the line commented out intends;
  `passOptional` also lets the wrapper expose the optional interfaces (SupportsListDirHandle,
  SupportsChmodHandle, ...) that the type assertions in driver.go ask for.  Everything else is the
  shipped code in every configuration.
-/
namespace Disko.Driver
open Disko

/-- os.FileMode. -/
abbrev FileMode := Flags.FileMode
/-- time.Time as nanoseconds. -/
abbrev Time := Int

/-- Errors: the sentinels of package disko used by the driver, io.EOF, and errors of the
implementation (`foreign`). -/
inductive Err where
  | notFound | notADirectory | isADirectory | readOnlyFileSystem | linkCycleDetected | invalidArgument
  | notImplemented | notSupported | exists_ | directoryNotEmpty | permissionDenied | eof
  | stream (e : Stream.SErr) | ioFailed (cause : Stream.SErr) | foreign (n : Nat)
deriving DecidableEq, Repr

/-- Block callbacks report errors by number; number 2 stands for errors that are ErrNotFound for
errors.Is. -/
def berrIsNotFound : BlockCache.BErr → Bool
  | .other 2 => true
  | _ => false

/-- errors.Is(err, ErrNotFound) for an error of a stream (they wrap their cause). -/
def serrIsNotFound : Stream.SErr → Bool
  | .cache (.fetchFailed _ e) => berrIsNotFound e
  | .cache (.flushFailed _ e) => berrIsNotFound e
  | .cache (.resizeFailed e) => berrIsNotFound e
  | _ => false

/-- errors.Is(err, disko.ErrNotFound) (ErrIOFailed.Wrap keeps the cause in the chain). -/
def Err.isNotFound : Err → Bool
  | .notFound => true
  | .stream e => serrIsNotFound e
  | .ioFailed e => serrIsNotFound e
  | _ => false

/-- api.go:438-454, type FileStat. -/
structure FileStat where
  deviceID : Nat
  inodeNumber : Nat
  nlinks : Nat
  modeFlags : FileMode
  uid : Nat
  gid : Nat
  rdev : Nat
  size : Int
  blockSize : Int
  numBlocks : Int
  createdAt : Time
  lastChanged : Time
  lastAccessed : Time
  lastModified : Time
  deletedAt : Time
deriving DecidableEq, Repr

/-- time.Time{}, also disko.UndefinedTimestamp (api.go:359). -/
def undefinedTimestamp : Time := -62135596800000000000

/-- `FileStat{}`. -/
def FileStat.zero : FileStat :=
  ⟨0, 0, 0, 0, 0, 0, 0, 0, 0, 0, undefinedTimestamp, undefinedTimestamp, undefinedTimestamp, undefinedTimestamp, undefinedTimestamp⟩

/-- api.go:456-459, IsDir. -/
def FileStat.isDir (s : FileStat) : Bool := Flags.isDir s.modeFlags
/-- api.go:461-465, IsFile. -/
def FileStat.isFile (s : FileStat) : Bool := Flags.isFile s.modeFlags
/-- api.go:467-471, IsSymlink. -/
def FileStat.isSymlink (s : FileStat) : Bool := Flags.isSymlink s.modeFlags

/-! ### Mount flags (api.go:16-79) -/

/-- api.go:16, type MountFlags. -/
abbrev MountFlags := BitVec 64
/-- api.go:22 (`1 << iota`: iota is 0 on the first line of the group) -/
def mountFlagsAllowRead : MountFlags := 1
/-- api.go:27 -/
def mountFlagsAllowWrite : MountFlags := 2
/-- api.go:33 -/
def mountFlagsAllowInsert : MountFlags := 4
/-- api.go:37 -/
def mountFlagsAllowDelete : MountFlags := 8
/-- api.go:41 -/
def mountFlagsAllowAdminister : MountFlags := 16
/-- api.go:58-60, CanRead. -/
def canRead (f : MountFlags) : Bool := f &&& mountFlagsAllowRead != 0
/-- api.go:62-64, CanWrite. -/
def canWrite (f : MountFlags) : Bool := f &&& mountFlagsAllowWrite != 0
/-- api.go:66-68, CanDelete. -/
def canDelete (f : MountFlags) : Bool := f &&& mountFlagsAllowDelete != 0

/-! ### The implementation -/

/-- api.go:369-428, the features the driver looks at. -/
structure Features where
  hasSymbolicLinks : Bool
  hasAccessedTime : Bool
  hasModifiedTime : Bool
deriving DecidableEq, Repr

/-- api.go:80-352: FileSystemImplementer, ObjectHandle and the optional interfaces.  A handle that
does not implement an optional interface gives `none`. -/
structure Impl (σ H : Type) where
  features : Features
  getRootDirectory : σ → H
  getObject : σ → Str → H → σ × Except Err H
  createObject : σ → Str → H → FileMode → σ × Except Err H
  /-- HardLinkImplementer, if the implementation is one. -/
  createHardLink : Option (σ → H → H → Str → σ × Except Err H)
  stat : σ → H → FileStat
  name : σ → H → Str
  sameAs : σ → H → H → Bool
  resize : σ → H → Nat → σ × Option BlockCache.BErr
  readBlocks : σ → H → Nat → Bytes → σ × Bytes × Option BlockCache.BErr
  writeBlocks : σ → H → Nat → Bytes → σ × Option BlockCache.BErr
  unlink : σ → H → σ × Option Err
  close : σ → H → σ × Option Err
  listDir : H → Option (σ → σ × Except Err (List Str))
  chmod : H → Option (σ → FileMode → σ × Option Err)
  chown : H → Option (σ → Int → Int → σ × Option Err)
  chtimes : H → Option (σ → Time → Time → Time → Time → Time → σ × Option Err)

/-- See the head of this file. -/
structure Cfg where
  keepHandle : Bool
  passOptional : Bool
deriving DecidableEq

/-- The code as it is. -/
def shipped : Cfg := ⟨false, false⟩
/-- wrapObjectHandle stores the handle. -/
def keeping : Cfg := ⟨true, false⟩
/-- wrapObjectHandle stores the handle and the wrapper passes on its optional interfaces. -/
def passing : Cfg := ⟨true, true⟩

/-- driver.go:18-25, type BaseDriver (without the implementation's state). -/
structure Drv (σ H : Type) where
  cfg : Cfg
  impl : Impl σ H
  mountFlags : MountFlags
  workingDirPath : Str

/-- driver.go:28-37, New. -/
def new {σ H : Type} (cfg : Cfg) (impl : Impl σ H) (mountFlags : MountFlags) : Drv σ H :=
  { cfg, impl, mountFlags, workingDirPath := str! "/" }

/-- fsobject.go:10-13, type tExtObjectHandle: the embedded interface, nil if `none`. -/
structure Ext (H : Type) where
  inner : Option H
  absolutePath : Str
deriving DecidableEq

/-- A call with the implementation's state: it returns a state and a value or an error. -/
abbrev M (σ α : Type) := σ → Outcome (σ × Except Err α)

variable {σ H α β : Type}

/-- `return x, nil` -/
def M.ok (a : α) : M σ α := fun s => .ret (s, .ok a)
/-- `return nil, err` -/
def M.fail (e : Err) : M σ α := fun s => .ret (s, .error e)
/-- A panic. -/
def M.crash : M σ α := fun _ => .panic
/-- `x, err := m; if err != nil { return err }; f(x)` -/
def M.andThen (m : M σ α) (f : α → M σ β) : M σ β := fun s =>
  match m s with
  | .ret (s', .ok a) => f a s'
  | .ret (s', .error e) => .ret (s', .error e)
  | .panic => .panic
  | .timeout => .timeout
/-- `x, err := m; f(x, err)` -/
def M.either (m : M σ α) (f : Except Err α → M σ β) : M σ β := fun s =>
  match m s with
  | .ret (s', r) => f r s'
  | .panic => .panic
  | .timeout => .timeout
/-- `defer cleanup; body`: the result of `cleanup` is dropped, its panic is not. -/
def M.deferred (cleanup : M σ Unit) (body : M σ α) : M σ α :=
  M.either body fun r => M.either cleanup fun _ s => .ret (s, r)

instance : Monad (M σ) where
  pure := M.ok
  bind := M.andThen

/-- A method of the implementation that returns a state and a value or an error. -/
def M.call (f : σ → σ × Except Err α) : M σ α := fun s => .ret (f s)
/-- A method of the implementation that returns a state and an error. -/
def M.callE (f : σ → σ × Option Err) : M σ Unit := fun s =>
  match f s with
  | (s', none) => .ret (s', .ok ())
  | (s', some e) => .ret (s', .error e)

/-- fsobject.go:16-22, wrapObjectHandle. -/
def wrapObjectHandle (cfg : Cfg) (handle : Option H) (absolutePath : Str) : Ext H :=
  ⟨if cfg.keepHandle then handle else none, absolutePath⟩

/-- A method call on the wrapper: promoted from the embedded interface, which panics if that is nil. -/
def Ext.method (e : Ext H) (f : H → M σ α) : M σ α :=
  match e.inner with
  | none => M.crash
  | some h => f h

/-- `object.Stat()` -/
def statOf (d : Drv σ H) (e : Ext H) : M σ FileStat := e.method fun h s => .ret (s, .ok (d.impl.stat s h))
/-- `object.Close()`; no caller looks at the error. -/
def closeOf (d : Drv σ H) (e : Ext H) : M σ Unit := e.method fun h => M.callE (d.impl.close · h)
/-- `object.Unlink()` -/
def unlinkOf (d : Drv σ H) (e : Ext H) : M σ Unit := e.method fun h => M.callE (d.impl.unlink · h)
/-- `object.Resize(n)` -/
def resizeOf (d : Drv σ H) (e : Ext H) (n : Nat) : M σ Unit := e.method fun h s =>
  match d.impl.resize s h n with
  | (s', none) => .ret (s', .ok ())
  | (s', some be) => .ret (s', .error (.stream (.cache (.resizeFailed be))))
/-- `object.Name()` -/
def nameOf (d : Drv σ H) (e : Ext H) : M σ Str := e.method fun h s => .ret (s, .ok (d.impl.name s h))

/-- A type assertion to an optional interface: the dynamic type of an extObjectHandle is
*tExtObjectHandle, whose methods are those of extObjectHandle (fsobject.go:5-13); it never has the
methods of an optional interface. -/
def Ext.optional (cfg : Cfg) (e : Ext H) (f : H → Option α) : Option α :=
  if cfg.passOptional then e.inner.bind f else none

/-! ### Paths (driver.go:39-52) -/

/-- driver.go:42-52, NormalizePath (on Unix filepath.ToSlash changes nothing). -/
def normalizePath (workingDirPath path : Str) : Str :=
  let path := Path.clean path
  let path := if path = Path.dot then str! "/" else path
  if Path.isAbs path then path else Path.join workingDirPath path

/-! ### Files -/

/-- file.go:106-114, the callbacks. -/
def backendOf (impl : Impl σ H) (h : H) : BlockCache.Backend σ where
  fetch s i buf := impl.readBlocks s h i buf
  flush s i buf := impl.writeBlocks s h i buf
  resize s n := impl.resize s h n

/-- A DirectoryEntry (dirent.go:10-24): what os.DirEntry and os.FileInfo show is computed from these. -/
structure DirEntry where
  name : Str
  stat : FileStat
deriving DecidableEq, Repr

/-- file.go:85-97, type File.  The stream's cache is kept here; the storage behind it is the
implementation's state (`streamIn`). -/
structure File (H : Type) where
  size : Int
  position : Int
  cache : BlockCache.Cache
  ioFlags : Flags.IOFlags
  objectHandle : Ext H
  fileInfoStat : FileStat
  fileInfoPath : Str
  lastReadDirResult : Option (List DirEntry)
  readDirResultPointer : Nat
deriving DecidableEq

/-- The file's BasicStream on the current state. -/
def File.streamIn (f : File H) (s : σ) : Stream.Stm σ := ⟨f.size, f.position, ⟨f.cache, s⟩, f.ioFlags⟩
/-- The file after a call on its stream. -/
def File.after (f : File H) (x : Stream.Stm σ) : File H := { f with size := x.size, position := x.position, cache := x.st.c }

/-- file.go:99-140, NewFileFromObjectHandle. -/
def newFile (d : Drv σ H) (object : Ext H) (ioFlags : Flags.IOFlags) : M σ (File H) :=
  M.andThen (statOf d object) fun stat =>
  object.method fun h s =>
  match BlockCache.new (Stream.toUint stat.blockSize) (Stream.toUint stat.numBlocks) with
  | .panic => .panic
  | .timeout => .timeout
  | .ret cache =>
    match Stream.new (backendOf d.impl h) stat.size ⟨cache, s⟩ ioFlags with
    | .panic => .panic
    | .timeout => .timeout
    | .ret (none, none) => .panic
    | .ret (none, some e) => .ret (s, .error (.stream e))
    | .ret (some x, some e) => .ret (x.st.s, .error (.stream e))
    | .ret (some x, none) =>
      .ret (x.st.s, .ok { size := x.size, position := x.position, cache := x.st.c, ioFlags := x.flags, objectHandle := object,
                          fileInfoStat := stat, fileInfoPath := object.absolutePath, lastReadDirResult := none, readDirResultPointer := 0 })

/-- file.go:162-164, Close (it does not close the object handle). -/
def File.close (d : Drv σ H) (f : File H) : M σ (File H) := f.objectHandle.method fun h s =>
  match Stream.sync (backendOf d.impl h) (f.streamIn s) with
  | .panic => .panic
  | .timeout => .timeout
  | .ret (x, none) => .ret (x.st.s, .ok (f.after x))
  | .ret (x, some e) => .ret (x.st.s, .error (.stream e))

/-- Truncate of the embedded BasicStream on a file. -/
def File.truncate (d : Drv σ H) (f : File H) (n : Int) : M σ (File H) := f.objectHandle.method fun h s =>
  match Stream.truncate (backendOf d.impl h) (f.streamIn s) n with
  | .panic => .panic
  | .timeout => .timeout
  | .ret (x, none) => .ret (x.st.s, .ok (f.after x))
  | .ret (x, some e) => .ret (x.st.s, .error (.stream e))

/-- Write of the embedded BasicStream on a file. -/
def File.write (d : Drv σ H) (f : File H) (data : Bytes) : M σ (File H × Int) := f.objectHandle.method fun h s =>
  match Stream.write (backendOf d.impl h) (f.streamIn s) data with
  | .panic => .panic
  | .timeout => .timeout
  | .ret (x, n, none) => .ret (x.st.s, .ok (f.after x, n))
  | .ret (x, _, some e) => .ret (x.st.s, .error (.stream e))

/-- Read of the embedded BasicStream into a buffer of the given length. -/
def File.read (d : Drv σ H) (f : File H) (len : Nat) : M σ (File H × Bytes × Option Stream.SErr) := f.objectHandle.method fun h s =>
  match Stream.read (backendOf d.impl h) (f.streamIn s) (List.replicate len 0) with
  | .panic => .panic
  | .timeout => .timeout
  | .ret (x, r) => .ret (x.st.s, .ok (f.after x, r.buf, r.err))

/-- driver.go:177-197, getContentsOfObject (`make` with a negative size panics; basicstream.New has
refused such a size before). -/
def getContentsOfObject (d : Drv σ H) (object : Ext H) : M σ Bytes :=
  M.either (newFile d object Flags.O_RDONLY) fun
    | .error (.stream e) => M.fail (.ioFailed e)
    | .error e => M.fail e
    | .ok f =>
      M.andThen (statOf d object) fun stat =>
      if stat.size < 0 then M.crash
      else M.andThen (f.read d stat.size.toNat) fun (f', buf, err) =>
        M.deferred (M.andThen (f'.close d) fun _ => M.ok ()) <|
          match err with
          | some e => M.fail (.ioFailed e)
          | none => M.ok buf

/-- driver.go:199-211, getExtObjectInDir. -/
def getExtObjectInDir (d : Drv σ H) (baseName : Str) (parent : Ext H) : M σ (Ext H) :=
  parent.method fun p =>
  M.andThen (M.call (d.impl.getObject · baseName p)) fun h =>
  M.ok (wrapObjectHandle d.cfg (some h) (Path.join parent.absolutePath baseName))

/-- driver.go:213-230, createExtObject. -/
def createExtObject (d : Drv σ H) (baseName : Str) (parent : Ext H) (perm : FileMode) : M σ (Ext H) :=
  parent.method fun p =>
  M.andThen (M.call (d.impl.createObject · baseName p perm)) fun h =>
  M.ok (wrapObjectHandle d.cfg (some h) (Path.join parent.absolutePath baseName))

mutual
/-- driver.go:114-151, getObjectAtPathNoFollow. -/
def getNoFollow (d : Drv σ H) : Nat → Str → M σ (Ext H)
  | 0, _ => fun _ => .timeout
  | n + 1, path =>
    if path = str! "/" ∨ path = [] then fun s => .ret (s, .ok (wrapObjectHandle d.cfg (some (d.impl.getRootDirectory s)) path))
    else
      M.andThen (getFollow d n (Path.splitLast path).1) fun parent =>
      M.deferred (closeOf d parent) <|
        M.andThen (statOf d parent) fun st =>
        if !st.isDir then M.fail .notADirectory
        else getExtObjectInDir d (Path.splitLast path).2 parent
/-- driver.go:153-175, getObjectAtPathFollowingLink. -/
def getFollow (d : Drv σ H) : Nat → Str → M σ (Ext H)
  | 0, _ => fun _ => .timeout
  | n + 1, path => M.andThen (getNoFollow d n path) (followLoop d n)
/-- driver.go:163-172, the loop of getObjectAtPathFollowingLink. -/
def followLoop (d : Drv σ H) : Nat → Ext H → M σ (Ext H)
  | 0, _ => fun _ => .timeout
  | n + 1, object =>
    M.andThen (statOf d object) fun st =>
    if !st.isSymlink then M.ok object
    else
      M.andThen (M.deferred (closeOf d object) (resolveSymlink d n object)) (followLoop d n)
/-- driver.go:53-112, resolveSymlink. -/
def resolveSymlink (d : Drv σ H) : Nat → Ext H → M σ (Ext H)
  | 0, _ => fun _ => .timeout
  | n + 1, object =>
    M.andThen (statOf d object) fun st =>
    if !st.isSymlink then M.ok object
    else symlinkLoop d n [object.absolutePath] object
/-- driver.go:73-109, the loop of resolveSymlink.  `pathCache` is never added to. -/
def symlinkLoop (d : Drv σ H) : Nat → (pathCache : List Str) → Ext H → M σ (Ext H)
  | 0, _, _ => fun _ => .timeout
  | n + 1, pathCache, object =>
    M.andThen (M.deferred (closeOf d object) (getContentsOfObject d object)) fun text =>
    let nextPath := normalizePath d.workingDirPath text
    if nextPath ∈ pathCache then M.fail .linkCycleDetected
    else
      M.andThen (getNoFollow d n nextPath) fun object' =>
      M.andThen (statOf d object') fun st =>
      if !st.isSymlink then M.ok object' else symlinkLoop d n pathCache object'
end

/-! ### Operations of the driver -/

/-- driver.go:255-282, what OpenFile does when the file was not found and may be created. -/
def createMissing (d : Drv σ H) (fuel : Nat) (absPath : Str) (perm : FileMode) : M σ (Ext H) :=
  M.andThen (getFollow d fuel (Path.splitLast absPath).1) fun parent =>
  M.deferred (closeOf d parent) (createExtObject d (Path.splitLast absPath).2 parent perm)

/-- driver.go:232-298, OpenFile. -/
def openFile (d : Drv σ H) (fuel : Nat) (path : Str) (flags : Flags.IOFlags) (perm : FileMode) : M σ (File H) :=
  let absPath := normalizePath d.workingDirPath path
  if Flags.requiresWritePerm flags && !canWrite d.mountFlags then M.fail .readOnlyFileSystem
  else
    M.either (getFollow d fuel absPath) fun r =>
    M.andThen (match r with
      | .ok object => M.ok object
      | .error e => if e.isNotFound && Flags.create flags then createMissing d fuel absPath perm else M.fail e) fun object =>
    M.andThen (statOf d object) fun st =>
    if !st.isFile then M.fail .isADirectory else newFile d object flags

/-- driver.go:312-322, chdirToObject: the new working directory. -/
def chdirToObject (d : Drv σ H) (object : Ext H) : M σ Str :=
  M.andThen (statOf d object) fun st => if !st.isDir then M.fail .notADirectory else M.ok object.absolutePath

/-- driver.go:300-310, Chdir: the new working directory. -/
def chdir (d : Drv σ H) (fuel : Nat) (path : Str) : M σ Str :=
  M.andThen (getFollow d fuel (normalizePath d.workingDirPath path)) fun object =>
  M.deferred (closeOf d object) (chdirToObject d object)

/-- A method of an optional interface, or ErrNotImplemented. -/
def optionalCall (d : Drv σ H) (object : Ext H) (f : H → Option (σ → σ × Option Err)) : M σ Unit :=
  match object.optional d.cfg f with
  | none => M.fail .notImplemented
  | some m => M.callE m

/-- driver.go:324-336, Chmod. -/
def chmod (d : Drv σ H) (fuel : Nat) (path : Str) (mode : FileMode) : M σ Unit :=
  M.andThen (getFollow d fuel (normalizePath d.workingDirPath path)) fun object =>
  optionalCall d object fun h => (d.impl.chmod h).map fun m s => m s mode

/-- driver.go:338-350, Chown. -/
def chown (d : Drv σ H) (fuel : Nat) (path : Str) (uid gid : Int) : M σ Unit :=
  M.andThen (getFollow d fuel (normalizePath d.workingDirPath path)) fun object =>
  optionalCall d object fun h => (d.impl.chown h).map fun m s => m s uid gid

/-- driver.go:352-367, Lchown. -/
def lchown (d : Drv σ H) (fuel : Nat) (path : Str) (uid gid : Int) : M σ Unit :=
  M.andThen (getNoFollow d fuel (normalizePath d.workingDirPath path)) fun object =>
  optionalCall d object fun h => (d.impl.chown h).map fun m s => m s uid gid

/-- driver.go:369-400, Chtimes. -/
def chtimes (d : Drv σ H) (fuel : Nat) (path : Str) (atime mtime : Time) : M σ Unit :=
  M.andThen (getFollow d fuel (normalizePath d.workingDirPath path)) fun object =>
  let atime' := if d.impl.features.hasAccessedTime then atime else undefinedTimestamp
  let mtime' := if d.impl.features.hasModifiedTime then mtime else undefinedTimestamp
  optionalCall d object fun h => (d.impl.chtimes h).map fun m s =>
    m s undefinedTimestamp atime' mtime' undefinedTimestamp undefinedTimestamp

/-- driver.go:402-404, Open. -/
def open_ (d : Drv σ H) (fuel : Nat) (path : Str) : M σ (File H) := openFile d fuel path Flags.O_RDONLY 0

/-- driver.go:406-416, ReadFile. -/
def readFile (d : Drv σ H) (fuel : Nat) (path : Str) : M σ Bytes :=
  M.andThen (getFollow d fuel (normalizePath d.workingDirPath path)) fun object =>
  M.deferred (closeOf d object) (getContentsOfObject d object)

/-- driver.go:418-422, SameFile, of the information Sys() returns. -/
def sameFile (s1 s2 : FileStat) : Bool := s1.inodeNumber == s2.inodeNumber

/-- driver.go:424-434, Stat. -/
def stat (d : Drv σ H) (fuel : Nat) (path : Str) : M σ FileStat :=
  M.andThen (getFollow d fuel (normalizePath d.workingDirPath path)) fun object =>
  M.deferred (closeOf d object) (statOf d object)

/-- dirent.go:19-24, NewDirectoryEntryFromHandle. -/
def newDirectoryEntry (impl : Impl σ H) (s : σ) (h : H) : DirEntry := ⟨impl.name s h, impl.stat s h⟩

/-- driver.go:457-472, the loop of readDir.  (On an error the entries read so far are returned with
it; callers drop them.) -/
def readDirLoop (d : Drv σ H) (dir : H) : List Str → List DirEntry → M σ (List DirEntry)
  | [], output => M.ok output
  | name :: names, output =>
    if name = Path.dot ∨ name = Path.dotdot then readDirLoop d dir names output
    else
      M.andThen (M.call (d.impl.getObject · name dir)) fun h s =>
      M.either (M.callE (d.impl.close · h)) (fun _ => readDirLoop d dir names (output ++ [newDirectoryEntry d.impl s h])) s

/-- driver.go:448-475, readDir: the type assertion without `ok` panics when it fails. -/
def readDirObject (d : Drv σ H) (directory : Ext H) : M σ (List DirEntry) :=
  match directory.optional d.cfg d.impl.listDir with
  | none => M.crash
  | some list => M.andThen (M.call list) fun names => directory.method fun h => readDirLoop d h names []

/-- driver.go:436-446, ReadDir. -/
def readDir (d : Drv σ H) (fuel : Nat) (path : Str) : M σ (List DirEntry) :=
  M.andThen (getFollow d fuel (normalizePath d.workingDirPath path)) fun directory =>
  M.deferred (closeOf d directory) (readDirObject d directory)

/-- driver.go:477-507, Link. -/
def link (d : Drv σ H) (fuel : Nat) (oldname newname : Str) : M σ Unit :=
  match d.impl.createHardLink with
  | none => M.fail .notSupported
  | some linker =>
    M.andThen (getFollow d fuel (normalizePath d.workingDirPath oldname)) fun old =>
    let absNew := normalizePath d.workingDirPath newname
    M.either (getFollow d fuel absNew) fun
      | .ok _ => M.fail .exists_
      | .error _ =>
        M.andThen (getFollow d fuel (Path.splitLast absNew).1) fun parent =>
        old.method fun o => parent.method fun p =>
        M.andThen (M.call (linker · o p (Path.splitLast absNew).2)) fun _ => M.ok ()

/-- driver.go:509-533, Readlink. -/
def readlink (d : Drv σ H) (fuel : Nat) (path : Str) : M σ Bytes :=
  if !d.impl.features.hasSymbolicLinks then M.fail .notSupported
  else
    M.andThen (getNoFollow d fuel (normalizePath d.workingDirPath path)) fun object =>
    M.deferred (closeOf d object) <|
      M.andThen (statOf d object) fun st =>
      if !st.isSymlink then M.fail .invalidArgument else getContentsOfObject d object

/-- driver.go:535-552, Lstat. -/
def lstat (d : Drv σ H) (fuel : Nat) (path : Str) : M σ FileStat :=
  M.andThen (getNoFollow d fuel (normalizePath d.workingDirPath path)) fun object =>
  M.deferred (closeOf d object) <|
    M.andThen (resolveSymlink d fuel object) fun realObject =>
    M.deferred (closeOf d realObject) (statOf d realObject)

/-- driver.go:554-562, Create. -/
def create (d : Drv σ H) (fuel : Nat) (path : Str) : M σ (File H) :=
  openFile d fuel path (Flags.O_RDWR ||| Flags.O_CREATE ||| Flags.O_EXCL) 0

/-- driver.go:564-590, removeDotsFromSlice. -/
def removeDotsFromSlice (arr : List Str) : List Str :=
  let numToIgnore := arr.countP fun e => e = Path.dot ∨ e = Path.dotdot
  if numToIgnore = 0 then arr else arr.filter fun e => e ≠ Path.dot ∧ e ≠ Path.dotdot

/-- driver.go:592-626, Remove. -/
def remove (d : Drv σ H) (fuel : Nat) (path : Str) : M σ Unit :=
  M.andThen (getFollow d fuel (normalizePath d.workingDirPath path)) fun object =>
  M.deferred (closeOf d object) <|
    M.andThen (statOf d object) fun st =>
    if st.isDir then
      match object.optional d.cfg d.impl.listDir with
      | none => M.crash
      | some list =>
        M.andThen (M.call list) fun names =>
        if (removeDotsFromSlice names).length > 0 then M.fail .directoryNotEmpty else unlinkOf d object
    else if !st.isFile then M.fail .invalidArgument
    else unlinkOf d object

/-- driver.go:628-642, Truncate. -/
def truncate (d : Drv σ H) (fuel : Nat) (path : Str) : M σ Unit :=
  M.andThen (getFollow d fuel (normalizePath d.workingDirPath path)) fun object =>
  M.deferred (closeOf d object) <|
    M.andThen (statOf d object) fun st => if st.isDir then M.fail .isADirectory else resizeOf d object 0

/-- driver.go:644-663, WriteFile: the deferred Close works on a copy of the file made before the
write; both share the stream. -/
def writeFile (d : Drv σ H) (fuel : Nat) (path : Str) (data : Bytes) (perm : FileMode) : M σ Unit :=
  M.andThen (openFile d fuel path (Flags.O_WRONLY ||| Flags.O_CREATE ||| Flags.O_TRUNC) perm) fun f =>
  f.objectHandle.method fun h s =>
  match Stream.write (backendOf d.impl h) (f.streamIn s) data with
  | .panic => .panic
  | .timeout => .timeout
  | .ret (x, _, e) =>
    match Stream.sync (backendOf d.impl h) x with
    | .panic => .panic
    | .timeout => .timeout
    | .ret (x', _) => .ret (x'.st.s, match e with | none => .ok () | some e => .error (.stream e))

/-- driver.go:668-669 and 704-705: `perm &^= os.ModeType; perm |= os.ModeDir`. -/
def dirPerm (perm : FileMode) : FileMode := (perm &&& ~~~Flags.ModeType) ||| Flags.ModeDir

/-- driver.go:691-695 and 719-723, CreateObject and closing what it returns. -/
def createAndClose (d : Drv σ H) (baseName : Str) (parent : Ext H) (perm : FileMode) : M σ Unit :=
  parent.method fun p =>
  M.andThen (M.call (d.impl.createObject · baseName p perm)) fun h =>
  M.either (M.callE (d.impl.close · h)) fun _ => M.ok ()

/-- driver.go:665-696, Mkdir. -/
def mkdir (d : Drv σ H) (fuel : Nat) (path : Str) (perm : FileMode) : M σ Unit :=
  let absPath := normalizePath d.workingDirPath path
  M.andThen (getFollow d fuel (Path.splitLast absPath).1) fun parent =>
  M.deferred (closeOf d parent) <|
    M.andThen (statOf d parent) fun st =>
    if !st.isDir then M.fail .notADirectory
    else createAndClose d (Path.splitLast absPath).2 parent (dirPerm perm)

/-- driver.go:698-724, MkdirAll.  If the parent was not found it is created, but `parentObject` is
still nil when its Close is deferred, which panics. -/
def mkdirAll (d : Drv σ H) : (fuel : Nat) → Str → FileMode → M σ Unit
  | 0, _, _ => fun _ => .timeout
  | fuel + 1, path, perm =>
    let absPath := normalizePath d.workingDirPath path
    M.either (getFollow d fuel (Path.splitLast absPath).1) fun
      | .ok parent => M.deferred (closeOf d parent) (createAndClose d (Path.splitLast absPath).2 parent (dirPerm perm))
      | .error e =>
        if e.isNotFound then M.either (mkdirAll d fuel (Path.splitLast absPath).1 (dirPerm perm)) fun _ => M.crash
        else M.fail e

/-- driver.go:762-794, the loop over the entries; `rec`
removes the contents of a subdirectory. -/
def removeLoop (d : Drv σ H) (rec : Ext H → M σ Unit) (directory : Ext H) : List Str → M σ Unit
  | [] => M.ok ()
  | name :: names =>
    if name = Path.dot ∨ name = Path.dotdot then removeLoop d rec directory names
    else
      M.andThen (getExtObjectInDir d name directory) fun dirent =>
      M.andThen (statOf d dirent) fun st =>
      M.andThen (if st.isDir then
          M.either (rec (wrapObjectHandle d.cfg dirent.inner (Path.join directory.absolutePath name))) fun
            | .ok () => M.ok ()
            | .error e => M.either (closeOf d dirent) fun _ => M.fail e
        else M.ok ()) fun _ =>
      M.andThen (M.deferred (closeOf d dirent) (unlinkOf d dirent)) fun _ =>
      removeLoop d rec directory names

/-- driver.go:750-797, removeDirectory. -/
def removeDirectory (d : Drv σ H) : (fuel : Nat) → Ext H → M σ Unit
  | 0, _ => fun _ => .timeout
  | fuel + 1, directory =>
    match directory.optional d.cfg d.impl.listDir with
    | none => M.crash
    | some list => M.andThen (M.call list) fun names => removeLoop d (removeDirectory d fuel) directory names

/-- driver.go:726-748, RemoveAll. -/
def removeAll (d : Drv σ H) (fuel : Nat) (path : Str) : M σ Unit :=
  M.andThen (getFollow d fuel (normalizePath d.workingDirPath path)) fun directory =>
  M.deferred (closeOf d directory) <|
    M.andThen (statOf d directory) fun st =>
    if !st.isDir then M.fail .notADirectory
    else directory.method fun h s =>
      (if d.impl.sameAs s (d.impl.getRootDirectory s) h then M.fail .permissionDenied else removeDirectory d fuel directory) s

/-- driver.go:799-801, Getwd. -/
def getwd (d : Drv σ H) : Str := d.workingDirPath

/-! ### Methods of File (file.go:142-258) -/

/-- file.go:142-144, Chdir: the new working directory. -/
def File.chdir (d : Drv σ H) (f : File H) : M σ Str := chdirToObject d f.objectHandle

/-- file.go:146-152, Chmod. -/
def File.chmod (d : Drv σ H) (f : File H) (mode : FileMode) : M σ Unit :=
  match f.objectHandle.optional d.cfg d.impl.chmod with
  | some m => M.callE (m · mode)
  | none => M.fail .notSupported

/-- file.go:154-160, Chown. -/
def File.chown (d : Drv σ H) (f : File H) (uid gid : Int) : M σ Unit :=
  match f.objectHandle.optional d.cfg d.impl.chown with
  | some m => M.callE (m · uid gid)
  | none => M.fail .notSupported

/-- file.go:166-168, Name. -/
def File.name (d : Drv σ H) (f : File H) : M σ Str := nameOf d f.objectHandle

/-- file.go:189, the entries left (as Go's int). -/
def remaining (entries : List DirEntry) (pointer : Nat) : Nat := entries.length - pointer

/-- file.go:189-213, one page of the entries `entries`, from `pointer` on: the entries returned, the
error, and the new queue and pointer. -/
def page (entries : List DirEntry) (pointer : Nat) (n : Int) : List DirEntry × Option Err × Option (List DirEntry) × Nat :=
  let entriesRemaining := remaining entries pointer
  let numToCopy := if n ≤ 0 ∨ n > entriesRemaining then entriesRemaining else n.toNat
  if entriesRemaining = 0 then ([], some .eof, none, 0)
  else ((entries.drop pointer).take numToCopy, none, some entries, pointer + numToCopy)

/-- file.go:170-213, ReadDir: the file afterwards, and the entries and error returned. -/
def File.readDir (d : Drv σ H) (f : File H) (n : Int) : M σ (File H × List DirEntry × Option Err) :=
  M.andThen (statOf d f.objectHandle) fun st =>
  if !st.isDir then M.ok (f, [], some .notADirectory)
  else
    match f.lastReadDirResult with
    | some entries =>
      let p := page entries f.readDirResultPointer n
      M.ok ({ f with lastReadDirResult := p.2.2.1, readDirResultPointer := p.2.2.2 }, p.1, p.2.1)
    | none =>
      M.either (readDirObject d f.objectHandle) fun
        | .error e => M.ok (f, [], some e)
        | .ok entries =>
          let p := page entries 0 n
          M.ok ({ f with lastReadDirResult := p.2.2.1, readDirResultPointer := p.2.2.2 }, p.1, p.2.1)

/-- file.go:215-236, Readdir: DirectoryEntry.Info (dirent.go:38-40) returns the entry itself and
never fails. -/
def File.readdir (d : Drv σ H) (f : File H) (n : Int) : M σ (File H × List DirEntry × Option Err) :=
  M.andThen (f.readDir d n) fun (f', es, e) =>
  match e with
  | none => M.ok (f', es, none)
  | some e => M.ok (f', [], some e)

/-- file.go:238-254, Readdirnames. -/
def File.readdirnames (d : Drv σ H) (f : File H) (n : Int) : M σ (File H × List Str × Option Err) :=
  M.andThen (f.readDir d n) fun (f', es, e) =>
  match e with
  | none => M.ok (f', es.map (·.name), none)
  | some e => M.ok (f', [], some e)

/-! ### DirectoryEntry (dirent.go) and FileInfo (file.go:15-79): what the os interfaces show -/

/-- The methods of os.FileInfo and os.DirEntry on an entry. -/
structure Shown where
  name : Str
  isDir : Bool
  type : FileMode
  mode : FileMode
  size : Int
  modTime : Time
  sys : FileStat
deriving DecidableEq

/-- dirent.go:26-56. -/
def DirEntry.shown (e : DirEntry) : Shown :=
  { name := e.name, isDir := Flags.isDir e.stat.modeFlags, type := e.stat.modeFlags, mode := e.stat.modeFlags,
    size := e.stat.size, modTime := e.stat.lastModified, sys := e.stat }

/-- disko.DirectoryEntry's Stat (api.go:601) on a driver.DirectoryEntry: not defined in dirent.go, so
promoted from the embedded interface, which NewDirectoryEntryFromHandle leaves nil. -/
def DirEntry.statMethod (_e : DirEntry) : Outcome FileStat := .panic

/-- path.Base (Go library). -/
def pathBase (p : Str) : Str :=
  if p = [] then Path.dot
  else
    let trimmed := (p.reverse.dropWhile (· = Path.slash)).reverse
    let tail := (trimmed.reverse.takeWhile (· ≠ Path.slash)).reverse
    if tail = [] then str! "/" else tail

/-- file.go:32-79, FileInfo. -/
def fileInfoShown (stat : FileStat) (absolutePath : Str) : Shown :=
  { name := pathBase absolutePath, isDir := stat.modeFlags &&& Flags.ModeDir != 0, type := stat.modeFlags, mode := stat.modeFlags,
    size := stat.size, modTime := stat.lastModified, sys := stat }

/-- file.go:256-258, File.Stat. -/
def File.stat (f : File H) : Shown := fileInfoShown f.fileInfoStat f.fileInfoPath

end Disko.Driver

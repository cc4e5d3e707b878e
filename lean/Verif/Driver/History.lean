import Verif.Driver.Model
/-! Model: a program that makes one call after the other on a mounted volume and on the files it has
opened, and goes on after errors (driver.go, file.go). -/
namespace Disko.Driver
open Disko

variable {σ H α β : Type}

/-- file.go:85-97: a method of the embedded BasicStream called on a file, with the file after it (also if
the method returns an error, which is part of `α`). -/
def File.onStream (d : Drv σ H) (f : File H) (op : BlockCache.Backend σ → Stream.Stm σ → Outcome (Stream.Stm σ × α)) : M σ (File H × α) :=
  f.objectHandle.method fun h s =>
  match op (backendOf d.impl h) (f.streamIn s) with
  | .panic => .panic
  | .timeout => .timeout
  | .ret (x, a) => .ret (x.st.s, .ok (f.after x, a))

/-- The methods of an open file (file.go:142-258, and those of the embedded BasicStream).  WriteTo is a
sequence of calls of Read, ReadFrom one of Write; Close is Sync; Size and Tell are fields. -/
inductive FileOp where
  | read (len : Nat)
  | readAt (len : Nat) (offset : Int)
  | write (data : Bytes)
  | writeAt (data : Bytes) (offset : Int)
  | seek (offset whence : Int)
  | truncate (size : Int)
  | sync
  | chdir
  | chmod (mode : FileMode)
  | chown (uid gid : Int)
  | name
  | readDir (n : Int)
  | readdir (n : Int)
  | readdirnames (n : Int)
  | stat

/-- The operations of a mounted volume (driver.go:232-801), and those of the files opened so far, by
number. -/
inductive Op where
  | openFile (path : Str) (flags : Flags.IOFlags) (perm : FileMode)
  | open_ (path : Str)
  | create (path : Str)
  | chdir (path : Str)
  | chmod (path : Str) (mode : FileMode)
  | chown (path : Str) (uid gid : Int)
  | lchown (path : Str) (uid gid : Int)
  | chtimes (path : Str) (atime mtime : Time)
  | readFile (path : Str)
  | stat (path : Str)
  | readDir (path : Str)
  | link (oldname newname : Str)
  | readlink (path : Str)
  | lstat (path : Str)
  | remove (path : Str)
  | truncate (path : Str)
  | writeFile (path : Str) (data : Bytes) (perm : FileMode)
  | mkdir (path : Str) (perm : FileMode)
  | mkdirAll (path : Str) (perm : FileMode)
  | removeAll (path : Str)
  | getwd
  | file (i : Nat) (op : FileOp)

/-- What a call shows to the program. -/
inductive Answer where
  | failed (e : Err)
  | done
  | noSuchFile
  | stat (s : FileStat)
  | bytes (b : Bytes)
  | text (s : Str)
  | shown (s : Shown)
  | entries (es : List DirEntry) (e : Option Err)
  | names (ns : List Str) (e : Option Err)
  | count (n : Int) (e : Option Stream.SErr)
  | read (n : Int) (buf : Bytes) (e : Option Stream.SErr)
deriving DecidableEq

/-- What the program holds: the working directory of the driver and the files opened so far. -/
structure World (H : Type) where
  wd : Str
  files : List (File H)
deriving DecidableEq

/-- A call of which only an error or what `k` makes of the result is seen. -/
def ask (m : M σ α) (w : β) (k : α → β × Answer) : M σ (β × Answer) :=
  M.either m fun
    | .ok a => M.ok (k a)
    | .error e => M.ok (w, .failed e)

/-- One call of a method of the open file `f`: the new working directory, if it changes, and the file
afterwards. -/
def stepFile (d : Drv σ H) (f : File H) : FileOp → M σ ((Str × File H) × Answer)
  | .read len => ask (f.onStream d fun b x => Stream.read b x (List.replicate len 0)) (d.workingDirPath, f) fun (f', r) =>
      ((d.workingDirPath, f'), .read r.n r.buf r.err)
  | .readAt len off => ask (f.onStream d fun b x => Stream.readAt b x (List.replicate len 0) off) (d.workingDirPath, f) fun (f', r) =>
      ((d.workingDirPath, f'), .read r.n r.buf r.err)
  | .write data => ask (f.onStream d fun b x => Stream.write b x data) (d.workingDirPath, f) fun (f', n, e) => ((d.workingDirPath, f'), .count n e)
  | .writeAt data off => ask (f.onStream d fun b x => Stream.writeAt b x data off) (d.workingDirPath, f) fun (f', n, e) => ((d.workingDirPath, f'), .count n e)
  | .seek off whence => ask (f.onStream d fun _ x => .ret (Stream.seek x off whence)) (d.workingDirPath, f) fun (f', n, e) => ((d.workingDirPath, f'), .count n e)
  | .truncate n => ask (f.onStream d fun b x => Stream.truncate b x n) (d.workingDirPath, f) fun (f', e) => ((d.workingDirPath, f'), .count 0 e)
  | .sync => ask (f.onStream d fun b x => Stream.sync b x) (d.workingDirPath, f) fun (f', e) => ((d.workingDirPath, f'), .count 0 e)
  | .chdir => ask (f.chdir d) (d.workingDirPath, f) fun wd => ((wd, f), .done)
  | .chmod mode => ask (f.chmod d mode) (d.workingDirPath, f) fun _ => ((d.workingDirPath, f), .done)
  | .chown uid gid => ask (f.chown d uid gid) (d.workingDirPath, f) fun _ => ((d.workingDirPath, f), .done)
  | .name => ask (f.name d) (d.workingDirPath, f) fun n => ((d.workingDirPath, f), .text n)
  | .readDir n => ask (f.readDir d n) (d.workingDirPath, f) fun (f', es, e) => ((d.workingDirPath, f'), .entries es e)
  | .readdir n => ask (f.readdir d n) (d.workingDirPath, f) fun (f', es, e) => ((d.workingDirPath, f'), .entries es e)
  | .readdirnames n => ask (f.readdirnames d n) (d.workingDirPath, f) fun (f', ns, e) => ((d.workingDirPath, f'), .names ns e)
  | .stat => M.ok ((d.workingDirPath, f), .shown f.stat)

/-- One call. -/
def stepOp (d : Drv σ H) (fuel : Nat) (w : World H) : Op → M σ (World H × Answer)
  | .openFile p flags perm => ask (openFile { d with workingDirPath := w.wd } fuel p flags perm) w fun f => (⟨w.wd, w.files ++ [f]⟩, .done)
  | .open_ p => ask (open_ { d with workingDirPath := w.wd } fuel p) w fun f => (⟨w.wd, w.files ++ [f]⟩, .done)
  | .create p => ask (create { d with workingDirPath := w.wd } fuel p) w fun f => (⟨w.wd, w.files ++ [f]⟩, .done)
  | .chdir p => ask (chdir { d with workingDirPath := w.wd } fuel p) w fun wd => (⟨wd, w.files⟩, .done)
  | .chmod p mode => ask (chmod { d with workingDirPath := w.wd } fuel p mode) w fun _ => (w, .done)
  | .chown p uid gid => ask (chown { d with workingDirPath := w.wd } fuel p uid gid) w fun _ => (w, .done)
  | .lchown p uid gid => ask (lchown { d with workingDirPath := w.wd } fuel p uid gid) w fun _ => (w, .done)
  | .chtimes p atime mtime => ask (chtimes { d with workingDirPath := w.wd } fuel p atime mtime) w fun _ => (w, .done)
  | .readFile p => ask (readFile { d with workingDirPath := w.wd } fuel p) w fun b => (w, .bytes b)
  | .stat p => ask (stat { d with workingDirPath := w.wd } fuel p) w fun st => (w, .stat st)
  | .readDir p => ask (readDir { d with workingDirPath := w.wd } fuel p) w fun es => (w, .entries es none)
  | .link o n => ask (link { d with workingDirPath := w.wd } fuel o n) w fun _ => (w, .done)
  | .readlink p => ask (readlink { d with workingDirPath := w.wd } fuel p) w fun b => (w, .bytes b)
  | .lstat p => ask (lstat { d with workingDirPath := w.wd } fuel p) w fun st => (w, .stat st)
  | .remove p => ask (remove { d with workingDirPath := w.wd } fuel p) w fun _ => (w, .done)
  | .truncate p => ask (truncate { d with workingDirPath := w.wd } fuel p) w fun _ => (w, .done)
  | .writeFile p data perm => ask (writeFile { d with workingDirPath := w.wd } fuel p data perm) w fun _ => (w, .done)
  | .mkdir p perm => ask (mkdir { d with workingDirPath := w.wd } fuel p perm) w fun _ => (w, .done)
  | .mkdirAll p perm => ask (mkdirAll { d with workingDirPath := w.wd } fuel p perm) w fun _ => (w, .done)
  | .removeAll p => ask (removeAll { d with workingDirPath := w.wd } fuel p) w fun _ => (w, .done)
  | .getwd => M.ok (w, .text (getwd { d with workingDirPath := w.wd }))
  | .file i op =>
    match w.files[i]? with
    | none => M.ok (w, .noSuchFile)
    | some f => M.andThen (stepFile { d with workingDirPath := w.wd } f op) fun (r, a) => M.ok (⟨r.1, w.files.set i r.2⟩, a)

/-- One call after the other: the answers. -/
def runOps (d : Drv σ H) (fuel : Nat) : World H → List Op → M σ (World H × List Answer)
  | w, [] => M.ok (w, [])
  | w, op :: ops =>
    M.andThen (stepOp d fuel w op) fun (w', a) =>
    M.andThen (runOps d fuel w' ops) fun (w'', as) => M.ok (w'', a :: as)

/-- driver.go:28-37: a driver just made: nothing is open and the working directory is the root. -/
def World.start : World H := ⟨str! "/", []⟩

end Disko.Driver

import Verif.Fat.Model
/-! Model: the methods of the FAT driver that do nothing (driverbase.go), and a program that makes one call after the other on a FAT volume. -/
namespace Disko.Fat
open Disko

variable {σ : Type}

/-- driverbase.go:242-244, Readlink: the text and the error. -/
def readlink (_path : Str) : Str × Option Err := ([], some .notSupported)
/-- driverbase.go:377-379, Chown. -/
def chown (_path : Str) (_uid _gid : Int) : Option Err := some .notSupported
/-- driverbase.go:395-397, Lchown. -/
def lchown (_path : Str) (_uid _gid : Int) : Option Err := some .notSupported
/-- driverbase.go:400-402, Link. -/
def link (_oldpath _newpath : Str) : Option Err := some .notSupported
/-- driverbase.go:457-459, Symlink. -/
def symlink (_oldpath _newpath : Str) : Option Err := some .notSupported
/-- driverbase.go:345-347, Lstat. -/
def lstat (cfg : Cfg) (fuel : Nat) (fs : FS σ) (st : σ) (path : Str) : R FileStat := stat cfg fuel fs st path

/-- The methods of the driver that take a path (driverbase.go:242-459). -/
inductive Op where
  | readlink (path : Str)
  | readdir (path : Str)
  | readFile (path : Str)
  | stat (path : Str)
  | lstat (path : Str)
  | chmod (path : Str) (mode : FileMode)
  | chown (path : Str) (uid gid : Int)
  | chtimes (path : Str) (atime mtime : Time)
  | lchown (path : Str) (uid gid : Int)
  | link (oldpath newpath : Str)
  | remove (path : Str)
  | symlink (oldpath newpath : Str)

/-- What a call shows to the program. -/
inductive Answer where
  | text (s : Str) (e : Option Err)
  | entries (es : Except Err (List Dirent))
  | bytes (b : Except Err Bytes)
  | stat (s : Except Err FileStat)
  | done (e : Option Err)

/-- One call: the state of the volume afterwards and what the program sees. -/
def stepOp (cfg : Cfg) (fatEpoch : Time) (fuel : Nat) (fs : FS σ) (st : σ) : Op → Outcome (σ × Answer)
  | .readlink p => .ret (st, .text (readlink p).1 (readlink p).2)
  | .readdir p => (readdir cfg fuel fs st p).bind fun r => .ret (st, .entries r)
  | .readFile p => (readFile cfg fuel fs st p).bind fun r => .ret (st, .bytes r)
  | .stat p => (stat cfg fuel fs st p).bind fun r => .ret (st, .stat r)
  | .lstat p => (lstat cfg fuel fs st p).bind fun r => .ret (st, .stat r)
  | .chmod p mode => (chmod cfg fuel fs st p mode).bind fun r => .ret (r.1, .done r.2)
  | .chown p uid gid => .ret (st, .done (chown p uid gid))
  | .chtimes p atime mtime => (chtimes cfg fatEpoch fuel fs st p atime mtime).bind fun r => .ret (r.1, .done r.2)
  | .lchown p uid gid => .ret (st, .done (lchown p uid gid))
  | .link o n => .ret (st, .done (link o n))
  | .remove p => (remove cfg fuel fs st p).bind fun r => .ret (r.1, .done r.2)
  | .symlink o n => .ret (st, .done (symlink o n))

/-- One call after the other; the program goes on after errors. -/
def runOps (cfg : Cfg) (fatEpoch : Time) (fuel : Nat) (fs : FS σ) : σ → List Op → Outcome (σ × List Answer)
  | st, [] => .ret (st, [])
  | st, op :: ops =>
    (stepOp cfg fatEpoch fuel fs st op).bind fun r =>
    (runOps cfg fatEpoch fuel fs r.1 ops).bind fun q => .ret (q.1, r.2 :: q.2)

end Disko.Fat

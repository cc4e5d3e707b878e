import Verif.Base.Go
/-
Model of /repo/flags.go (open flags), of the file type predicates in /repo/api.go:456-471, and
of /repo/errors.go.

* `int` and IOFlags are 64-bit vectors (64-bit platforms), os.FileMode is a 32-bit vector.
* The os.O_* constants have their Linux values; os.Mode* are the same on every platform.
-/
namespace Disko.Flags

/-- flags.go:47, type IOFlags. -/
abbrev IOFlags := BitVec 64

/-- flags.go:49-61. -/
def O_RDONLY : IOFlags := 0x0
/-- flags.go:50 -/
def O_WRONLY : IOFlags := 0x1
/-- flags.go:51 -/
def O_RDWR : IOFlags := 0x2
/-- flags.go:52 -/
def O_APPEND : IOFlags := 0x8
/-- flags.go:53 -/
def O_CREATE : IOFlags := 0x200
/-- flags.go:54 -/
def O_TRUNC : IOFlags := 0x400
/-- flags.go:55 -/
def O_EXCL : IOFlags := 0x800
/-- flags.go:56 -/
def O_SYNC : IOFlags := 0x2000
/-- flags.go:57 -/
def O_NOFOLLOW : IOFlags := 0x100000
/-- flags.go:63 -/
def O_ACCMODE : IOFlags := O_RDONLY ||| O_RDWR ||| O_WRONLY

/-- os.O_WRONLY etc. on Linux (Go package os / syscall, not /repo). -/
def OS_WRONLY : BitVec 64 := 0x1
/-- os.O_RDWR on Linux -/
def OS_RDWR : BitVec 64 := 0x2
/-- os.O_APPEND on Linux -/
def OS_APPEND : BitVec 64 := 0x400
/-- os.O_CREATE on Linux -/
def OS_CREATE : BitVec 64 := 0x40
/-- os.O_EXCL on Linux -/
def OS_EXCL : BitVec 64 := 0x80
/-- os.O_SYNC on Linux: two bits, O_DSYNC and __O_SYNC -/
def OS_SYNC : BitVec 64 := 0x101000
/-- os.O_TRUNC on Linux -/
def OS_TRUNC : BitVec 64 := 0x200
/-- flags.go:64, osModeFlagMask -/
def OS_MODEMASK : BitVec 64 := 0x0 ||| OS_RDWR ||| OS_WRONLY

/-- flags.go:66-96, OSFlagsToIOFlags. -/
def osFlagsToIOFlags (flags : BitVec 64) : IOFlags :=
  let f0 : IOFlags :=
    if flags &&& OS_MODEMASK = OS_WRONLY then O_WRONLY
    else if flags &&& OS_MODEMASK = OS_RDWR then O_RDWR
    else O_RDONLY
  let f1 := if flags &&& OS_APPEND ≠ 0 then f0 ||| O_APPEND else f0
  let f2 := if flags &&& OS_CREATE ≠ 0 then f1 ||| O_CREATE else f1
  let f3 := if flags &&& OS_EXCL ≠ 0 then f2 ||| O_EXCL else f2
  let f4 := if flags &&& OS_TRUNC ≠ 0 then f3 ||| O_TRUNC else f3
  if flags &&& OS_SYNC ≠ 0 then f4 ||| O_SYNC else f4

/-- flags.go:98-102, Append. -/
def append (f : IOFlags) : Bool := f &&& O_APPEND != 0
/-- flags.go:104-107, Read. -/
def read (f : IOFlags) : Bool := f &&& O_ACCMODE == O_RDWR || f &&& O_ACCMODE == O_RDONLY
/-- flags.go:109-112, Write. -/
def write (f : IOFlags) : Bool := f &&& O_ACCMODE == O_RDWR || f &&& O_ACCMODE == O_WRONLY
/-- flags.go:114-116, Create. -/
def create (f : IOFlags) : Bool := f &&& O_CREATE != 0
/-- flags.go:118-120, Truncate. -/
def truncate (f : IOFlags) : Bool := f &&& O_TRUNC != 0
/-- flags.go:122-124, Exclusive. -/
def exclusive (f : IOFlags) : Bool := f &&& O_EXCL != 0
/-- flags.go:126-128, Synchronous. -/
def synchronous (f : IOFlags) : Bool := f &&& O_SYNC != 0
/-- flags.go:130-132, NoFollow. -/
def noFollow (f : IOFlags) : Bool := f &&& O_NOFOLLOW != 0
/-- flags.go:134-136, RequiresWritePerm. -/
def requiresWritePerm (f : IOFlags) : Bool := write f || truncate f

/-! ### File modes -/

/-- os.FileMode. -/
abbrev FileMode := BitVec 32

/-- os.ModeDir (Go package io/fs). -/
def ModeDir : FileMode := 1#32 <<< 31
/-- os.ModeSymlink -/
def ModeSymlink : FileMode := 1#32 <<< 27
/-- os.ModeDevice -/
def ModeDevice : FileMode := 1#32 <<< 26
/-- os.ModeNamedPipe -/
def ModeNamedPipe : FileMode := 1#32 <<< 25
/-- os.ModeSocket -/
def ModeSocket : FileMode := 1#32 <<< 24
/-- os.ModeCharDevice -/
def ModeCharDevice : FileMode := 1#32 <<< 21
/-- os.ModeIrregular -/
def ModeIrregular : FileMode := 1#32 <<< 19
/-- os.ModeType: the mask of the type bits -/
def ModeType : FileMode :=
  ModeDir ||| ModeSymlink ||| ModeNamedPipe ||| ModeSocket ||| ModeDevice ||| ModeCharDevice |||
    ModeIrregular

/-- api.go:456-459, FileStat.IsDir; os.FileMode.IsDir tests the directory bit. -/
def isDir (m : FileMode) : Bool := m &&& ModeDir != 0
/-- api.go:461-465, FileStat.IsFile; os.FileMode.IsRegular tests that no type bit is set. -/
def isFile (m : FileMode) : Bool := m &&& ModeType == 0
/-- api.go:467-471, FileStat.IsSymlink. -/
def isSymlink (m : FileMode) : Bool := m &&& ModeType == ModeSymlink

end Disko.Flags

namespace Disko.Errors

/-- Error values.  `base` is baseDiskoError (errors.go:15), `custom` is customDriverError
(errors.go:93-96), `multi` is a *multierror.Error (a pointer: `id` is its identity, allocated
when it is created), `foreign` any other error, opaque, with an identity and a message. -/
inductive Error where
  | base (msg : String)
  | custom (msg : String) (orig : Error)
  | multi (id : Nat) (errs : List Error)
  | foreign (id : Nat) (msg : String)

/-- multierror.Error's default formatter is not modelled; only that it is some string. -/
opaque multiMessage (id : Nat) (errs : List Error) : String

/-- errors.go:64-66, 100-102, Error(). -/
def Error.message : Error → String
  | .base m => m
  | .custom m _ => m
  | .multi id es => multiMessage id es
  | .foreign _ m => m

/-- multierror.Append(e, err) for an `e` that is not itself a *multierror.Error: a new list of
`e` and `err`, the latter flattened if it is a *multierror.Error. -/
def multiAppend (id : Nat) (e err : Error) : Error :=
  match err with
  | .multi _ es => .multi id (e :: es)
  | err => .multi id [e, err]

/-- errors.go:72-77 (base) and 104-109 (custom), WithMessage.  Only called on those two. -/
def Error.withMessage (e : Error) (m : String) : Error :=
  match e with
  | .base b => .custom m (.base b)
  | e => .custom (e.message ++ ": " ++ m) e

/-- errors.go:79-84 (base) and 111-116 (custom), Wrap.  `id` is the identity of the newly
allocated multierror. -/
def Error.wrap (e : Error) (id : Nat) (err : Error) : Error :=
  .custom (e.message ++ ": " ++ err.message) (multiAppend id e err)

/-- errors.go:86-89, NewError. -/
def newError (m : String) : Error := .base m

/-- errors.go:17, rootError. -/
def rootError : Error := .base ""

/-- errors.go:9-13: the error has the methods of the DriverError interface. -/
def Error.isDriverError : Error → Bool
  | .base _ | .custom _ _ => true
  | _ => false

/-- errors.go:51-62, CastToDriverError (`none` is nil). -/
def castToDriverError (id : Nat) : Option Error → Option Error
  | none => none
  | some e => if e.isDriverError then some e else some (rootError.wrap id e)

/-- The messages of the sentinels, errors.go:19-49, in order. -/
def sentinelMessages : List String :=
  ["Operation already in progress", "Numerical argument out of domain", "Block device required",
   "Device or resource busy", "Invalid cross-device link", "Directory not empty",
   "Disk quota exceeded", "File exists", "File descriptor in bad state",
   "Structure needs cleaning", "File too large", "Invalid argument", "Bad file descriptor",
   "Wrong medium type", "Input/output error", "Is a directory", "Symlink cycle detected",
   "File name too long", "No such device", "No space left on device", "Not a directory",
   "No such file or directory", "Function not implemented", "Operation not permitted",
   "Operation not supported", "Permission denied", "Read-only file system",
   "Numerical result out of range", "Too many links", "Too many open files in system",
   "Too many users"]

/-- errors.go:19-49: a sentinel. -/
def sentinel (m : String) : Error := rootError.withMessage m

/-- Go's `==` on two error values: structural on baseDiskoError and customDriverError, pointer
identity on the others. -/
def goEq : Error → Error → Bool
  | .base a, .base b => a == b
  | .custom a x, .custom b y => a == b && goEq x y
  | .multi i _, .multi j _ => i == j
  | .foreign i _, .foreign j _ => i == j
  | _, _ => false

mutual
/-- errors.Is (Go library) on these values: compare, then follow Unwrap (errors.go:118-120); a
multierror is searched element by element (its `chain` type). -/
def errorsIs (target : Error) : Error → Bool
  | .custom m o => goEq (.custom m o) target || errorsIs target o
  | .multi id es => goEq (.multi id es) target || errorsIsAny target es
  | e => goEq e target
/-- the elements of a multierror -/
def errorsIsAny (target : Error) : List Error → Bool
  | [] => false
  | e :: es => errorsIs target e || errorsIsAny target es
end

end Disko.Errors

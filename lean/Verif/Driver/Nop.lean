import Verif.Driver.Model
/-! Model of driver/nopobject.go. -/
namespace Disko.Driver

/-- The methods of extObjectHandle (fsobject.go:5-8: ObjectHandle, api.go:198-296, and AbsolutePath) and of the optional interfaces of handles
(api.go:298-352), with their arguments. `sameAs` does not carry its argument. -/
inductive HandleCall where
  | stat | name | absolutePath | sameAs | close | unlink | listDir
  | resize (newSize : Nat)
  | readBlocks (index : Nat) (buffer : Bytes)
  | writeBlocks (index : Nat) (data : Bytes)
  | zeroOutBlocks (start count : Nat)
  | chmod (mode : FileMode)
  | chown (uid gid : Int)
  | chtimes (createdAt lastAccessed lastModified lastChanged deletedAt : Time)

/-- Their results. `names` is ListDir's: the list and the error. `block` is ReadBlocks': the buffer afterwards and the error. -/
inductive HandleReply where
  | stat (s : FileStat)
  | str (s : Str)
  | bool (b : Bool)
  | err (e : Option Err)
  | block (buffer : Bytes) (e : Option Err)
  | names (l : List Str) (e : Option Err)
deriving DecidableEq

/-- driver/nopobject.go:11-89: a call of a method of a NopObjectHandle whose embedded handle (nopobject.go:14-16) answers calls with `inner`, or is nil.
SameAs and Close are promoted from the embedded handle: a nil interface panics. -/
def nopCall (inner : Option (HandleCall → Outcome HandleReply)) : HandleCall → Outcome HandleReply
  | .stat => .ret (.stat FileStat.zero)
  | .resize _ => .ret (.err (some .notImplemented))
  | .readBlocks _ buffer => .ret (.block buffer (some .notImplemented))
  | .writeBlocks _ _ => .ret (.err (some .notImplemented))
  | .zeroOutBlocks _ _ => .ret (.err (some .notImplemented))
  | .unlink => .ret (.err (some .notImplemented))
  | .chmod _ => .ret (.err (some .notImplemented))
  | .chown _ _ => .ret (.err (some .notImplemented))
  | .chtimes _ _ _ _ _ => .ret (.err (some .notImplemented))
  | .listDir => .ret (.names [] (some .notImplemented))
  | .name => .ret (.str [])
  | .absolutePath => .ret (.str [])
  | .sameAs => inner.elim .panic (· .sameAs)
  | .close => inner.elim .panic (· .close)

/-- The zero value NopObjectHandle{}, the only one other packages can make: the embedded field is not exported. -/
def nopZero : HandleCall → Outcome HandleReply := nopCall none

end Disko.Driver

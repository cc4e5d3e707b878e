import Verif.Stream.Machine
/-! The storage below the reference machine (for C149): what the storage holds of the object, byte by byte, after each call.  Uses only the machine. -/
namespace Disko.Stream.Reference
open Disko Disko.Stream Disko.Stream.Spec

/-- What the storage holds of the object: one entry for each of its bytes, `none` while the byte's block is waiting to be written. -/
abbrev Stored := List (Option UInt8)

namespace Stored

/-- Everything that is waiting is written. -/
def flushed (object : Bytes) (s : Stored) : Stored := List.zipWith (fun now held => some (held.getD now)) object s

/-- The object is cut to `n` bytes, or extended to `n` bytes: what is added is waiting. -/
def resized (s : Stored) (n : Nat) : Stored := s.take n ++ List.replicate (n - s.length) none

/-- After Truncate. -/
def truncate (m : Machine) (s : Stored) (n : Int) : Stored :=
  if m.canWrite = false ∨ n < 0 then s
  else if m.syncs then flushed (m.truncate n).1.object (resized s (whole m.block n.toNat)) else resized s (whole m.block n.toNat)

/-- After a write at an offset.  Bytes that overwrite others are not waiting to be written: they never are.  With O_SYNC, what is
added to the object is written (as zeros) before the data is put there. -/
def put (m : Machine) (s : Stored) (buf : Bytes) (off : Nat) : Stored :=
  let last := off + buf.length
  if m.canWrite = false ∨ 2 ^ 63 ≤ last then s
  else
    let grown :=
      if last < m.object.length then s
      else if m.syncs then flushed (m.grow last).object (resized s (whole m.block last)) else resized s (whole m.block last)
    if (m.put buf off).2.2 = none ∧ m.syncs then flushed (m.put buf off).1.object grown else grown

/-- After Write. -/
def write (m : Machine) (s : Stored) (buf : Bytes) : Stored := put m s buf (if m.appends then m.size else m.pos)

/-- After WriteAt. -/
def writeAt (m : Machine) (s : Stored) (buf : Bytes) (off : Nat) : Stored := if m.appends then s else put m s buf off

/-- After ReadFrom: one Write after the other. -/
def readFrom {R : Type} (src : Source R) (buffer : Nat) : Nat → Machine → R → Stored → Stored
  | 0, _, _, s => s
  | fuel + 1, m, r, s =>
    let (r', chunk, readErr) := src.read r buffer
    let (m', _, writeErr) := m.write chunk
    if readErr = none ∧ writeErr = none then readFrom src buffer fuel m' r' (write m s chunk) else write m s chunk

/-- After a call. -/
def call (m : Machine) (s : Stored) : Call → Stored
  | .sync => flushed m.object s
  | .truncate n => truncate m s n
  | .write buf => write m s buf
  | .writeAt buf off => writeAt m s buf off.toNat
  | .readFrom src r buffer fuel => if m.canWrite then readFrom src buffer fuel m r s else s
  | .read _ | .readAt _ _ | .seek _ _ | .writeTo _ _ _ => s

/-- After a history. -/
def run : Machine → Stored → List Call → Stored
  | _, s, [] => s
  | m, s, c :: cs =>
    match m.call c with
    | some (m', _) => run m' (call m s c) cs
    | none => s

end Stored

open Disko.BlockCache Disko.BlockCache.Spec

variable {S : Type}

/-- What the storage below a cache holds. -/
def held (view : S → Bytes) (st : St S) : Stored :=
  (List.range (contents view st).length).map fun k => if isDirty st.c (k / st.c.bpb) then none else (view st.s)[k]?

end Disko.Stream.Reference

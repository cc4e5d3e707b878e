import Verif.Stream.Twin
/-! A reference machine for open streams (for C148): what an open stream is, without caches, storage, block numbers or fixed-width arithmetic (except in the
count of ReadFrom). It uses of the model only the names of calls, errors and answers. -/
namespace Disko.Stream.Reference
open Disko Disko.Stream Disko.Stream.Spec

/-- An open stream: the bytes of the whole object (a whole number of blocks), the size of the file in it, the position and the access mode. -/
structure Machine where
  object : Bytes
  block : Nat
  size : Nat
  pos : Nat
  canRead : Bool
  canWrite : Bool
  appends : Bool
  syncs : Bool
deriving DecidableEq

/-- `n` bytes rounded up to whole blocks. -/
def whole (block n : Nat) : Nat := (n + (block - 1)) / block * block

/-- The first `n` of the bytes, and zeros if there are fewer. -/
def fit (d : Bytes) (n : Nat) : Bytes := d.take n ++ List.replicate (n - d.length) 0

namespace Machine

/-- The file: the first bytes of the object. -/
def file (m : Machine) : Bytes := m.object.take m.size

/-- What a read of the buffer's length at an offset returns. -/
def readAt (m : Machine) (buf : Bytes) (off : Nat) : ReadRes :=
  if !m.canRead then ⟨buf, 0, some .notPermitted⟩
  else if buf = [] then ⟨buf, 0, none⟩
  else
    let got := (m.file.drop off).take buf.length
    ⟨got ++ buf.drop got.length, got.length, if got.length < buf.length then some .eof else none⟩

/-- Read moves the position, but not if it met the end of the file. -/
def read (m : Machine) (buf : Bytes) : Machine × ReadRes :=
  let r := m.readAt buf m.pos
  (if r.err = none then { m with pos := m.pos + buf.length } else m, r)

/-- The new position must be an int64 that is not negative. -/
def seek (m : Machine) (off whence : Int) : Machine × Int × Option SErr :=
  let target : Option Int :=
    if whence = 0 then some off else if whence = 1 then some (m.pos + off) else if whence = 2 then some (m.size + off) else none
  match target with
  | some t => if 0 ≤ t ∧ t < 2 ^ 63 then ({ m with pos := t.toNat }, t, none) else (m, m.pos, some .invalidSeek)
  | none => (m, m.pos, some .invalidSeek)

/-- Sync fails on an empty object. -/
def sync (m : Machine) : Option SErr := if m.object = [] then some (.cache .argumentOutOfRange) else none

/-- Truncate cuts the object, or extends it with zeros, to whole blocks. -/
def truncate (m : Machine) (n : Int) : Machine × Option SErr :=
  if !m.canWrite then (m, some .notPermitted)
  else if n < 0 then (m, some .invalidArgument)
  else
    let m' := { m with object := fit m.object (whole m.block n.toNat), size := n.toNat }
    (m', if m.syncs then m'.sync else none)

/-- Before a write: if it ends at or after the end of the object, the object is extended with zeros and the size becomes the end of the write; otherwise
the size stays. -/
def grow (m : Machine) (last : Nat) : Machine :=
  if last < m.object.length then m else { m with object := fit m.object (whole m.block last), size := last }

/-- A write at an offset.  It is refused, with the object already extended, if the blocks before the first one it touches and those up to the one
in which it ends are together more than there are. -/
def put (m : Machine) (buf : Bytes) (off : Nat) : Machine × Int × Option SErr :=
  let last := off + buf.length
  if !m.canWrite then (m, 0, some .notPermitted)
  else if 2 ^ 63 ≤ last then (m, 0, some .invalidArgument)
  else
    let m' := m.grow last
    if (off / m.block + (last / m.block + 1)) * m.block ≤ m'.object.length then
      ({ m' with object := m'.object.take off ++ buf ++ m'.object.drop last }, buf.length, none)
    else (m', 0, some (.cache .argumentOutOfRange))

/-- Write: at the position, or at the end of the file; the position is then after what was written. -/
def write (m : Machine) (buf : Bytes) : Machine × Int × Option SErr :=
  if !m.canWrite then (m, 0, some .notPermitted)
  else
    let off := if m.appends then m.size else m.pos
    let (m', n, e) := m.put buf off
    ({ m' with pos := off + n.toNat }, n, e)

/-- WriteAt is refused in append mode. -/
def writeAt (m : Machine) (buf : Bytes) (off : Nat) : Machine × Int × Option SErr :=
  if m.appends then (m, 0, some .notPermitted) else m.put buf off

/-- The rest of the file, and in how many full blocks and a last piece WriteTo gives it to the writer. -/
def rest (m : Machine) : Bytes := m.file.drop m.pos

def pieces (block : Nat) (d : Bytes) : List Bytes :=
  (List.range (d.length / block)).map (fun i => (d.drop (i * block)).take block) ++
    if d.length % block = 0 then [] else [d.drop (d.length / block * block)]

/-- WriteTo, if its loop may run `fuel` times; the position only moves by the full blocks. -/
def writeTo (m : Machine) (fuel : Nat) : Option (Machine × List Bytes × Int × Option SErr) :=
  if fuel = 0 then none
  else if !m.canRead then some (m, [], 0, some .notPermitted)
  else if m.rest.length / m.block < fuel then
    some ({ m with pos := m.pos + m.rest.length / m.block * m.block }, pieces m.block m.rest, m.rest.length, none)
  else none

/-- ReadFrom: what the reader delivers is written; the error of a Write only counts if the reader returned none. -/
def readFrom {R : Type} (src : Source R) (buffer : Nat) : Nat → Machine → R → Int → Option (Machine × Int × Option SErr)
  | 0, _, _, _ => none
  | fuel + 1, m, r, total =>
    let (r', chunk, readErr) := src.read r buffer
    let (m', _, writeErr) := m.write chunk
    match readErr, writeErr with
    | some .eof, _ => some (m', i64 (total + chunk.length), none)
    | some (.io e), _ => some (m', i64 (total + chunk.length), some (.source e))
    | none, some e => some (m', i64 (total + chunk.length), some e)
    | none, none => readFrom src buffer fuel m' r' (i64 (total + chunk.length))

/-- The machine after a call, and the answer; `none` if a loop does not end in the number of iterations allowed to it. -/
def call (m : Machine) : Call → Option (Machine × Answer)
  | .read buf => some ((m.read buf).1, .read (m.read buf).2)
  | .readAt buf off => some (m, .read (m.readAt buf off.toNat))
  | .seek off whence => some ((m.seek off whence).1, .moved (m.seek off whence).2.1 (m.seek off whence).2.2)
  | .sync => some (m, .did m.sync)
  | .truncate n => some ((m.truncate n).1, .did (m.truncate n).2)
  | .write buf => some ((m.write buf).1, .wrote (m.write buf).2.1 (m.write buf).2.2)
  | .writeAt buf off => some ((m.writeAt buf off.toNat).1, .wrote (m.writeAt buf off.toNat).2.1 (m.writeAt buf off.toNat).2.2)
  | .writeTo _ _ fuel => (m.writeTo fuel).map fun r => (r.1, .copied r.2.1 r.2.2.1 r.2.2.2)
  | .readFrom src r buffer fuel =>
    if !m.canWrite then some (m, .wrote 0 (some .notPermitted))
    else (readFrom src buffer fuel m r 0).map fun r => (r.1, .wrote r.2.1 r.2.2)

/-- The answers of a history, each with Size and Tell after it. -/
def run : Machine → List Call → Option (Machine × List (Answer × Int × Int))
  | m, [] => some (m, [])
  | m, c :: cs => do
    let (m', a) ← m.call c
    let (m'', as) ← run m' cs
    return (m'', (a, (m'.size : Int), (m'.pos : Int)) :: as)

end Machine

/-- A machine for an object, a size and open flags: what New returns.  With O_TRUNC the object is emptied (or not, if it may not be written: there is an error then, but
also a stream). -/
def open_ (object : Bytes) (block : Nat) (size : Int) (flags : Flags.IOFlags) : Option Machine × Option SErr :=
  if size < 0 ∨ (object.length : Int) < size then (none, some .invalidSize)
  else
    let m : Machine := ⟨object, block, size.toNat, 0, Flags.read flags, Flags.write flags, Flags.append flags, Flags.synchronous flags⟩
    if Flags.truncate flags then (some (m.truncate 0).1, (m.truncate 0).2) else (some m, none)

open Disko.BlockCache Disko.BlockCache.Spec

variable {S : Type}

/-- What a stream looks like to its user. -/
def shown (view : S → Bytes) (x : Stm S) : Machine :=
  ⟨contents view x.st, x.st.c.bpb, x.size'.toNat, x.tell.toNat, Flags.read x.flags, Flags.write x.flags, Flags.append x.flags, Flags.synchronous x.flags⟩

/-- The stream after a history, and the answers, each with Size and Tell after it. -/
def ran (b : Backend S) : Stm S → List Call → Outcome (Stm S × List (Answer × Int × Int))
  | x, [] => .ret (x, [])
  | x, c :: cs => do
    let (x', a) ← answerCall b x c
    let (x'', as) ← ran b x' cs
    return (x'', (a, x'.size', x'.tell) :: as)

end Disko.Stream.Reference

import Verif.Stream.Model
/-
Model of copying between two open streams (two different streams, each on its own cache), and
from a stream to itself:
WriteTo whose writer is a BasicStream, which is what io.Copy calls, and ReadFrom whose reader is
a BasicStream.  Unlike a `Compression.Sink` or a `Source`, a BasicStream can panic, so the two
loops are spelled out over both streams.
-/
namespace Disko.Stream
open Disko Disko.BlockCache

variable {S T : Type}

/-- basicstream.go:324-341, the loop of WriteTo, `w` being another stream `y` (its Write is
250-271; both its results are ignored).  At most `fuel` iterations. -/
def copyLoop (bs : Backend S) (bd : Backend T) :
    Nat → Bytes → Stm S → Stm T → Int → Outcome (Stm S × Stm T × Int × Option SErr)
  | 0, _, _, _, _ => .timeout
  | fuel + 1, buffer, x, y, totalWritten => do
    let (x', r) ← read bs x buffer
    let (y', total') ← (if r.n > 0 then
        (write bd y (r.buf.take r.n.toNat)).bind fun w => .ret (w.1, i64 (totalWritten + r.n))
      else .ret (y, totalWritten))
    match r.err with
    | some .eof => return (x', y', total', none)
    | some e => return (x', y', total', some e)
    | none => copyLoop bs bd fuel r.buf x' y' total'

/-- basicstream.go:320-342, `src.WriteTo(dst)`; also `io.Copy(dst, src)`, which calls WriteTo
of a source that has it (io.go, copyBuffer). -/
def copyTo (bs : Backend S) (bd : Backend T) (fuel : Nat) (src : Stm S) (dst : Stm T) :
    Outcome (Stm S × Stm T × Int × Option SErr) :=
  copyLoop bs bd fuel (List.replicate src.st.c.bpb 0) src dst 0

/-- basicstream.go:148-161, the loop of ReadFrom, `r` being another stream `x`. -/
def copyFromLoop (bs : Backend S) (bd : Backend T) :
    Nat → Bytes → Stm T → Stm S → Int → Outcome (Stm T × Stm S × Int × Option SErr)
  | 0, _, _, _, _ => .timeout
  | fuel + 1, buffer, y, x, totalRead => do
    let (x', r) ← read bs x buffer
    let total' := i64 (totalRead + r.n)
    let (y', _, writeErr) ← write bd y (r.buf.take r.n.toNat)
    match r.err with
    | some .eof => return (y', x', total', none)
    | some e => return (y', x', total', some e)
    | none =>
      match writeErr with
      | some e => return (y', x', total', some e)
      | none => copyFromLoop bs bd fuel r.buf y' x' total'

/-- basicstream.go:130-162, `dst.ReadFrom(src)`: the buffer has the source's block size. -/
def copyFrom (bs : Backend S) (bd : Backend T) (fuel : Nat) (dst : Stm T) (src : Stm S) :
    Outcome (Stm T × Stm S × Int × Option SErr) :=
  if !Flags.write dst.flags then .ret (dst, src, 0, some .notPermitted)
  else copyFromLoop bs bd fuel (List.replicate src.st.c.bpb 0) dst src 0

/-- basicstream.go:324-341, the loop of WriteTo, `w` being the stream itself: what Read leaves
is what Write starts from, and the other way round. -/
def selfToLoop (b : Backend S) : Nat → Bytes → Stm S → Int → Outcome (Stm S × Int × Option SErr)
  | 0, _, _, _ => .timeout
  | fuel + 1, buffer, x, totalWritten => do
    let (x1, r) ← read b x buffer
    let (x2, total') ← (if r.n > 0 then
        (write b x1 (r.buf.take r.n.toNat)).bind fun w => .ret (w.1, i64 (totalWritten + r.n))
      else .ret (x1, totalWritten))
    match r.err with
    | some .eof => return (x2, total', none)
    | some e => return (x2, total', some e)
    | none => selfToLoop b fuel r.buf x2 total'

/-- basicstream.go:320-342, `f.WriteTo(f)`; also `io.Copy(f, f)`. -/
def selfTo (b : Backend S) (fuel : Nat) (x : Stm S) : Outcome (Stm S × Int × Option SErr) :=
  selfToLoop b fuel (List.replicate x.st.c.bpb 0) x 0

/-- basicstream.go:148-161, the loop of ReadFrom, `r` being the stream itself. -/
def selfFromLoop (b : Backend S) : Nat → Bytes → Stm S → Int → Outcome (Stm S × Int × Option SErr)
  | 0, _, _, _ => .timeout
  | fuel + 1, buffer, x, totalRead => do
    let (x1, r) ← read b x buffer
    let total' := i64 (totalRead + r.n)
    let (x2, _, writeErr) ← write b x1 (r.buf.take r.n.toNat)
    match r.err with
    | some .eof => return (x2, total', none)
    | some e => return (x2, total', some e)
    | none =>
      match writeErr with
      | some e => return (x2, total', some e)
      | none => selfFromLoop b fuel r.buf x2 total'

/-- basicstream.go:130-162, `f.ReadFrom(f)`. -/
def selfFrom (b : Backend S) (fuel : Nat) (x : Stm S) : Outcome (Stm S × Int × Option SErr) :=
  if !Flags.write x.flags then .ret (x, 0, some .notPermitted)
  else selfFromLoop b fuel (List.replicate x.st.c.bpb 0) x 0

end Disko.Stream

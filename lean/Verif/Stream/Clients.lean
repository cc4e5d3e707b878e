import Verif.Stream.Model
/-
The functions of Go's standard library that programs use to read from a stream (package io; Go 1.21).  They are not part of /repo: they
are client programs, written down from the library's source, over the model of BasicStream.
-/
namespace Disko.Stream.Clients
open Disko Disko.BlockCache Disko.Stream

/-- What these functions report. -/
inductive CErr where
  | eof
  | unexpectedEof
  | shortBuffer
  | shortWrite
  | stream (e : SErr)
  | writer (e : Nat)
deriving DecidableEq, Repr

/-- io.ReadAll: read into the free part of a buffer, which grows as it likes (`room k` is the free part when `k` bytes have been read), until
Read returns an error; io.EOF is the regular end.  At most `fuel` iterations. -/
def readAll {S : Type} (b : Backend S) (room : Nat → Nat) : Nat → Stm S → Bytes → Outcome (Stm S × Bytes × Option SErr)
  | 0, _, _ => .timeout
  | fuel + 1, x, got => do
    let (x', r) ← read b x (List.replicate (room got.length) 0)
    let got' := got ++ r.buf.take r.n.toNat
    match r.err with
    | some .eof => return (x', got', none)
    | some e => return (x', got', some e)
    | none => readAll b room fuel x' got'

/-- The loop of io.ReadAtLeast: read into `buf[n:]` while n < min and there is no error; `done` is `buf[:n]`, `rest` is `buf[n:]`. -/
def readAtLeastLoop {S : Type} (b : Backend S) (min : Nat) : Nat → Stm S → Bytes → Bytes → Outcome (Stm S × Bytes × Bytes × Option SErr)
  | 0, _, _, _ => .timeout
  | fuel + 1, x, done, rest =>
    if done.length < min then do
      let (x', r) ← read b x rest
      let done' := done ++ r.buf.take r.n.toNat
      let rest' := r.buf.drop r.n.toNat
      match r.err with
      | some e => return (x', done', rest', some e)
      | none => readAtLeastLoop b min fuel x' done' rest'
    else return (x, done, rest, none)

/-- io.ReadAtLeast; io.ReadFull is the case `min = len(buf)`.  Returns the buffer, the count and the error. -/
def readAtLeast {S : Type} (b : Backend S) (min fuel : Nat) (x : Stm S) (buf : Bytes) : Outcome (Stm S × Bytes × Nat × Option CErr) :=
  if buf.length < min then .ret (x, buf, 0, some .shortBuffer)
  else do
    let (x', done, rest, e) ← readAtLeastLoop b min fuel x [] buf
    let err : Option CErr :=
      if min ≤ done.length then none
      else match e with
        | some .eof => if 0 < done.length then some .unexpectedEof else some .eof
        | some y => some (.stream y)
        | none => none
    return (x', done ++ rest, done.length, err)

/-- io.ReadFull. -/
def readFull {S : Type} (b : Backend S) (fuel : Nat) (x : Stm S) (buf : Bytes) : Outcome (Stm S × Bytes × Nat × Option CErr) :=
  readAtLeast b buf.length fuel x buf

/-- The loop of io.Copy (copyBuffer) reading from an io.LimitReader over the stream with `limit` bytes left, and writing to a writer that has
no ReadFrom; the buffer has `size` bytes.  (What the buffer holds before a Read makes no difference.) -/
def copyLimited {S W : Type} (b : Backend S) (k : Compression.Sink W) (size : Nat) :
    Nat → Stm S → W → Nat → Nat → Outcome (Stm S × W × Nat × Option CErr)
  | 0, _, _, _, _ => .timeout
  | fuel + 1, x, w, limit, written =>
    if limit = 0 then .ret (x, w, written, none)
    else do
      let (x', r) ← read b x (List.replicate (Nat.min size limit) 0)
      let chunk := r.buf.take r.n.toNat
      let limit' := limit - chunk.length
      let next : Stm S → W → Nat → Outcome (Stm S × W × Nat × Option CErr) := fun x' w' written' =>
        match r.err with
        | some .eof => .ret (x', w', written', none)
        | some e => .ret (x', w', written', some (.stream e))
        | none => copyLimited b k size fuel x' w' limit' written'
      if 0 < chunk.length then
        let (w', nw, we) := k.write w chunk
        let written' := written + nw
        match we with
        | some e => return (x', w', written', some (.writer e))
        | none => if nw ≠ chunk.length then return (x', w', written', some .shortWrite) else next x' w' written'
      else next x' w written

/-- io.CopyN(dst, stream, n): the buffer has 32 KiB, or n bytes if that is less. -/
def copyN {S W : Type} (b : Backend S) (k : Compression.Sink W) (fuel : Nat) (x : Stm S) (w : W) (n : Nat) :
    Outcome (Stm S × W × Nat × Option CErr) := do
  let (x', w', written, err) ← copyLimited b k (if n < 1 then 1 else if n < 32768 then n else 32768) fuel x w n 0
  if written = n then return (x', w', n, none)
  else if written < n ∧ err = none then return (x', w', written, some .eof)
  else return (x', w', written, err)

end Disko.Stream.Clients

import Verif.Compression.Model
/-
Specification vocabulary for the compression properties (C01-C08).  Written from
the package documentation (doc.go, rle8.go:110-126), not from the code.
-/
namespace Disko.Compression.Spec
open Disko Disko.Compression

/-- The bytes a list of runs stands for. -/
def expand (rs : List ByteRun) : Bytes := rs.flatMap fun r => List.replicate r.runLength r.byte

/-- Neighbouring runs hold different bytes. -/
def NeighboursDiffer : List ByteRun → Prop
  | a :: b :: t => a.byte ≠ b.byte ∧ NeighboursDiffer (b :: t)
  | _ => True

/-- `rs` are the maximal runs of `x`. -/
structure MaximalRuns (x : Bytes) (rs : List ByteRun) : Prop where
  expands : expand rs = x
  nonempty : ∀ r ∈ rs, 1 ≤ r.runLength
  maximal : NeighboursDiffer rs

/-- What a caller sees who calls GetNextRun until it returns an error: the valid
runs (length at least 1) and that error. -/
def collectRuns (s : Src) : List ByteRun × RErr :=
  match _h : getNextRun s with
  | ((run, some e), _) => (if 1 ≤ run.runLength then [run] else [], e)
  | ((run, none), s') => (run :: (collectRuns s').1, (collectRuns s').2)
termination_by s.rest.length
decreasing_by
  all_goals
    have := getNextRun_rest_lt (s := s) (by rw [_h])
    rw [_h] at this; exact this

/-- The RLE8 format of doc.go:19-30, as a grammar: `RLE8 e d o` says that `e` is a
sequence of complete groups standing for the data `d`.  A group is either one
literal byte, or a byte twice followed by a count of additional repetitions.
`o` is the last byte when the last group is a literal: a following group may not
start with that byte (it would be read as the second half of a pair). -/
inductive RLE8 : Bytes → Bytes → Option UInt8 → Prop
  | empty : RLE8 [] [] none
  | literal {e d o} (a : UInt8) : RLE8 e d o → o ≠ some a → RLE8 (e ++ [a]) (d ++ [a]) (some a)
  | repeated {e d o} (a c : UInt8) : RLE8 e d o → o ≠ some a →
      RLE8 (e ++ [a, a, c]) (d ++ List.replicate (c.toNat + 2) a) none

/-- The recursive RLE format of rle8.go:110-126: as RLE8, but the count is a
sequence of 255s followed by one byte below 255, all added up. -/
inductive RRLE : Bytes → Bytes → Option UInt8 → Prop
  | empty : RRLE [] [] none
  | literal {e d o} (a : UInt8) : RRLE e d o → o ≠ some a → RRLE (e ++ [a]) (d ++ [a]) (some a)
  | repeated {e d o} (a : UInt8) (k : Nat) (r : UInt8) : RRLE e d o → o ≠ some a → r ≠ 255 →
      RRLE (e ++ ([a, a] ++ List.replicate k 255 ++ [r]))
        (d ++ List.replicate (2 + 255 * k + r.toNat) a) none

/-- A reader for the recursive format, written from rle8.go:110-126. `none` if
the input ends inside a group. -/
def readRRLE : Bytes → Option Bytes
  | [] => some []
  | [a] => some [a]
  | a :: b :: rest =>
    if a = b then counts a 2 rest
    else (readRRLE (b :: rest)).map (a :: ·)
where
  /-- inside a count: `n` repetitions of `a` so far -/
  counts (a : UInt8) (n : Nat) : Bytes → Option Bytes
    | [] => none
    | c :: rest =>
      if c = 255 then counts a (n + 255) rest
      else (readRRLE rest).map (List.replicate (n + c.toNat) a ++ ·)

/-- What the caller of one of the four functions may rely on when the output can
fail: `full`/`fullErr` is what happens with an output that never fails.  Either
no write failed, everything was delivered, the error is that of the fault-free
run and the count is the number of bytes delivered; or a write failed, its error
is returned, a prefix was delivered, and the count does not exceed it. -/
def DeliversOrReports {W : Type} (k : Sink W) (isWriteErr : Nat → CErr) (w : W) (full : Bytes)
    (fullErr : Option CErr) (r : Res W) : Prop :=
  (k.failure r.out = none ∧ k.accepted r.out = k.accepted w ++ full ∧ r.err = fullErr ∧
    r.count = full.length) ∨
  (∃ e p, k.failure r.out = some e ∧ r.err = some (isWriteErr e) ∧
    k.accepted r.out = k.accepted w ++ p ∧ p <+: full ∧ r.count ≤ p.length)

/-- Documented cost of one run of `n` bytes in RLE8: three bytes for every full
257, and 0, 1 or 3 for the remainder. -/
def rle8Cost (n : Nat) : Nat :=
  3 * (n / 257) + (if n % 257 = 0 then 0 else if n % 257 = 1 then 1 else 3)

end Disko.Compression.Spec

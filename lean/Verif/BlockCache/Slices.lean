import Verif.BlockCache.Spec
/-
Model of clients of blockcache.go that keep the slices GetSlice and Data return.

GetSlice and Data return slices of the cache's own array (`cache.data[a:b]`,
blockcache.go:252-283), so they stay connected to it.  A successful Resize allocates a new
array (blockcache.go:436-446), even for the same size: older slices keep the old one.

Not modelled: `append` to a kept slice (the slices GetSlice returns have spare capacity, so
appending writes into the following blocks).
-/
namespace Disko.BlockCache
open Disko Disko.BlockCache.Spec

/-- A slice the client kept: the array it points into (numbered by the successful resizes that
came before), the window, and the blocks the client asked for. -/
structure Held where
  arr : Nat
  win : Window
  start : Nat
  count : Nat
deriving DecidableEq, Repr

/-- The cache, the arrays it no longer uses (oldest first) and the slices kept so far.  The
current array is number `old.length`. -/
structure World (S : Type) where
  st : St S
  old : List Bytes
  slices : List Held
deriving DecidableEq

/-- What the client does: a cache operation; GetSlice or Data, keeping the slice; reading kept
slice number `k`; `copy(slice[at:], v)`; MarkBlockRangeDirty on `n` of the slice's blocks, from
its block number `from_`. -/
inductive SOp where
  | base (op : Op)
  | keep (start count : Nat)
  | keepAll
  | look (k : Nat)
  | put (k at_ : Nat) (v : Bytes)
  | mark (k from_ n : Nat)

/-- What the client sees.  `nothing`: there was nothing to see, or the client did nothing (no
such slice, or blocks outside it). -/
inductive SResult where
  | base (r : Result)
  | kept (r : Except Err Unit)
  | seen (v : Bytes)
  | nothing
  | marked (r : Except Err Unit)
deriving DecidableEq

/-- Reading through a kept slice. -/
def World.peek {S : Type} (w : World S) (h : Held) : Bytes :=
  if h.arr < w.old.length then slice (w.old.getD h.arr []) h.win.off h.win.len else w.st.c.peek h.win

/-- Writing through a kept slice: `copy` stops at the end of the slice. -/
def World.poke {S : Type} (w : World S) (h : Held) (at_ : Nat) (v : Bytes) : World S :=
  let v' := v.take (h.win.len - at_)
  if h.arr < w.old.length then
    { w with old := w.old.set h.arr (splice (w.old.getD h.arr []) (h.win.off + at_) v') }
  else { w with st := ⟨w.st.c.poke h.win at_ v', w.st.s⟩ }

/-- The operation gave the cache a new array (blockcache.go:436-446). -/
def reallocates : Op → Result → Bool
  | .resize _, .unit (.ok _) => true
  | _, _ => false

/-- One step of the client: blockcache.go:252-283 (GetSlice, Data), 469-487
(MarkBlockRangeDirty), and the other operations of the cache. -/
def sstep {S : Type} (b : Backend S) (w : World S) : SOp → Outcome (World S × SResult)
  | .base op => do
    let (st', r) ← step b w.st op
    return ({ w with st := st', old := if reallocates op r then w.old ++ [w.st.c.data] else w.old }, .base r)
  | .keep start count => do
    match ← getSlice b w.st start count with
    | (st', .error e) => return ({ w with st := st' }, .kept (.error e))
    | (st', .ok win) =>
      return ({ w with st := st', slices := w.slices ++ [⟨w.old.length, win, start, count⟩] }, .kept (.ok ()))
  | .keepAll => do
    match ← data b w.st with
    | (st', .error e) => return ({ w with st := st' }, .kept (.error e))
    | (st', .ok win) =>
      return ({ w with st := st', slices := w.slices ++ [⟨w.old.length, win, 0, st'.c.totalBlocks⟩] },
        .kept (.ok ()))
  | .look k => match w.slices[k]? with
    | none => return (w, .nothing)
    | some h => return (w, .seen (w.peek h))
  | .put k at_ v => match w.slices[k]? with
    | none => return (w, .nothing)
    | some h => return (w.poke h at_ v, .nothing)
  | .mark k from_ n => match w.slices[k]? with
    | none => return (w, .nothing)
    | some h =>
      if from_ + n ≤ h.count then do
        let (st', r) ← markBlockRangeDirty w.st (h.start + from_) n
        return ({ w with st := st' }, .marked r)
      else return (w, .nothing)

/-- A whole session. -/
def srun {S : Type} (b : Backend S) (w : World S) : List SOp → Outcome (World S × List SResult)
  | [] => .ret (w, [])
  | op :: ops => do
    let (w', r) ← sstep b w op
    let (w'', rs) ← srun b w' ops
    return (w'', r :: rs)

end Disko.BlockCache

import Verif.BlockCache.Model
/-
Specification vocabulary for the block cache (C09-C22): the storage seen as one flat byte
array, the callback contract, and a flat byte array as the reference implementation.
-/
namespace Disko.BlockCache.Spec
open Disko Disko.BlockCache

/-- The callback contract documented at blockcache.go:19-50, for storage whose contents, block
after block, are the flat byte array `view s`.  Callbacks may fail at any time.  A failed
flush may leave garbage in the block it was writing, nothing else. -/
structure Lawful {S : Type} (b : Backend S) (bpb : Nat) (view : S → Bytes) : Prop where
  fetch_view : ∀ s i buf, view (b.fetch s i buf).1 = view s
  fetch_ok : ∀ s i buf, i * bpb + bpb ≤ (view s).length → buf.length = bpb →
    (b.fetch s i buf).2.2 = none → (b.fetch s i buf).2.1 = slice (view s) (i * bpb) bpb
  flush_ok : ∀ s i buf, i * bpb + bpb ≤ (view s).length → buf.length = bpb →
    (b.flush s i buf).2 = none → view (b.flush s i buf).1 = splice (view s) (i * bpb) buf
  flush_fail : ∀ s i buf, i * bpb + bpb ≤ (view s).length → buf.length = bpb → (b.flush s i buf).2 ≠ none →
    (view (b.flush s i buf).1).length = (view s).length ∧
    ∀ k, k / bpb ≠ i → (view (b.flush s i buf).1)[k]? = (view s)[k]?
  resize_ok : ∀ s n, n * bpb ≤ maxInt → (b.resize s n).2 = none →
    n * bpb ≤ (view (b.resize s n).1).length ∧
    ∀ k, k < n * bpb → k < (view s).length → (view (b.resize s n).1)[k]? = (view s)[k]?
  resize_fail : ∀ s n, (b.resize s n).2 ≠ none → view (b.resize s n).1 = view s

/-- Operations a client performs.  `edit start count at v` is: GetSlice(start, count), copy
`v` into the returned slice at index `at_`, MarkBlockRangeDirty(start, count). -/
inductive Op where
  | read (buf : Bytes) (start : Nat)
  | write (buf : Bytes) (start : Nat)
  | resize (n : Nat)
  | flush
  | loadAll
  | data
  | getSlice (start count : Nat)
  | edit (start count at_ : Nat) (v : Bytes)

/-- What the client gets back.  For GetSlice and Data: the bytes seen through the slice. -/
inductive Result where
  | read (r : Except Err (Bytes × Nat))
  | write (r : Except Err Nat)
  | unit (r : Except Err Unit)
  | bytes (r : Except Err Bytes)
deriving DecidableEq

/-- Perform one operation. -/
def step {S : Type} (b : Backend S) (st : St S) : Op → Outcome (St S × Result)
  | .read buf start => do
    let (st', r) ← readAt b st buf start
    return (st', .read r)
  | .write buf start => do
    let (st', r) ← writeAt b st buf start
    return (st', .write r)
  | .resize n => do
    let (st', r) ← BlockCache.resize b st n
    return (st', .unit r)
  | .flush => do
    let (st', r) ← BlockCache.flush b st
    return (st', .unit r)
  | .loadAll => do
    let (st', r) ← BlockCache.loadAll b st
    return (st', .unit r)
  | .data => do
    let (st', r) ← BlockCache.data b st
    return (st', .bytes (r.map st'.c.peek))
  | .getSlice start count => do
    let (st', r) ← BlockCache.getSlice b st start count
    return (st', .bytes (r.map st'.c.peek))
  | .edit start count at_ v => do
    match ← BlockCache.getSlice b st start count with
    | (st', .error e) => return (st', .unit (.error e))
    | (st', .ok w) =>
      let (st'', r) ← markBlockRangeDirty ⟨st'.c.poke w at_ v, st'.s⟩ start count
      return (st'', .unit r)

/-- Perform a sequence of operations. -/
def runOps {S : Type} (b : Backend S) (st : St S) : List Op → Outcome (St S × List Result)
  | [] => .ret (st, [])
  | op :: ops => do
    let (st', r) ← step b st op
    let (st'', rs) ← runOps b st' ops
    return (st'', r :: rs)

/-- Arguments for which the cache's 64-bit arithmetic cannot overflow, with a margin: buffers
and sizes of less than 2^63 bytes (Go slices cannot be longer).  Edits stay inside the slice. -/
def Valid (bpb : Nat) : Op → Prop
  | .read buf _ => buf.length ≤ maxInt
  | .write buf _ => buf.length ≤ maxInt
  | .resize n => n * bpb ≤ maxInt
  | .getSlice _ count => count * bpb ≤ maxInt
  | .edit _ count at_ v => count * bpb ≤ maxInt ∧ at_ + v.length ≤ count * bpb
  | _ => True

/-- The reference: a flat byte array `a` of whole blocks of `bpb` bytes.  `Conforms` says that
`res` is a correct answer to `op` when the array is `a`, and that the array is `a'` after it.
An error leaves the array as it was. -/
def Conforms (bpb : Nat) : Op → Result → Bytes → Bytes → Prop
  | .read buf start, .read (.ok (out, _)), a, a' =>
    start * bpb + buf.length ≤ a.length ∧ out = slice a (start * bpb) buf.length ∧ a' = a
  | .read _ _, .read (.error _), a, a' => a' = a
  | .write buf start, .write (.ok n), a, a' =>
    start * bpb + buf.length ≤ a.length ∧ n = buf.length ∧ a' = splice a (start * bpb) buf
  | .write _ _, .write (.error _), a, a' => a' = a
  | .resize n, .unit (.ok _), a, a' =>
    a' = a.take (n * bpb) ++ List.replicate (n * bpb - a.length) 0
  | .resize _, .unit (.error _), a, a' => a' = a
  | .flush, .unit _, a, a' => a' = a
  | .loadAll, .unit _, a, a' => a' = a
  | .data, .bytes (.ok v), a, a' => v = a ∧ a' = a
  | .data, .bytes (.error _), a, a' => a' = a
  | .getSlice start count, .bytes (.ok v), a, a' =>
    start * bpb + count * bpb ≤ a.length ∧ v = slice a (start * bpb) (count * bpb) ∧ a' = a
  | .getSlice _ _, .bytes (.error _), a, a' => a' = a
  | .edit start count at_ v, .unit (.ok _), a, a' =>
    start * bpb + count * bpb ≤ a.length ∧ a' = splice a (start * bpb + at_) v
  | .edit _ _ _ _, .unit (.error _), a, a' => a' = a
  | _, _, _, _ => False

/-- The fetch callback really fails with this error for this block, one of the `total` blocks, in some situation. -/
def FetchFails {S : Type} (b : Backend S) (total j : Nat) (be : BErr) : Prop :=
  j < total ∧ ∃ s buf, (b.fetch s j buf).2.2 = some be

/-- The error in a result, if any. -/
def Result.err? : Result → Option Err
  | .read (.error e) | .write (.error e) | .unit (.error e) | .bytes (.error e) => some e
  | _ => none

/-- The byte range an operation needs; `none` for those on the whole object. -/
def Op.range? (bpb : Nat) : Op → Option (Nat × Nat)
  | .read buf start => some (start * bpb, buf.length)
  | .write buf start => some (start * bpb, buf.length)
  | .getSlice start count => some (start * bpb, count * bpb)
  | .edit start count _ _ => some (start * bpb, count * bpb)
  | _ => none

/-- When an error is justified, for an object of `size` bytes: the range is not inside the
object, or a callback failed with the reported error. -/
def Justified {S : Type} (b : Backend S) (bpb size : Nat) (op : Op) : Err → Prop
  | .argumentOutOfRange =>
    match op.range? bpb with
    | some (off, len) => ¬ (off < size ∧ off + len ≤ size)
    | none => size = 0
  | .fetchFailed j be => FetchFails b (size / bpb) j be
  | .flushFailed j be => op = .flush ∧ j < size / bpb ∧ ∃ s buf, (b.flush s j buf).2 = some be
  | .resizeFailed be => ∃ n, op = .resize n ∧ ∃ s, (b.resize s n).2 = some be

/-- `Conforms` along a whole history. -/
def ConformsAll (bpb : Nat) : List Op → List Result → Bytes → Bytes → Prop
  | [], [], a, a' => a' = a
  | op :: ops, r :: rs, a, a' => ∃ a1, Conforms bpb op r a a1 ∧ ConformsAll bpb ops rs a1 a'
  | _, _, _, _ => False

/-- Block `i` is present in the cache. -/
abbrev isLoaded (c : Cache) (i : Nat) : Bool := c.loaded.getD i false
/-- Block `i` is marked to be written. -/
abbrev isDirty (c : Cache) (i : Nat) : Bool := c.dirty.getD i false

/-- Byte `k` of the object as a reader of the cache would see it: from memory if its block is
present, else from storage. -/
def byteAt {S : Type} (view : S → Bytes) (st : St S) (k : Nat) : UInt8 :=
  if isLoaded st.c (k / st.c.bpb) then st.c.data.getD k 0 else (view st.s).getD k 0

/-- The contents of the cached object: what reading all of it would return. -/
def contents {S : Type} (view : S → Bytes) (st : St S) : Bytes :=
  (List.range (st.c.total * st.c.bpb)).map (byteAt view st)

/-- States the cache can be in (established by New, kept by every operation). -/
structure WF {S : Type} (view : S → Bytes) (st : St S) : Prop where
  bpb_pos : 0 < st.c.bpb
  cap : st.c.total * st.c.bpb ≤ maxInt
  data_len : st.c.data.length = st.c.total * st.c.bpb
  loaded_len : st.c.loaded.length = bitmapLen st.c.total
  dirty_len : st.c.dirty.length = bitmapLen st.c.total
  dirty_loaded : ∀ i, i < st.c.total → isDirty st.c i = true → isLoaded st.c i = true
  store : st.c.total * st.c.bpb ≤ (view st.s).length
  clean : ∀ k, k < st.c.total * st.c.bpb → isDirty st.c (k / st.c.bpb) = false →
    byteAt view st k = (view st.s).getD k 0

/-! ### Traces -/

/-- A callback invocation: block, buffer length (and whether it succeeded). -/
inductive Event where
  | fetch (block len : Nat) (ok : Bool)
  | flush (block : Nat) (buf : Bytes) (ok : Bool)
  | resize (n : Nat) (ok : Bool)
deriving DecidableEq, Repr

/-- The same storage, recording every callback invocation. -/
def logged {S : Type} (b : Backend S) : Backend (S × List Event) where
  fetch s i buf :=
    let r := b.fetch s.1 i buf
    ((r.1, s.2 ++ [.fetch i buf.length r.2.2.isNone]), r.2.1, r.2.2)
  flush s i buf :=
    let r := b.flush s.1 i buf
    ((r.1, s.2 ++ [.flush i buf r.2.isNone]), r.2)
  resize s n :=
    let r := b.resize s.1 n
    ((r.1, s.2 ++ [.resize n r.2.isNone]), r.2)

/-- The blocks successfully fetched in a list of events. -/
def fetchedOk : List Event → List Nat
  | [] => []
  | .fetch j _ true :: es => j :: fetchedOk es
  | _ :: es => fetchedOk es

/-- The blocks successfully flushed in a list of events. -/
def flushedOk : List Event → List Nat
  | [] => []
  | .flush j _ true :: es => j :: flushedOk es
  | _ :: es => flushedOk es

/-- The number of blocks after an operation with the given result. -/
def nextTotal (total : Nat) : Op → Result → Nat
  | .resize n, .unit (.ok _) => n
  | _, _ => total

/-- The blocks modified since they were last flushed, after an operation: computed from the
operation, its result and the flush callbacks that succeeded during it. -/
def nextPending (bpb total : Nat) (op : Op) (r : Result) (evs : List Event) (pending : Nat → Bool) :
    Nat → Bool := fun j =>
  match op, r with
  | .write buf start, .write (.ok _) =>
    pending j || (decide (start * bpb < j * bpb + bpb) && decide (j * bpb < start * bpb + buf.length))
  | .edit start count _ _, .unit (.ok _) => pending j || (decide (start ≤ j) && decide (j < start + count))
  | .resize _, .unit (.ok _) => pending j || decide (total ≤ j)
  | .flush, _ => pending j && !(flushedOk evs).contains j
  | _, _ => pending j

/-- The history so far modified block `j` since it was last flushed: ghost bookkeeping.  The
log is emptied before each operation, so it holds the callback invocations of that operation. -/
def runPending {S : Type} (b : Backend S) (st : St S) (p : Nat → Bool) :
    List Op → Outcome (St S × (Nat → Bool))
  | [] => .ret (st, p)
  | op :: ops => do
    let (st', r) ← step (logged b) ⟨st.c, (st.s, [])⟩ op
    runPending b ⟨st'.c, st'.s.1⟩ (nextPending st.c.bpb st.c.total op r st'.s.2 p) ops

/-- The operation modified block `j`. -/
def modifies (bpb total : Nat) (op : Op) (r : Result) (j : Nat) : Bool :=
  nextPending bpb total op r [] (fun _ => false) j

/-- The situation of the theorems: callbacks that obey their contract, a sensible geometry and
storage holding at least the cached object. -/
structure Setup {S : Type} (b : Backend S) (bpb total : Nat) (view : S → Bytes) (s0 : S) : Prop where
  lawful : Lawful b bpb view
  bpb_pos : 0 < bpb
  cap : total * bpb ≤ maxInt
  store : total * bpb ≤ (view s0).length

/-- `st` is the state after creating a cache with New and performing the valid operations
`ops`, which gave the results `rs`. -/
def After {S : Type} (b : Backend S) (bpb total : Nat) (s0 : S) (ops : List Op) (st : St S)
    (rs : List Result) : Prop :=
  ∃ c, new bpb total = .ret c ∧ (∀ op ∈ ops, Valid bpb op) ∧ runOps b ⟨c, s0⟩ ops = .ret (st, rs)

/-- Callbacks that never fail. -/
structure Reliable {S : Type} (b : Backend S) : Prop where
  fetch : ∀ s i buf, (b.fetch s i buf).2.2 = none
  flush : ∀ s i buf, (b.flush s i buf).2 = none

/-- Only the results of a run. -/
def resultsOf {α : Type} (o : Outcome (α × List Result)) : Option (List Result) :=
  match o with
  | .ret (_, rs) => some rs
  | _ => none

/-- An example storage: a byte array, with a script of faults (`true`: the next fetch or flush
fails). -/
def mem (bpb : Nat) : Backend (Bytes × List Bool) where
  fetch s i buf :=
    if s.2.headD false then ((s.1, s.2.tail), buf, some (.other 1))
    else ((s.1, s.2.tail), slice s.1 (i * bpb) bpb, none)
  flush s i buf :=
    if s.2.headD false then ((s.1, s.2.tail), some (.other 2))
    else ((splice s.1 (i * bpb) buf, s.2.tail), none)
  resize s n := ((s.1.take (n * bpb) ++ List.replicate (n * bpb - s.1.length) 0, s.2), none)

end Disko.BlockCache.Spec

import Verif.BlockCache.Run
/-!
C09-C22: the block cache.  Histories start with New and consist of arbitrary operations
(`Spec.Op`) on arbitrary storage obeying the callback contract (`Spec.Lawful`), whose callbacks
may fail at any time.
-/
namespace Disko.BlockCache
open Disko Disko.BlockCache.Spec

variable {S : Type}

/-! ### Preliminaries (not claims) -/

theorem after_spec {b : Backend S} {bpb total : Nat} {view : S → Bytes} {s0 : S}
    (H : Setup b bpb total view s0) {ops : List Op} {st : St S} {rs : List Result}
    (ha : After b bpb total s0 ops st rs) :
    WF view st ∧ st.c.bpb = bpb ∧
      ConformsAll bpb ops rs ((view s0).take (total * bpb)) (contents view st) := by
  obtain ⟨c, hn, hv, hr⟩ := ha
  obtain ⟨c', hn', w, hb, ht, _, _, hc⟩ := new_spec H.bpb_pos H.cap view s0 H.store
  rw [hn] at hn'; cases hn'
  obtain ⟨st', rs', h1, h2, h3, h4, _⟩ := runOps_spec H.lawful ops _ w hb hv
  rw [hr] at h1; cases h1
  rw [hc] at h4
  exact ⟨h2, h3, h4⟩

theorem lawful_mem {bpb : Nat} (hb : 0 < bpb) : Lawful (mem bpb) bpb (fun s => s.1) := by
  refine ⟨?_, ?_, ?_, ?_, ?_, ?_⟩
  · intro s i buf; simp only [mem]; split <;> rfl
  · intro s i buf h1 h2 h3
    simp only [mem] at h3 ⊢
    split
    · rename_i h; rw [if_pos h] at h3; simp at h3
    · rfl
  · intro s i buf h1 h2 h3
    simp only [mem] at h3 ⊢
    split
    · rename_i h; rw [if_pos h] at h3; simp at h3
    · rfl
  · intro s i buf _ h2 h3
    simp only [mem] at h3 ⊢
    split
    · exact ⟨rfl, fun _ _ => rfl⟩
    · rename_i h; rw [if_neg h] at h3; simp at h3
  · intro s n _ _
    simp only [mem]
    refine ⟨by simp; omega, ?_⟩
    intro k h1 h2
    rw [List.getElem?_append_left (by simp; omega), List.getElem?_take, if_pos h1]
  · intro s n h; simp [mem] at h

/-- The example used below: 3 blocks of 2 bytes, on storage of 8 bytes. -/
theorem setup_mem (faults : List Bool) :
    Setup (mem 2) 2 3 (fun s => s.1) ([1, 2, 3, 4, 5, 6, 7, 8], faults) :=
  ⟨lawful_mem (by omega), by omega, by decide +kernel, by simp⟩

/-! ### C09 -/

/-- C09: for any history the cache never panics and all results are those of a flat byte array
that starts as the storage and is updated by the successful writes and resizes. -/
theorem C09_flat_array {b : Backend S} {bpb total : Nat} {view : S → Bytes} {s0 : S}
    (H : Setup b bpb total view s0) (ops : List Op) (hv : ∀ op ∈ ops, Valid bpb op) :
    ∃ st rs a, After b bpb total s0 ops st rs ∧
      ConformsAll bpb ops rs ((view s0).take (total * bpb)) a := by
  obtain ⟨c, hn, w, hb, ht, _, _, hc⟩ := new_spec H.bpb_pos H.cap view s0 H.store
  obtain ⟨st', rs', h1, h2, h3, h4, _⟩ := runOps_spec H.lawful ops _ w hb hv
  rw [hc] at h4
  exact ⟨st', rs', _, ⟨c, hn, hv, h1⟩, h4⟩

/-- C09: and an operation only fails for a reason: its range is not inside the object, or a
callback failed (with exactly the reported error).  (`size = 0` in `Justified`: see C19.) -/
theorem C09_errors_justified {b : Backend S} {bpb total : Nat} {view : S → Bytes} {s0 : S}
    (H : Setup b bpb total view s0) {ops : List Op} {st : St S} {rs : List Result}
    (ha : After b bpb total s0 ops st rs) (op : Op) (hv : Valid bpb op) :
    ∃ st' r, step b st op = .ret (st', r) ∧
      ∀ e, r.err? = some e → Justified b bpb (st.c.totalBlocks * bpb) op e := by
  obtain ⟨w, hb, _⟩ := after_spec H ha
  obtain ⟨st', r, h1, h2⟩ := step_spec H.lawful st w hb op hv
  refine ⟨st', r, h1, ?_⟩
  have := h2.errs
  rw [hb] at this
  exact this

/-- A non-trivial history: partial-block write, growth, edit through a slice, fault. -/
def exampleOps : List Op :=
  [.read [0, 0, 0] 1, .write [9, 9, 9] 0, .resize 4, .edit 2 2 1 [7, 7], .flush, .data, .resize 1,
   .resize 2, .data]

def exampleResults : List Result :=
  [.read (.error (.fetchFailed 1 (.other 1))), .write (.ok 3), .unit (.ok ()), .unit (.ok ()),
   .unit (.ok ()), .bytes (.ok [9, 9, 9, 4, 5, 7, 7, 0]), .unit (.ok ()), .unit (.ok ()),
   .bytes (.ok [9, 9, 0, 0])]

/-- The cache of the examples. -/
def exampleCache : Cache :=
  ⟨2, 3, List.replicate 8 false, List.replicate 8 false, List.replicate 6 0⟩

example : Setup (mem 2) 2 3 (fun s => s.1) ([1, 2, 3, 4, 5, 6, 7, 8], [true]) ∧
    (∀ op ∈ exampleOps, Valid 2 op) ∧ new 2 3 = .ret exampleCache ∧
    resultsOf (runOps (mem 2) ⟨exampleCache, ([1, 2, 3, 4, 5, 6, 7, 8], [true])⟩ exampleOps) =
      some exampleResults ∧
    ConformsAll 2 exampleOps exampleResults [1, 2, 3, 4, 5, 6] [9, 9, 0, 0] := by
  refine ⟨setup_mem _, ?_, by decide +kernel, by decide +kernel, ?_⟩
  · simp [exampleOps, Valid, maxInt]
  · simp [ConformsAll, exampleOps, exampleResults, Conforms, splice]

/-! ### C10 -/

theorem contents_of_clean {view : S → Bytes} {st : St S} (h : WF view st)
    (hc : ∀ j, j < st.c.total → isDirty st.c j = false) :
    (view st.s).take (st.c.total * st.c.bpb) = contents view st := by
  apply List.ext_getElem?
  intro k
  rw [getElem?_contents, List.getElem?_take]
  by_cases hk : k < st.c.total * st.c.bpb
  · have hb : k / st.c.bpb < st.c.total := by rw [Nat.div_lt_iff_lt_mul h.bpb_pos]; exact hk
    have hs := h.store
    rw [if_pos hk, if_pos hk, h.clean k hk (hc _ hb), List.getD_eq_getElem?_getD,
      List.getElem?_eq_getElem (by omega)]; rfl
  · rw [if_neg hk, if_neg hk]

theorem flush_ok_spec {b : Backend S} {bpb : Nat} {view : S → Bytes} (L : Lawful b bpb view)
    {st st' : St S} (h : WF view st) (hb : st.c.bpb = bpb) (hf : flush b st = .ret (st', .ok ())) :
    WF view st' ∧ st'.c.total = st.c.total ∧ st'.c.bpb = st.c.bpb ∧
      contents view st' = contents view st ∧ (∀ j, j < st.c.total → isDirty st'.c j = false) := by
  rcases flush_spec L st h hb with ⟨_, h2⟩ | ⟨_, st1, e, m, F, h2⟩
  · rw [h2] at hf; simp at hf
  · rw [h2] at hf
    cases e with
    | some x => simp [ofErr] at hf
    | none =>
      simp only [Outcome.ret.injEq, Prod.mk.injEq] at hf
      obtain ⟨rfl, _⟩ := hf
      refine ⟨F.wf, F.total, F.bpb, F.contents_eq h, ?_⟩
      intro j hj
      rw [F.dirty, F.ok rfl]
      simp [hj]

/-- C10: when Flush returns nil after any history, the storage holds exactly the flat array that
the history (C09) describes.  (Buffers are modified through WriteAt, Resize, or through a slice
followed by MarkBlockRangeDirty: operation `edit`.) -/
theorem C10_flush_durable {b : Backend S} {bpb total : Nat} {view : S → Bytes} {s0 : S}
    (H : Setup b bpb total view s0) {ops : List Op} {st st' : St S} {rs : List Result}
    (ha : After b bpb total s0 ops st rs) (hf : flush b st = .ret (st', .ok ())) :
    ∃ a, ConformsAll bpb ops rs ((view s0).take (total * bpb)) a ∧
      a.length = st'.c.totalBlocks * bpb ∧ (view st'.s).take a.length = a := by
  obtain ⟨w, hb, hc⟩ := after_spec H ha
  obtain ⟨w', ht, hb', hce, hd⟩ := flush_ok_spec H.lawful w hb hf
  have := contents_of_clean w' (by rw [ht]; exact hd)
  have hlen : (contents view st).length = st'.c.totalBlocks * bpb := by
    rw [length_contents, hb, Cache.totalBlocks, ht]
  refine ⟨_, hc, hlen, ?_⟩
  rw [hlen, ← hce, ← this, Cache.totalBlocks, hb', hb]

/-- Ten operations with a fetch fault and a failed first flush. -/
example : ∃ st rs st',
    After (mem 2) 2 3 ([1, 2, 3, 4, 5, 6, 7, 8], [true, false, false, false, false, true])
      [.read [0, 0, 0] 1, .write [9, 9, 9] 0, .resize 4, .edit 2 2 1 [7, 7], .flush] st rs ∧
    rs.getLast? = some (.unit (.error (.flushFailed 1 (.other 2)))) ∧
    flush (mem 2) st = .ret (st', .ok ()) ∧ st'.s.1 = [9, 9, 9, 4, 5, 7, 7, 0] :=
  ⟨_, _, _, ⟨exampleCache, by decide +kernel, by simp [Valid, maxInt], rfl⟩, by decide +kernel, rfl,
    by decide +kernel⟩

/-! ### C11 -/

/-- The range `[start*bpb, start*bpb+size)` lies inside the cache (and starts inside it). -/
def Inside (c : Cache) (bpb start size : Nat) : Prop :=
  start < c.totalBlocks ∧ start * bpb + size ≤ c.totalBlocks * bpb

/-- C11 for ReadAt: out of range gives ErrArgumentOutOfRange and changes nothing at all; in range,
it succeeds unless the fetch callback fails. -/
theorem C11_readAt_exact {b : Backend S} {bpb total : Nat} {view : S → Bytes} {s0 : S}
    (H : Setup b bpb total view s0) {ops : List Op} {st : St S} {rs : List Result}
    (ha : After b bpb total s0 ops st rs) (buf : Bytes) (start : Nat) (hl : buf.length ≤ maxInt) :
    (¬ Inside st.c bpb start buf.length →
      readAt b st buf start = .ret (st, .error .argumentOutOfRange)) ∧
    (Inside st.c bpb start buf.length → ∃ st' r, readAt b st buf start = .ret (st', r) ∧
      ((∃ out n, r = .ok (out, n)) ∨ ∃ j be, r = .error (.fetchFailed j be) ∧ FetchFails b st.c.totalBlocks j be)) := by
  obtain ⟨w, rfl, _⟩ := after_spec H ha
  rcases readAt_spec H.lawful st w rfl buf start hl with ⟨h1, h2⟩ | ⟨h1, st', _, h2 | ⟨j, be, h2, h3⟩⟩
  · exact ⟨fun _ => h2, fun hi => absurd hi h1⟩
  · exact ⟨fun hi => absurd h1 hi, fun _ => ⟨_, _, h2, Or.inl ⟨_, _, rfl⟩⟩⟩
  · exact ⟨fun hi => absurd h1 hi, fun _ => ⟨_, _, h2, Or.inr ⟨j, be, rfl, h3⟩⟩⟩

/-- C11 for WriteAt. -/
theorem C11_writeAt_exact {b : Backend S} {bpb total : Nat} {view : S → Bytes} {s0 : S}
    (H : Setup b bpb total view s0) {ops : List Op} {st : St S} {rs : List Result}
    (ha : After b bpb total s0 ops st rs) (buf : Bytes) (start : Nat) (hl : buf.length ≤ maxInt) :
    (¬ Inside st.c bpb start buf.length →
      writeAt b st buf start = .ret (st, .error .argumentOutOfRange)) ∧
    (Inside st.c bpb start buf.length → ∃ st' r, writeAt b st buf start = .ret (st', r) ∧
      (r = .ok buf.length ∨ ∃ j be, r = .error (.fetchFailed j be) ∧ FetchFails b st.c.totalBlocks j be)) := by
  obtain ⟨w, rfl, _⟩ := after_spec H ha
  rcases writeAt_spec H.lawful st w rfl buf start hl with
    ⟨h1, h2⟩ | ⟨h1, st', ⟨_, j, be, h2, h3⟩ | ⟨h2, _⟩⟩
  · exact ⟨fun _ => h2, fun hi => absurd hi h1⟩
  · exact ⟨fun hi => absurd h1 hi, fun _ => ⟨_, _, h2, Or.inr ⟨j, be, rfl, h3⟩⟩⟩
  · exact ⟨fun hi => absurd h1 hi, fun _ => ⟨_, _, h2, Or.inl rfl⟩⟩

example : ∃ st rs, After (mem 2) 2 3 ([1, 2, 3, 4, 5, 6, 7, 8], []) [.resize 2] st rs ∧
    Inside st.c 2 1 2 ∧ ¬ Inside st.c 2 1 3 :=
  ⟨_, _, ⟨exampleCache, by decide +kernel, by simp [Valid, maxInt], rfl⟩,
    by simp [Inside, Cache.totalBlocks], by simp [Inside, Cache.totalBlocks]⟩

/-- C11 as stated for GetSlice and MarkBlockRangeDirty: for every start and every `uint` count. -/
def C11_slices_statement : Prop :=
  ∀ (S : Type) (b : Backend S) (bpb total : Nat) (view : S → Bytes) (s0 : S),
    Setup b bpb total view s0 → ∀ (ops : List Op) (st : St S) (rs : List Result),
    After b bpb total s0 ops st rs → ∀ start count, start < 2 ^ 64 → count < 2 ^ 64 →
    ¬ Inside st.c bpb start (count * bpb) →
    getSlice b st start count = .ret (st, .error .argumentOutOfRange) ∧
    markBlockRangeDirty st start count = .ret (st, .error .argumentOutOfRange)

/-- The count times the block size wraps around 2^64: with two-byte blocks, GetSlice(1, 2^63)
passes the bounds check of a three-block cache (2^63 blocks are taken for 0 bytes), then runs past
the end of the cache and panics. -/
theorem C11_slices_refuted : ¬ C11_slices_statement := by
  intro h
  have := (h _ _ _ _ _ _ (setup_mem []) [] ⟨exampleCache, ([1, 2, 3, 4, 5, 6, 7, 8], [])⟩ []
    ⟨exampleCache, by decide +kernel, by simp, rfl⟩ 1 (2 ^ 63) (by omega) (by omega)
    (by unfold Inside Cache.totalBlocks exampleCache; simp only; omega)).1
  have hp : getSlice (mem 2) ⟨exampleCache, ([1, 2, 3, 4, 5, 6, 7, 8], [])⟩ 1 (2 ^ 63) = .panic := by
    decide +kernel
  rw [hp] at this
  simp at this

/-- C11 for GetSlice and MarkBlockRangeDirty.  Missing: counts whose size in bytes is 2^63 or
more, for which the code's arithmetic wraps (`C11_slices_refuted`). -/
theorem C11_slices_exact_partial {b : Backend S} {bpb total : Nat} {view : S → Bytes} {s0 : S}
    (H : Setup b bpb total view s0) {ops : List Op} {st : St S} {rs : List Result}
    (ha : After b bpb total s0 ops st rs) (start count : Nat) (hl : count * bpb ≤ maxInt) :
    (¬ Inside st.c bpb start (count * bpb) →
      getSlice b st start count = .ret (st, .error .argumentOutOfRange) ∧
      markBlockRangeDirty st start count = .ret (st, .error .argumentOutOfRange)) ∧
    (Inside st.c bpb start (count * bpb) →
      (∃ st' r, getSlice b st start count = .ret (st', r) ∧
        (r = .ok ⟨start * bpb, count * bpb⟩ ∨
         ∃ j be, r = .error (.fetchFailed j be) ∧ FetchFails b st.c.totalBlocks j be)) ∧
      ∃ st', markBlockRangeDirty st start count = .ret (st', .ok ())) := by
  obtain ⟨w, rfl, _⟩ := after_spec H ha
  constructor
  · intro hi
    constructor
    · rcases getSlice_spec H.lawful st w rfl start count hl with ⟨_, h2⟩ | ⟨h1, _⟩
      · exact h2
      · exact absurd h1 hi
    · unfold markBlockRangeDirty
      rw [u64_of_lt (by unfold maxInt at *; omega), checkBounds_eq w start hl,
        if_neg (show ¬ InRange st.c start (count * st.c.bpb) from hi)]
      rfl
  · intro hi
    constructor
    · rcases getSlice_spec H.lawful st w rfl start count hl with
        ⟨h1, h2⟩ | ⟨h1, st1, _, ⟨h2, _⟩ | ⟨j, be, h2, hj⟩⟩
      · exact absurd hi h1
      · exact ⟨_, _, h2, Or.inl rfl⟩
      · exact ⟨_, _, h2, Or.inr ⟨j, be, rfl, hj⟩⟩
    · unfold markBlockRangeDirty
      rw [u64_of_lt (by unfold maxInt at *; omega), checkBounds_eq w start hl,
        if_pos (show InRange st.c start (count * st.c.bpb) from hi)]
      simp only [Outcome.bind_ret]
      have hb := (inRange_blocks w.bpb_pos).1 hi
      have hbl := le_bitmapLen st.c.total
      obtain ⟨c', e1, _⟩ := markLoop_spec count start st.c (by rw [w.loaded_len]; omega)
        (by rw [w.dirty_len]; omega)
      rw [e1]
      exact ⟨_, rfl⟩

/-! ### C12 -/

/-- C12: an operation that returns an error leaves the flat array the same: results of whatever
follows are those of the history without it. -/
theorem C12_error_changes_nothing {b : Backend S} {bpb total : Nat} {view : S → Bytes} {s0 : S}
    (H : Setup b bpb total view s0) {ops1 ops2 : List Op} {op : Op} {st : St S} {rs1 rs2 : List Result}
    {r : Result} (ha : After b bpb total s0 (ops1 ++ op :: ops2) st (rs1 ++ r :: rs2))
    (hl : rs1.length = ops1.length) {e : Err} (he : r.err? = some e) :
    ∃ a, ConformsAll bpb (ops1 ++ ops2) (rs1 ++ rs2) ((view s0).take (total * bpb)) a := by
  obtain ⟨_, _, hc⟩ := after_spec H ha
  refine ⟨contents view st, ?_⟩
  · generalize (view s0).take (total * bpb) = a at hc ⊢
    clear ha
    induction ops1 generalizing rs1 a with
    | nil =>
      cases rs1 with
      | cons _ _ => simp at hl
      | nil =>
        obtain ⟨a1, h1, h2⟩ := hc
        have : a1 = a := by
          cases op <;> rcases r with (_ | _) | (_ | _) | (_ | _) | (_ | _) <;>
            simp_all [Conforms, Result.err?]
        rw [← this]; exact h2
    | cons o os ih =>
      cases rs1 with
      | nil => simp at hl
      | cons r1 rs1 =>
        obtain ⟨a1, h1, h2⟩ := hc
        exact ⟨a1, h1, ih (by simpa using hl) a1 h2⟩

/-- C12: no unflushed modification is forgotten: a block that was to be written before an
operation is still to be written after it, or the storage holds the current contents of the block.
(Of a successful Resize, this holds for the blocks that are kept.) -/
theorem C12_nothing_forgotten {b : Backend S} {bpb total : Nat} {view : S → Bytes} {s0 : S}
    (H : Setup b bpb total view s0) {ops : List Op} {st st' : St S} {rs : List Result}
    (ha : After b bpb total s0 ops st rs) {op : Op} (hv : Valid bpb op) {r : Result}
    (hs : step b st op = .ret (st', r)) {j : Nat} (hj : j < st'.c.totalBlocks) :
    isDirty st'.c j = true ∨
      slice (view st'.s) (j * bpb) bpb = slice (contents view st') (j * bpb) bpb := by
  obtain ⟨w, rfl, _⟩ := after_spec H ha
  obtain ⟨st1, r1, h1, h2⟩ := step_spec H.lawful st w rfl op hv
  rw [hs] at h1; cases h1
  have w' := h2.wf
  have hb := h2.bpb
  by_cases hd : isDirty st'.c j = true
  · exact Or.inl hd
  · right
    have hd' : isDirty st'.c j = false := by simpa using hd
    have hend := block_end_le (n := st'.c.bpb) (show j < st'.c.total from hj)
    have hs := w'.store
    apply List.ext_getElem?
    intro k
    rw [getElem?_slice, getElem?_slice]
    by_cases hk : k < st.c.bpb
    · rw [if_pos hk, if_pos hk, getElem?_contents, if_pos (by rw [← hb] at hk ⊢; omega)]
      have hkj : (j * st.c.bpb + k) / st'.c.bpb = j := by
        rw [div_eq_block w'.bpb_pos, hb]; omega
      rw [w'.clean _ (by rw [← hb] at hk ⊢; omega) (by rw [hkj]; exact hd'), List.getD_eq_getElem?_getD,
        List.getElem?_eq_getElem (by rw [← hb] at hk ⊢; omega)]; rfl
    · rw [if_neg hk, if_neg hk]

/-- A failed flush in the middle of a history. -/
example : ∃ st rs1 rs2, After (mem 2) 2 3 ([1, 2, 3, 4, 5, 6, 7, 8], [false, false, false, true])
      ([.write [9, 9, 9] 0] ++ .flush :: [.data]) st
      (rs1 ++ .unit (.error (.flushFailed 1 (.other 2))) :: rs2) ∧ rs1.length = 1 ∧
      rs2 = [.bytes (.ok [9, 9, 9, 4, 5, 6])] :=
  ⟨_, [_], [_], ⟨exampleCache, by decide +kernel, by simp [Valid, maxInt], rfl⟩, rfl, by decide +kernel⟩

/-! ### C13 -/

theorem setup_logged {b : Backend S} {bpb total : Nat} {view : S → Bytes} {s0 : S}
    (H : Setup b bpb total view s0) (l : List Event) :
    Setup (logged b) bpb total (fun s => view s.1) (s0, l) :=
  ⟨lawful_logged H.lawful, H.bpb_pos, H.cap, H.store⟩

/-- C13: in any history, every fetch and flush callback invocation during an operation is for a
block below TotalBlocks, with a buffer of exactly bytesPerBlock bytes.  `logged b` is the storage
`b` recording callback invocations. -/
theorem C13_callback_arguments {b : Backend S} {bpb total : Nat} {view : S → Bytes} {s0 : S}
    (H : Setup b bpb total view s0) {ops : List Op} {st st' : St (S × List Event)} {rs : List Result}
    (ha : After (logged b) bpb total (s0, []) ops st rs) {op : Op} (hv : Valid bpb op) {r : Result}
    (hs : step (logged b) st op = .ret (st', r)) :
    ∃ evs, st'.s.2 = st.s.2 ++ evs ∧
      (∀ j len ok, .fetch j len ok ∈ evs → j < st.c.totalBlocks ∧ len = bpb) ∧
      (∀ j buf ok, .flush j buf ok ∈ evs → j < st.c.totalBlocks ∧ buf.length = bpb) := by
  have H' := setup_logged H []
  obtain ⟨w, hb, _⟩ := after_spec H' ha
  obtain ⟨st1, r1, h1, h2⟩ := step_spec H'.lawful st w hb op hv
  rw [hs] at h1; cases h1
  obtain ⟨evs, e1, e2⟩ := h2.trace _ (logs_logged b)
  refine ⟨evs, e1, ?_, ?_⟩
  · intro j len ok he
    have := e2.ok _ he
    rw [hb] at this
    exact this
  · intro j buf ok he
    have := e2.ok _ he
    rw [hb] at this
    exact this

/-- The log of a history (after a fetch fault, growth and shrinking). -/
example : ∃ st rs, After (logged (mem 2)) 2 3 (([1, 2, 3, 4, 5, 6, 7, 8], [true]), [])
      [.read [0, 0, 0] 1, .write [9, 9, 9] 0, .resize 4, .flush, .resize 1, .data] st rs ∧
    st.s.2 = [.fetch 1 2 false, .fetch 0 2 true, .fetch 1 2 true, .resize 4 true,
      .flush 0 [9, 9] true, .flush 1 [9, 4] true, .flush 3 [0, 0] true, .resize 1 true] :=
  ⟨_, _, ⟨exampleCache, by decide +kernel, by simp [Valid, maxInt], rfl⟩, by decide +kernel⟩

/-! ### C14 -/

/-- Once a block is present it is never fetched again. -/
theorem stuck_run {b : Backend S} {bpb : Nat} {view : S → Bytes} (L : Lawful b bpb view) {log : S → List Event}
    (hl : Logs b log) (ops : List Op) (st : St S) (h : WF view st) (hb : st.c.bpb = bpb)
    (hv : ∀ op ∈ ops, Valid bpb op) :
    ∃ st' rs evs, runOps b st ops = .ret (st', rs) ∧ WF view st' ∧ st'.c.bpb = bpb ∧
      log st'.s = log st.s ++ evs ∧ (fetchedOk evs).Nodup ∧
      (∀ j, (j < st.c.total → isLoaded st.c j = true) → ∀ len ok, Event.fetch j len ok ∉ evs) ∧
      (∀ j, (j < st.c.total → isLoaded st.c j = true) → j ∉ fetchedOk evs) ∧
      (∀ j, (j < st.c.total → isLoaded st.c j = true) ∨ j ∈ fetchedOk evs →
        j < st'.c.total → isLoaded st'.c j = true) := by
  induction ops generalizing st with
  | nil =>
    refine ⟨st, [], [], rfl, h, hb, by simp, by simp [fetchedOk], by simp, by simp [fetchedOk], ?_⟩
    intro j hj h2
    rcases hj with hj | hj
    · exact hj h2
    · simp [fetchedOk] at hj
  | cons op ops ih =>
    obtain ⟨st1, r, h1, s1⟩ := step_spec L st h hb op (hv op (by simp))
    obtain ⟨st2, rs, evs2, h2, w2, b2, l2, n2, f2, g2, k2⟩ :=
      ih st1 s1.wf (s1.bpb.trans hb) (fun o ho => hv o (by simp [ho]))
    obtain ⟨evs1, l1, t1⟩ := s1.trace log hl
    refine ⟨st2, r :: rs, evs1 ++ evs2, ?_, w2, b2, by rw [l2, l1, List.append_assoc], ?_, ?_, ?_, ?_⟩
    · unfold runOps; rw [h1]; simp only [Outcome.bind_ret]; rw [h2]; rfl
    · rw [fetchedOk_append, List.nodup_append]
      refine ⟨t1.nodup, n2, ?_⟩
      intro x hx y hy hxy
      subst hxy
      exact g2 x (fun hlt => (t1.loads x hx).2.2 hlt) hy
    · intro j hj len ok he
      rcases List.mem_append.1 he with he | he
      · have hu := t1.unloaded j len ok he
        have hlt := (t1.ok _ he).1
        rw [hj hlt] at hu; simp at hu
      · exact f2 j (s1.stuck j hj) len ok he
    · intro j hj he
      rw [fetchedOk_append] at he
      rcases List.mem_append.1 he with he | he
      · obtain ⟨x1, x2, _⟩ := t1.loads j he
        rw [hj x1] at x2; simp at x2
      · exact g2 j (s1.stuck j hj) he
    · intro j hj hlt
      rcases hj with hj | hj
      · exact k2 j (Or.inl (s1.stuck j hj)) hlt
      · rw [fetchedOk_append] at hj
        rcases List.mem_append.1 hj with he | he
        · exact k2 j (Or.inl (t1.loads j he).2.2) hlt
        · exact k2 j (Or.inr he) hlt

/-- C14: in the whole life of a cache (resizes included) no block is successfully fetched twice. -/
theorem C14_fetched_at_most_once {b : Backend S} {bpb total : Nat} {view : S → Bytes} {s0 : S}
    (H : Setup b bpb total view s0) {ops : List Op} {st : St (S × List Event)} {rs : List Result}
    (ha : After (logged b) bpb total (s0, []) ops st rs) : (fetchedOk st.s.2).Nodup := by
  have H' := setup_logged H []
  obtain ⟨c, hn, hv, hr⟩ := ha
  obtain ⟨c', hn', w, hb, _⟩ := new_spec H'.bpb_pos H'.cap
    (fun s : S × List Event => view s.1) (s0, ([] : List Event)) H'.store
  rw [hn] at hn'; cases hn'
  obtain ⟨st', rs', evs, h1, _, _, l, n, _⟩ := stuck_run H'.lawful (logs_logged b) ops _ w hb hv
  rw [hr] at h1; cases h1
  simp only [List.nil_append] at l
  rw [l]; exact n

/-- C14: once an operation has modified a block (written it, marked it dirty, created it), no
later operation fetches it, so a fetch never overwrites unflushed data. -/
theorem C14_modified_not_fetched {b : Backend S} {bpb total : Nat} {view : S → Bytes} {s0 : S}
    (H : Setup b bpb total view s0) {ops ops' : List Op} {st st1 st2 : St (S × List Event)}
    {rs rs' : List Result} {op : Op} {r : Result}
    (ha : After (logged b) bpb total (s0, []) ops st rs) (hv : Valid bpb op)
    (hv' : ∀ o ∈ ops', Valid bpb o) (hs : step (logged b) st op = .ret (st1, r))
    (hr : runOps (logged b) st1 ops' = .ret (st2, rs')) {j : Nat}
    (hm : modifies bpb st.c.totalBlocks op r j = true) :
    ∃ evs, st2.s.2 = st1.s.2 ++ evs ∧ ∀ len ok, .fetch j len ok ∉ evs := by
  have H' := setup_logged H []
  obtain ⟨w, hb, _⟩ := after_spec H' ha
  obtain ⟨st1', r1, h1, h2⟩ := step_spec H'.lawful st w hb op hv
  rw [hs] at h1; cases h1
  obtain ⟨st2', rs2, evs, g1, _, _, g2, _, g3, _⟩ :=
    stuck_run H'.lawful (logs_logged b) ops' st1 h2.wf (h2.bpb.trans hb) hv'
  rw [hr] at g1; cases g1
  refine ⟨evs, g2, g3 j ?_⟩
  intro hlt
  apply h2.wf.dirty_loaded j hlt
  obtain ⟨ev1, _, t⟩ := h2.trace _ (logs_logged b)
  rw [t.pending j hlt, hb]
  unfold modifies Cache.totalBlocks at hm
  cases op <;> rcases r with (_ | _) | (_ | _) | (_ | _) | (_ | _) <;>
    simp_all [nextPending]

/-- Block 1 is written, dropped by shrinking, regrown and read: never fetched again. -/
example : ∃ st st1 r st2 rs', After (logged (mem 2)) 2 3 (([1, 2, 3, 4, 5, 6, 7, 8], []), []) [] st [] ∧
    step (logged (mem 2)) st (.write [9, 9, 9] 0) = .ret (st1, r) ∧
    runOps (logged (mem 2)) st1 [.resize 1, .resize 3, .data] = .ret (st2, rs') ∧
    modifies 2 st.c.totalBlocks (.write [9, 9, 9] 0) r 1 = true :=
  ⟨_, _, _, _, _, ⟨exampleCache, by decide +kernel, by simp, rfl⟩, rfl, rfl, by decide +kernel⟩

/-! ### C15 -/

theorem runPending_spec {b : Backend S} {bpb : Nat} {view : S → Bytes} (L : Lawful b bpb view)
    (ops : List Op) (st : St S) (p : Nat → Bool) (h : WF view st) (hb : st.c.bpb = bpb)
    (hp : ∀ j, j < st.c.total → isDirty st.c j = p j) (hv : ∀ op ∈ ops, Valid bpb op) :
    ∃ st' p', runPending b st p ops = .ret (st', p') ∧ WF view st' ∧ st'.c.bpb = bpb ∧
      ∀ j, j < st'.c.total → isDirty st'.c j = p' j := by
  induction ops generalizing st p with
  | nil => exact ⟨st, p, rfl, h, hb, hp⟩
  | cons op ops ih =>
    have hw : WF (fun s : S × List Event => view s.1) ⟨st.c, (st.s, [])⟩ :=
      ⟨h.bpb_pos, h.cap, h.data_len, h.loaded_len, h.dirty_len, h.dirty_loaded, h.store, h.clean⟩
    obtain ⟨st1, r, h1, s1⟩ := step_spec (lawful_logged L) _ hw hb op (hv op (by simp))
    have w1 := s1.wf
    obtain ⟨evs, t1, t2⟩ := s1.trace _ (logs_logged b)
    simp only [List.nil_append] at t1
    obtain ⟨st2, p2, h2, x⟩ := ih ⟨st1.c, st1.s.1⟩ (nextPending st.c.bpb st.c.total op r st1.s.2 p)
      ⟨w1.bpb_pos, w1.cap, w1.data_len, w1.loaded_len, w1.dirty_len, w1.dirty_loaded, w1.store, w1.clean⟩
      (s1.bpb.trans hb) (by
        intro j hj
        have h3 := t2.pending j hj
        have h4 := s1.total
        simp only at h3 h4 hj ⊢
        rw [h3, t1]
        rw [h4] at hj
        clear h1 s1 w1 t1 t2 ih h3 h4
        cases op <;> rcases r with (_ | _) | (_ | _) | (_ | _) | (_ | _) <;>
          simp only [nextPending, nextTotal] at hj ⊢ <;> (try rw [hp j hj])
        by_cases hjt : j < st.c.total
        · rw [hp j hjt]
        · have : decide (st.c.total ≤ j) = true := decide_eq_true (by omega)
          rw [this]; simp) (fun o ho => hv o (by simp [ho]))
    refine ⟨st2, p2, ?_, x⟩
    unfold runPending; rw [h1]; exact h2

/-- What Flush should do: write the blocks below `total` for which `p` holds, in order. -/
def flushPlan (total bpb : Nat) (p : Nat → Bool) (a : Bytes) : List Event :=
  ((List.range total).filter p).map (fun j => .flush j (slice a (j * bpb) bpb) true)

/-- C15: after any history, with `p` the blocks modified since they were last flushed (computed
from the history: `runPending`), Flush invokes the flush callback exactly for the blocks in `p`,
once each, in increasing order, with their current contents, and invokes no fetch callback; if a
callback fails it stops there.  A second Flush after a successful one writes nothing. -/
theorem C15_flush_writes_pending {b : Backend S} {bpb total : Nat} {view : S → Bytes} {s0 : S}
    (H : Setup b bpb total view s0) {ops : List Op} (hv : ∀ op ∈ ops, Valid bpb op) {c : Cache}
    (hn : new bpb total = .ret c) :
    ∃ st p, runPending b ⟨c, s0⟩ (fun _ => false) ops = .ret (st, p) ∧
      (0 < st.c.totalBlocks → ∃ st' r, flush (logged b) ⟨st.c, (st.s, [])⟩ = .ret (st', r) ∧
        (r = .ok () → st'.s.2 = flushPlan st.c.totalBlocks bpb p (contents view st) ∧
          ∃ st'', flush (logged b) ⟨st'.c, (st'.s.1, [])⟩ = .ret (st'', .ok ()) ∧ st''.s.2 = []) ∧
        (∀ e, r = .error e → ∃ m, m < st.c.totalBlocks ∧ p m = true ∧
          (∃ be, e = .flushFailed m be) ∧
          st'.s.2 = flushPlan m bpb p (contents view st) ++
            [.flush m (slice (contents view st) (m * bpb) bpb) false])) := by
  obtain ⟨c', hn', w, hb, ht, hld, hdd, hc⟩ := new_spec H.bpb_pos H.cap view s0 H.store
  rw [hn] at hn'; cases hn'
  obtain ⟨st, p, h1, h2, h3, h4⟩ := runPending_spec H.lawful ops ⟨c, s0⟩ (fun _ => false) w hb
    (fun j _ => hdd j) hv
  refine ⟨st, p, h1, ?_⟩
  intro hpos
  have mk : ∀ {st : St S}, WF view st → WF (fun s : S × List Event => view s.1) ⟨st.c, (st.s, [])⟩ :=
    fun h => ⟨h.bpb_pos, h.cap, h.data_len, h.loaded_len, h.dirty_len, h.dirty_loaded, h.store, h.clean⟩
  have hplan : ∀ m, m ≤ st.c.total →
      flushEvents st.c 0 m = flushPlan m bpb p (contents view st) := by
    intro m hm
    unfold flushEvents flushPlan
    rw [← List.range_eq_range']
    have : (List.range m).filter (isDirty st.c) = (List.range m).filter p := by
      apply List.filter_congr
      intro j hj
      exact h4 j (by have := List.mem_range.1 hj; omega)
    rw [this]
    apply List.map_congr_left
    intro j hj
    obtain ⟨hj1, hj2⟩ := List.mem_filter.1 hj
    have hjm := List.mem_range.1 hj1
    rw [slice_loaded_block h2 (by omega) (h2.dirty_loaded j (by omega) (by rw [h4 j (by omega)]; exact hj2)), h3]
  rcases flush_spec (lawful_logged H.lawful) ⟨st.c, (st.s, [])⟩ (mk h2) h3 with
    ⟨h0, _⟩ | ⟨_, st', e, m, F, h5⟩
  · unfold Cache.totalBlocks at hpos; simp only at h0; omega
  · refine ⟨st', _, h5, ?_, ?_⟩
    · intro hr
      cases e with
      | some x => simp [ofErr] at hr
      | none =>
        have hm := F.ok rfl
        have htr := F.trace _ (logs_logged b)
        simp only [Option.isSome_none, Bool.false_eq_true, if_false, List.append_nil,
          List.nil_append] at htr
        refine ⟨by rw [htr, hm]; exact hplan _ (Nat.le_refl _), ?_⟩
        have w' : WF view ⟨st'.c, st'.s.1⟩ := by
          have h := F.wf
          exact ⟨h.bpb_pos, h.cap, h.data_len, h.loaded_len, h.dirty_len, h.dirty_loaded, h.store, h.clean⟩
        have hclean : ∀ j, j < st.c.total → isDirty st'.c j = false := by
          intro j hj; rw [F.dirty, hm]; simp [hj]
        rcases flush_spec (lawful_logged H.lawful) ⟨st'.c, (st'.s.1, [])⟩ (mk w') (F.bpb.trans h3) with
          ⟨h0, _⟩ | ⟨_, st2, e2, m2, F2, h6⟩
        · have h7 := F.total
          unfold Cache.totalBlocks at hpos; simp only at h0 h7; omega
        · have hm2 : e2 = none := by
            cases e2 with
            | none => rfl
            | some x =>
              obtain ⟨f1, f2, _⟩ := F2.fail x rfl
              have h7 := F.total
              simp only at f1 f2 h7
              rw [hclean (0 + m2) (by omega)] at f2; simp at f2
          subst hm2
          refine ⟨st2, h6, ?_⟩
          have htr2 := F2.trace _ (logs_logged b)
          simp only [Option.isSome_none, Bool.false_eq_true, if_false, List.append_nil,
            List.nil_append] at htr2
          rw [htr2]
          unfold flushEvents
          have : (List.range' 0 m2).filter (isDirty st'.c) = [] := by
            rw [List.filter_eq_nil_iff]
            intro j hj
            have h7 := F.total
            have h8 := F2.ok rfl
            have := (List.mem_range'_1.1 hj).2
            simp only at h7 h8
            rw [hclean j (by omega)]; simp
          rw [this]; rfl
    · intro x hx
      cases e with
      | none => simp [ofErr] at hx
      | some y =>
        simp only [ofErr, Except.error.injEq] at hx
        subst hx
        obtain ⟨f1, f2, be, f3, _⟩ := F.fail y rfl
        have htr := F.trace _ (logs_logged b)
        simp only [Option.isSome_some, if_true, List.nil_append, Nat.zero_add] at htr f1 f2 f3
        refine ⟨m, f1, by rw [← h4 m f1]; exact f2, ⟨be, f3⟩, ?_⟩
        rw [htr, hplan m (by omega), slice_loaded_block h2 f1 (h2.dirty_loaded m f1 f2), h3]

/-- The pending blocks after a history with a failed flush: block 0 was written, 1 was not. -/
example : ∃ st p, runPending (mem 2) ⟨exampleCache, ([1, 2, 3, 4, 5, 6, 7, 8], [false, false, false, true])⟩
      (fun _ => false) [.write [9, 9, 9] 0, .flush, .resize 4] = .ret (st, p) ∧
      (p 0, p 1, p 2, p 3) = (false, true, false, true) :=
  ⟨_, _, rfl, by decide +kernel⟩

/-! ### C16 -/

/-- C16: a successful Resize(n) keeps the prefix, appends null bytes, sets TotalBlocks and Size and
schedules the new blocks for the next Flush; it succeeds exactly when the resize callback does, and
when that fails nothing changes and its error is returned. -/
theorem C16_resize {b : Backend S} {bpb total : Nat} {view : S → Bytes} {s0 : S}
    (H : Setup b bpb total view s0) {ops : List Op} {st : St S} {rs : List Result}
    (ha : After b bpb total s0 ops st rs) (n : Nat) (hn : n * bpb ≤ maxInt) :
    ((b.resize st.s n).2 = none → ∃ st', resize b st n = .ret (st', .ok ()) ∧
      st'.c.totalBlocks = n ∧ st'.c.size = n * bpb ∧
      contents view st' = (contents view st).take (n * bpb) ++
        List.replicate (n * bpb - st.c.totalBlocks * bpb) 0 ∧
      (∀ j, j < n → isDirty st'.c j = (isDirty st.c j || decide (st.c.totalBlocks ≤ j)))) ∧
    (∀ be, (b.resize st.s n).2 = some be → ∃ s',
      resize b st n = .ret (⟨st.c, s'⟩, .error (.resizeFailed be)) ∧ view s' = view st.s) := by
  obtain ⟨w, rfl, _⟩ := after_spec H ha
  rcases resize_spec H.lawful st w rfl n hn with ⟨be, s', h1, h2, h3⟩ | ⟨st', h1, h2, h4, h3⟩
  · refine ⟨fun hh => by rw [h1] at hh; simp at hh, ?_⟩
    intro be' hbe
    rw [h1] at hbe
    simp only [Option.some.injEq] at hbe
    subst hbe
    refine ⟨s', h2, ?_⟩
    have := H.lawful.resize_fail st.s n (by rw [h1]; simp)
    rw [h1] at this; exact this
  · refine ⟨fun _ => ⟨st', h2, h3.total, ?_, ?_, ?_⟩, fun be hbe => by rw [h1] at hbe; simp at hbe⟩
    · have ht : st'.c.total = n := h3.total
      unfold Cache.size
      rw [h3.bpb, ht]
      have hnm : n ≤ maxInt := Nat.le_trans (Nat.le_mul_of_pos_right _ w.bpb_pos) hn
      rcases Nat.eq_zero_or_pos n with hn0 | hn0
      · subst hn0; simp [i64]
      · have hbm : st.c.bpb ≤ maxInt := Nat.le_trans (Nat.le_mul_of_pos_left _ hn0) hn
        unfold maxInt at *
        rw [i64_of_range (z := (st.c.bpb : Int)) (by omega) (by omega),
          i64_of_range (z := (n : Int)) (by omega) (by omega), Int.mul_comm, ← Int.natCast_mul,
          i64_of_range (by omega) (by omega)]
    · have := h3.conf
      simp only [Conforms, length_contents] at this
      exact this
    · intro j hj
      -- use the trace-free description of the dirty bits
      have h5 := h3.wf
      have ht : st'.c.total = n := h3.total
      have : resize b st n = .ret (st', .ok ()) := h2
      clear h2 h3
      unfold resize at this
      rcases hres : b.resize st.s n with ⟨s', e⟩
      rw [hres] at h1 this
      simp only at h1
      subst h1
      simp only at this
      rw [u64_of_lt (by unfold maxInt at *; omega)] at this
      have hnm : n ≤ maxInt := Nat.le_trans (Nat.le_mul_of_pos_right _ w.bpb_pos) hn
      rw [if_pos ⟨hnm, hn⟩] at this
      have hbl : n ≤ bitmapLen n := le_bitmapLen _
      by_cases hgrow : st.c.total ≤ n
      · obtain ⟨c', e1, e2, e3, e4, e5, e6, e7, e8⟩ := markLoop_spec (n - st.c.total) st.c.total
          { st.c with
            data := goCopy (List.replicate (n * st.c.bpb) 0) st.c.data
            dirty := bitCopy (bitmapLen n) st.c.dirty
            loaded := bitCopy (bitmapLen n) st.c.loaded }
          (by simp only [length_bitCopy]; omega) (by simp only [length_bitCopy]; omega)
        rw [e1] at this
        simp only [Outcome.bind_ret, Outcome.pure_eq, Outcome.ret.injEq, Prod.mk.injEq] at this
        rw [← this.1]
        show isDirty c' j = _
        rw [e8]
        by_cases hjt : st.c.total ≤ j
        · rw [if_pos (by omega)]; simp [Cache.totalBlocks, hjt]
        · rw [if_neg (by omega)]
          simp only [isDirty]
          rw [getD_bitCopy (by omega)]
          simp [Cache.totalBlocks, hjt]
      · have e0 : n - st.c.total = 0 := by omega
        rw [e0] at this
        simp only [markLoop, Outcome.bind_ret, Outcome.pure_eq, Outcome.ret.injEq, Prod.mk.injEq] at this
        rw [← this.1]
        simp only [isDirty]
        rw [getD_bitCopy (by omega)]
        have : decide (st.c.totalBlocks ≤ j) = false := decide_eq_false (by unfold Cache.totalBlocks; omega)
        rw [this, Bool.or_false]

/-- C16: shrinking then growing never brings old contents back: the regrown part is null. -/
theorem C16_shrink_grow {b : Backend S} {bpb total : Nat} {view : S → Bytes} {s0 : S}
    (H : Setup b bpb total view s0) {ops : List Op} {st st1 st2 : St S} {rs : List Result}
    (ha : After b bpb total s0 ops st rs) {m n : Nat} (hm : m ≤ st.c.totalBlocks)
    (hmn : m ≤ n) (hn : n * bpb ≤ maxInt)
    (h1 : resize b st m = .ret (st1, .ok ())) (h2 : resize b st1 n = .ret (st2, .ok ())) :
    contents view st2 = (contents view st).take (m * bpb) ++ List.replicate (n * bpb - m * bpb) 0 := by
  have hmb : m * bpb ≤ n * bpb := Nat.mul_le_mul_right _ hmn
  obtain ⟨w, hb, _⟩ := after_spec H ha
  subst hb
  obtain ⟨st1', r1, g1, s1⟩ := step_spec H.lawful st w rfl (.resize m) (show m * st.c.bpb ≤ maxInt by omega)
  simp only [step, h1, Outcome.bind_ret, Outcome.pure_eq, Outcome.ret.injEq, Prod.mk.injEq] at g1
  obtain ⟨rfl, rfl⟩ := g1
  obtain ⟨st2', r2, g2, s2⟩ := step_spec H.lawful st1 s1.wf s1.bpb (.resize n) hn
  simp only [step, h2, Outcome.bind_ret, Outcome.pure_eq, Outcome.ret.injEq, Prod.mk.injEq] at g2
  obtain ⟨rfl, rfl⟩ := g2
  have c1 := s1.conf
  have c2 := s2.conf
  simp only [Conforms, s1.bpb] at c1 c2
  have hmt : m * st.c.bpb ≤ st.c.total * st.c.bpb := Nat.mul_le_mul_right _ hm
  have e0 : m * st.c.bpb - (contents view st).length = 0 := by rw [length_contents]; omega
  rw [e0, List.replicate_zero, List.append_nil] at c1
  have hl1 : (contents view st1).length = m * st.c.bpb := by
    rw [c1, List.length_take, length_contents]; omega
  rw [c2, hl1, c1, List.take_take]
  congr 2
  omega

example : ∃ st rs st1 st2, After (mem 2) 2 3 ([1, 2, 3, 4, 5, 6, 7, 8], []) [.write [9] 2] st rs ∧
    resize (mem 2) st 1 = .ret (st1, .ok ()) ∧ resize (mem 2) st1 3 = .ret (st2, .ok ()) ∧
    contents (fun s => s.1) st2 = [1, 2, 0, 0, 0, 0] :=
  ⟨_, _, _, _, ⟨exampleCache, by decide +kernel, by simp [Valid, maxInt], rfl⟩, rfl, rfl, by decide +kernel⟩

/-! ### C17 -/

/-- C17 as stated: the count ReadAt returns is the length of the buffer. -/
def C17_statement : Prop :=
  ∀ (S : Type) (b : Backend S) (bpb total : Nat) (view : S → Bytes) (s0 : S),
    Setup b bpb total view s0 → ∀ (ops : List Op) (st : St S) (rs : List Result),
    After b bpb total s0 ops st rs → ∀ (buf : Bytes) (start : Nat) (st' : St S) (out : Bytes) (n : Nat),
    buf.length ≤ maxInt → readAt b st buf start = .ret (st', .ok (out, n)) → n = buf.length

/-- Reading one byte of two-byte blocks reports two bytes read. -/
theorem C17_refuted : ¬ C17_statement := by
  intro h
  have := h _ _ _ _ _ _ (setup_mem []) [] ⟨exampleCache, ([1, 2, 3, 4, 5, 6, 7, 8], [])⟩ []
    ⟨exampleCache, by decide +kernel, by simp, rfl⟩ [0] 0 _ _ _ (by simp [maxInt]) rfl
  revert this
  decide +kernel

/-- C17 for buffers of whole blocks; in general the reported count is the length rounded up to
whole blocks.  Missing: other buffer lengths (`C17_refuted`). -/
theorem C17_count_partial {b : Backend S} {bpb total : Nat} {view : S → Bytes} {s0 : S}
    (H : Setup b bpb total view s0) {ops : List Op} {st st' : St S} {rs : List Result}
    (ha : After b bpb total s0 ops st rs) {buf out : Bytes} {start n : Nat} (hl : buf.length ≤ maxInt)
    (hr : readAt b st buf start = .ret (st', .ok (out, n))) :
    out.length = buf.length ∧ buf.length ≤ n ∧ n < buf.length + bpb ∧ bpb ∣ n ∧
    (bpb ∣ buf.length → n = buf.length) := by
  obtain ⟨w, rfl, _⟩ := after_spec H ha
  rcases readAt_spec H.lawful st w rfl buf start hl with ⟨h1, h2⟩ | ⟨h1, st1, _, h2 | ⟨j, be, h2, h3⟩⟩
  · rw [h2] at hr; simp at hr
  · rw [h2] at hr
    simp only [Outcome.ret.injEq, Prod.mk.injEq, Except.ok.injEq] at hr
    obtain ⟨_, rfl, rfl⟩ := hr
    have hb := w.bpb_pos
    have hmod := Nat.mod_add_div (buf.length + (st.c.bpb - 1)) st.c.bpb
    have hlt := Nat.mod_lt (buf.length + (st.c.bpb - 1)) hb
    rw [Nat.mul_comm] at hmod
    refine ⟨length_slice_of_le (by rw [length_contents]; exact h1.2), ?_, ?_, ?_, ?_⟩
    · exact (ceil_le_iff hb).1 (Nat.le_refl _)
    · omega
    · exact ⟨_, Nat.mul_comm _ _⟩
    · rintro ⟨q, hq⟩
      rw [hq, Nat.mul_comm st.c.bpb q, ceil_mul hb]
  · rw [h2] at hr; simp at hr

example : ∃ st st' out n, After (mem 2) 2 3 ([1, 2, 3, 4, 5, 6, 7, 8], []) [] st [] ∧
    readAt (mem 2) st [0, 0, 0, 0] 1 = .ret (st', .ok (out, n)) ∧ n = 4 ∧ out = [3, 4, 5, 6] :=
  ⟨_, _, _, _, ⟨exampleCache, by decide +kernel, by simp, rfl⟩, rfl, by decide +kernel, by decide +kernel⟩

/-! ### C18 -/

/-- C18 as stated, for every `uint` size. -/
def C18_statement : Prop :=
  ∀ (c : Cache) (size : Nat), 0 < c.bpb → c.bpb < 2 ^ 64 → size < 2 ^ 64 →
    ∃ n, c.getMinBlocksForSize size = .ret n ∧ size ≤ n * c.bpb ∧ ∀ m, size ≤ m * c.bpb → n ≤ m

/-- `size + bytesPerBlock - 1` overflows for sizes near 2^64. -/
theorem C18_refuted : ¬ C18_statement := by
  intro h
  obtain ⟨n, h1, h2, _⟩ := h ⟨512, 1, [], [], []⟩ (2 ^ 64 - 1) (by simp) (by simp) (by omega)
  have : (⟨512, 1, [], [], []⟩ : Cache).getMinBlocksForSize (2 ^ 64 - 1) = .ret 0 := by decide +kernel
  rw [this] at h1
  cases h1
  simp at h2

/-- C18 unless the sum overflows.  Missing: sizes within a block of 2^64. -/
theorem C18_ceiling_partial (c : Cache) (size : Nat) (hb : 0 < c.bpb) (hs : size + c.bpb ≤ 2 ^ 64) :
    ∃ n, c.getMinBlocksForSize size = .ret n ∧ size ≤ n * c.bpb ∧ ∀ m, size ≤ m * c.bpb → n ≤ m := by
  refine ⟨(size + (c.bpb - 1)) / c.bpb, ?_, (ceil_le_iff hb).1 (Nat.le_refl _),
    fun m hm => (ceil_le_iff hb).2 hm⟩
  unfold Cache.getMinBlocksForSize
  rw [if_neg (by omega), u64_of_lt (by omega)]

/-- C18, exactly: the result is the least such number if and only if the sum does not overflow; if
it does, the result is 0. -/
theorem C18_exact_partial (c : Cache) (size : Nat) (hb : 0 < c.bpb) (hb2 : c.bpb < 2 ^ 64) (hs : size < 2 ^ 64) :
    ((∃ n, c.getMinBlocksForSize size = .ret n ∧ size ≤ n * c.bpb ∧ ∀ m, size ≤ m * c.bpb → n ≤ m) ↔
      size + c.bpb ≤ 2 ^ 64) ∧
    (2 ^ 64 < size + c.bpb → c.getMinBlocksForSize size = .ret 0) := by
  have hz : 2 ^ 64 < size + c.bpb → c.getMinBlocksForSize size = .ret 0 := by
    intro h
    have e : u64 (size + (c.bpb - 1)) = size + (c.bpb - 1) - 2 ^ 64 := by unfold u64; omega
    unfold Cache.getMinBlocksForSize
    rw [if_neg (by omega), e, Nat.div_eq_of_lt (by omega)]
  refine ⟨⟨?_, C18_ceiling_partial c size hb⟩, hz⟩
  rintro ⟨n, h1, h2, _⟩
  apply Classical.byContradiction
  intro h
  rw [hz (by omega)] at h1
  cases h1
  omega

example : exampleCache.getMinBlocksForSize 5 = .ret 3 := by decide +kernel

/-! ### C19 -/

/-- C19 as stated. -/
def C19_statement : Prop :=
  ∀ (S : Type) (b : Backend S) (bpb : Nat) (view : S → Bytes) (s0 : S), Setup b bpb 0 view s0 →
    ∀ (st : St S), After b bpb 0 s0 [] st [] →
    (∃ st', flush b st = .ret (st', .ok ())) ∧ (∃ st', loadAll b st = .ret (st', .ok ())) ∧
    (∃ st' w, data b st = .ret (st', .ok w))

/-- On an empty cache Flush fails with ErrArgumentOutOfRange (and so do LoadAll and Data). -/
theorem C19_refuted : ¬ C19_statement := by
  intro h
  have hs : Setup (mem 2) 2 0 (fun s => s.1) ([], []) :=
    ⟨lawful_mem (by omega), by omega, by decide +kernel, by simp⟩
  obtain ⟨⟨st', h1⟩, _⟩ := h _ _ _ _ _ hs ⟨⟨2, 0, [], [], []⟩, ([], [])⟩
    ⟨⟨2, 0, [], [], []⟩, by decide +kernel, by simp, rfl⟩
  have : flush (mem 2) ⟨⟨2, 0, [], [], []⟩, ([], [])⟩ =
      .ret (⟨⟨2, 0, [], [], []⟩, ([], [])⟩, .error .argumentOutOfRange) := by decide +kernel
  rw [this] at h1
  simp at h1

/-- C19 for non-empty caches: with callbacks that do not fail, Flush, LoadAll and Data succeed.
Missing: empty caches, for which all three fail (`C19_refuted`). -/
theorem C19_nonempty_partial {b : Backend S} {bpb total : Nat} {view : S → Bytes} {s0 : S}
    (H : Setup b bpb total view s0) (R : Reliable b) {ops : List Op} {st : St S} {rs : List Result}
    (ha : After b bpb total s0 ops st rs) (hpos : 0 < st.c.totalBlocks) :
    (∃ st', flush b st = .ret (st', .ok ())) ∧ (∃ st', loadAll b st = .ret (st', .ok ())) ∧
    (∃ st' w, data b st = .ret (st', .ok w)) := by
  obtain ⟨w, hb, _⟩ := after_spec H ha
  have hir : InRange st.c 0 (st.c.total * st.c.bpb) := ⟨hpos, by omega⟩
  have hload : ∃ st', loadBlockRange b st 0 st.c.total = .ret (st', none) := by
    rcases loadBlockRange_spec H.lawful st w hb 0 st.c.total w.cap with
      ⟨h1, _⟩ | ⟨_, st', e, h2, _, _, h5⟩
    · exact absurd hir h1
    · cases e with
      | none => exact ⟨st', h2⟩
      | some x =>
        obtain ⟨j, be, _, _, s, buf, hf⟩ := h5 x rfl
        rw [R.fetch] at hf; simp at hf
  refine ⟨?_, ?_, ?_⟩
  · rcases flush_spec H.lawful st w hb with ⟨h0, _⟩ | ⟨_, st', e, m, F, h2⟩
    · unfold Cache.totalBlocks at hpos; omega
    · cases e with
      | none => exact ⟨st', h2⟩
      | some x =>
        obtain ⟨_, _, be, _, s, buf, hf, _⟩ := F.fail x rfl
        rw [R.flush] at hf; simp at hf
  · obtain ⟨st', h⟩ := hload
    exact ⟨st', by unfold loadAll; rw [h]; rfl⟩
  · obtain ⟨st', h⟩ := hload
    exact ⟨st', _, by unfold data loadAll; rw [h]; rfl⟩

/-- Storage that never fails. -/
def plain (bpb : Nat) : Backend Bytes where
  fetch s i _ := (s, slice s (i * bpb) bpb, none)
  flush s i buf := (splice s (i * bpb) buf, none)
  resize s _ := (s, some .notSupported)

theorem lawful_plain (bpb : Nat) : Lawful (plain bpb) bpb (fun s => s) :=
  ⟨fun _ _ _ => rfl, fun _ _ _ _ _ _ => rfl, fun _ _ _ _ _ _ => rfl,
    fun _ _ _ _ _ h => by simp [plain] at h, fun _ _ _ h => by simp [plain] at h, fun _ _ _ => rfl⟩

example : Reliable (plain 2) ∧ Setup (plain 2) 2 3 (fun s => s) [1, 2, 3, 4, 5, 6] :=
  ⟨⟨fun _ _ _ => rfl, fun _ _ _ => rfl⟩, lawful_plain 2, by omega, by decide +kernel, by simp⟩

/-! ### C20 -/

/-- C20 as stated. -/
def C20_statement : Prop :=
  ∀ (S : Type) (b : Backend S) (bpb total : Nat) (view : S → Bytes) (s0 : S),
    Setup b bpb total view s0 → ∀ (ops : List Op) (st st' : St S) (rs : List Result),
    After b bpb total s0 ops st rs → ∀ start count, count * bpb ≤ maxInt →
    markBlockRangeDirty st start count = .ret (st', .ok ()) → contents view st' = contents view st

/-- Marking a block that was never fetched makes it read as nulls (and Flush then destroys the
stored block). -/
theorem C20_refuted : ¬ C20_statement := by
  intro h
  have := h _ _ _ _ _ _ (setup_mem []) [] ⟨exampleCache, ([1, 2, 3, 4, 5, 6, 7, 8], [])⟩ _ []
    ⟨exampleCache, by decide +kernel, by simp, rfl⟩ 0 1 (by simp [maxInt]) rfl
  revert this
  decide +kernel

/-- Data loss, concretely: mark, flush, and the first block of the storage is gone. -/
theorem C20_refuted_data_loss : ∃ st st',
    markBlockRangeDirty ⟨exampleCache, (([1, 2, 3, 4, 5, 6, 7, 8] : Bytes), ([] : List Bool))⟩ 0 1 = .ret (st, .ok ()) ∧
    flush (mem 2) st = .ret (st', .ok ()) ∧ st'.s.1 = [0, 0, 3, 4, 5, 6, 7, 8] :=
  ⟨_, _, rfl, rfl, by decide +kernel⟩

/-- C20 for blocks that are already in the cache (because they were read, written, created by
Resize or obtained with GetSlice).  Missing: blocks never fetched (`C20_refuted`). -/
theorem C20_loaded_partial {b : Backend S} {bpb total : Nat} {view : S → Bytes} {s0 : S}
    (H : Setup b bpb total view s0) {ops : List Op} {st st' : St S} {rs : List Result}
    (ha : After b bpb total s0 ops st rs) {start count : Nat} (hc : count * bpb ≤ maxInt)
    (hl : ∀ j, start ≤ j → j < start + count → isLoaded st.c j = true)
    (hm : markBlockRangeDirty st start count = .ret (st', .ok ())) :
    contents view st' = contents view st ∧ view st'.s = view st.s ∧
    ∀ st'', flush b st' = .ret (st'', .ok ()) →
      (view st''.s).take (st.c.totalBlocks * bpb) = contents view st := by
  obtain ⟨w, rfl, _⟩ := after_spec H ha
  unfold markBlockRangeDirty at hm
  rw [u64_of_lt (by unfold maxInt at *; omega), checkBounds_eq w start hc] at hm
  by_cases hi : InRange st.c start (count * st.c.bpb)
  · rw [if_pos hi] at hm
    simp only [Outcome.bind_ret] at hm
    have hb := (inRange_blocks w.bpb_pos).1 hi
    have hbl := le_bitmapLen st.c.total
    obtain ⟨c', e1, e2, e3, e4, e5, e6, e7, e8⟩ := markLoop_spec count start st.c
      (by rw [w.loaded_len]; omega) (by rw [w.dirty_len]; omega)
    rw [e1] at hm
    simp only [Outcome.bind_ret, Outcome.pure_eq, Outcome.ret.injEq, Prod.mk.injEq] at hm
    obtain ⟨rfl, _⟩ := hm
    obtain ⟨w1, w2⟩ := poke_spec w (start := start) (count := count) (off := start * st.c.bpb) (v := [])
      (by omega) (by omega) (by simp) hl c' e2 e3 (by rw [e4]; simp) e5 e6 e7 e8
    rw [splice_nil] at w2
    refine ⟨w2, rfl, ?_⟩
    intro st'' hf
    obtain ⟨w3, t3, b3, c3, d3⟩ := flush_ok_spec H.lawful w1 e2 hf
    have := contents_of_clean w3 (by rw [t3]; exact d3)
    rw [c3, w2, t3, b3] at this
    simp only [e2, e3] at this
    exact this
  · rw [if_neg hi] at hm
    simp at hm

example : ∃ st rs st', After (mem 2) 2 3 ([1, 2, 3, 4, 5, 6, 7, 8], []) [.read [0, 0, 0] 0] st rs ∧
    (∀ j, 0 ≤ j → j < 0 + 2 → isLoaded st.c j = true) ∧
    markBlockRangeDirty st 0 2 = .ret (st', .ok ()) :=
  ⟨_, _, _, ⟨exampleCache, by decide +kernel, by simp [Valid, maxInt], rfl⟩,
    fun j _ h => by
      have : j = 0 ∨ j = 1 := by omega
      rcases this with rfl | rfl <;> decide +kernel, rfl⟩

/-! ### C21 -/

/-- The callbacks installed by WrapStream obey the contract (so C09-C16 apply to wrapped
streams). -/
theorem C21_wrapStream_lawful {bpb total : Nat} (hb : 0 < bpb) (allowResize : Bool) :
    Lawful (wrapStream bpb total allowResize) bpb Stream.bytes := by
  refine ⟨?_, ?_, ?_, ?_, ?_, ?_⟩
  · intro s i buf; simp only [wrapStream]; split <;> rfl
  · intro s i buf h1 h2 h3
    simp only [wrapStream] at h3 ⊢
    split
    · rename_i h; rw [if_pos h] at h3; simp at h3
    · simp only
      rw [h2]
      exact goCopy_eq_of_length (by rw [h2, length_slice_of_le h1])
  · intro s i buf h1 h2 h3
    simp only [wrapStream] at h3 ⊢
    split
    · rename_i h; rw [if_pos h] at h3; simp at h3
    · have e0 : i * bpb - s.bytes.length = 0 := by omega
      simp [Stream.writeAt, e0, splice]
  · intro s i buf _ h2 h3
    simp only [wrapStream] at h3 ⊢
    split
    · exact ⟨rfl, fun _ _ => rfl⟩
    · rename_i h; rw [if_neg h] at h3; simp at h3
  · intro s n _ h
    simp only [wrapStream] at h ⊢
    split
    · refine ⟨by simp [Stream.truncate]; omega, ?_⟩
      intro k h1 h2
      simp only [Stream.truncate]
      rw [List.getElem?_append_left (by simp; omega), List.getElem?_take, if_pos h1]
    · rename_i hh
      rw [if_neg hh] at h
      split at h <;> simp at h
  · intro s n h
    simp only [wrapStream] at h ⊢
    split
    · rename_i hh; rw [if_pos hh] at h; simp at h
    · split <;> rfl

/-- C21 as stated. -/
def C21_statement : Prop :=
  ∀ (bpb total : Nat) (f : Stream), Setup (wrapStream bpb total true) bpb total Stream.bytes f →
    f.canTruncate = true → ∀ (ops : List Op) (st : St Stream) (rs : List Result),
    After (wrapStream bpb total true) bpb total f ops st rs → 0 < st.c.totalBlocks →
    ∃ st', flush (wrapStream bpb total true) st = .ret (st', .ok ()) ∧
      st'.s.bytes.take (st.c.totalBlocks * bpb) = contents Stream.bytes st

/-- Growing works, but Flush then refuses the new blocks with ErrArgumentOutOfRange, forever. -/
theorem C21_refuted : ¬ C21_statement := by
  intro h
  have hs : Setup (wrapStream 2 1 true) 2 1 Stream.bytes ⟨[1, 2], true⟩ :=
    ⟨C21_wrapStream_lawful (by omega) _, by omega, by decide +kernel, by simp⟩
  obtain ⟨st', h1, _⟩ := h 2 1 ⟨[1, 2], true⟩ hs rfl [.resize 2] _ _
    ⟨⟨2, 1, List.replicate 8 false, List.replicate 8 false, [0, 0]⟩, by decide +kernel,
      by simp [Valid, maxInt], rfl⟩ (by decide +kernel)
  have hf : ∀ s', flush (wrapStream 2 1 true) ⟨⟨2, 2, [false, true, false, false, false, false, false, false],
      [false, true, false, false, false, false, false, false], [0, 0, 0, 0]⟩, ⟨[1, 2, 0, 0], true⟩⟩ ≠
      .ret (s', .ok ()) := by
    intro s' hh
    have : flush (wrapStream 2 1 true) ⟨⟨2, 2, [false, true, false, false, false, false, false, false],
      [false, true, false, false, false, false, false, false], [0, 0, 0, 0]⟩, ⟨[1, 2, 0, 0], true⟩⟩ =
      .ret (⟨⟨2, 2, [false, true, false, false, false, false, false, false],
      [false, true, false, false, false, false, false, false], [0, 0, 0, 0]⟩, ⟨[1, 2, 0, 0], true⟩⟩,
      .error (.flushFailed 1 .argumentOutOfRange)) := by decide +kernel
    rw [this] at hh; simp at hh
  exact hf _ h1

theorem total_le_run {b : Backend S} {bpb cap : Nat} {view : S → Bytes} (L : Lawful b bpb view)
    (ops : List Op) (st st' : St S) (rs : List Result) (h : WF view st) (hb : st.c.bpb = bpb)
    (hv : ∀ op ∈ ops, Valid bpb op) (hcap : st.c.total ≤ cap) (hr : ∀ n, .resize n ∈ ops → n ≤ cap)
    (hrun : runOps b st ops = .ret (st', rs)) : st'.c.total ≤ cap := by
  induction ops generalizing st rs with
  | nil => simp only [runOps, Outcome.ret.injEq, Prod.mk.injEq] at hrun; rw [← hrun.1]; exact hcap
  | cons op ops ih =>
    obtain ⟨st1, r, h1, s1⟩ := step_spec L st h hb op (hv op (by simp))
    obtain ⟨st2, rs2, h2, _⟩ := runOps_spec L ops st1 s1.wf (s1.bpb.trans hb) (fun o ho => hv o (by simp [ho]))
    unfold runOps at hrun
    rw [h1] at hrun
    simp only [Outcome.bind_ret, h2, Outcome.pure_eq, Outcome.ret.injEq, Prod.mk.injEq] at hrun
    obtain ⟨rfl, _⟩ := hrun
    refine ih st1 rs2 s1.wf (s1.bpb.trans hb) (fun o ho => hv o (by simp [ho])) ?_
      (fun n hn => hr n (by simp [hn])) h2
    rw [s1.total]
    unfold nextTotal
    split
    · exact hr _ (by simp)
    · exact hcap

/-- C21 for streams never grown beyond the size given to WrapStream (shrunk or not): Flush succeeds
and the stream then holds the cache's contents.  Missing: growth (`C21_refuted`). -/
theorem C21_wrapped_stream_partial {bpb total : Nat} {f : Stream} {allowResize : Bool}
    (H : Setup (wrapStream bpb total allowResize) bpb total Stream.bytes f) {ops : List Op}
    {st : St Stream} {rs : List Result}
    (ha : After (wrapStream bpb total allowResize) bpb total f ops st rs)
    (hr : ∀ n, .resize n ∈ ops → n ≤ total) (hpos : 0 < st.c.totalBlocks) :
    ∃ st', flush (wrapStream bpb total allowResize) st = .ret (st', .ok ()) ∧
      st'.s.bytes.take (st.c.totalBlocks * bpb) = contents Stream.bytes st := by
  obtain ⟨w, hb, _⟩ := after_spec H ha
  obtain ⟨c, hn, hv, hrun⟩ := ha
  obtain ⟨c', hn', w0, hb0, ht0, _⟩ := new_spec H.bpb_pos H.cap Stream.bytes f H.store
  rw [hn] at hn'; cases hn'
  have hle := total_le_run H.lawful ops ⟨c, f⟩ st rs w0 hb0 hv (Nat.le_of_eq ht0) hr hrun
  rcases flush_spec H.lawful st w hb with ⟨h0, _⟩ | ⟨_, st', e, m, F, h2⟩
  · unfold Cache.totalBlocks at hpos; omega
  · cases e with
    | some x =>
      obtain ⟨f1, _, be, _, s, buf, hf, _⟩ := F.fail x rfl
      simp only [wrapStream] at hf
      rw [if_neg (by omega)] at hf
      simp at hf
    | none =>
      refine ⟨st', h2, ?_⟩
      obtain ⟨w3, t3, b3, c3, d3⟩ := flush_ok_spec H.lawful w hb h2
      have := contents_of_clean w3 (by rw [t3]; exact d3)
      rw [c3, t3, b3, hb] at this
      exact this

example : ∃ st rs, After (wrapStream 2 3 true) 2 3 ⟨[1, 2, 3, 4, 5, 6], true⟩
      [.write [9, 9, 9] 0, .resize 2, .resize 3] st rs ∧ 0 < st.c.totalBlocks ∧
      contents Stream.bytes st = [9, 9, 9, 4, 0, 0] :=
  ⟨_, _, ⟨exampleCache, by decide +kernel, by simp [Valid, maxInt], rfl⟩, by decide +kernel,
    by decide +kernel⟩

/-! ### C22 -/

/-- C22: when Flush stops with an error (at a fetch or flush callback that fails, or that never
returns because of a crash), the storage holds, for every block other than the one being written,
either what it held before (blocks after it, and blocks that were not modified) or the cache's
contents (blocks before it); the cache's contents are intact, and a later Flush that succeeds makes
the storage equal to them. -/
theorem C22_interrupted_flush {b : Backend S} {bpb total : Nat} {view : S → Bytes} {s0 : S}
    (H : Setup b bpb total view s0) {ops : List Op} {st st' : St S} {rs : List Result}
    (ha : After b bpb total s0 ops st rs) (hpos : 0 < st.c.totalBlocks) {e : Err}
    (hf : flush b st = .ret (st', .error e)) :
    ∃ i be, e = .flushFailed i be ∧ i < st.c.totalBlocks ∧
      (∀ j, j < i →
        slice (view st'.s) (j * bpb) bpb = slice (contents view st) (j * bpb) bpb) ∧
      (∀ j, i < j → slice (view st'.s) (j * bpb) bpb = slice (view st.s) (j * bpb) bpb) ∧
      contents view st' = contents view st ∧
      (∀ st'', flush b st' = .ret (st'', .ok ()) →
        (view st''.s).take (st.c.totalBlocks * bpb) = contents view st) := by
  obtain ⟨w, rfl, _⟩ := after_spec H ha
  rcases flush_spec H.lawful st w rfl with ⟨h0, _⟩ | ⟨_, st1, e', m, F, h2⟩
  · unfold Cache.totalBlocks at hpos; omega
  · rw [h2] at hf
    cases e' with
    | none => simp [ofErr] at hf
    | some x =>
      simp only [ofErr, Outcome.ret.injEq, Prod.mk.injEq, Except.error.injEq] at hf
      obtain ⟨rfl, rfl⟩ := hf
      obtain ⟨f1, f2, be, f3, _⟩ := F.fail x rfl
      simp only [Nat.zero_add] at f2 f3
      have hblk : ∀ j k, k < st.c.bpb → (j * st.c.bpb + k) / st.c.bpb = j := by
        intro j k hk; rw [div_eq_block w.bpb_pos]; omega
      refine ⟨m, be, f3, f1, ?_, ?_, F.contents_eq w, ?_⟩
      · intro j hj
        apply List.ext_getElem?
        intro k
        rw [getElem?_slice, getElem?_slice]
        by_cases hk : k < st.c.bpb
        · have hlt : j * st.c.bpb + k < st.c.total * st.c.bpb := by
            have := block_end_le (n := st.c.bpb) (show j < st.c.total by omega); omega
          rw [if_pos hk, if_pos hk, F.stored _ (Or.inr (by rw [hblk j k hk]; omega)), hblk j k hk,
            getElem?_contents, if_pos hlt]
          by_cases hd : isDirty st.c j = true
          · rw [if_pos ⟨by omega, by omega, hd⟩]
            unfold byteAt
            rw [hblk j k hk, if_pos (w.dirty_loaded j (by omega) hd), List.getD_eq_getElem?_getD,
              List.getElem?_eq_getElem (by rw [w.data_len]; exact hlt)]; rfl
          · rw [if_neg (fun hh => hd hh.2.2), w.clean _ hlt (by rw [hblk j k hk]; simpa using hd),
              List.getD_eq_getElem?_getD, List.getElem?_eq_getElem (by have := w.store; omega)]; rfl
        · rw [if_neg hk, if_neg hk]
      · intro j hj
        apply List.ext_getElem?
        intro k
        rw [getElem?_slice, getElem?_slice]
        by_cases hk : k < st.c.bpb
        · rw [if_pos hk, if_pos hk, F.stored _ (Or.inr (by rw [hblk j k hk]; omega)), hblk j k hk,
            if_neg (by omega)]
        · rw [if_neg hk, if_neg hk]
      · intro st'' hf
        obtain ⟨w3, t3, b3, c3, d3⟩ := flush_ok_spec H.lawful F.wf F.bpb hf
        have := contents_of_clean w3 (by rw [t3]; exact d3)
        rw [c3, F.contents_eq w, t3, b3, F.total, F.bpb] at this
        exact this

example : ∃ st rs st', After (mem 2) 2 3 ([1, 2, 3, 4, 5, 6, 7, 8], [false, false, false, false, true])
      [.write [9, 9, 9, 9, 9] 0] st rs ∧
    flush (mem 2) st = .ret (st', .error (.flushFailed 1 (.other 2))) ∧
    st'.s.1 = [9, 9, 3, 4, 5, 6, 7, 8] :=
  ⟨_, _, _, ⟨exampleCache, by decide +kernel, by simp [Valid, maxInt], rfl⟩, rfl, by decide +kernel⟩

end Disko.BlockCache

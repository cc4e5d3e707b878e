import Verif.Stream.Run
/-!
C23-C34, C67, C68: streams.  A stream is opened on a block cache with any history, over any
storage obeying the callback contract, and used by any sequence of calls (`Spec.Reachable`).
-/
namespace Disko.Stream
open Disko Disko.BlockCache Disko.BlockCache.Spec Disko.Stream.Spec

variable {S : Type}

/-! ### Preliminaries (not claims) -/

theorem lastBlk_iff {bpb : Nat} {view : S → Bytes} {x : Stm S} (h : Inv bpb view x) (off len : Nat) :
    x.st.c.total ≤ lastBlk x off len ↔ capacity x ≤ off + len := by
  show _ ≤ (off + len) / _ ↔ x.st.c.total * _ ≤ _
  rw [Nat.le_div_iff_mul_le h.weak.bpb_pos]

theorem newTotal_eq {bpb : Nat} {view : S → Bytes} {x : Stm S} (h : Inv bpb view x) (off len : Nat) :
    newTotal x off len = blocksAfter x (off + len) := by
  unfold newTotal blocksAfter
  by_cases hc : x.st.c.total ≤ lastBlk x off len
  · rw [if_pos hc, if_pos ((lastBlk_iff h off len).1 hc)]
  · rw [if_neg hc, if_neg (mt (lastBlk_iff h off len).2 hc)]; rfl

theorem newSize_eq {bpb : Nat} {view : S → Bytes} {x : Stm S} (h : Inv bpb view x) (off len : Nat) :
    newSize x off len = if capacity x ≤ off + len then (off : Int) + len else x.size := by
  unfold newSize
  by_cases hc : x.st.c.total ≤ lastBlk x off len
  · rw [if_pos hc, if_pos ((lastBlk_iff h off len).1 hc)]
  · rw [if_neg hc, if_neg (mt (lastBlk_iff h off len).2 hc)]

theorem writeCall_cases {b : Backend S} {bpb : Nat} {view : S → Bytes} (L : Lawful b bpb view) {x : Stm S}
    (h : Inv bpb view x) {buf : Bytes} {off : Nat} {x' : Stm S} {n : Int} {e : Option SErr}
    (hc : WriteCall b x buf off x' n e) (hf : FitsWrite x buf.length off) :
    Inv bpb view x' ∧ x'.flags = x.flags ∧
    ((n = 0 ∧ ∃ y, e = some y ∧ NotWritten b view x buf off x' y) ∨
     (n = buf.length ∧ Wrote b view x buf off x' e)) := by
  cases hc with
  | write ho hw =>
    obtain ⟨x1, n1, e1, w1, w2, w3, w4⟩ := write_effect L h buf (by rw [ho]; exact hf)
    rw [hw] at w1
    simp only [Outcome.ret.injEq, Prod.mk.injEq] at w1
    obtain ⟨rfl, rfl, rfl⟩ := w1
    refine ⟨w2, w3, ?_⟩
    rw [ho] at w4
    rcases w4 with ⟨a1, rfl, rfl, rfl⟩ | ⟨_, _, w4⟩
    · left
      refine ⟨rfl, _, rfl, .inl ⟨rfl, a1, rfl, rfl⟩, .inl rfl, by rw [Nat.sub_self]; simp, rfl, fun _ => ⟨rfl, rfl⟩,
        Nat.le_refl _, .inl (by simp), .inl rfl, .inl ⟨rfl, rfl⟩⟩
    · simpa using w4
  | writeAt ha hw =>
    unfold Stream.writeAt at hw
    rw [ha] at hw
    simp only [Bool.false_eq_true, if_false] at hw
    obtain ⟨x1, n1, e1, w1, w2, w3, _, w4⟩ := implWriteAt_effect L h buf hf
    rw [hw] at w1
    simp only [Outcome.ret.injEq, Prod.mk.injEq] at w1
    obtain ⟨rfl, rfl, rfl⟩ := w1
    exact ⟨w2, w3, w4⟩

/-- The storage of the examples: 8 bytes. -/
def exStore : Bytes × List Bool := ([1, 2, 3, 4, 5, 6, 7, 8], [])

/-- The setting of the examples: 3 blocks of 2 bytes. -/
theorem exSetup : StreamSetup (mem 2) 2 3 (fun s => s.1) exStore :=
  ⟨setup_mem _, by decide +kernel⟩

/-- A stream of the examples, freshly opened. -/
def exStream (size : Int) (flags : Flags.IOFlags) : Stm (Bytes × List Bool) :=
  ⟨size, 0, ⟨exampleCache, exStore⟩, flags⟩

theorem exAfter : After (mem 2) 2 3 exStore [] ⟨exampleCache, exStore⟩ [] :=
  ⟨exampleCache, by decide +kernel, by simp, rfl⟩

theorem exReachable (size : Int) (flags : Flags.IOFlags) (h : 0 ≤ size ∧ size ≤ 6)
    (hf : Flags.truncate flags = false) : Reachable (mem 2) 2 3 exStore (exStream size flags) := by
  refine .opened exAfter (size := size) (flags := flags) (e := none) ?_
  unfold new
  have : exampleCache.size = 6 := by decide +kernel
  simp only [this]
  rw [if_neg (by omega), hf]; rfl

/-! ### C23 -/

/-- C23: what "the file" is when a stream is opened: the first `size` bytes of the flat array
that the history of the cache describes (C09). -/
theorem C23_open {b : Backend S} {bpb total : Nat} {view : S → Bytes} {s0 : S}
    (H : StreamSetup b bpb total view s0) {ops : List Op} {st : St S} {rs : List Result}
    (ha : After b bpb total s0 ops st rs) {size : Int} {flags : Flags.IOFlags}
    (ht : Flags.truncate flags = false) (h0 : 0 ≤ size) (h1 : size ≤ (st.c.totalBlocks * bpb : Nat)) :
    ∃ x a, new b size st flags = .ret (some x, none) ∧ x.size' = size ∧ x.tell = 0 ∧
      ConformsAll bpb ops rs ((view s0).take (total * bpb)) a ∧ file view x = a.take size.toNat := by
  obtain ⟨wf, hb, hc⟩ := after_spec H.cache ha
  refine ⟨{ size, position := 0, st, flags }, _, ?_, rfl, rfl, hc, rfl⟩
  have hsz : st.c.size = ((st.c.total * st.c.bpb : Nat) : Int) := cacheSize_eq wf (by rw [hb]; exact H.bpb_le)
  unfold new
  rw [hsz, hb, if_neg (show ¬ (size < 0 ∨ size > ((st.c.total * bpb : Nat) : Int)) from by
    have : st.c.totalBlocks = st.c.total := rfl
    rw [this] at h1; omega), ht]
  rfl

/-- C23: ReadAt returns the bytes of the file at the offset, as many as there are, and io.EOF
exactly when they are fewer than requested; the only other outcome is a failure of the fetch
callback, and then nothing is returned. -/
theorem C23_readAt {b : Backend S} {bpb total : Nat} {view : S → Bytes} {s0 : S}
    (H : StreamSetup b bpb total view s0) {x : Stm S} (hr : Reachable b bpb total s0 x)
    (hread : Flags.read x.flags = true) (buf : Bytes) (off : Nat) (hf : FitsRead x buf.length) :
    ((file view x).length : Int) = x.size' ∧
    ∃ x' r, readAt b x buf off = .ret (x', r) ∧ file view x' = file view x ∧ x'.size' = x.size' ∧
      x'.tell = x.tell ∧
      ((∃ n : Nat, r.n = n ∧ n = min buf.length ((file view x).length - off) ∧
          r.buf = slice (file view x) off n ++ buf.drop n ∧
          (r.err = none ∨ r.err = some .eof) ∧
          (r.err = some .eof ↔ buf ≠ [] ∧ n < buf.length)) ∨
       (∃ j be, r = ⟨buf, 0, some (.cache (.fetchFailed j be))⟩ ∧ FetchFails b x.st.c.totalBlocks j be)) := by
  have h := reachable_inv H hr
  have hlf := length_file h
  have hsn := h.size_nn
  refine ⟨by rw [hlf]; show ((x.size.toNat : Nat) : Int) = x.size; omega, ?_⟩
  rcases readAt_spec H.cache.lawful h buf (off := (off : Int)) (by omega) hf with
    ⟨a, _⟩ | ⟨_, hb, a⟩ | ⟨_, hb, a1, a⟩ | ⟨_, hb, a1, st', w, a | ⟨j, be, a2, a⟩⟩
  · rw [hread] at a; simp at a
  · exact ⟨_, _, a, rfl, rfl, rfl, .inl ⟨0, rfl, by rw [hb]; simp, by simp, .inl rfl, by simp [hb]⟩⟩
  · refine ⟨_, _, a, rfl, rfl, rfl, .inl ⟨0, rfl, by rw [hlf]; omega, by simp, .inr rfl, ?_⟩⟩
    have := List.length_pos_iff.2 hb
    simp [hb, this]
  · refine ⟨_, _, a, file_loads w, rfl, rfl, .inl ⟨avail x buf.length off, rfl, ?_, ?_, ?_, ?_⟩⟩
    · unfold avail; rw [hlf]; congr 1; omega
    · simp only [Int.toNat_natCast]
      have hl : (slice (file view x) off (avail x buf.length off)).length = avail x buf.length off :=
        length_slice_of_le (by unfold avail; omega)
      unfold goCopy
      rw [hl, List.take_of_length_le (by rw [hl]; unfold avail; omega)]
    · simp only; split <;> simp
    · simp only
      split
      · rename_i hlt; simp [hlt, hb]
      · rename_i hlt; simp [hlt]
  · exact ⟨_, _, a, file_loads w, rfl, rfl, .inr ⟨j, be, rfl, a2⟩⟩

/-- A read across blocks, stopping at the end of the file. -/
example : Reachable (mem 2) 2 3 exStore (exStream 5 Flags.O_RDWR) ∧
    (readAt (mem 2) (exStream 5 Flags.O_RDWR) [9, 9, 9, 9, 9] 1).bind (fun p => .ret p.2) =
      .ret ⟨[2, 3, 4, 5, 9], 4, some .eof⟩ :=
  ⟨exReachable _ _ (by omega) (by decide +kernel), by decide +kernel⟩

/-! ### C24 -/

/-- C24 in full: Read advances the position by the number of bytes it returned. -/
def C24_statement : Prop :=
  ∀ (S : Type) (b : Backend S) (bpb total : Nat) (view : S → Bytes) (s0 : S),
    StreamSetup b bpb total view s0 → ∀ x, Reachable b bpb total s0 x → ∀ buf : Bytes,
    FitsRead x buf.length → ∀ x' r, read b x buf = .ret (x', r) → x'.tell = x.tell + r.n

/-- The last, short read of a file does not advance: the same bytes are returned again. -/
theorem C24_refuted : ¬ C24_statement := by
  intro h
  have := h _ _ _ _ _ _ exSetup _ (exReachable 1 Flags.O_RDONLY (by omega) (by decide +kernel)) [0, 0]
    (by decide +kernel) _ ⟨[1, 0], 1, some .eof⟩ rfl
  revert this
  decide +kernel

/-- C24, for reads that return no error.  Missing: reads returning io.EOF together with data
(`C24_refuted`). -/
theorem C24_read_partial {b : Backend S} {bpb total : Nat} {view : S → Bytes} {s0 : S}
    (H : StreamSetup b bpb total view s0) {x : Stm S} (hr : Reachable b bpb total s0 x) (buf : Bytes)
    (hf : FitsRead x buf.length) :
    ∃ x' r, read b x buf = .ret (x', r) ∧ file view x' = file view x ∧
      (r.err = none → x'.tell = x.tell + r.n ∧ r.n = buf.length ∧
        r.buf = slice (file view x) x.tell.toNat buf.length) ∧
      (r.err ≠ none → x'.tell = x.tell) := by
  have h := reachable_inv H hr
  obtain ⟨x1, x', r, r1, r2, _, r4, r5⟩ := read_effect H.cache.lawful h buf hf
  refine ⟨x', r, r2, r4.file, ?_, ?_⟩
  · intro he
    rw [r5]
    refine ⟨by simp [he, Stm.tell], ?_⟩
    rcases readAt_spec H.cache.lawful h buf h.pos_nn hf with
      ⟨_, a⟩ | ⟨_, hb, a⟩ | ⟨_, _, _, a⟩ | ⟨_, _, a1, st', w, a | ⟨j, be, a2, a⟩⟩
    · rw [a] at r1; cases r1; simp at he
    · rw [a] at r1; cases r1; rw [hb]; simp
    · rw [a] at r1; cases r1; simp at he
    · rw [a] at r1; cases r1
      simp only at he ⊢
      have hav : avail x buf.length x.position = buf.length := by
        have : avail x buf.length x.position ≤ buf.length := by unfold avail; omega
        split at he
        · simp at he
        · omega
      rw [hav]
      refine ⟨rfl, ?_⟩
      apply goCopy_eq_of_length
      have hlf := length_file h
      have hp := h.pos_nn
      rw [length_slice_of_le]
      · unfold avail at hav; omega
    · rw [a] at r1; cases r1; simp at he
  · intro he
    rw [r5]
    simp [he, Stm.tell]

/-- C24: consecutive successful reads return consecutive data, nothing skipped, nothing twice. -/
theorem C24_sequence_partial {b : Backend S} {bpb total : Nat} {view : S → Bytes} {s0 : S}
    (H : StreamSetup b bpb total view s0) {x : Stm S} (hr : Reachable b bpb total s0 x) (bufs : List Bytes)
    (hf : ∀ buf ∈ bufs, FitsRead x buf.length) {x' : Stm S} {rs : List ReadRes}
    (hreads : reads b x bufs = .ret (x', rs)) (hok : ∀ r ∈ rs, r.err = none) :
    (rs.map (·.buf)).flatten = slice (file view x) x.tell.toNat bufs.flatten.length ∧
    x'.tell = x.tell + bufs.flatten.length := by
  induction bufs generalizing x rs with
  | nil =>
    simp only [reads, Outcome.ret.injEq, Prod.mk.injEq] at hreads
    obtain ⟨rfl, rfl⟩ := hreads
    simp
  | cons buf bufs ih =>
    obtain ⟨x1, r, r1, r2, r3, r4⟩ := C24_read_partial H hr buf (hf buf (by simp))
    unfold reads at hreads
    rw [r1] at hreads
    simp only [Outcome.bind_ret] at hreads
    rcases hrest : reads b x1 bufs with ⟨x2, rs2⟩ | _ | _
    · rw [hrest] at hreads
      simp only [Outcome.bind_ret, Outcome.pure_eq, Outcome.ret.injEq, Prod.mk.injEq] at hreads
      obtain ⟨rfl, rfl⟩ := hreads
      obtain ⟨k1, k2, k3⟩ := r3 (hok r (by simp))
      have hr1 : Reachable b bpb total s0 x1 := .call hr (c := .read buf) (hf buf (by simp)) (by simp [stepCall, r1])
      have hst : capacity x1 = capacity x := by
        obtain ⟨_, x1', r', _, q2, _, q4, _⟩ := read_effect H.cache.lawful (reachable_inv H hr) buf (hf buf (by simp))
        rw [r1] at q2; cases q2; exact q4.capacity
      obtain ⟨i1, i2⟩ := ih hr1 (fun c hc => by
        show capacity x1 + c.length ≤ maxInt
        rw [hst]; exact hf c (by simp [hc])) hrest (fun c hc => hok c (by simp [hc]))
      have hp := (reachable_inv H hr).pos_nn
      have ht : x1.tell.toNat = x.tell.toNat + buf.length := by
        rw [k1, k2]; unfold Stm.tell; omega
      rw [r2, ht] at i1
      refine ⟨?_, ?_⟩
      · simp only [List.map_cons, List.flatten_cons, List.length_append]
        rw [i1, k3, slice_append_slice]
      · rw [i2, k1, k2, List.flatten_cons, List.length_append]; omega
    · rw [hrest] at hreads; simp at hreads
    · rw [hrest] at hreads; simp at hreads

/-- Two reads of a file of 5 bytes, then a third, short one. -/
example : ∃ x', reads (mem 2) (exStream 5 Flags.O_RDONLY) [[0], [0, 0, 0]] =
    .ret (x', [⟨[1], 1, none⟩, ⟨[2, 3, 4], 3, none⟩]) ∧ x'.tell = 4 :=
  ⟨_, rfl, by decide +kernel⟩

/-! ### C25 -/

/-- C25: a stream opened without write permission: whatever calls are made, the size and the
contents stay the same, and so does the storage if nothing was waiting to be flushed. -/
theorem C25_readonly {b : Backend S} {bpb total : Nat} {view : S → Bytes} {s0 : S}
    (H : StreamSetup b bpb total view s0) {ops : List Op} {st : St S} {rs : List Result}
    (ha : After b bpb total s0 ops st rs) {size : Int} {flags : Flags.IOFlags} {x0 x : Stm S} {e : Option SErr}
    (hn : new b size st flags = .ret (some x0, e)) (hw : Flags.write flags = false) (hs : Steps b x0 x) :
    x.size' = size ∧ file view x = (contents view st).take size.toNat ∧
    contents view x.st = contents view st ∧
    ((∀ j, j < st.c.totalBlocks → isDirty st.c j = false) → view x.st.s = view st.s) := by
  have h0 := new_inv H ha hn
  have hx0 : x0 = { size, position := 0, st, flags } := by
    unfold new at hn
    split at hn
    · simp at hn
    · simp only at hn
      split at hn
      · unfold truncate at hn
        simp only [hw, Bool.not_false, if_true, Outcome.pure_eq, Outcome.bind_ret, Outcome.ret.injEq,
          Prod.mk.injEq, Option.some.injEq] at hn
        exact hn.1.symm
      · simp only [Outcome.pure_eq, Outcome.ret.injEq, Prod.mk.injEq, Option.some.injEq] at hn
        exact hn.1.symm
  have hst : Inv bpb view x ∧ x.flags = flags ∧ Still view x0 x := by
    clear hn
    induction hs with
    | refl => exact ⟨h0, by rw [hx0], .refl _ _⟩
    | call hs hf h ih =>
      obtain ⟨i1, i2, i3⟩ := ih
      rcases step_inv H.cache.lawful i1 _ hf with t | ⟨x', t1, t2, t3, t4⟩
      · rw [h] at t; simp at t
      · rw [h] at t1; cases t1
        exact ⟨t2, t3.trans i2, i3.trans (t4 (by rw [i2]; exact hw))⟩
  obtain ⟨_, _, s⟩ := hst
  have hf := s.file
  have hsz := s.size
  have hc := s.contents
  have hv := s.view_eq
  rw [hx0] at hf hsz hc hv
  exact ⟨hsz, hf, hc, fun hd => hv hd⟩

/-- C25: a stream opened without read permission never returns data, in any state. -/
theorem C25_writeonly (b : Backend S) {x : Stm S} (hr : Flags.read x.flags = false) :
    (∀ buf off, readAt b x buf off = .ret (x, ⟨buf, 0, some .notPermitted⟩)) ∧
    (∀ buf, read b x buf = .ret (x, ⟨buf, 0, some .notPermitted⟩)) ∧
    (∀ (W : Type) (k : Compression.Sink W) (w : W) (fuel : Nat),
      writeTo b k (fuel + 1) x w = .ret (x, w, 0, some .notPermitted)) := by
  have h1 : ∀ buf off, readAt b x buf off = .ret (x, ⟨buf, 0, some .notPermitted⟩) := by
    intro buf off; unfold readAt; rw [hr]; rfl
  have h2 : ∀ buf, read b x buf = .ret (x, ⟨buf, 0, some .notPermitted⟩) := by
    intro buf; unfold read; rw [h1]; rfl
  refine ⟨h1, h2, ?_⟩
  intro W k w fuel
  unfold writeTo writeToLoop
  rw [h2]; rfl

/-- C25: every call that would write is refused by a stream opened without write permission, in any state: nothing changes (the source of a
ReadFrom is not read from either), no byte is reported as written, and the error is ErrNotPermitted. -/
theorem C25_refused (b : Backend S) {x : Stm S} (hw : Flags.write x.flags = false) :
    (∀ n, truncate b x n = .ret (x, some .notPermitted)) ∧
    (∀ buf, write b x buf = .ret (x, 0, some .notPermitted)) ∧
    (∀ buf off, writeAt b x buf off = .ret (x, 0, some .notPermitted)) ∧
    (∀ (R : Type) (src : Source R) (blockSize fuel : Nat) (r : R), readFrom b src blockSize fuel x r = .ret (x, r, 0, some .notPermitted)) := by
  refine ⟨fun n => ?_, fun buf => ?_, fun buf off => ?_, fun R src bs fuel r => ?_⟩
  · unfold truncate; rw [hw]; rfl
  · unfold write; rw [hw]; rfl
  · unfold writeAt implWriteAt
    rw [hw]
    split <;> rfl
  · unfold readFrom; rw [hw]; rfl

/-- Whether reading and writing are permitted is decided by the two lowest bits of the flags:
0 read only, 1 write only, 2 both, 3 neither. -/
theorem C25_flags (f : Flags.IOFlags) :
    (Flags.read f = true ↔ f &&& 3 = 0 ∨ f &&& 3 = 2) ∧ (Flags.write f = true ↔ f &&& 3 = 1 ∨ f &&& 3 = 2) := by
  have e : Flags.O_ACCMODE = 3 := by decide +kernel
  have e1 : Flags.O_RDWR = 2 := rfl
  have e2 : Flags.O_RDONLY = 0 := rfl
  have e3 : Flags.O_WRONLY = 1 := rfl
  unfold Flags.read Flags.write
  rw [e, e1, e2, e3]
  generalize f &&& 3 = g
  constructor
  · simp [or_comm]
  · simp [or_comm]

/-- A read-only history with writes, truncation and Sync in it. -/
example : ∃ x, Steps (mem 2) (exStream 5 Flags.O_RDONLY) x ∧ x.tell = 2 ∧ x.st.s.1 = exStore.1 := by
  refine ⟨_, .call (c := .sync) (.call (c := .truncate 0) (.call (c := .write [7]) (.call (c := .read [0, 0])
    (.refl _) ?_ rfl) ?_ rfl) ?_ rfl) ?_ rfl, by decide +kernel, by decide +kernel⟩
  · show FitsRead _ _; decide +kernel
  · show FitsWrite _ _ _; decide +kernel
  · show FitsSize _ _; decide +kernel
  · trivial

end Disko.Stream

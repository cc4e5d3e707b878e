import Verif.Stream.Props2
import Verif.Stream.CopyLemmas
/-!
C30, C32-C34, C67, C68: durability, WriteTo and ReadFrom, empty files, panics and failed writes.
-/
namespace Disko.Stream
open Disko Disko.BlockCache Disko.BlockCache.Spec Disko.Stream.Spec

variable {S : Type}

/-! ### C30 -/

/-- C30 in full: after a write that returned nil and a Sync (or Close) that returned nil, the
storage holds the written bytes. -/
def C30_statement : Prop :=
  ∀ (S : Type) (b : Backend S) (bpb total : Nat) (view : S → Bytes) (s0 : S),
    StreamSetup b bpb total view s0 → ∀ x, Reachable b bpb total s0 x →
    ∀ (buf : Bytes) (off : Nat), FitsWrite x buf.length off → ∀ x' n x'',
    WriteCall b x buf off x' n none → sync b x' = .ret (x'', none) →
      slice (view x''.st.s) off buf.length = buf

/-- Overwriting a byte of an existing block never reaches the storage: the block is not marked
dirty. -/
theorem C30_refuted : ¬ C30_statement := by
  intro h
  obtain ⟨x', hw, hs⟩ := ret_of (o := writeAt (steady 2) (okStream 6 Flags.O_RDWR) [7] 0)
    (fun x' => (sync (steady 2) x').bind (fun p => .ret (p.1.st.s, p.2)))
    (r := (1, none)) (v := .ret ([1, 2, 3, 4, 5, 6], none)) (by decide +kernel)
  rcases hy : sync (steady 2) x' with ⟨x'', e⟩ | _ | _
  · rw [hy] at hs
    simp only [Outcome.bind, Outcome.ret.injEq, Prod.mk.injEq] at hs
    obtain ⟨hs1, rfl⟩ := hs
    have := h _ _ _ _ _ _ okSetup _ (okReachable 6 Flags.O_RDWR (by omega) (by decide +kernel))
      [7] 0 (by decide +kernel) x' 1 x'' (.writeAt (by decide +kernel) hw) hy
    simp only [hs1] at this
    revert this
    decide +kernel
  · rw [hy] at hs; simp [Outcome.bind] at hs
  · rw [hy] at hs; simp [Outcome.bind] at hs

/-- The same with O_SYNC and in blocks added by the write: they are flushed before the data is
copied into them, and are not dirty afterwards. -/
example : (write (steady 2) (okStream 1 (Flags.O_RDWR ||| Flags.O_SYNC)) [9, 9, 9, 9, 9, 9, 9]).bind
      (fun p => (sync (steady 2) p.1).bind fun q => .ret (p.2, q.1.st.s, q.2)) =
    .ret ((7, none), [1, 2, 3, 4, 5, 6, 0, 0], none) := by decide +kernel

/-- C30 without O_SYNC, for the bytes in blocks that the write added to the object, or that were
already waiting to be flushed.  Missing: bytes in other blocks, and O_SYNC (`C30_refuted` and the
example after it). -/
theorem C30_stored_partial {b : Backend S} {bpb total : Nat} {view : S → Bytes} {s0 : S}
    (H : StreamSetup b bpb total view s0) {x : Stm S} (hr : Reachable b bpb total s0 x)
    (hns : Flags.synchronous x.flags = false) (buf : Bytes) (off : Nat) (hf : FitsWrite x buf.length off)
    {x' x'' : Stm S} {n : Int} (hw : WriteCall b x buf off x' n none) (hs : sync b x' = .ret (x'', none)) :
    ∀ k, k < buf.length → (x.st.c.totalBlocks ≤ (off + k) / bpb ∨ isDirty x.st.c ((off + k) / bpb) = true) →
      (view x''.st.s)[off + k]? = buf[k]? := by
  have h := reachable_inv H hr
  obtain ⟨h2, _, ⟨_, y, hy, _⟩ | ⟨rfl, w⟩⟩ := writeCall_cases H.cache.lawful h hw hf
  · simp at hy
  obtain ⟨x3, e, s1, s2, s3⟩ := sync_spec H.cache.lawful h2
  rw [hs] at s1; cases s1
  intro k hk hd
  obtain ⟨_, p2, p3⟩ := w.plain hns
  have hb : x'.st.c.bpb = bpb := h2.bpb
  have hin := w.inside
  have hlt : off + k < x'.st.c.total * x'.st.c.bpb := by rw [w.bpb]; omega
  have hj : (off + k) / bpb < x'.st.c.total := by
    rw [Nat.div_lt_iff_lt_mul (by rw [← hb]; exact h2.weak.bpb_pos), ← hb]; exact hlt
  rw [s3.stored rfl, if_pos, p3 k hk]
  refine ⟨hlt, ?_⟩
  rw [hb, p2 _ hj]
  rcases hd with hd | hd
  · rw [if_pos (show x.st.c.total ≤ _ from hd)]
  · split
    · rfl
    · exact hd

/-- C30 with O_SYNC: after a write that returns nil no block is waiting to be flushed (so a failed
flush is never hidden).  Missing: that the written bytes are in
the storage, which is false (example above). -/
theorem C30_osync_partial {b : Backend S} {bpb total : Nat} {view : S → Bytes} {s0 : S}
    (H : StreamSetup b bpb total view s0) {x : Stm S} (hr : Reachable b bpb total s0 x)
    (hsy : Flags.synchronous x.flags = true) (buf : Bytes) (off : Nat) (hf : FitsWrite x buf.length off)
    {x' : Stm S} {n : Int} (hw : WriteCall b x buf off x' n none) :
    ∀ j, j < x'.st.c.totalBlocks → isDirty x'.st.c j = false := by
  have h := reachable_inv H hr
  obtain ⟨h2, _, ⟨_, y, hy, _⟩ | ⟨rfl, w⟩⟩ := writeCall_cases H.cache.lawful h hw hf
  · simp at hy
  exact w.synced hsy rfl

/-- 7 bytes written to an object with room for 6: only the one in the added block reaches the storage. -/
example : FitsWrite (okStream 1 Flags.O_RDWR) 7 0 ∧
    (write (steady 2) (okStream 1 Flags.O_RDWR) [9, 9, 9, 9, 9, 9, 9]).bind
      (fun p => (sync (steady 2) p.1).bind fun q => .ret (p.2, q.1.st.s, q.2)) =
    .ret ((7, none), [1, 2, 3, 4, 5, 6, 9, 0], none) := by decide +kernel

/-! ### C32 -/

/-- C32 in full: a WriteTo that returns nil passed the bytes from the position to the end of the
file to the writer and returns their number; and if the writer failed, WriteTo fails. -/
def C32_statement : Prop :=
  ∀ (S : Type) (b : Backend S) (bpb total : Nat) (view : S → Bytes) (s0 : S),
    StreamSetup b bpb total view s0 → ∀ x, Reachable b bpb total s0 x → FitsRead x x.st.c.bpb →
    ∀ (W : Type) (k : Compression.Sink W) (w : W) (fuel : Nat) x' w' n e,
    writeTo b k fuel x w = .ret (x', w', n, e) →
      (e = none → k.accepted w' = k.accepted w ++ (file view x).drop x.tell.toNat ∧
        n = ((file view x).drop x.tell.toNat).length) ∧
      (k.failure w = none → k.failure w' ≠ none → e ≠ none)

/-- A writer that accepts nothing. -/
def failSink : Compression.Sink (Option Nat) where
  write _ _ := (some 1, 0, some 1)
  accepted _ := []
  failure w := w
  law _ _ := ⟨Nat.zero_le _, by simp, by simp⟩
  failure_law _ _ := rfl

/-- The writer's errors are ignored. -/
theorem C32_refuted : ¬ C32_statement := by
  intro h
  obtain ⟨x', hw, _⟩ := ret_of (o := writeTo (steady 2) failSink 5 (okStream 3 Flags.O_RDWR) none) Stm.tell
    (r := (some 1, 3, none)) (v := 2) (by decide +kernel)
  have := (h _ _ _ _ _ _ okSetup _ (okReachable 3 Flags.O_RDWR (by omega) (by decide +kernel)) (by decide +kernel)
    _ failSink none 5 x' (some 1) 3 none hw).1 rfl
  revert this
  decide +kernel

theorem accepted_foldl {W : Type} (k : Compression.Sink W) (ps : List Bytes) (w : W)
    (h : k.failure (ps.foldl (fun v p => (k.write v p).1) w) = none) :
    k.accepted (ps.foldl (fun v p => (k.write v p).1) w) = k.accepted w ++ ps.flatten := by
  induction ps generalizing w with
  | nil => simp
  | cons p ps ih =>
    rw [List.foldl_cons] at h ⊢
    have hl : ∀ (qs : List Bytes) (v : W), k.failure (qs.foldl (fun v p => (k.write v p).1) v) = none → k.failure v = none := by
      intro qs
      induction qs with
      | nil => intro v hv; exact hv
      | cons q qs ihq =>
        intro v hv
        rw [List.foldl_cons] at hv
        have := ihq _ hv
        rw [k.failure_law] at this
        exact (Option.or_eq_none_iff.1 this).2
    have h1 := hl ps _ h
    rw [k.failure_law] at h1
    obtain ⟨l1, l2, l3⟩ := k.law w p
    rw [ih _ h, l2, l3 (Option.or_eq_none_iff.1 h1).1, List.take_length, List.append_assoc, List.flatten_cons]

/-- C32, what the writer is given, for any writer: consecutive pieces of the rest of the file, in
order, once, all of it when WriteTo returns nil; the number returned is the number of bytes
given; the writer is left in the state those writes lead to.  WriteTo returns after at most
one iteration more than there are bytes left; it changes nothing but the position; it fails only
if the fetch callback fails (or the stream may not be read).  Missing: WriteTo should fail when
the writer does (`C32_refuted`). -/
theorem C32_writeTo_partial {b : Backend S} {bpb total : Nat} {view : S → Bytes} {s0 : S}
    (H : StreamSetup b bpb total view s0) {x : Stm S} (hr : Reachable b bpb total s0 x)
    (hf : FitsRead x x.st.c.bpb) {W : Type} (k : Compression.Sink W) (w : W) (fuel : Nat)
    (hfuel : ((file view x).drop x.tell.toNat).length < fuel) :
    ∃ (x' : Stm S) (w' : W) (n : Int) (e : Option SErr) (ps : List Bytes), writeTo b k fuel x w = .ret (x', w', n, e) ∧
      file view x' = file view x ∧ w' = ps.foldl (fun v p => (k.write v p).1) w ∧
      ps.flatten <+: (file view x).drop x.tell.toNat ∧ n = ps.flatten.length ∧
      (e = none → ps.flatten = (file view x).drop x.tell.toNat) ∧
      (∀ y, e = some y → CallbackFailed b y ∨ (y = .notPermitted ∧ Flags.read x.flags = false)) := by
  have h := reachable_inv H hr
  have hlf := length_file h
  have hsl := h.size_lt
  have hsn := h.size_nn
  rcases writeToLoop_effect H.cache.lawful k fuel (List.replicate x.st.c.bpb 0) x (w, []) 0 h
      (by rw [List.length_replicate]; exact h.bpb) (by rw [← h.bpb]; exact hf) (Int.le_refl _) (by
        rw [List.length_drop, hlf]; omega) with
    ⟨_, t⟩ | ⟨x', w', n, e, ps, t1, t2, t3, t4, t5, t6, t7, _⟩
  · exact absurd hfuel (Nat.not_lt.2 t)
  · refine ⟨x', w', n, e, ps, ?_, t3.file, ?_, t4, by omega, t6, t7⟩
    · unfold writeTo
      rw [writeToLoop_recording b k fuel _ x w [] 0, t1]; rfl
    · have := writeToLoop_replay b k fuel _ x w [] 0 (ps := ps) t1
      exact this

/-- C32: with a writer that did not fail, a WriteTo that returns nil has passed on exactly the
rest of the file. -/
theorem C32_accepted_partial {b : Backend S} {bpb total : Nat} {view : S → Bytes} {s0 : S}
    (H : StreamSetup b bpb total view s0) {x : Stm S} (hr : Reachable b bpb total s0 x)
    (hf : FitsRead x x.st.c.bpb) {W : Type} (k : Compression.Sink W) (w : W) (fuel : Nat)
    (hfuel : ((file view x).drop x.tell.toNat).length < fuel) {x' : Stm S} {w' : W} {n : Int}
    (hw : writeTo b k fuel x w = .ret (x', w', n, none)) (hok : k.failure w' = none) :
    k.accepted w' = k.accepted w ++ (file view x).drop x.tell.toNat ∧
      n = ((file view x).drop x.tell.toNat).length := by
  obtain ⟨x1, w1, n1, e1, ps, t1, _, rfl, _, t5, t6, _⟩ := C32_writeTo_partial H hr hf k w fuel hfuel
  rw [hw] at t1; cases t1
  rw [← t6 rfl]
  exact ⟨accepted_foldl k ps w hok, t5⟩

/-- C32, exactly, with callbacks that never fail and a stream that can be read: whatever the writer does - also if it fails every time - WriteTo gives it
the whole rest of the file, piece by piece, and returns its length and nil. -/
theorem C32_exact_partial {b : Backend S} {bpb total : Nat} {view : S → Bytes} {s0 : S}
    (H : StreamSetup b bpb total view s0) (R : AllReliable b) {x : Stm S} (hr : Reachable b bpb total s0 x) (hread : Flags.read x.flags = true)
    (hf : FitsRead x x.st.c.bpb) {W : Type} (k : Compression.Sink W) (w : W) (fuel : Nat)
    (hfuel : ((file view x).drop x.tell.toNat).length < fuel) :
    ∃ (x' : Stm S) (w' : W) (ps : List Bytes),
      writeTo b k fuel x w = .ret (x', w', (((file view x).drop x.tell.toNat).length : Nat), none) ∧
      file view x' = file view x ∧ w' = ps.foldl (fun v p => (k.write v p).1) w ∧ ps.flatten = (file view x).drop x.tell.toNat := by
  obtain ⟨x1, w1, n1, e1, ps, t1, t2, t3, _, t5, t6, t7⟩ := C32_writeTo_partial H hr hf k w fuel hfuel
  cases e1 with
  | none =>
    have := t6 rfl
    exact ⟨x1, w1, ps, by rw [t1, t5, this], t2, t3, this⟩
  | some y =>
    rcases t7 y rfl with h | ⟨_, h⟩
    · exact absurd h (Copying.noFail R y)
    · rw [hread] at h; cases h

example : AllReliable (steady 2) ∧ Flags.read (okStream 5 Flags.O_RDONLY).flags = true ∧ FitsRead (okStream 5 Flags.O_RDONLY) 2 :=
  ⟨okReliable, by decide +kernel, by decide +kernel⟩

/-- The rest of a file of 5 bytes from position 0, with a buffer of one block (2 bytes). -/
example : (writeTo (steady 2) Compression.bufferSink 6 (okStream 5 Flags.O_RDONLY) []).bind (fun p => .ret p.2) =
    .ret ([1, 2, 3, 4, 5], 5, none) := by decide +kernel

/-! ### C33 -/

/-- C33 in full: when ReadFrom returns nil, the chunks the reader delivered (recorded by
`recordingSource`) were all written, each by a Write that returned nil. -/
def C33_statement : Prop :=
  ∀ (S : Type) (b : Backend S) (bpb total : Nat) (view : S → Bytes) (s0 : S),
    StreamSetup b bpb total view s0 → ∀ x, Reachable b bpb total s0 x →
    ∀ (R : Type) (src : Source R) (r : R) (bs fuel : Nat), FitsReadFrom b src bs x r → ∀ x' r' l' n,
    readFrom b (recordingSource src) bs fuel x (r, []) = .ret (x', (r', l'), n, none) →
      ∃ chunks x1, chunks.flatten = l'.flatten ∧ Written b x chunks x1 ∧ n = l'.flatten.length

/-- A reader that delivers two bytes together with io.EOF. -/
def onceSource : Source Unit where
  read _ n := ((), ([7, 7] : Bytes).take n, some .eof)
  law _ n := by rw [List.length_take]; omega

/-- The error of the last Write is not reported: here position 4 of a file of 6 bytes. -/
theorem C33_refuted : ¬ C33_statement := by
  intro h
  have hr : Reachable (steady 2) 2 3 [1, 2, 3, 4, 5, 6] { okStream 6 Flags.O_RDWR with position := 4 } :=
    .call (c := .seek 4 0) (okReachable 6 Flags.O_RDWR (by omega) (by decide +kernel))
      (by show -(2 ^ 63) ≤ (4 : Int) ∧ (4 : Int) < 2 ^ 63; omega) rfl
  obtain ⟨x', hw, _⟩ := ret_of (o := readFrom (steady 2) (recordingSource onceSource) 512 5
      { okStream 6 Flags.O_RDWR with position := 4 } ((), [])) Stm.tell
    (r := (((), [[7, 7]]), 2, none)) (v := 4) (by decide +kernel)
  have hnw : (write (steady 2) { okStream 6 Flags.O_RDWR with position := 4 } [7, 7]).bind (fun p => .ret p.2) =
      .ret (0, some (.cache .argumentOutOfRange)) := by decide +kernel
  have hfit : FitsReadFrom (steady 2) onceSource 512 { okStream 6 Flags.O_RDWR with position := 4 } () := by
    refine .mk _ _ (by decide +kernel) ?_
    intro x' n hx
    have : (onceSource.read () 512).2.1 = [7, 7] := by decide +kernel
    rw [this] at hx
    rw [hx] at hnw
    simp [Outcome.bind] at hnw
  obtain ⟨chunks, x1, hc, hwr, _⟩ := h _ _ _ _ _ _ okSetup _ hr _ onceSource () 512 5 hfit x' () [[7, 7]] 2 hw
  clear hfit hw h hr
  have hc' : chunks.flatten = [7, 7] := hc
  clear hc
  -- whatever the chunks, the first non-empty Write at this position fails
  have key : ∀ (y : Stm Bytes) chunks, Written (steady 2) y chunks x1 →
      y = { okStream 6 Flags.O_RDWR with position := 4 } → chunks.flatten = [7, 7] → False := by
    intro y chunks hwr
    induction hwr with
    | nil => intro _ h; simp at h
    | cons hwc hrest ih =>
      rename_i z z1 z2 chunk chunks
      intro hz hcs
      subst hz
      rw [List.flatten_cons] at hcs
      have hcase : chunk = [] ∨ chunk = [7] ∨ chunk = [7, 7] := by
        rcases chunk with _ | ⟨a, _ | ⟨c, _ | ⟨d, rest⟩⟩⟩
        · exact .inl rfl
        · right; left; simp at hcs; rw [hcs.1]
        · right; right; simp at hcs; rw [hcs.1, hcs.2.1]
        · simp at hcs
      rcases hcase with rfl | rfl | rfl
      · have : (write (steady 2) { okStream 6 Flags.O_RDWR with position := 4 } []).bind (fun p => .ret p.2) =
            .ret (0, some (.cache .argumentOutOfRange)) := by decide +kernel
        rw [hwc] at this; simp [Outcome.bind] at this
      · have : (write (steady 2) { okStream 6 Flags.O_RDWR with position := 4 } [7]).bind (fun p => .ret p.2) =
            .ret (0, some (.cache .argumentOutOfRange)) := by decide +kernel
        rw [hwc] at this; simp [Outcome.bind] at this
      · rw [hwc] at hnw; simp [Outcome.bind] at hnw
  exact key _ _ hwr rfl hc'

/-- C33 for readers that never return data together with an error (such as files and buffers):
everything delivered was written by Writes that returned nil, in order, and counted.  The last,
empty Write (after io.EOF) may fail unreported.  Missing: readers that return data with io.EOF
(`C33_refuted`). -/
theorem C33_readFrom_partial {b : Backend S} {bpb total : Nat} {view : S → Bytes} {s0 : S}
    (H : StreamSetup b bpb total view s0) {x : Stm S} (hr : Reachable b bpb total s0 x) {R : Type}
    (src : Source R) (hsep : ∀ r n, (src.read r n).2.2 ≠ none → (src.read r n).2.1 = []) (r : R) (bs fuel : Nat)
    (hf : FitsReadFrom b src bs x r) {x' : Stm S} {r' : R} {l' : List Bytes} {n : Int}
    (h : readFrom b (recordingSource src) bs fuel x (r, []) = .ret (x', (r', l'), n, none)) :
    ∃ chunks x1, chunks.flatten = l'.flatten ∧ Written b x chunks x1 ∧
      n = i64 l'.flatten.length ∧ ∃ m e, write b x1 [] = .ret (x', m, e) := by
  have hi := reachable_inv H hr
  unfold readFrom at h
  cases hw : Flags.write x.flags with
  | false => rw [hw] at h; simp at h
  | true =>
    rw [hw] at h
    simp only [Bool.not_true, Bool.false_eq_true, if_false] at h
    obtain ⟨chunks, x1, m, e, c1, c2, c3, c4⟩ :=
      readFromLoop_written H.cache.lawful src hsep bs fuel x r [] 0 hi hw hf h
    have hfl : chunks.flatten = l'.flatten := by rw [c1]; simp
    refine ⟨chunks, x1, hfl, c2, ?_, m, e, c3⟩
    rw [c4, hfl, Int.zero_add]

/-- A reader that delivers one chunk and then io.EOF. -/
def chunkSource : Source (List Bytes) where
  read r n := (r.tail, (r.headD []).take n, if r = [] then some .eof else none)
  law _ n := by simp only [List.length_take]; omega

example : (∀ r n, (chunkSource.read r n).2.2 ≠ none → (chunkSource.read r n).2.1 = []) ∧
    (readFrom (steady 2) (recordingSource chunkSource) 512 5 (okStream 1 Flags.O_RDWR) ([[9, 9, 9]], [])).bind
      (fun p => .ret (contents (fun s => s) p.1.st, p.2.2)) = .ret ([9, 9, 9, 4, 5, 6], 3, none) := by
  refine ⟨?_, by decide +kernel⟩
  intro r n h
  by_cases hr : r = []
  · subst hr; simp [chunkSource]
  · simp [chunkSource, hr] at h

/-! ### C34 -/

/-- C34 in full, with callbacks that never fail. -/
def C34_statement : Prop :=
  ∀ (S : Type) (b : Backend S) (bpb total : Nat) (view : S → Bytes) (s0 : S),
    StreamSetup b bpb total view s0 → AllReliable b →
    (∀ x, Reachable b bpb total s0 x → ∃ x', sync b x = .ret (x', none)) ∧
    (∀ ops st rs, After b bpb total s0 ops st rs → ∀ flags, Flags.write flags = true →
      Flags.truncate flags = true → ∃ x, new b 0 st flags = .ret (some x, none) ∧ x.size' = 0)

/-- Sync fails on an empty file, and so does opening with O_TRUNC and O_SYNC. -/
theorem C34_refuted : ¬ C34_statement := by
  intro h
  obtain ⟨x, hx, _⟩ := (h _ _ _ _ _ _ okSetup okReliable).2 [] ⟨exampleCache, [1, 2, 3, 4, 5, 6]⟩ []
    ⟨exampleCache, by decide +kernel, by simp, rfl⟩ (Flags.O_RDWR ||| Flags.O_TRUNC ||| Flags.O_SYNC)
    (by decide +kernel) (by decide +kernel)
  have : (new (steady 2) 0 ⟨exampleCache, [1, 2, 3, 4, 5, 6]⟩ (Flags.O_RDWR ||| Flags.O_TRUNC ||| Flags.O_SYNC)).bind
      (fun p => .ret p.2) = .ret (some (.cache .argumentOutOfRange)) := by decide +kernel
  rw [hx] at this
  simp [Outcome.bind] at this

/-- Also without O_SYNC: open with O_TRUNC, then Close. -/
example : (new (steady 2) 0 ⟨exampleCache, [1, 2, 3, 4, 5, 6]⟩ (Flags.O_RDWR ||| Flags.O_TRUNC)).bind
    (fun p => match p with
      | (some x, none) => (sync (steady 2) x).bind fun q => .ret q.2
      | _ => .panic) = .ret (some (.cache .argumentOutOfRange)) := by decide +kernel

/-- C34 for objects of at least one block: Sync and Close fail only if a callback fails.
Missing: objects of 0 blocks, on which they always fail. -/
theorem C34_sync_partial {b : Backend S} {bpb total : Nat} {view : S → Bytes} {s0 : S}
    (H : StreamSetup b bpb total view s0) {x : Stm S} (hr : Reachable b bpb total s0 x) :
    ∃ x' e, sync b x = .ret (x', e) ∧ file view x' = file view x ∧ x'.tell = x.tell ∧
      (0 < x.st.c.totalBlocks → ∀ y, e = some y → CallbackFailed b y) ∧
      (x.st.c.totalBlocks = 0 → e = some (.cache .argumentOutOfRange)) := by
  have h := reachable_inv H hr
  obtain ⟨x', e, s1, s2, s3⟩ := sync_spec H.cache.lawful h
  refine ⟨x', e, s1, by unfold file; rw [s3.contents, s3.size], s3.position, ?_, s3.empty⟩
  intro hp y hy
  rcases s3.err y hy with ⟨_, z, _⟩ | ⟨_, z⟩
  · have : x.st.c.totalBlocks = x.st.c.total := rfl
    omega
  · exact z

/-- C34: opening with O_TRUNC and without O_SYNC, for writing, gives an empty file, and fails only
if the resize callback fails.  Missing: O_SYNC (`C34_refuted`). -/
theorem C34_truncate_partial {b : Backend S} {bpb total : Nat} {view : S → Bytes} {s0 : S}
    (H : StreamSetup b bpb total view s0) {ops : List Op} {st : St S} {rs : List Result}
    (ha : After b bpb total s0 ops st rs) {size : Int} {flags : Flags.IOFlags}
    (h0 : 0 ≤ size) (h1 : size ≤ (st.c.totalBlocks * bpb : Nat))
    (hw : Flags.write flags = true) (ht : Flags.truncate flags = true) (hs : Flags.synchronous flags = false) :
    ∃ x e, new b size st flags = .ret (some x, e) ∧ x.tell = 0 ∧
      ((e = none ∧ x.size' = 0 ∧ file view x = []) ∨
       (∃ be, e = some (.cache (.resizeFailed be)) ∧ (∃ s n, (b.resize s n).2 = some be) ∧
        x.size' = size ∧ file view x = (contents view st).take size.toNat)) := by
  obtain ⟨wf, hb, hc⟩ := after_spec H.cache ha
  have hsz : st.c.size = ((st.c.total * st.c.bpb : Nat) : Int) := cacheSize_eq wf (by rw [hb]; exact H.bpb_le)
  have htb : st.c.totalBlocks = st.c.total := rfl
  rw [htb] at h1
  have hinv : Inv bpb view { size, position := 0, st, flags } :=
    ⟨WF.weak wf, hb, by show st.c.bpb ≤ _; rw [hb]; exact H.bpb_le, h0, by show size ≤ _; rw [hb]; exact h1,
      Int.le_refl _, by show (0 : Int) < _; omega⟩
  have hbl := H.bpb_le
  unfold new
  rw [hsz, hb, if_neg (show ¬ (size < 0 ∨ size > ((st.c.total * bpb : Nat) : Int)) from by omega), ht]
  simp only [if_true]
  rcases truncate_spec H.cache.lawful hinv (n := 0) (by show (0 : Int) + st.c.bpb ≤ maxInt; omega) with
    ⟨q, _⟩ | ⟨_, q, _⟩ | ⟨_, _, s', be, t, ⟨m, t2⟩, _, _, t7⟩ | ⟨_, _, x1, t3, t4, t5⟩
  · rw [hw] at q; simp at q
  · omega
  · rw [t]
    refine ⟨_, _, rfl, rfl, .inr ⟨be, rfl, ⟨_, m, t2⟩, rfl, ?_⟩⟩
    unfold file; rw [t7]
  · rw [t5]
    simp only [hs, Bool.false_eq_true, if_false]
    refine ⟨_, _, rfl, t4.position, .inl ⟨rfl, t4.size, ?_⟩⟩
    unfold file; rw [t4.size]; simp

example : (new (steady 2) 6 ⟨exampleCache, [1, 2, 3, 4, 5, 6]⟩ (Flags.O_RDWR ||| Flags.O_TRUNC)).bind
    (fun p => .ret p.2) = .ret none := by decide +kernel

/-- C34: opening with O_TRUNC and O_SYNC, for writing, always fails: either the resize callback fails and nothing changes, or the file is emptied and the
call reports an argument that is out of range. -/
theorem C34_truncate_sync_partial {b : Backend S} {bpb total : Nat} {view : S → Bytes} {s0 : S}
    (H : StreamSetup b bpb total view s0) {ops : List Op} {st : St S} {rs : List Result}
    (ha : After b bpb total s0 ops st rs) {size : Int} {flags : Flags.IOFlags}
    (h0 : 0 ≤ size) (h1 : size ≤ (st.c.totalBlocks * bpb : Nat))
    (hw : Flags.write flags = true) (ht : Flags.truncate flags = true) (hs : Flags.synchronous flags = true) :
    ∃ x e, new b size st flags = .ret (some x, e) ∧ x.tell = 0 ∧
      ((e = some (.cache .argumentOutOfRange) ∧ x.size' = 0 ∧ file view x = []) ∨
       (∃ be, e = some (.cache (.resizeFailed be)) ∧ (∃ s n, (b.resize s n).2 = some be) ∧
        x.size' = size ∧ file view x = (contents view st).take size.toNat)) := by
  obtain ⟨wf, hb, hc⟩ := after_spec H.cache ha
  have hsz : st.c.size = ((st.c.total * st.c.bpb : Nat) : Int) := cacheSize_eq wf (by rw [hb]; exact H.bpb_le)
  have htb : st.c.totalBlocks = st.c.total := rfl
  rw [htb] at h1
  have hinv : Inv bpb view { size, position := 0, st, flags } :=
    ⟨WF.weak wf, hb, by show st.c.bpb ≤ _; rw [hb]; exact H.bpb_le, h0, by show size ≤ _; rw [hb]; exact h1,
      Int.le_refl _, by show (0 : Int) < _; omega⟩
  have hbl := H.bpb_le
  unfold new
  rw [hsz, hb, if_neg (show ¬ (size < 0 ∨ size > ((st.c.total * bpb : Nat) : Int)) from by omega), ht]
  simp only [if_true]
  rcases truncate_spec H.cache.lawful hinv (n := 0) (by show (0 : Int) + st.c.bpb ≤ maxInt; omega) with
    ⟨q, _⟩ | ⟨_, q, _⟩ | ⟨_, _, s', be, t, ⟨m, t2⟩, _, _, t7⟩ | ⟨_, _, x1, t3, t4, t5⟩
  · rw [hw] at q; simp at q
  · omega
  · rw [t]
    refine ⟨_, _, rfl, rfl, .inr ⟨be, rfl, ⟨_, m, t2⟩, rfl, ?_⟩⟩
    unfold file; rw [t7]
  · rw [t5]
    simp only [hs, if_true]
    obtain ⟨x2, e, s1, s2, s3⟩ := sync_spec H.cache.lawful t3
    have hz : x1.st.c.totalBlocks = 0 := by
      have := t4.total
      have hb' := H.cache.bpb_pos
      simp only [Int.toNat_zero] at this
      rw [hb] at this
      show x1.st.c.total = 0
      rw [this, Nat.div_eq_of_lt (by omega)]
    rw [s1]
    refine ⟨_, _, rfl, s3.position.trans t4.position, .inl ⟨s3.empty hz, s3.size.trans t4.size, ?_⟩⟩
    unfold file; rw [s3.size, t4.size]; simp

example : (new (steady 2) 6 ⟨exampleCache, [1, 2, 3, 4, 5, 6]⟩ (Flags.O_RDWR ||| Flags.O_TRUNC ||| Flags.O_SYNC)).bind
    (fun p => .ret p.2) = .ret (some (.cache .argumentOutOfRange)) := by decide +kernel

/-- C34, exactly, with callbacks that never fail: Sync (and Close) succeeds if and only if the object has a block, that is, if its capacity is not 0. -/
theorem C34_sync_exact_partial {b : Backend S} {bpb total : Nat} {view : S → Bytes} {s0 : S}
    (H : StreamSetup b bpb total view s0) (R : AllReliable b) {x : Stm S} (hr : Reachable b bpb total s0 x) :
    (∃ x', sync b x = .ret (x', none)) ↔ x.st.c.totalBlocks ≠ 0 := by
  obtain ⟨x', e, h1, _, _, h2, h3⟩ := C34_sync_partial H hr
  rw [h1]
  constructor
  · rintro ⟨y, hy⟩ hz
    rw [h3 hz] at hy; simp at hy
  · intro hz
    refine ⟨x', ?_⟩
    cases e with
    | none => rfl
    | some y => exact absurd (h2 (by omega) y rfl) (Copying.noFail R y)

example : (okStream 6 Flags.O_RDWR).st.c.totalBlocks ≠ 0 := by decide +kernel

/-! ### C67 -/

/-- C67 in full: no call on an open stream panics, whatever its arguments. -/
def C67_statement : Prop :=
  ∀ (S : Type) (b : Backend S) (bpb total : Nat) (view : S → Bytes) (s0 : S),
    StreamSetup b bpb total view s0 → ∀ x, Reachable b bpb total s0 x → ∀ c : Call, stepCall b x c ≠ .panic

/-- ReadAt with a negative offset panics. -/
theorem C67_refuted : ¬ C67_statement := by
  intro h
  refine h _ _ _ _ _ _ okSetup _ (okReachable 6 Flags.O_RDWR (by omega) (by decide +kernel)) (.readAt [0] (-1)) ?_
  have : readAt (steady 2) (okStream 6 Flags.O_RDWR) [0] (-1) = .panic := by decide +kernel
  simp only [stepCall, this]; rfl

/-- C67 for calls with offsets that are not negative and sizes that can be allocated (`Fits`).
Missing: the others (`C67_refuted`). -/
theorem C67_no_panic_partial {b : Backend S} {bpb total : Nat} {view : S → Bytes} {s0 : S}
    (H : StreamSetup b bpb total view s0) {x : Stm S} (hr : Reachable b bpb total s0 x) (c : Call)
    (hf : Fits b x c) : stepCall b x c ≠ .panic := by
  rcases step_inv H.cache.lawful (reachable_inv H hr) c hf with t | ⟨x', t, _⟩ <;> rw [t] <;> simp

/-- Asked for `n` bytes at a time, the reader returns an error or io.EOF within `k` calls. -/
def Spec.EndsWithin {R : Type} (src : Source R) (n : Nat) : Nat → R → Prop
  | 0, _ => False
  | k + 1, r => (src.read r n).2.2 ≠ none ∨ Spec.EndsWithin src n k (src.read r n).1

theorem readFromLoop_ends {b : Backend S} {bpb : Nat} {view : S → Bytes} (L : Lawful b bpb view) {R : Type}
    (src : Source R) (bs fuel : Nat) (x : Stm S) (r : R) (tot : Int) (h : Inv bpb view x) (hf : FitsReadFrom b src bs x r) (he : Spec.EndsWithin src bs fuel r) :
    readFromLoop b src bs fuel x r tot ≠ .timeout := by
  induction fuel generalizing x r tot with
  | zero => exact he.elim
  | succ fuel ih =>
    obtain ⟨_, _, hw, hnext⟩ := hf
    unfold Spec.EndsWithin at he
    unfold readFromLoop
    rcases hr : src.read r bs with ⟨r', chunk, re⟩
    rw [hr] at hw hnext he
    simp only at hw hnext he ⊢
    obtain ⟨x', n, e, w1, w2, w3, _⟩ := write_effect L h chunk hw
    rw [w1]
    simp only [Outcome.bind_ret]
    rcases re with _ | re
    · rcases e with _ | e
      · exact ih x' r' (i64 (tot + chunk.length)) w2 (hnext x' n w1) (he.resolve_left fun h => h rfl)
      · intro t; cases t
    · cases re <;> (intro t; cases t)

/-- C67: with a finite amount left to read, WriteTo also terminates, and so does ReadFrom a reader that ends; the other calls always
return. -/
theorem C67_returns_partial {b : Backend S} {bpb total : Nat} {view : S → Bytes} {s0 : S}
    (H : StreamSetup b bpb total view s0) {x : Stm S} (hr : Reachable b bpb total s0 x) (c : Call)
    (hf : Fits b x c)
    (hloop : match c with
      | .writeTo _ _ fuel => ((file view x).drop x.tell.toNat).length < fuel
      | .readFrom src r blockSize fuel => Spec.EndsWithin src blockSize fuel r
      | _ => True) : ∃ x', stepCall b x c = .ret x' := by
  rcases step_inv H.cache.lawful (reachable_inv H hr) c hf with t | ⟨x', t, _⟩
  · exfalso
    cases c with
    | writeTo k w fuel =>
      obtain ⟨x', w', n, e, ps, t1, _⟩ := C32_writeTo_partial H hr hf k w fuel hloop
      simp [stepCall, t1] at t
    | readFrom src r bs fuel =>
      simp only [stepCall] at t
      unfold readFrom at t
      split at t
      · cases t
      · have := readFromLoop_ends H.cache.lawful src bs fuel x r 0 (reachable_inv H hr) hf hloop
        rcases e : readFromLoop b src bs fuel x r 0 with y | _ | _
        · rw [e] at t; cases t
        · rw [e] at t; cases t
        · exact this e
    | read buf =>
      obtain ⟨x1, x', r, _, r2, _⟩ := read_effect H.cache.lawful (reachable_inv H hr) buf hf
      simp [stepCall, r2] at t
    | readAt buf off =>
      obtain ⟨x', r, r1, _⟩ := readAt_effect H.cache.lawful (reachable_inv H hr) buf hf.2 hf.1
      simp [stepCall, r1] at t
    | seek => simp [stepCall] at t
    | sync =>
      obtain ⟨x', e, s1, _⟩ := sync_spec H.cache.lawful (reachable_inv H hr)
      simp [stepCall, s1] at t
    | truncate n =>
      obtain ⟨x', e, t1, _⟩ := truncate_effect H.cache.lawful (reachable_inv H hr) (n := n) hf
      simp [stepCall, t1] at t
    | write buf =>
      obtain ⟨x', n, e, w1, _⟩ := write_effect H.cache.lawful (reachable_inv H hr) buf hf
      simp [stepCall, w1] at t
    | writeAt buf off =>
      obtain ⟨hf, h0⟩ := hf
      obtain ⟨o, rfl⟩ := Int.eq_ofNat_of_zero_le h0
      simp only [stepCall] at t
      unfold writeAt at t
      split at t
      · simp at t
      · obtain ⟨x', n, e, w1, _⟩ := implWriteAt_effect H.cache.lawful (reachable_inv H hr) buf hf
        rw [w1] at t
        simp at t
  · exact ⟨x', t⟩

/-- A reader of three chunks ends within four calls. -/
example : Spec.EndsWithin chunkSource 512 4 [[1, 2], [3], [4]] := .inr (.inr (.inr (.inl (by decide +kernel))))

/-- Calls at and beyond the end of a file. -/
example : Fits (steady 2) (okStream 5 Flags.O_RDWR) (.readAt [0, 0] 100) ∧
    Fits (steady 2) (okStream 5 Flags.O_RDWR) (.writeAt [0, 0] 100) ∧
    Fits (steady 2) (okStream 5 Flags.O_RDWR) (.truncate (-5)) :=
  ⟨by show FitsRead _ _ ∧ _; decide +kernel, by show FitsWrite _ _ _ ∧ _; decide +kernel,
    by show FitsSize _ _; decide +kernel⟩

/-! ### C68 -/

/-- C68 in full: a write that fails without writing anything leaves the file as it was. -/
def C68_statement : Prop :=
  ∀ (S : Type) (b : Backend S) (bpb total : Nat) (view : S → Bytes) (s0 : S),
    StreamSetup b bpb total view s0 → ∀ x, Reachable b bpb total s0 x →
    ∀ (buf : Bytes) (off : Nat), FitsWrite x buf.length off → ∀ x' e,
    WriteCall b x buf off x' 0 (some e) → file view x' = file view x

/-- A write at the end of a full file fails, but the file is one (zero) byte longer. -/
theorem C68_refuted : ¬ C68_statement := by
  intro h
  obtain ⟨x', hw, hs⟩ := ret_of (o := writeAt (steady 2) (okStream 6 Flags.O_RDWR) [7] 6) (file fun s => s)
    (r := (0, some (.cache .argumentOutOfRange))) (v := [1, 2, 3, 4, 5, 6, 0]) (by decide +kernel)
  have := h _ _ _ _ _ _ okSetup _ (okReachable 6 Flags.O_RDWR (by omega) (by decide +kernel))
    [7] 6 (by decide +kernel) x' _ (.writeAt (by decide +kernel) hw)
  rw [hs] at this
  revert this
  decide +kernel

/-- C68: the bytes of the file are kept (it may have grown); and nothing at all changes when the
write would have ended before the end of the cached object. -/
theorem C68_failed_write_partial {b : Backend S} {bpb total : Nat} {view : S → Bytes} {s0 : S}
    (H : StreamSetup b bpb total view s0) {x : Stm S} (hr : Reachable b bpb total s0 x)
    (buf : Bytes) (off : Nat) (hf : FitsWrite x buf.length off) {x' : Stm S} {e : SErr}
    (hw : WriteCall b x buf off x' 0 (some e)) (hne : buf ≠ []) :
    file view x <+: file view x' ∧
    (off + buf.length < capacity x → file view x' = file view x) := by
  have h := reachable_inv H hr
  have hlf := length_file h
  have hsl := h.size_le
  obtain ⟨h2, _, ⟨_, y, hy, w⟩ | ⟨hn, w⟩⟩ := writeCall_cases H.cache.lawful h hw hf
  · cases hy
    have hlf2 := length_file h2
    have hsize : x.size ≤ x'.size := by
      rcases w.size with q | ⟨q, q2⟩
      · omega
      · rw [q2, newSize_eq h]
        have hc : capacity x = x.st.c.total * x.st.c.bpb := rfl
        split <;> omega
    have hpre : file view x <+: file view x' := by
      rw [List.prefix_iff_eq_take]
      apply List.ext_getElem?
      intro k
      rw [List.getElem?_take, hlf]
      split
      · unfold file
        rw [List.getElem?_take, if_pos (by omega), List.getElem?_take, if_pos (by omega), w.contents,
          List.getElem?_append_left (by rw [length_contents]; omega)]
      · rw [List.getElem?_eq_none (by rw [hlf]; omega)]
    refine ⟨hpre, ?_⟩
    intro hlt
    have hl : lastBlk x off buf.length < x.st.c.total := by
      rcases Nat.lt_or_ge (lastBlk x off buf.length) x.st.c.total with q | q
      · exact q
      · have := (lastBlk_iff h off buf.length).1 q; omega
    obtain ⟨q1, q2⟩ := w.same hl
    symm
    apply hpre.eq_of_length
    rw [hlf, hlf2, q1]
  · have : buf.length = 0 := by omega
    exact absurd (List.length_eq_zero_iff.1 this) hne

example : (writeAt (steady 2) (okStream 6 Flags.O_RDWR) [7, 7] 2).bind (fun p => .ret (file (fun s => s) p.1, p.2)) =
    .ret ([1, 2, 3, 4, 5, 6], 0, some (.cache .argumentOutOfRange)) := by decide +kernel

end Disko.Stream

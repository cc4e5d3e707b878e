import Verif.Stream.Props3
import Verif.Stream.Negative
/-! Exact forms of C28, C33, C67 and C68. -/
namespace Disko.Stream
open Disko Disko.BlockCache Disko.BlockCache.Spec Disko.Stream.Spec

variable {S : Type}

/-- The file with `n` bytes of an object: its bytes, then zeros. -/
def cut (object : Bytes) (n : Nat) : Bytes := (object ++ List.replicate n 0).take n

theorem getElem?_cut (object : Bytes) (n k : Nat) :
    (cut object n)[k]? = if k < n then some (object.getD k 0) else none := by
  unfold cut
  rw [List.getElem?_take]
  split
  · rename_i h
    rw [List.getD_eq_getElem?_getD]
    rcases Nat.lt_or_ge k object.length with q | q
    · rw [List.getElem?_append_left q, List.getElem?_eq_getElem q]; rfl
    · rw [List.getElem?_append_right q, List.getElem?_replicate, if_pos (by omega), List.getElem?_eq_none q]; rfl
  · rfl

theorem cut_of_resized {bpb : Nat} {view : S → Bytes} {x x1 : Stm S} {n : Int} (h : Inv bpb view x) (r : Resized view x n x1) :
    file view x1 = cut (contents view x.st) n.toNat := by
  have hroom : n.toNat ≤ x1.st.c.total * x.st.c.bpb := by
    have := (ceil_le_iff (a := n.toNat) (t := x1.st.c.total) h.weak.bpb_pos).1 (by rw [r.total]; exact Nat.le_refl _)
    omega
  apply List.ext_getElem?
  intro k
  rw [getElem?_cut]
  unfold file
  rw [List.getElem?_take, r.size]
  split
  · rename_i hk
    rw [r.contents, List.getD_eq_getElem?_getD]
    rcases Nat.lt_or_ge k (contents view x.st).length with q | q
    · rw [List.getElem?_append_left (by rw [List.length_take]; omega), List.getElem?_take, if_pos (by omega), List.getElem?_eq_getElem q]; rfl
    · rw [List.getElem?_append_right (by rw [List.length_take]; omega), List.getElem?_replicate, if_pos (by rw [List.length_take]; omega),
        List.getElem?_eq_none q]; rfl
  · rfl

/-- C28, exactly: after a Truncate that returned nil the file consists of the first `n` bytes of the cached object (all its blocks, also what is in
them after the end of the file), and zeros after that.  Missing: zeros from the end of the file on, which is false (`C28_refuted`). -/
theorem C28_exact_partial {b : Backend S} {bpb total : Nat} {view : S → Bytes} {s0 : S}
    (H : StreamSetup b bpb total view s0) {x : Stm S} (hr : Reachable b bpb total s0 x) (n : Int)
    (hf : FitsSize x n) {x' : Stm S} (ht : truncate b x n = .ret (x', none)) :
    file view x' = cut (contents view x.st) n.toNat ∧ x'.size' = n ∧ x'.st.c.totalBlocks = (n.toNat + (bpb - 1)) / bpb := by
  have h := reachable_inv H hr
  rcases truncate_spec H.cache.lawful h hf with ⟨_, t⟩ | ⟨_, _, t⟩ | ⟨_, h0, s', be, t, _, _, _, t7⟩ | ⟨_, h0, x1, t3, t4, t5⟩
  · rw [ht] at t; cases t
  · rw [ht] at t; cases t
  · rw [ht] at t; cases t
  · rw [ht] at t5
    have htot : x1.st.c.total = (n.toNat + (bpb - 1)) / bpb := by rw [t4.total, h.bpb]
    cases hs : Flags.synchronous x.flags with
    | false =>
      rw [hs, if_neg (by simp)] at t5
      cases t5
      exact ⟨cut_of_resized h t4, t4.size, htot⟩
    | true =>
      rw [hs, if_pos rfl] at t5
      obtain ⟨x2, e2, s1, s2, s3⟩ := sync_spec H.cache.lawful t3
      rw [← t5] at s1; cases s1
      refine ⟨?_, s3.size.trans t4.size, s3.total.trans htot⟩
      rw [← cut_of_resized h t4]
      unfold file
      rw [s3.contents, s3.size]

/-- A file of one byte becomes one of eight: five old bytes turn up. -/
example : FitsSize (okStream 1 Flags.O_RDWR) 8 ∧ file (fun s => s) (okStream 1 Flags.O_RDWR) = [1] ∧
    (truncate (steady 2) (okStream 1 Flags.O_RDWR) 8).bind (fun p => .ret (file (fun s => s) p.1, p.2)) = .ret ([1, 2, 3, 4, 5, 6, 0, 0], none) := by
  decide +kernel

/-- C68, exactly: after a Write or WriteAt that returned 0 and an error, the file is as it was, or - when the write would have ended at or after the
end of the cached object - possibly the first bytes of the object up to where the write would have ended, and zeros.  Missing: that it is always
as it was, which is false (`C68_refuted`). -/
theorem C68_exact_partial {b : Backend S} {bpb total : Nat} {view : S → Bytes} {s0 : S}
    (H : StreamSetup b bpb total view s0) {x : Stm S} (hr : Reachable b bpb total s0 x)
    (buf : Bytes) (off : Nat) (hf : FitsWrite x buf.length off) {x' : Stm S} {e : SErr}
    (hw : WriteCall b x buf off x' 0 (some e)) (hne : buf ≠ []) :
    file view x' = file view x ∨
    (capacity x ≤ off + buf.length ∧ file view x' = cut (contents view x.st) (off + buf.length)) := by
  have h := reachable_inv H hr
  have hlf := length_file h
  have hsl := h.size_le
  have hsn := h.size_nn
  obtain ⟨h2, _, ⟨_, y, hy, w⟩ | ⟨hn, w⟩⟩ := writeCall_cases H.cache.lawful h hw hf
  · cases hy
    have hsl2 := h2.size_le
    rw [w.bpb] at hsl2
    rcases w.size with q | ⟨q, q2⟩
    · left
      unfold file
      rw [q, w.contents, List.take_append_of_le_length (by rw [length_contents]; omega)]
    · right
      have hc := (lastBlk_iff h off buf.length).1 q
      have hcap : capacity x = x.st.c.total * x.st.c.bpb := rfl
      rw [newSize_eq h, if_pos hc] at q2
      have hg := w.grows
      refine ⟨hc, ?_⟩
      apply List.ext_getElem?
      intro k
      rw [getElem?_cut]
      unfold file
      rw [List.getElem?_take, q2]
      have e0 : ((off : Int) + buf.length).toNat = off + buf.length := by omega
      split
      · rename_i hk
        rw [if_pos (by omega), w.contents, List.getD_eq_getElem?_getD]
        rcases Nat.lt_or_ge k (contents view x.st).length with r | r
        · rw [List.getElem?_append_left r, List.getElem?_eq_getElem r]; rfl
        · rw [List.getElem?_append_right r, List.getElem?_replicate, if_pos (by rw [length_contents] at *; omega), List.getElem?_eq_none r]; rfl
      · rw [if_neg (by omega)]
  · have : buf.length = 0 := by omega
    exact absurd (List.length_eq_zero_iff.1 this) hne

/-- A file of one byte: a write at the end of its object fails, and five old bytes and two zeros turn up. -/
example : FitsWrite (okStream 1 Flags.O_RDWR) 2 6 ∧
    (writeAt (steady 2) (okStream 1 Flags.O_RDWR) [7, 7] 6).bind (fun p => .ret (file (fun s => s) p.1, p.2)) =
    .ret ([1, 2, 3, 4, 5, 6, 0, 0], 0, some (.cache .argumentOutOfRange)) := by decide +kernel

theorem readFromLoop_chunks {b : Backend S} {bpb : Nat} {view : S → Bytes} (L : Lawful b bpb view) {R : Type}
    (src : Source R) (bs fuel : Nat) (x : Stm S) (r : R) (l : List Bytes) (tot : Int)
    (h : Inv bpb view x) (hwf : Flags.write x.flags = true)
    (hf : FitsReadFrom b src bs x r) {x' : Stm S} {r' : R} {l' : List Bytes} {n : Int} {err : Option SErr}
    (hr : readFromLoop b (recordingSource src) bs fuel x (r, l) tot = .ret (x', (r', l'), n, err)) :
    ∃ chunks last x1 m e q re, l' = l ++ (chunks ++ [last]) ∧ Written b x chunks x1 ∧ write b x1 last = .ret (x', m, e) ∧
      src.read q bs = (r', last, re) ∧ n = i64 (tot + (chunks ++ [last]).flatten.length) ∧
      ((re = some .eof ∧ err = none) ∨ (∃ y, re = some (.io y) ∧ err = some (.source y)) ∨ (re = none ∧ e ≠ none ∧ err = e)) := by
  induction fuel generalizing x r l tot with
  | zero => simp [readFromLoop] at hr
  | succ fuel ih =>
    obtain ⟨_, _, hw, hnext⟩ := hf
    unfold readFromLoop at hr
    simp only [recordingSource] at hr
    rcases hre : src.read r bs with ⟨r2, chunk, re⟩
    rw [hre] at hw hnext hr
    simp only at hw hnext hr
    obtain ⟨x2, m, e, w1, w2, w3, w4⟩ := write_effect L h chunk hw
    rw [w1] at hr
    simp only [Outcome.bind_ret] at hr
    rcases re with _ | re
    · rcases e with _ | e
      · simp only at hr
        have hm : m = chunk.length := by
          rcases w4 with ⟨w4, _⟩ | ⟨_, _, ⟨_, y, hy, _⟩ | ⟨hm, _⟩⟩
          · rw [hwf] at w4; simp at w4
          · simp at hy
          · exact hm
        obtain ⟨chunks, last, x1, m2, e2, q, re2, c1, c2, c3, c5, c4, c6⟩ := ih x2 r2 (l ++ [chunk]) _ w2 (by rw [w3]; exact hwf)
          (hnext x2 m w1) hr
        refine ⟨chunk :: chunks, last, x1, m2, e2, q, re2, by rw [c1]; simp, ?_, c3, c5, ?_, c6⟩
        · exact .cons (by rw [w1, hm]) c2
        · rw [c4, i64_add, List.cons_append, List.flatten_cons, List.length_append]
          have : tot + (chunk.length : Int) + ((chunks ++ [last]).flatten.length : Int) =
            tot + ((chunk.length + (chunks ++ [last]).flatten.length : Nat) : Int) := by omega
          rw [this]
      · simp only [Outcome.pure_eq, Outcome.ret.injEq, Prod.mk.injEq] at hr
        obtain ⟨rfl, ⟨rfl, rfl⟩, rfl, rfl⟩ := hr
        exact ⟨[], chunk, x, m, some e, r, none, by simp, .nil _, w1, hre, by simp, .inr (.inr ⟨rfl, by simp, rfl⟩)⟩
    · cases re with
      | eof =>
        simp only [Outcome.pure_eq, Outcome.ret.injEq, Prod.mk.injEq] at hr
        obtain ⟨rfl, ⟨rfl, rfl⟩, rfl, rfl⟩ := hr
        exact ⟨[], chunk, x, m, e, r, some .eof, by simp, .nil _, w1, hre, by simp, .inl ⟨rfl, rfl⟩⟩
      | io y =>
        simp only [Outcome.pure_eq, Outcome.ret.injEq, Prod.mk.injEq] at hr
        obtain ⟨rfl, ⟨rfl, rfl⟩, rfl, rfl⟩ := hr
        exact ⟨[], chunk, x, m, e, r, some (.io y), by simp, .nil _, w1, hre, by simp, .inr (.inl ⟨y, rfl, rfl⟩)⟩

/-- C33, exactly, for any reader and any result (`err`) of ReadFrom on a stream that can be written: the chunks that the reader delivered were written one
after the other, each Write but the last returning nil, and all their bytes are counted; ReadFrom stopped because the last Read returned io.EOF, and then
returns nil; or because it returned another error, which ReadFrom returns; or because the last Write failed, and then it returns that error.  So the error
of the last Write is lost if its chunk came with io.EOF or another error.  Missing: that nil means that the last Write returned nil too, which is false
(`C33_refuted`). -/
theorem C33_exact_partial {b : Backend S} {bpb total : Nat} {view : S → Bytes} {s0 : S}
    (H : StreamSetup b bpb total view s0) {x : Stm S} (hr : Reachable b bpb total s0 x) {R : Type}
    (src : Source R) (r : R) (bs fuel : Nat) (hw : Flags.write x.flags = true)
    (hf : FitsReadFrom b src bs x r) {x' : Stm S} {r' : R} {delivered : List Bytes} {n : Int} {err : Option SErr}
    (h : readFrom b (recordingSource src) bs fuel x (r, []) = .ret (x', (r', delivered), n, err)) :
    ∃ chunks last x1 m e q re, delivered = chunks ++ [last] ∧ Written b x chunks x1 ∧ write b x1 last = .ret (x', m, e) ∧
      src.read q bs = (r', last, re) ∧ n = i64 delivered.flatten.length ∧
      ((re = some .eof ∧ err = none) ∨ (∃ y, re = some (.io y) ∧ err = some (.source y)) ∨ (re = none ∧ e ≠ none ∧ err = e)) := by
  have hi := reachable_inv H hr
  unfold readFrom at h
  rw [hw] at h
  simp only [Bool.not_true, Bool.false_eq_true, if_false] at h
  obtain ⟨chunks, last, x1, m, e, q, re, c1, c2, c3, c5, c4, c6⟩ := readFromLoop_chunks H.cache.lawful src bs fuel x r [] 0 hi hw hf h
  rw [List.nil_append] at c1
  exact ⟨chunks, last, x1, m, e, q, re, c1, c2, c3, c5, by rw [c4, c1, Int.zero_add], c6⟩

/-- A reader that delivers a list of chunks, the last one together with io.EOF. -/
def hastySource : Source (List Bytes) where
  read r n := (r.tail, (r.headD []).take n, if r.length ≤ 1 then some .eof else none)
  law _ n := by simp only [List.length_take]; omega

/-- Two chunks; the Write of the second fails, ReadFrom returns nil and counts it. -/
example : (readFrom (steady 2) (recordingSource hastySource) 512 5 (okStream 6 Flags.O_RDWR) ([[9, 9, 9], [8, 8]], [])).bind
      (fun p => .ret (contents (fun s => s) p.1.st, p.2)) = .ret ([9, 9, 9, 4, 5, 6], ([], [[9, 9, 9], [8, 8]]), 5, none) := by decide +kernel

/-! ### C67, negative offsets -/

/-- C67 for ReadAt, exactly, with a negative offset and storage that never fails: it panics if the stream can be read, the buffer is not empty, the offset is less
than a block away from 0 and the object is not empty; in all other cases it returns 0 and leaves the stream and the buffer alone. -/
theorem C67_readAt_exact_partial {b : Backend S} {bpb total : Nat} {view : S → Bytes} {s0 : S}
    (H : StreamSetup b bpb total view s0) (R : AllReliable b) {x : Stm S} (hr : Reachable b bpb total s0 x) (buf : Bytes) (off : Int)
    (h0 : off < 0) (h1 : -(2 ^ 63) ≤ off) (hf : FitsRead x buf.length) :
    (readAt b x buf off = .panic ↔ Flags.read x.flags = true ∧ buf ≠ [] ∧ -(bpb : Int) < off ∧ 0 < x.st.c.totalBlocks) ∧
    (readAt b x buf off ≠ .panic → ∃ e, readAt b x buf off = .ret (x, ⟨buf, 0, e⟩)) := by
  have h := reachable_inv H hr
  obtain ⟨m, hm⟩ : ∃ m : Nat, off = -(m : Int) := ⟨(-off).toNat, by omega⟩
  have hb := h.bpb
  have key : ∀ e, readAt b x buf off = .ret (x, ⟨buf, 0, e⟩) →
      ¬ (Flags.read x.flags = true ∧ buf ≠ [] ∧ -(bpb : Int) < off ∧ 0 < x.st.c.totalBlocks) →
      (readAt b x buf off = .panic ↔ Flags.read x.flags = true ∧ buf ≠ [] ∧ -(bpb : Int) < off ∧ 0 < x.st.c.totalBlocks) ∧
      (readAt b x buf off ≠ .panic → ∃ e, readAt b x buf off = .ret (x, ⟨buf, 0, e⟩)) := by
    intro e he hn
    exact ⟨⟨(fun hp => by rw [he] at hp; cases hp), fun hh => absurd hh hn⟩, fun _ => ⟨e, he⟩⟩
  by_cases hfl : Flags.read x.flags = true
  rotate_left
  · replace hfl : Flags.read x.flags = false := by simpa using hfl
    refine key (some .notPermitted) ?_ (by rw [hfl]; simp)
    unfold readAt; rw [hfl]; rfl
  · by_cases hne : buf = []
    · refine key none ?_ (by simp [hne])
      subst hne
      unfold readAt; rw [hfl]; rfl
    · by_cases hnear : -(bpb : Int) < off ∧ 0 < x.st.c.total
      · have hp := readAt_near H.cache.lawful R.cache h buf hm (by omega) (by omega) hf hfl hne hnear.2
        exact ⟨⟨fun _ => ⟨hfl, hne, hnear.1, hnear.2⟩, fun _ => hp⟩, fun hn => absurd hp hn⟩
      · refine key _ (readAt_far b h buf hm (by omega) (by omega) hfl hne (by omega)) ?_
        rintro ⟨_, _, q1, q2⟩
        exact hnear ⟨q1, q2⟩

/-- C67 for WriteAt, exactly, with a negative offset and storage that never fails: it panics if the stream can be written and was not opened with O_APPEND, the
offset is less than a block away from 0, and the write would end before 0 (with an object that is not empty), or in a block of the object, or behind the
object but not at the end of a block; in all other cases it returns 0 and an error. -/
theorem C67_writeAt_exact_partial {b : Backend S} {bpb total : Nat} {view : S → Bytes} {s0 : S}
    (H : StreamSetup b bpb total view s0) (R : AllReliable b) {x : Stm S} (hr : Reachable b bpb total s0 x) (buf : Bytes) (off : Int)
    (h0 : off < 0) (h1 : -(2 ^ 63) ≤ off) (hf : capacity x + buf.length + bpb ≤ maxInt) :
    (writeAt b x buf off = .panic ↔ Flags.write x.flags = true ∧ Flags.append x.flags = false ∧ -(bpb : Int) < off ∧
      (if off + buf.length < 0 then 0 < x.st.c.totalBlocks
       else (off + buf.length).toNat / bpb < x.st.c.totalBlocks ∨ (off + buf.length).toNat % bpb ≠ 0)) ∧
    (writeAt b x buf off ≠ .panic → ∃ x' e, writeAt b x buf off = .ret (x', 0, some e)) := by
  have h := reachable_inv H hr
  obtain ⟨m, hm⟩ : ∃ m : Nat, off = -(m : Int) := ⟨(-off).toNat, by omega⟩
  have hb := h.bpb
  have hnp : NearPanics x (off + buf.length) = (if off + buf.length < 0 then 0 < x.st.c.totalBlocks
       else (off + buf.length).toNat / bpb < x.st.c.totalBlocks ∨ (off + buf.length).toNat % bpb ≠ 0) := by
    unfold NearPanics; rw [hb]; rfl
  rw [← hnp]
  have key : ∀ x' e, writeAt b x buf off = .ret (x', 0, some e) →
      ¬ (Flags.write x.flags = true ∧ Flags.append x.flags = false ∧ -(bpb : Int) < off ∧ NearPanics x (off + buf.length)) →
      (writeAt b x buf off = .panic ↔ Flags.write x.flags = true ∧ Flags.append x.flags = false ∧ -(bpb : Int) < off ∧ NearPanics x (off + buf.length)) ∧
      (writeAt b x buf off ≠ .panic → ∃ x' e, writeAt b x buf off = .ret (x', 0, some e)) := by
    intro x' e he hn
    exact ⟨⟨(fun hp => by rw [he] at hp; cases hp), fun hh => absurd hh hn⟩, fun _ => ⟨x', e, he⟩⟩
  by_cases ha : Flags.append x.flags = true
  · refine key x .notPermitted ?_ (by rw [ha]; simp)
    unfold writeAt; rw [ha]; rfl
  · replace ha : Flags.append x.flags = false := by simpa using ha
    have hwa : writeAt b x buf off = implWriteAt b x buf off := by
      unfold writeAt; rw [ha, if_neg Bool.false_ne_true]
    by_cases hfl : Flags.write x.flags = true
    rotate_left
    · replace hfl : Flags.write x.flags = false := by simpa using hfl
      refine key x .notPermitted ?_ (by rw [hfl]; simp)
      rw [hwa]; unfold implWriteAt; rw [hfl]; rfl
    · by_cases hnear : -(bpb : Int) < off
      · obtain ⟨n1, n2⟩ := implWriteAt_near H.cache.lawful R h buf hm (by omega) (by omega) rfl (by rw [hb]; exact hf) hfl
        by_cases hp : NearPanics x (off + buf.length)
        · have := n1 hp
          rw [← hwa] at this
          exact ⟨⟨fun _ => ⟨hfl, ha, hnear, hp⟩, fun _ => this⟩, fun hn => absurd this hn⟩
        · obtain ⟨x', e, he⟩ := n2 hp
          rw [← hwa] at he
          exact key x' e he (fun hh => hp hh.2.2.2)
      · obtain ⟨x', e, he⟩ := implWriteAt_far H.cache.lawful h buf hm (by omega) (by rw [hb]; exact hf) hfl (by omega)
        rw [← hwa] at he
        exact key x' e he (fun hh => hnear hh.2.2.1)

/-- One byte before the file: a panic; two: an error. -/
example : readAt (steady 2) (okStream 6 Flags.O_RDWR) [0] (-1) = .panic ∧ writeAt (steady 2) (okStream 6 Flags.O_RDWR) [7] (-1) = .panic ∧
    (readAt (steady 2) (okStream 6 Flags.O_RDWR) [0] (-2)).bind (fun p => .ret p.2) = .ret ⟨[0], 0, some (.cache .argumentOutOfRange)⟩ ∧
    (writeAt (steady 2) (okStream 6 Flags.O_RDWR) [7] (-2)).bind (fun p => .ret p.2) = .ret (0, some (.cache .argumentOutOfRange)) := by decide +kernel

end Disko.Stream

import Verif.Stream.Stored
import Verif.Stream.Props3
import Verif.BlockCache.Props5
/-! C144, and the exact forms of C30: what a stream leaves alone in the storage. -/
namespace Disko.Stream
open Disko Disko.BlockCache Disko.BlockCache.Spec Disko.Stream.Spec

namespace Spec

/-- A history of calls on a stream, with the smallest number of blocks that the object had at any time of it. -/
inductive History {S : Type} (b : Backend S) : Stm S → Nat → Stm S → Prop where
  | start (x : Stm S) : History b x x.st.c.totalBlocks x
  | call {x x1 x2 : Stm S} {m : Nat} {c : Call} (hs : History b x m x1) (hf : Fits b x1 c) (h : stepCall b x1 c = .ret x2) :
      History b x (min m x2.st.c.totalBlocks) x2

/-- A stream that has just been opened, on a cache that has just been created. -/
def Opened {S : Type} (b : Backend S) (bpb total : Nat) (s0 : S) (x : Stm S) : Prop :=
  ∃ st size flags e, After b bpb total s0 [] st [] ∧ Stream.new b size st flags = .ret (some x, e)

end Spec

variable {S : Type}

/-! ### C144 -/

theorem history_untouched {A : Nat → Prop} {v : Bytes} {b : Backend S} {bpb : Nat} {view : S → Bytes} (L : Lawful b bpb view)
    {x x' : Stm S} {m : Nat} (h : Inv bpb view x) (u : Untouched A v view x.st) (hh : History b x m x')
    (hin : ∀ j, A j → j < m) : Inv bpb view x' ∧ Untouched A v view x'.st := by
  induction hh with
  | start => exact ⟨h, u⟩
  | call hs hf hst ih =>
    rename_i x1 x2 m c
    obtain ⟨i1, i2⟩ := ih (fun j hj => by have := hin j hj; omega)
    refine ⟨?_, step_untouched L i1 i2 c hf hst (fun j hj => ?_)⟩
    · rcases step_inv L i1 c hf with t | ⟨x3, t1, t2, _⟩
      · rw [hst] at t; simp at t
      · rw [hst] at t1; cases t1; exact t2
    · have := hin j hj
      unfold Cache.totalBlocks at this
      omega

/-- What was waiting to be flushed when a stream was opened on a new cache: nothing. -/
theorem opened_clean {b : Backend S} {bpb total : Nat} {view : S → Bytes} {s0 : S} (H : StreamSetup b bpb total view s0)
    {x : Stm S} (ho : Opened b bpb total s0 x) : Inv bpb view x ∧ Untouched (· < x.st.c.total) (view s0) view x.st := by
  obtain ⟨st, size, flags, e, ha, hn⟩ := ho
  have hi := new_inv H ha hn
  refine ⟨hi, ?_⟩
  obtain ⟨c, hc, _, hr⟩ := ha
  cases hr
  obtain ⟨wf, hb, _⟩ := after_spec (ops := []) (rs := []) H.cache ⟨c, hc, by simp, rfl⟩
  obtain ⟨c2, hc2, _, _, ht, _, hd, _⟩ := new_spec H.cache.bpb_pos H.cache.cap view s0 H.cache.store
  rw [hc] at hc2; cases hc2
  have u0 : Untouched (· < c.total) (view s0) view ⟨c, s0⟩ := ⟨fun _ h => h, fun j _ => hd j, fun _ _ => rfl⟩
  have hsz := cacheSize_eq wf (by rw [hb]; exact H.bpb_le)
  unfold new at hn
  split at hn
  · simp at hn
  · rename_i hs
    rw [hsz] at hs
    have hinv : Inv bpb view { size, position := 0, st := ⟨c, s0⟩, flags } :=
      ⟨WF.weak wf, hb, by show c.bpb ≤ _; rw [hb]; exact H.bpb_le, by show 0 ≤ size; omega, by show size ≤ ((c.total * c.bpb : Nat) : Int); have : ¬ (size < 0 ∨ size > ((c.total * c.bpb : Nat) : Int)) := hs; omega, Int.le_refl _,
        by show (0 : Int) < _; omega⟩
    simp only at hn
    split at hn
    · have hfs : FitsSize { size, position := 0, st := ⟨c, s0⟩, flags } 0 := by
        show (0 : Int) + c.bpb ≤ maxInt
        have := H.bpb_le
        rw [hb]; omega
      obtain ⟨x', e', t1, _⟩ := truncate_effect H.cache.lawful hinv hfs
      have hle : x'.st.c.total ≤ c.total := by
        rcases truncate_spec H.cache.lawful hinv hfs with ⟨_, t⟩ | ⟨_, _, t⟩ | ⟨_, _, s', be, t, _⟩ | ⟨_, _, x2, t3, t4, t5⟩
        · rw [t] at t1; cases t1; exact Nat.le_refl _
        · rw [t] at t1; cases t1; exact Nat.le_refl _
        · rw [t] at t1; cases t1; exact Nat.le_refl _
        · have h0 : x2.st.c.total = 0 := by
            rw [t4.total]
            apply Nat.div_eq_of_lt
            have := H.cache.bpb_pos
            simp only [Int.toNat_zero]
            rw [hb]; omega
          rw [t5] at t1
          split at t1
          · obtain ⟨x3, e3, s1, s2, s3⟩ := sync_spec H.cache.lawful t3
            rw [s1] at t1; cases t1
            rw [s3.total, h0]; exact Nat.zero_le _
          · cases t1; rw [h0]; exact Nat.zero_le _
      have := truncate_untouched (A := (· < x'.st.c.total)) H.cache.lawful hinv
        ⟨fun j hj => Nat.lt_of_lt_of_le hj hle, fun j hj => u0.clean j (Nat.lt_of_lt_of_le hj hle), fun _ _ => rfl⟩ hfs t1 (fun _ h => h)
      rw [t1] at hn
      simp only [Outcome.bind_ret, Outcome.pure_eq, Outcome.ret.injEq, Prod.mk.injEq, Option.some.injEq] at hn
      rw [← hn.1]; exact this
    · simp only [Outcome.pure_eq, Outcome.ret.injEq, Prod.mk.injEq, Option.some.injEq] at hn
      rw [← hn.1]; exact u0

/-- **C144**: whatever is done with a stream - any reads, writes, Truncates, Syncs, copies, in any order, with storage that fails
whenever it likes - the bytes that were stored when it was opened stay as they are, up to the smallest size the object has had since
(in whole blocks). -/
theorem C144_kept {b : Backend S} {bpb total : Nat} {view : S → Bytes} {s0 : S} (H : StreamSetup b bpb total view s0)
    {x x' : Stm S} {m : Nat} (ho : Opened b bpb total s0 x) (hh : History b x m x') :
    ∀ k, k < m * bpb → (view x'.st.s)[k]? = (view s0)[k]? := by
  obtain ⟨hi, u⟩ := opened_clean H ho
  have hm : m ≤ x.st.c.total := by
    clear hi u ho
    induction hh with
    | start => exact Nat.le_refl _
    | call _ _ _ ih => omega
  obtain ⟨hi', u'⟩ := history_untouched (A := (· < m)) H.cache.lawful hi
    ⟨fun j hj => Nat.lt_of_lt_of_le hj hm, fun j hj => u.clean j (Nat.lt_of_lt_of_le hj hm),
      fun k hk => u.bytes k (Nat.lt_of_lt_of_le hk hm)⟩ hh (fun _ h => h)
  intro k hk
  refine u'.bytes k ?_
  rw [hi'.bpb, Nat.div_lt_iff_lt_mul H.cache.bpb_pos]
  exact hk

/-- **C144** with a crash: the process is killed after any number `n` of block writes, in the middle of any call (nothing reaches the
storage after that). -/
theorem C144_killed {b : Backend S} {bpb total : Nat} {view : S → Bytes} {s0 : S} (H : StreamSetup b bpb total view s0) (n : Nat)
    {x x' : Stm (S × Nat)} {m : Nat} (ho : Opened (killed b) bpb total (s0, n) x) (hh : History (killed b) x m x') :
    ∀ k, k < m * bpb → (view x'.st.s.1)[k]? = (view s0)[k]? :=
  C144_kept (view := fun s : S × Nat => view s.1) (s0 := (s0, n))
    ⟨⟨lawful_killed H.cache.lawful, H.cache.bpb_pos, H.cache.cap, H.cache.store⟩, H.bpb_le⟩ ho hh

/-- A stream in use for longer: the blocks of the object that are not waiting to be flushed keep what they hold in the storage. -/
theorem C144_clean {b : Backend S} {bpb total : Nat} {view : S → Bytes} {s0 : S} (H : StreamSetup b bpb total view s0)
    {x x' : Stm S} {m : Nat} (hr : Reachable b bpb total s0 x) (hh : History b x m x') :
    ∀ k, k < m * bpb → isDirty x.st.c (k / bpb) = false → (view x'.st.s)[k]? = (view x.st.s)[k]? := by
  intro k hk hd
  have hi := reachable_inv H hr
  have hm : m ≤ x.st.c.total := by
    clear hi hr hd hk
    induction hh with
    | start => exact Nat.le_refl _
    | call _ _ _ ih => omega
  have hj : k / bpb < m := by rw [Nat.div_lt_iff_lt_mul H.cache.bpb_pos]; exact hk
  obtain ⟨hi', u'⟩ := history_untouched (A := (· = k / bpb)) (v := view x.st.s) H.cache.lawful hi
    ⟨fun j e => by omega, fun j e => by rw [e]; exact hd, fun _ _ => rfl⟩ hh (fun j e => by omega)
  exact u'.bytes k (by rw [hi'.bpb])

theorem Spec.History.next {b : Backend S} {x x1 x2 : Stm S} {m m' : Nat} {c : Call} (hs : History b x m x1) (hf : Fits b x1 c)
    (h : stepCall b x1 c = .ret x2) (hm : min m x2.st.c.totalBlocks = m') : History b x m' x2 := hm ▸ .call hs hf h

/-- The stream of the example after a call. -/
def nextOf (x : Stm Bytes) (c : Call) : Stm Bytes :=
  match stepCall (steady 2) x c with
  | .ret y => y
  | _ => x

/-- Non-vacuity: a file of 6 bytes is overwritten, cut to 4 bytes, extended to 7 and synced; the last two blocks in the storage are new,
the first two are as they were. -/
example : Opened (steady 2) 2 3 [1, 2, 3, 4, 5, 6] (okStream 6 Flags.O_RDWR) ∧
    ∃ x', History (steady 2) (okStream 6 Flags.O_RDWR) 2 x' ∧ x'.st.s = [1, 2, 3, 4, 9, 9, 9, 0] := by
  refine ⟨⟨⟨exampleCache, [1, 2, 3, 4, 5, 6]⟩, 6, Flags.O_RDWR, none, ⟨exampleCache, by decide +kernel, by simp, rfl⟩, by decide +kernel⟩, ?_⟩
  let x0 := okStream 6 Flags.O_RDWR
  let x1 := nextOf x0 (.writeAt [7] 0)
  let x2 := nextOf x1 (.truncate 4)
  let x3 := nextOf x2 (.write [9, 9, 9, 9, 9, 9, 9])
  let x4 := nextOf x3 .sync
  have h1 : History (steady 2) x0 3 x1 := (History.start x0).next (c := .writeAt [7] 0) (by show FitsWrite x0 _ _ ∧ _; decide +kernel)
    (by decide +kernel) (by decide +kernel)
  have h2 : History (steady 2) x0 2 x2 := h1.next (c := .truncate 4) (by show FitsSize x1 _; decide +kernel) (by decide +kernel) (by decide +kernel)
  have h3 : History (steady 2) x0 2 x3 := h2.next (c := .write [9, 9, 9, 9, 9, 9, 9]) (by show FitsWrite x2 _ _; decide +kernel)
    (by decide +kernel) (by decide +kernel)
  have h4 : History (steady 2) x0 2 x4 := h3.next (c := .sync) trivial (by decide +kernel) (by decide +kernel)
  exact ⟨x4, h4, by decide +kernel⟩

/-! ### C30, exactly -/

theorem writeCall_untouched {A : Nat → Prop} {v : Bytes} {b : Backend S} {bpb : Nat} {view : S → Bytes} (L : Lawful b bpb view)
    {x x' : Stm S} (h : Inv bpb view x) (u : Untouched A v view x.st) {buf : Bytes} {off : Nat}
    (hf : FitsWrite x buf.length off) {n : Int} {e : Option SErr} (hw : WriteCall b x buf off x' n e) : Untouched A v view x'.st := by
  cases hw with
  | write ho hw => exact write_untouched L h u (by rw [ho]; exact hf) hw
  | writeAt ha hw =>
    unfold writeAt at hw
    rw [ha] at hw
    simp only [Bool.false_eq_true, if_false] at hw
    exact implWriteAt_untouched L h u hf hw

/-- C30, exactly, without O_SYNC: after a write that returned nil and a Sync that returned nil, the storage holds the written bytes in
the blocks that the write added or that were already waiting to be flushed, and in the other blocks of the write what it held before.
Missing: that it holds the written bytes everywhere, which is false (`C30_refuted`). -/
theorem C30_exact_partial {b : Backend S} {bpb total : Nat} {view : S → Bytes} {s0 : S}
    (H : StreamSetup b bpb total view s0) {x : Stm S} (hr : Reachable b bpb total s0 x)
    (hns : Flags.synchronous x.flags = false) (buf : Bytes) (off : Nat) (hf : FitsWrite x buf.length off)
    {x' x'' : Stm S} {n : Int} (hw : WriteCall b x buf off x' n none) (hs : sync b x' = .ret (x'', none)) :
    ∀ k, k < buf.length → (view x''.st.s)[off + k]? =
      if x.st.c.totalBlocks ≤ (off + k) / bpb ∨ isDirty x.st.c ((off + k) / bpb) = true then buf[k]? else (view x.st.s)[off + k]? := by
  intro k hk
  split
  · rename_i hd
    exact C30_stored_partial H hr hns buf off hf hw hs k hk hd
  · rename_i hd
    have h := reachable_inv H hr
    obtain ⟨h2, _⟩ := writeCall_cases H.cache.lawful h hw hf
    have u := writeCall_untouched (A := (· = (off + k) / bpb)) (v := view x.st.s) H.cache.lawful h
      ⟨fun j e => by
          have : ¬ x.st.c.total ≤ (off + k) / bpb := fun hh => hd (.inl hh)
          omega,
        fun j e => by rw [e]; simpa using fun hh => hd (.inr hh), fun _ _ => rfl⟩ hf hw
    have u2 := sync_untouched H.cache.lawful h2 u hs
    obtain ⟨x3, e3, s1, s2, _⟩ := sync_spec H.cache.lawful h2
    rw [hs] at s1; cases s1
    exact u2.bytes (off + k) (by rw [s2.bpb])

/-- With O_SYNC the blocks that a write adds are stored before it puts its data in them. -/
theorem implWriteAt_zeros {b : Backend S} {bpb : Nat} {view : S → Bytes} (L : Lawful b bpb view)
    {x x' : Stm S} (h : Inv bpb view x) (hsy : Flags.synchronous x.flags = true) {buf : Bytes} {off : Nat}
    (hf : FitsWrite x buf.length off) {n : Int} (hw : implWriteAt b x buf off = .ret (x', n, none)) {k : Nat}
    (hk : x.st.c.total ≤ k / x.st.c.bpb) (hk2 : k < x'.st.c.total * x.st.c.bpb) : (view x'.st.s)[k]? = some 0 := by
  have hp := h.weak.bpb_pos
  obtain ⟨x9, n9, e9, q1, q2, q3, _, ⟨_, y, q4, _⟩ | ⟨_, w⟩⟩ := implWriteAt_effect L h buf hf
  · rw [hw] at q1; cases q1; simp at q4
  rw [hw] at q1; cases q1
  rcases implWriteAt_spec (b := b) h buf (off := (off : Int)) (by omega) hf with ⟨a1, a2⟩ | ⟨a1, a2, a3⟩ | ⟨a1, a2, a3⟩
  · rw [a2] at hw; cases hw
  · rw [a3] at hw; cases hw
  · have a2' : (off : Int) + buf.length + x.st.c.bpb ≤ (maxInt : Nat) := a2
    simp only [Int.toNat_natCast] at a3
    rcases a3 with ⟨l1, l2⟩ | ⟨l1, l2⟩
    · exfalso
      have ht := w.total
      unfold newTotal at ht
      rw [if_neg (by unfold lastBlk; omega)] at ht
      rw [ht, ← Nat.div_lt_iff_lt_mul hp] at hk2
      omega
    · rw [l2] at hw
      rcases truncate_spec L h a2 with ⟨_, t⟩ | ⟨_, _, t⟩ | ⟨_, _, s', be, t, _⟩ | ⟨_, _, x2, t3, t4, t5⟩
      · rw [t] at hw; simp [afterGrow] at hw
      · rw [t] at hw; simp [afterGrow] at hw
      · rw [t] at hw; simp [afterGrow] at hw
      · rw [t5, hsy] at hw
        simp only [if_true] at hw
        obtain ⟨x3, e3, s1, s2, s3⟩ := sync_spec L t3
        rw [s1] at hw
        simp only [Outcome.bind_ret, afterGrow] at hw
        rcases e3 with _ | e3
        · -- stored by the Sync inside Truncate
          have htot : x'.st.c.total = x3.st.c.total := by
            rw [w.total, s3.total, t4.total]
            unfold newTotal
            rw [if_pos (by unfold lastBlk; exact l1)]
            have : ((off : Int) + buf.length).toNat = off + buf.length := by omega
            rw [this]
          have hb3 : x3.st.c.bpb = x.st.c.bpb := s3.bpb.trans t4.bpb
          have hk3 : k < x2.st.c.total * x2.st.c.bpb := by rw [t4.bpb, ← s3.total, ← htot]; exact hk2
          have hj : k / x2.st.c.bpb < x2.st.c.total := by
            rw [Nat.div_lt_iff_lt_mul (by rw [t4.bpb]; exact hp)]; exact hk3
          have hkb : x.st.c.total ≤ k / x2.st.c.bpb := by rw [t4.bpb]; exact hk
          have hz : (view x3.st.s)[k]? = some 0 := by
            rw [s3.stored rfl k, if_pos ⟨hk3, by rw [t4.dirty _ hj, if_pos hkb]⟩]
            have hc : (contents view x2.st)[k]? = some 0 := by
              rw [t4.contents, List.getElem?_append_right, List.getElem?_replicate, if_pos]
              · have : x.st.c.total * x.st.c.bpb ≤ k := by
                  rw [← Nat.le_div_iff_mul_le hp]; exact hk
                rw [List.length_take, length_contents]
                rw [t4.bpb] at hk3
                omega
              · rw [List.length_take, length_contents]
                have : x.st.c.total * x.st.c.bpb ≤ k := by
                  rw [← Nat.le_div_iff_mul_le hp]; exact hk
                omega
            rw [getElem?_contents, if_pos hk3] at hc
            unfold byteAt at hc
            rw [if_pos (by rw [t4.loaded _ hj, if_pos hkb])] at hc
            rw [List.getElem?_eq_getElem (by rw [t3.weak.data_len]; exact hk3)]
            rw [List.getD_eq_getElem?_getD, List.getElem?_eq_getElem (by rw [t3.weak.data_len]; exact hk3)] at hc
            simpa using hc
          have u : Untouched (· = k / x.st.c.bpb) (view x3.st.s) view x3.st := by
            refine ⟨fun j e => ?_, fun j e => ?_, fun _ _ => rfl⟩
            · rw [e, s3.total, ← t4.bpb]; exact hj
            · rw [e, ← t4.bpb]; exact s3.clean rfl _ hj
          have u2 := writeTail_untouched L s2 u hb3 (by omega) hw
          rw [u2.bytes k (by rw [w.bpb])]
          exact hz
        · simp at hw

/-- C30 with O_SYNC, exactly, for blocks that were not waiting to be flushed: after a write that returned nil the storage holds zeros in the
blocks that it added, and in the others what it held before.  Missing: the written bytes, which is false. -/
theorem C30_osync_exact_partial {b : Backend S} {bpb total : Nat} {view : S → Bytes} {s0 : S}
    (H : StreamSetup b bpb total view s0) {x : Stm S} (hr : Reachable b bpb total s0 x)
    (hsy : Flags.synchronous x.flags = true) (buf : Bytes) (off : Nat) (hf : FitsWrite x buf.length off)
    {x' : Stm S} {n : Int} (hw : WriteCall b x buf off x' n none) :
    ∀ k, k < buf.length → isDirty x.st.c ((off + k) / bpb) = false → (view x'.st.s)[off + k]? =
      if x.st.c.totalBlocks ≤ (off + k) / bpb then some 0 else (view x.st.s)[off + k]? := by
  intro k hk hd
  have h := reachable_inv H hr
  obtain ⟨h2, _, ⟨_, y, hy, _⟩ | ⟨rfl, w⟩⟩ := writeCall_cases H.cache.lawful h hw hf
  · simp at hy
  split
  · rename_i ha
    have ha' : x.st.c.total ≤ (off + k) / x.st.c.bpb := by rw [h.bpb]; exact ha
    have hin : off + k < x'.st.c.total * x.st.c.bpb := by have := w.inside; omega
    cases hw with
    | write ho hw =>
      rw [write_eq h buf w.write, ho] at hw
      have hpos : (0 : Int) ≤ off ∧ (off : Int) < 2 ^ 63 := by have := writeOffset_range h; rw [ho] at this; exact this
      rcases hi : implWriteAt b { x with position := (off : Int) } buf off with ⟨x1, n1, e1⟩ | _ | _
      · rw [hi] at hw
        simp only [Outcome.bind_ret, Outcome.pure_eq, Outcome.ret.injEq, Prod.mk.injEq] at hw
        obtain ⟨rfl, rfl, rfl⟩ := hw
        exact implWriteAt_zeros (x := { x with position := (off : Int) }) H.cache.lawful (h.pos hpos.1 hpos.2) hsy hf hi ha' hin
      · rw [hi] at hw; simp at hw
      · rw [hi] at hw; simp at hw
    | writeAt hap hw =>
      unfold writeAt at hw
      rw [hap] at hw
      simp only [Bool.false_eq_true, if_false] at hw
      exact implWriteAt_zeros H.cache.lawful h hsy hf hw ha' hin
  · rename_i ha
    have u := writeCall_untouched (A := (· = (off + k) / bpb)) (v := view x.st.s) H.cache.lawful h
      ⟨fun j e => by
          have : ¬ x.st.c.total ≤ (off + k) / bpb := ha
          omega,
        fun j e => by rw [e]; exact hd, fun _ _ => rfl⟩ hf hw
    exact u.bytes (off + k) (by rw [h2.bpb])

/-- Non-vacuity of both: seven bytes written over the six of the object.  Without O_SYNC, then a Sync: only the seventh reaches the storage; with
O_SYNC, none. -/
example : (∃ x' x'', WriteCall (steady 2) (okStream 1 Flags.O_RDWR) [9, 9, 9, 9, 9, 9, 9] 0 x' 7 none ∧ sync (steady 2) x' = .ret (x'', none) ∧
      x''.st.s = [1, 2, 3, 4, 5, 6, 9, 0]) ∧
    ∃ x', WriteCall (steady 2) (okStream 1 (Flags.O_RDWR ||| Flags.O_SYNC)) [9, 9, 9, 9, 9, 9, 9] 0 x' 7 none ∧ x'.st.s = [1, 2, 3, 4, 5, 6, 0, 0] :=
  ⟨⟨_, _, .write (by decide +kernel) (by rfl), by rfl, by decide +kernel⟩, _, .write (by decide +kernel) (by rfl), by decide +kernel⟩

end Disko.Stream

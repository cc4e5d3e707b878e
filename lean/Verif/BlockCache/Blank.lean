import Verif.BlockCache.Props
/-!
The cache's memory of blocks never loaded is all zeros, as long as no fetch fails.
-/
namespace Disko.BlockCache
open Disko Disko.BlockCache.Spec

variable {S : Type}

/-- Sizes of the cache's arrays, and memory of blocks that are not loaded is zero. -/
structure Blank (c : Cache) : Prop where
  bpb_pos : 0 < c.bpb
  cap : c.total * c.bpb ≤ maxInt
  data_len : c.data.length = c.total * c.bpb
  loaded_len : c.loaded.length = bitmapLen c.total
  dirty_len : c.dirty.length = bitmapLen c.total
  zero : ∀ k, isLoaded c (k / c.bpb) = false → c.data.getD k 0 = 0

theorem Blank.of_same {c c' : Cache} (h : Blank c) (e1 : c'.bpb = c.bpb) (e2 : c'.total = c.total) (e3 : c'.data = c.data)
    (e4 : c'.loaded.length = c.loaded.length) (e5 : c'.dirty.length = c.dirty.length)
    (e6 : ∀ j, isLoaded c j = true → isLoaded c' j = true) : Blank c' := by
  refine ⟨by rw [e1]; exact h.bpb_pos, by rw [e1, e2]; exact h.cap, by rw [e1, e2, e3]; exact h.data_len,
    by rw [e4, e2]; exact h.loaded_len, by rw [e5, e2]; exact h.dirty_len, ?_⟩
  intro k hk
  rw [e1] at hk
  rw [e3]
  apply h.zero k
  cases hj : isLoaded c (k / c.bpb)
  · rfl
  · rw [e6 _ hj] at hk; simp at hk

theorem Blank.splice {c : Cache} (h : Blank c) {start count off : Nat} {v : Bytes}
    (hr : start + count ≤ c.total) (h1 : start * c.bpb ≤ off)
    (h2 : off + v.length ≤ start * c.bpb + count * c.bpb)
    (hl : ∀ j, start ≤ j → j < start + count → isLoaded c j = true) : Blank { c with data := Disko.splice c.data off v } := by
  have hle : start * c.bpb + count * c.bpb ≤ c.total * c.bpb := by
    rw [← Nat.add_mul]; exact Nat.mul_le_mul_right _ hr
  refine ⟨h.bpb_pos, h.cap, ?_, h.loaded_len, h.dirty_len, ?_⟩
  · show (Disko.splice c.data off v).length = _
    rw [length_splice (by rw [h.data_len]; omega)]; exact h.data_len
  · intro k hk
    have hk' : isLoaded c (k / c.bpb) = false := hk
    show (Disko.splice c.data off v).getD k 0 = 0
    refine Eq.trans (getD_eq_of (e := c.data) ?_) (h.zero k hk')
    rw [getElem?_splice (by rw [h.data_len]; omega)]
    by_cases hlt : k < off
    · rw [if_pos hlt]
    · rw [if_neg hlt]
      by_cases hgt : k < off + v.length
      · exfalso
        have : isLoaded c (k / c.bpb) = true := by
          apply hl
          · rw [Nat.le_div_iff_mul_le h.bpb_pos]; omega
          · rw [Nat.div_lt_iff_lt_mul h.bpb_pos, Nat.add_mul]; omega
        rw [this] at hk'; simp at hk'
      · rw [if_neg hgt]

theorem loadLoop_blank {b : Backend S} (R : Reliable b) (n i : Nat) (st : St S) (h : Blank st.c) (hi : i + n ≤ st.c.total)
    {st' : St S} {e : Option Err} (hr : loadLoop b n i st = .ret (st', e)) : Blank st'.c := by
  induction n generalizing i st with
  | zero =>
    simp only [loadLoop, Outcome.ret.injEq, Prod.mk.injEq] at hr
    rw [← hr.1]; exact h
  | succ n ih =>
    have hlen : i < st.c.loaded.length := by
      rw [h.loaded_len]; have := le_bitmapLen st.c.total; omega
    have hdlen : i < st.c.dirty.length := by
      rw [h.dirty_len]; have := le_bitmapLen st.c.total; omega
    unfold loadLoop at hr
    rw [bitGet_eq hlen] at hr
    simp only [Outcome.bind_ret] at hr
    by_cases hl : st.c.loaded.getD i false = true
    · rw [if_pos hl] at hr
      exact ih (i + 1) st h (by omega) hr
    · rw [if_neg hl] at hr
      have hend := block_end_le (n := st.c.bpb) (i := i) (total := st.c.total) (by omega)
      have hcap := h.cap
      rw [u64_of_lt (n := i * st.c.bpb) (by unfold maxInt at *; omega),
        u64_of_lt (n := i * st.c.bpb + st.c.bpb) (by unfold maxInt at *; omega),
        if_pos (by rw [h.data_len]; omega)] at hr
      have hw : i * st.c.bpb + st.c.bpb - i * st.c.bpb = st.c.bpb := by omega
      rw [hw] at hr
      have hblen : (slice st.c.data (i * st.c.bpb) st.c.bpb).length = st.c.bpb :=
        length_slice_of_le (by rw [h.data_len]; exact hend)
      have hR := R.fetch st.s i (slice st.c.data (i * st.c.bpb) st.c.bpb)
      rcases hf : b.fetch st.s i (slice st.c.data (i * st.c.bpb) st.c.bpb) with ⟨s', buf', e'⟩
      rw [hf] at hr hR
      simp only at hR
      subst hR
      simp only [bitSet_eq hlen, bitSet_eq hdlen, Outcome.bind_ret] at hr
      refine ih (i + 1) _ ?_ (by simpa using (by omega : i + 1 + n ≤ st.c.total)) hr
      have h1 : Blank { st.c with loaded := st.c.loaded.set i true, dirty := st.c.dirty.set i false } :=
        h.of_same rfl rfl rfl (by simp) (by simp) (by
          intro j hj
          simp only [isLoaded]
          rw [getD_set _ _ _ _ hlen]
          split
          · rfl
          · exact hj)
      exact h1.splice (start := i) (count := 1) (by simp only; omega) (Nat.le_refl _)
        (by simp only [goCopy_length, hblen]; omega)
        (by
          intro j hj1 hj2
          have : j = i := by omega
          subst this
          simp only [isLoaded]
          rw [getD_set _ _ _ _ hlen, if_pos rfl])

theorem loadBlockRange_blank {b : Backend S} {bpb : Nat} {view : S → Bytes} (R : Reliable b)
    (st : St S) (h : WF view st) (hb : st.c.bpb = bpb) (hk : Blank st.c) (start count : Nat)
    (hc : count * st.c.bpb ≤ maxInt) {st' : St S} {e : Option Err} (hr : loadBlockRange b st start count = .ret (st', e)) :
    Blank st'.c := by
  unfold loadBlockRange at hr
  rw [u64_of_lt (by unfold maxInt at *; omega), checkBounds_eq h start hc] at hr
  by_cases hi : InRange st.c start (count * st.c.bpb)
  · rw [if_pos hi] at hr
    simp only [Outcome.bind_ret] at hr
    have hbk := (inRange_blocks h.bpb_pos).1 hi
    have htot : st.c.total ≤ maxInt := Nat.le_trans (Nat.le_mul_of_pos_right _ h.bpb_pos) h.cap
    rw [u64_of_lt (by unfold maxInt at *; omega)] at hr
    exact loadLoop_blank R _ _ st hk (by omega) hr
  · rw [if_neg hi] at hr
    simp only [Outcome.bind_ret, Outcome.pure_eq, Outcome.ret.injEq, Prod.mk.injEq] at hr
    rw [← hr.1]; exact hk

theorem getSlice_blank {b : Backend S} {bpb : Nat} {view : S → Bytes} (R : Reliable b)
    (st : St S) (h : WF view st) (hb : st.c.bpb = bpb) (hk : Blank st.c) (start count : Nat)
    (hc : count * st.c.bpb ≤ maxInt) {st' : St S} {r : Except Err Window} (hr : getSlice b st start count = .ret (st', r)) :
    Blank st'.c := by
  unfold getSlice at hr
  rcases hl : loadBlockRange b st start count with ⟨st1, e⟩ | _ | _
  · have hk1 := loadBlockRange_blank R st h hb hk start count hc hl
    rw [hl] at hr
    rcases e with _ | e
    · simp only [Outcome.bind_ret] at hr
      split at hr
      · simp only [Outcome.pure_eq, Outcome.ret.injEq, Prod.mk.injEq] at hr
        rw [← hr.1]; exact hk1
      · simp at hr
    · simp only [Outcome.bind_ret, Outcome.pure_eq, Outcome.ret.injEq, Prod.mk.injEq] at hr
      rw [← hr.1]; exact hk1
  · rw [hl] at hr; simp at hr
  · rw [hl] at hr; simp at hr

theorem markLoop_blank {n i : Nat} {c c' : Cache} (h : Blank c) (hi : i + n ≤ c.total) (hr : markLoop n i c = .ret c') : Blank c' := by
  have hbl := le_bitmapLen c.total
  obtain ⟨c1, e1, e2, e3, e4, e5, e6, e7, e8⟩ := markLoop_spec n i c (by rw [h.loaded_len]; omega) (by rw [h.dirty_len]; omega)
  rw [e1] at hr
  simp only [Outcome.ret.injEq] at hr
  subst hr
  refine h.of_same e2 e3 e4 e5 e6 ?_
  intro j hj
  rw [e7, hj]; simp

theorem writeAt_blank {b : Backend S} {bpb : Nat} {view : S → Bytes} (L : Lawful b bpb view) (R : Reliable b)
    (st : St S) (h : WF view st) (hb : st.c.bpb = bpb) (hk : Blank st.c) (buf : Bytes) (start : Nat)
    (hc : buf.length ≤ maxInt) {st' : St S} {r : Except Err Nat} (hr : writeAt b st buf start = .ret (st', r)) : Blank st'.c := by
  unfold writeAt at hr
  rw [checkBounds_eq h start hc] at hr
  by_cases hi : InRange st.c start buf.length
  · rw [if_pos hi] at hr
    simp only [Outcome.bind_ret] at hr
    rw [minBlocks_eq h.bpb_pos (bpb_le h hi.1) hc] at hr
    simp only [Outcome.bind_ret] at hr
    obtain ⟨f1, f2, f3⟩ := ceil_facts h.bpb_pos hi
    have hcap := h.cap
    have hir := ceil_inRange h.bpb_pos hi
    generalize (buf.length + (st.c.bpb - 1)) / st.c.bpb = n at *
    rcases getSlice_spec L st h hb start n (by omega) with
      ⟨h1, _⟩ | ⟨h1, st1, hld, ⟨h2, h3, h4⟩ | ⟨j, be, h2, hj⟩⟩
    · exact absurd hir h1
    · have hk1 := getSlice_blank R st h hb hk start n (by omega) h2
      rw [h2] at hr
      simp only [Outcome.bind_ret, Cache.peek] at hr
      rw [splice_goCopy_slice (by rw [hld.wf.data_len, hld.bpb, hld.total]; omega) f2] at hr
      have hsp : Blank { st1.c with data := splice st1.c.data (start * st.c.bpb) buf } :=
        hk1.splice (start := start) (count := n) (by rw [hld.total]; omega) (by rw [hld.bpb]; omega)
          (by rw [hld.bpb]; omega) h3
      rcases hm : markLoop n start { st1.c with data := splice st1.c.data (start * st.c.bpb) buf } with c2 | _ | _
      · rw [hm] at hr
        simp only [Outcome.bind_ret, Outcome.pure_eq, Outcome.ret.injEq, Prod.mk.injEq] at hr
        rw [← hr.1]
        exact markLoop_blank hsp (by simp only [hld.total]; omega) hm
      · rw [hm] at hr; simp at hr
      · rw [hm] at hr; simp at hr
    · have hk1 := getSlice_blank R st h hb hk start n (by omega) h2
      rw [h2] at hr
      simp only [Outcome.bind_ret, Outcome.pure_eq, Outcome.ret.injEq, Prod.mk.injEq] at hr
      rw [← hr.1]; exact hk1
  · rw [if_neg hi] at hr
    simp only [Outcome.bind_ret, Outcome.pure_eq, Outcome.ret.injEq, Prod.mk.injEq] at hr
    rw [← hr.1]; exact hk

theorem mark_blank {view : S → Bytes} (st st0 : St S) (h : WF view st0) (h1 : st.c.bpb = st0.c.bpb) (h2 : st.c.total = st0.c.total) (hk : Blank st.c) (start count : Nat)
    (hc : count * st.c.bpb ≤ maxInt) {st' : St S} {r : Except Err Unit} (hr : markBlockRangeDirty st start count = .ret (st', r)) :
    Blank st'.c := by
  have hcb : st.c.checkBounds start (count * st.c.bpb) = st0.c.checkBounds start (count * st.c.bpb) := by
    unfold Cache.checkBounds Cache.getMinBlocksForSize
    rw [h1, h2]
  unfold markBlockRangeDirty at hr
  rw [u64_of_lt (by unfold maxInt at *; omega), hcb, checkBounds_eq h start hc] at hr
  by_cases hi : InRange st0.c start (count * st.c.bpb)
  · rw [if_pos hi] at hr
    simp only [Outcome.bind_ret] at hr
    rw [h1] at hi
    have hbk := (inRange_blocks h.bpb_pos).1 hi
    rcases hm : markLoop count start st.c with c2 | _ | _
    · rw [hm] at hr
      simp only [Outcome.bind_ret, Outcome.pure_eq, Outcome.ret.injEq, Prod.mk.injEq] at hr
      rw [← hr.1]
      exact markLoop_blank hk (by omega) hm
    · rw [hm] at hr; simp at hr
    · rw [hm] at hr; simp at hr
  · rw [if_neg hi] at hr
    simp only [Outcome.bind_ret, Outcome.pure_eq, Outcome.ret.injEq, Prod.mk.injEq] at hr
    rw [← hr.1]; exact hk

theorem resize_blank {b : Backend S} (st : St S) (hk : Blank st.c) (n : Nat) (hn : n * st.c.bpb ≤ maxInt)
    {st' : St S} {r : Except Err Unit} (hr : resize b st n = .ret (st', r)) : Blank st'.c := by
  unfold resize at hr
  rcases hres : b.resize st.s n with ⟨s', e⟩
  rw [hres] at hr
  rcases e with _ | e
  · simp only at hr
    have htot : n ≤ maxInt := Nat.le_trans (Nat.le_mul_of_pos_right _ hk.bpb_pos) hn
    rw [u64_of_lt (by unfold maxInt at *; omega), if_pos ⟨htot, hn⟩] at hr
    have hbl : n ≤ bitmapLen n := le_bitmapLen _
    have hblt : st.c.total ≤ bitmapLen st.c.total := le_bitmapLen _
    have hpre : ∀ j, j < bitmapLen n → (bitCopy (bitmapLen n) st.c.loaded).getD j false = st.c.loaded.getD j false := by
      intro j hj
      exact getD_bitCopy hj
    have hdata : ∀ k, k < n * st.c.bpb → (goCopy (List.replicate (n * st.c.bpb) 0) st.c.data).getD k 0 = st.c.data.getD k 0 := by
      intro k hkn
      by_cases hkd : k < st.c.data.length
      · apply getD_eq_of
        rw [getElem?_goCopy, if_pos ⟨hkd, by simpa using hkn⟩]
      · rw [List.getD_eq_getElem?_getD, List.getD_eq_getElem?_getD, getElem?_goCopy, if_neg (by omega),
          List.getElem?_replicate, if_pos hkn, List.getElem?_eq_none (by omega)]
        rfl
    have hout : ∀ k, n * st.c.bpb ≤ k → (goCopy (List.replicate (n * st.c.bpb) 0) st.c.data).getD k 0 = 0 := by
      intro k hkn
      rw [List.getD_eq_getElem?_getD, List.getElem?_eq_none (by rw [goCopy_length]; simpa using hkn)]
      rfl
    rcases hm : markLoop (n - st.c.total) st.c.total { st.c with
        data := goCopy (List.replicate (n * st.c.bpb) 0) st.c.data
        dirty := bitCopy (bitmapLen n) st.c.dirty
        loaded := bitCopy (bitmapLen n) st.c.loaded } with c2 | _ | _
    · rw [hm] at hr
      simp only [Outcome.bind_ret, Outcome.pure_eq, Outcome.ret.injEq, Prod.mk.injEq] at hr
      rw [← hr.1]
      obtain ⟨e2, e4, e5, e6, e7⟩ : c2.bpb = st.c.bpb ∧ c2.data = goCopy (List.replicate (n * st.c.bpb) 0) st.c.data ∧
          c2.loaded.length = bitmapLen n ∧ c2.dirty.length = bitmapLen n ∧
          ∀ j, (bitCopy (bitmapLen n) st.c.loaded).getD j false = true → isLoaded c2 j = true := by
        by_cases hg : st.c.total ≤ n
        · obtain ⟨c3, e1, e2, e3, e4, e5, e6, e7, e8⟩ := markLoop_spec (n - st.c.total) st.c.total { st.c with
              data := goCopy (List.replicate (n * st.c.bpb) 0) st.c.data
              dirty := bitCopy (bitmapLen n) st.c.dirty
              loaded := bitCopy (bitmapLen n) st.c.loaded }
            (by simp only [length_bitCopy]; omega) (by simp only [length_bitCopy]; omega)
          rw [e1] at hm
          simp only [Outcome.ret.injEq] at hm
          subst hm
          refine ⟨e2, e4, by rw [e5, length_bitCopy], by rw [e6, length_bitCopy], ?_⟩
          intro j hj
          rw [e7]
          split
          · rfl
          · exact hj
        · have h0 : n - st.c.total = 0 := by omega
          rw [h0] at hm
          simp only [markLoop, Outcome.ret.injEq] at hm
          subst hm
          exact ⟨rfl, rfl, length_bitCopy _ _, length_bitCopy _ _, fun j hj => hj⟩
      refine ⟨by rw [e2]; exact hk.bpb_pos, by simp only [e2]; exact hn, ?_, e5, e6, ?_⟩
      · simp only [e4, e2, goCopy_length, List.length_replicate]
      · intro k hkl
        simp only at hkl
        rw [e2] at hkl
        show c2.data.getD k 0 = 0
        rw [e4]
        by_cases hkn : k < n * st.c.bpb
        · rw [hdata k hkn]
          apply hk.zero
          have hj : k / st.c.bpb < n := by rw [Nat.div_lt_iff_lt_mul hk.bpb_pos]; exact hkn
          cases hq : isLoaded st.c (k / st.c.bpb)
          · rfl
          · rw [e7 _ (by rw [hpre _ (by omega)]; exact hq)] at hkl
            simp at hkl
        · exact hout k (by omega)
    · rw [hm] at hr; simp at hr
    · rw [hm] at hr; simp at hr
  · simp only [Outcome.pure_eq, Outcome.ret.injEq, Prod.mk.injEq] at hr
    rw [← hr.1]; exact hk

theorem step_blank {b : Backend S} {bpb : Nat} {view : S → Bytes} (L : Lawful b bpb view) (R : Reliable b)
    (st : St S) (h : WF view st) (hb : st.c.bpb = bpb) (hk : Blank st.c) (op : Op) (hv : Valid bpb op)
    {st' : St S} {r : Result} (hr : step b st op = .ret (st', r)) : Blank st'.c := by
  subst hb
  cases op with
  | read buf start =>
    simp only [step] at hr
    rcases hq : readAt b st buf start with ⟨st1, r1⟩ | _ | _
    · rw [hq] at hr
      simp only [Outcome.bind_ret, Outcome.pure_eq, Outcome.ret.injEq, Prod.mk.injEq] at hr
      rw [← hr.1]
      unfold readAt at hq
      rw [checkBounds_eq h start hv] at hq
      by_cases hi : InRange st.c start buf.length
      · rw [if_pos hi] at hq
        simp only [Outcome.bind_ret] at hq
        rw [minBlocks_eq h.bpb_pos (bpb_le h hi.1) hv] at hq
        simp only [Outcome.bind_ret] at hq
        obtain ⟨f1, f2, f3⟩ := ceil_facts h.bpb_pos hi
        have hcap := h.cap
        have hir := ceil_inRange h.bpb_pos hi
        generalize (buf.length + (st.c.bpb - 1)) / st.c.bpb = n at *
        rcases loadBlockRange_spec L st h rfl start n (by omega) with ⟨h1, _⟩ | ⟨_, st2, e, h2, hld, _, _⟩
        · exact absurd hir h1
        · have k2 := loadBlockRange_blank R st h rfl hk start n (by omega) h2
          rw [h2] at hq
          rcases e with _ | e
          · simp only [Outcome.bind_ret] at hq
            rcases hs : getSlice b st2 start n with ⟨st3, r3⟩ | _ | _
            · have k3 := getSlice_blank R st2 hld.wf hld.bpb k2 start n (by rw [hld.bpb]; omega) hs
              rw [hs] at hq
              rcases r3 with e3 | w3 <;>
              · simp only [Outcome.bind_ret, Outcome.pure_eq, Outcome.ret.injEq, Prod.mk.injEq] at hq
                rw [← hq.1]; exact k3
            · rw [hs] at hq; simp at hq
            · rw [hs] at hq; simp at hq
          · simp only [Outcome.bind_ret, Outcome.pure_eq, Outcome.ret.injEq, Prod.mk.injEq] at hq
            rw [← hq.1]; exact k2
      · rw [if_neg hi] at hq
        simp only [Outcome.bind_ret, Outcome.pure_eq, Outcome.ret.injEq, Prod.mk.injEq] at hq
        rw [← hq.1]; exact hk
    · rw [hq] at hr; simp at hr
    · rw [hq] at hr; simp at hr
  | write buf start =>
    simp only [step] at hr
    rcases hq : writeAt b st buf start with ⟨st1, r1⟩ | _ | _
    · rw [hq] at hr
      simp only [Outcome.bind_ret, Outcome.pure_eq, Outcome.ret.injEq, Prod.mk.injEq] at hr
      rw [← hr.1]
      exact writeAt_blank L R st h rfl hk buf start hv hq
    · rw [hq] at hr; simp at hr
    · rw [hq] at hr; simp at hr
  | resize n =>
    simp only [step] at hr
    rcases hq : resize b st n with ⟨st1, r1⟩ | _ | _
    · rw [hq] at hr
      simp only [Outcome.bind_ret, Outcome.pure_eq, Outcome.ret.injEq, Prod.mk.injEq] at hr
      rw [← hr.1]
      exact resize_blank st hk n hv hq
    · rw [hq] at hr; simp at hr
    · rw [hq] at hr; simp at hr
  | flush =>
    simp only [step] at hr
    rcases flush_spec L st h rfl with ⟨_, h2⟩ | ⟨_, st1, e, m, F, h2⟩
    · rw [h2] at hr
      simp only [Outcome.bind_ret, Outcome.pure_eq, Outcome.ret.injEq, Prod.mk.injEq] at hr
      rw [← hr.1]; exact hk
    · rw [h2] at hr
      simp only [Outcome.bind_ret, Outcome.pure_eq, Outcome.ret.injEq, Prod.mk.injEq] at hr
      rw [← hr.1]
      refine hk.of_same F.bpb F.total F.data (by rw [F.loaded]) ?_ (by intro j; simp only [isLoaded, F.loaded]; exact id)
      rw [F.wf.dirty_len, hk.dirty_len, F.total]
  | loadAll =>
    simp only [step, loadAll] at hr
    rcases hq : loadBlockRange b st 0 st.c.total with ⟨st1, e⟩ | _ | _
    · rw [hq] at hr
      have k := loadBlockRange_blank R st h rfl hk 0 _ h.cap hq
      rcases e with _ | e <;>
      · simp only [Outcome.bind_ret, Outcome.pure_eq, Outcome.ret.injEq, Prod.mk.injEq] at hr
        rw [← hr.1]; exact k
    · rw [hq] at hr; simp at hr
    · rw [hq] at hr; simp at hr
  | data =>
    simp only [step, data, loadAll] at hr
    rcases hq : loadBlockRange b st 0 st.c.total with ⟨st1, e⟩ | _ | _
    · rw [hq] at hr
      have k := loadBlockRange_blank R st h rfl hk 0 _ h.cap hq
      rcases e with _ | e <;>
      · simp only [Outcome.bind_ret, Outcome.pure_eq, Outcome.ret.injEq, Prod.mk.injEq] at hr
        rw [← hr.1]; exact k
    · rw [hq] at hr; simp at hr
    · rw [hq] at hr; simp at hr
  | getSlice start count =>
    simp only [step] at hr
    rcases hq : getSlice b st start count with ⟨st1, r1⟩ | _ | _
    · rw [hq] at hr
      simp only [Outcome.bind_ret, Outcome.pure_eq, Outcome.ret.injEq, Prod.mk.injEq] at hr
      rw [← hr.1]
      exact getSlice_blank R st h rfl hk start count hv hq
    · rw [hq] at hr; simp at hr
    · rw [hq] at hr; simp at hr
  | edit start count at_ v =>
    simp only [step] at hr
    obtain ⟨hv1, hv2⟩ := hv
    rcases getSlice_spec L st h rfl start count hv1 with ⟨_, h2⟩ | ⟨hir, st1, hld, ⟨h2, h3, _⟩ | ⟨j, be, h2, _⟩⟩
    · rw [h2] at hr
      simp only [Outcome.bind_ret, Outcome.pure_eq, Outcome.ret.injEq, Prod.mk.injEq] at hr
      rw [← hr.1]; exact hk
    · have k1 := getSlice_blank R st h rfl hk start count hv1 h2
      have hbk := (inRange_blocks h.bpb_pos).1 hir
      rw [h2] at hr
      simp only [Outcome.bind_ret] at hr
      have k2 : Blank (st1.c.poke ⟨start * st.c.bpb, count * st.c.bpb⟩ at_ v) := by
        exact k1.splice (start := start) (count := count) (by rw [hld.total]; omega) (by rw [hld.bpb]; show _ ≤ start * st.c.bpb + at_; omega)
          (by rw [hld.bpb]; show start * st.c.bpb + at_ + _ ≤ _; omega) h3
      rcases hm : markBlockRangeDirty ⟨st1.c.poke ⟨start * st.c.bpb, count * st.c.bpb⟩ at_ v, st1.s⟩ start count with ⟨st2, r2⟩ | _ | _
      · rw [hm] at hr
        simp only [Outcome.bind_ret, Outcome.pure_eq, Outcome.ret.injEq, Prod.mk.injEq] at hr
        rw [← hr.1]
        exact mark_blank ⟨st1.c.poke ⟨start * st.c.bpb, count * st.c.bpb⟩ at_ v, st1.s⟩ st1 hld.wf rfl rfl k2 start count (by show count * st1.c.bpb ≤ _; rw [hld.bpb]; exact hv1) hm
      · rw [hm] at hr; simp at hr
      · rw [hm] at hr; simp at hr
    · have k1 := getSlice_blank R st h rfl hk start count hv1 h2
      rw [h2] at hr
      simp only [Outcome.bind_ret, Outcome.pure_eq, Outcome.ret.injEq, Prod.mk.injEq] at hr
      rw [← hr.1]; exact k1

theorem run_blank {b : Backend S} {bpb : Nat} {view : S → Bytes} (L : Lawful b bpb view) (R : Reliable b) : ∀ (ops : List Op)
    {st : St S}, WF view st → st.c.bpb = bpb → Blank st.c → (∀ op ∈ ops, Valid bpb op) →
    ∀ {st' : St S} {rs : List Result}, runOps b st ops = .ret (st', rs) → Blank st'.c
  | [], st, _, _, hk, _, st', rs, h => by
    simp only [runOps, Outcome.ret.injEq, Prod.mk.injEq] at h
    rw [← h.1]; exact hk
  | op :: ops, st, w, hbp, hk, hv, st', rs, h => by
    obtain ⟨st1, r, h1, s1⟩ := step_spec L st w hbp op (hv op (by simp))
    have k1 := step_blank L R st w hbp hk op (hv op (by simp)) h1
    unfold runOps at h
    rw [h1] at h
    simp only [Outcome.bind_ret] at h
    rcases hr : runOps b st1 ops with ⟨st2, rs2⟩ | _ | _
    · rw [hr] at h
      simp only [Outcome.bind_ret, Outcome.pure_eq, Outcome.ret.injEq, Prod.mk.injEq] at h
      rw [← h.1]
      exact run_blank L R ops s1.wf (s1.bpb.trans hbp) k1 (fun o ho => hv o (by simp [ho])) hr
    · rw [hr] at h; simp at h
    · rw [hr] at h; simp at h

/-- After any history of calls on a cache whose callbacks do not fail, memory of blocks never loaded is zero. -/
theorem after_blank {b : Backend S} {bpb total : Nat} {view : S → Bytes} {s0 : S}
    (H : Setup b bpb total view s0) (R : Reliable b) {ops : List Op} {st : St S} {rs : List Result}
    (ha : After b bpb total s0 ops st rs) : Blank st.c := by
  obtain ⟨c, hn, hv, hrun⟩ := ha
  obtain ⟨c', hn', w, hb, hbl⟩ : ∃ c', new bpb total = .ret c' ∧ WF view ⟨c', s0⟩ ∧ c'.bpb = bpb ∧ Blank c' := by
    obtain ⟨c', h1, h2, h3, h4, h5, _⟩ := new_spec H.bpb_pos H.cap view s0 H.store
    refine ⟨c', h1, h2, h3, h2.bpb_pos, h2.cap, h2.data_len, h2.loaded_len, h2.dirty_len, ?_⟩
    intro k _
    unfold new at h1
    split at h1
    · simp only [Outcome.ret.injEq] at h1
      rw [← h1, List.getD_eq_getElem?_getD, List.getElem?_replicate]
      split <;> rfl
    · simp at h1
  rw [hn] at hn'
  simp only [Outcome.ret.injEq] at hn'
  subst hn'
  exact run_blank H.lawful R ops w hb hbl hv hrun

end Disko.BlockCache

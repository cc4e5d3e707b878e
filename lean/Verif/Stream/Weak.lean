import Verif.BlockCache.Props
/-
A stream changes the memory of its block cache without marking the blocks.  The states it
leaves the cache in are those of `BlockCache.Spec.WF` without the clause `clean` (an unmarked
block agrees with the storage).  This file redoes the effect of the cache operations for such
states.
-/
namespace Disko.BlockCache
open Disko Disko.BlockCache.Spec

variable {S : Type}

/-- `WF` without `clean`. -/
structure Weak (view : S → Bytes) (st : St S) : Prop where
  bpb_pos : 0 < st.c.bpb
  cap : st.c.total * st.c.bpb ≤ maxInt
  data_len : st.c.data.length = st.c.total * st.c.bpb
  loaded_len : st.c.loaded.length = bitmapLen st.c.total
  dirty_len : st.c.dirty.length = bitmapLen st.c.total
  dirty_loaded : ∀ i, i < st.c.total → isDirty st.c i = true → isLoaded st.c i = true
  store : st.c.total * st.c.bpb ≤ (view st.s).length

theorem WF.weak {view : S → Bytes} {st : St S} (h : WF view st) : Weak view st :=
  ⟨h.bpb_pos, h.cap, h.data_len, h.loaded_len, h.dirty_len, h.dirty_loaded, h.store⟩

/-- The same state with other dirty bits. -/
def withDirty (st : St S) (d : List Bool) : St S := ⟨{ st.c with dirty := d }, st.s⟩

/-- The same state with all loaded blocks marked dirty. -/
abbrev ghost (st : St S) : St S := withDirty st st.c.loaded

theorem Weak.wf {view : S → Bytes} {st : St S} (h : Weak view st) : WF view (ghost st) := by
  refine ⟨h.bpb_pos, h.cap, h.data_len, h.loaded_len, h.loaded_len, fun _ _ hd => hd, h.store, ?_⟩
  intro k _ hd
  unfold byteAt
  have : isLoaded (ghost st).c (k / (ghost st).c.bpb) = false := hd
  rw [this]; simp

theorem contents_withDirty (view : S → Bytes) (st : St S) (d : List Bool) :
    contents view (withDirty st d) = contents view st := rfl

/-- Replace the dirty bits in a result. -/
def mapDirty {α : Type} (d : List Bool) : Outcome (St S × α) → Outcome (St S × α)
  | .ret (st, a) => .ret (withDirty st d, a)
  | .panic => .panic
  | .timeout => .timeout

/-- Dirty bits that loading does not touch. -/
def Quiet (st : St S) (d : List Bool) : Prop :=
  st.c.loaded.length = d.length ∧ ∀ j, j < st.c.total → st.c.loaded.getD j false = false → d.getD j false = false

theorem loadLoop_withDirty (b : Backend S) (d : List Bool) (n i : Nat) (st : St S) (hn : i + n ≤ st.c.total)
    (h1 : Quiet st st.c.dirty) (h2 : Quiet st d) :
    loadLoop b n i (withDirty st d) = mapDirty d (loadLoop b n i st) ∧
    ∀ st' e, loadLoop b n i st = .ret (st', e) → st'.c.dirty = st.c.dirty := by
  induction n generalizing i st with
  | zero =>
    refine ⟨rfl, ?_⟩
    intro st' e h; simp only [loadLoop, Outcome.ret.injEq, Prod.mk.injEq] at h; rw [← h.1]
  | succ n ih =>
    unfold loadLoop
    have hw : (withDirty st d).c.loaded = st.c.loaded := rfl
    simp only [hw]
    by_cases hi : i < st.c.loaded.length
    · rw [bitGet_eq hi]
      simp only [Outcome.bind_ret]
      by_cases hl : st.c.loaded.getD i false = true
      · simp only [if_pos hl]; exact ih (i + 1) st (by omega) h1 h2
      · simp only [if_neg hl]
        have hl' : st.c.loaded.getD i false = false := by simpa using hl
        have e1 : (withDirty st d).c.bpb = st.c.bpb := rfl
        have e2 : (withDirty st d).c.data = st.c.data := rfl
        have e3 : (withDirty st d).s = st.s := rfl
        have e4 : (withDirty st d).c.dirty = d := rfl
        simp only [e1, e2, e3, e4]
        split
        · rcases hf : b.fetch st.s i (slice st.c.data (u64 (i * st.c.bpb))
            (u64 (u64 (i * st.c.bpb) + st.c.bpb) - u64 (i * st.c.bpb))) with ⟨s', buf', _ | e⟩
          · simp only
            rw [bitSet_eq hi, bitSet_eq (by rw [← h2.1]; exact hi), bitSet_eq (by rw [← h1.1]; exact hi)]
            simp only [Outcome.bind_ret]
            rw [set_same (h1.2 i (by omega) hl'), set_same (h2.2 i (by omega) hl')]
            have q : ∀ d', Quiet st d' → ∀ st2 : St S, st2.c.total = st.c.total → st2.c.loaded = st.c.loaded.set i true → Quiet st2 d' := by
              intro d' hq st2 ht hst
              refine ⟨by rw [hst, List.length_set]; exact hq.1, ?_⟩
              intro j hjt hj
              rw [hst, getD_set _ _ _ _ hi] at hj
              by_cases hji : j = i
              · rw [if_pos hji] at hj; simp at hj
              · rw [if_neg hji] at hj; exact hq.2 j (by omega) hj
            exact ih (i + 1) ⟨{ st.c with data := _, loaded := st.c.loaded.set i true, dirty := st.c.dirty }, s'⟩
              (by show i + 1 + n ≤ st.c.total; omega) (q _ h1 _ rfl rfl) (q _ h2 _ rfl rfl)
          · refine ⟨rfl, ?_⟩
            intro st' e' h
            simp only [Outcome.pure_eq, Outcome.ret.injEq, Prod.mk.injEq] at h; rw [← h.1]
        · exact ⟨rfl, by simp⟩
    · have : bitGet st.c.loaded i = .panic := by
        unfold bitGet; rw [List.getElem?_eq_none (by omega)]
      rw [this]; exact ⟨rfl, by simp⟩

theorem getSlice_withDirty (b : Backend S) (d : List Bool) (start count : Nat) (st : St S)
    (hr : u64 (start + count) ≤ st.c.total ∨ ∃ e, st.c.checkBounds start (u64 (count * st.c.bpb)) = .ret (some e))
    (h1 : Quiet st st.c.dirty) (h2 : Quiet st d) :
    getSlice b (withDirty st d) start count = mapDirty d (getSlice b st start count) ∧
    ∀ st' e, getSlice b st start count = .ret (st', e) → st'.c.dirty = st.c.dirty := by
  unfold getSlice loadBlockRange
  have e0 : (withDirty st d).c.checkBounds start (u64 (count * (withDirty st d).c.bpb)) =
    st.c.checkBounds start (u64 (count * st.c.bpb)) := rfl
  rw [e0]
  rcases hcb : st.c.checkBounds start (u64 (count * st.c.bpb)) with r | _ | _
  · simp only [Outcome.bind_ret]
    cases r with
    | some e =>
      refine ⟨rfl, ?_⟩
      intro st' e' h
      simp only [Outcome.pure_eq, Outcome.bind_ret, Outcome.ret.injEq, Prod.mk.injEq] at h; rw [← h.1]
    | none =>
      simp only
      have hr' : u64 (start + count) ≤ st.c.total := by
        rcases hr with hr | ⟨e, hr⟩
        · exact hr
        · rw [hcb] at hr; simp at hr
      by_cases hsc : u64 (start + count) ≤ start
      · have e0 : u64 (start + count) - start = 0 := by omega
        rw [e0]
        simp only [loadLoop, Outcome.bind_ret]
        have f1 : (withDirty st d).c.bpb = st.c.bpb := rfl
        have f2 : (withDirty st d).c.data = st.c.data := rfl
        simp only [f1, f2]
        split
        · refine ⟨rfl, ?_⟩
          intro st' e' h
          simp only [Outcome.pure_eq, Outcome.ret.injEq, Prod.mk.injEq] at h; rw [← h.1]
        · exact ⟨rfl, by simp⟩
      obtain ⟨k1, k2⟩ := loadLoop_withDirty b d (u64 (start + count) - start) start st (by omega) h1 h2
      rw [k1]
      rcases hll : loadLoop b (u64 (start + count) - start) start st with ⟨st1, _ | e⟩ | _ | _
      · simp only [mapDirty, Outcome.bind_ret]
        have hd := k2 _ _ hll
        have f1 : (withDirty st1 d).c.bpb = st1.c.bpb := rfl
        have f2 : (withDirty st1 d).c.data = st1.c.data := rfl
        simp only [f1, f2]
        split
        · refine ⟨rfl, ?_⟩
          intro st' e' h
          simp only [Outcome.pure_eq, Outcome.ret.injEq, Prod.mk.injEq] at h; rw [← h.1]; exact hd
        · exact ⟨rfl, by simp⟩
      · refine ⟨rfl, ?_⟩
        intro st' e' h
        simp only [Outcome.pure_eq, Outcome.bind_ret, Outcome.ret.injEq, Prod.mk.injEq] at h
        rw [← h.1]; exact k2 _ _ hll
      · exact ⟨rfl, by simp⟩
      · exact ⟨rfl, by simp⟩
  · exact ⟨rfl, by simp⟩
  · exact ⟨rfl, by simp⟩

/-- Effect of loading blocks: nothing a reader could notice. -/
structure WLoads (view : S → Bytes) (st st' : St S) : Prop where
  weak : Weak view st'
  bpb : st'.c.bpb = st.c.bpb
  total : st'.c.total = st.c.total
  dirty : st'.c.dirty = st.c.dirty
  mono : ∀ i, isLoaded st.c i = true → isLoaded st'.c i = true
  view_eq : view st'.s = view st.s
  contents_eq : contents view st' = contents view st

theorem WLoads.refl {view : S → Bytes} {st : St S} (h : Weak view st) : WLoads view st st :=
  ⟨h, rfl, rfl, rfl, fun _ h => h, rfl, rfl⟩

theorem getSlice_weak {b : Backend S} {bpb : Nat} {view : S → Bytes} (L : Lawful b bpb view)
    (st : St S) (h : Weak view st) (hb : st.c.bpb = bpb) (start count : Nat)
    (hc : count * st.c.bpb ≤ maxInt) :
    (¬ InRange st.c start (count * st.c.bpb) ∧
      getSlice b st start count = .ret (st, .error .argumentOutOfRange)) ∨
    (InRange st.c start (count * st.c.bpb) ∧ ∃ st', WLoads view st st' ∧
      ((getSlice b st start count = .ret (st', .ok ⟨start * st.c.bpb, count * st.c.bpb⟩) ∧
        (∀ j, start ≤ j → j < start + count → isLoaded st'.c j = true) ∧
        st'.c.peek ⟨start * st.c.bpb, count * st.c.bpb⟩ =
          slice (contents view st) (start * st.c.bpb) (count * st.c.bpb)) ∨
       (∃ j be, getSlice b st start count = .ret (st', .error (.fetchFailed j be)) ∧
         FetchFails b st.c.total j be))) := by
  have q1 : Quiet st st.c.dirty := by
    refine ⟨by rw [h.loaded_len, h.dirty_len], ?_⟩
    intro j hj hl
    cases hd : st.c.dirty.getD j false
    · rfl
    · have := h.dirty_loaded j hj hd
      rw [isLoaded, hl] at this; simp at this
  have q2 : Quiet st st.c.loaded := ⟨rfl, fun _ _ hl => hl⟩
  have hcb : ∀ e, st.c.checkBounds start (u64 (count * st.c.bpb)) = .ret (some e) →
      getSlice b st start count = .ret (st, .error e) := by
    intro e he
    unfold getSlice loadBlockRange
    rw [he]; rfl
  have hcbe : st.c.checkBounds start (u64 (count * st.c.bpb)) =
      .ret (if InRange st.c start (count * st.c.bpb) then none else some .argumentOutOfRange) := by
    have := checkBounds_eq h.wf start hc
    rw [u64_of_lt (by unfold maxInt at *; omega)]
    exact this
  by_cases hr : InRange st.c start (count * st.c.bpb)
  · right
    refine ⟨hr, ?_⟩
    obtain ⟨r1, r2⟩ := (inRange_blocks h.bpb_pos).1 hr
    have htot : st.c.total ≤ maxInt :=
      Nat.le_trans (Nat.le_mul_of_pos_right _ h.bpb_pos) h.cap
    have hu : u64 (start + count) ≤ st.c.total := by
      rw [u64_of_lt (by unfold maxInt at *; omega)]; exact r2
    obtain ⟨k1, k2⟩ := getSlice_withDirty b st.c.loaded start count st (.inl hu) q1 q2
    rcases getSlice_spec L (ghost st) h.wf hb start count hc with ⟨n1, _⟩ | ⟨_, st1, ld, ha⟩
    · exact absurd hr n1
    · have trans : ∀ r, getSlice b (ghost st) start count = .ret (st1, r) →
          getSlice b st start count = .ret (withDirty st1 st.c.dirty, r) := by
        intro r hg
        rw [hg] at k1
        rcases hg0 : getSlice b st start count with ⟨st2, r2⟩ | _ | _
        · rw [hg0] at k1
          simp only [mapDirty, Outcome.ret.injEq, Prod.mk.injEq] at k1
          have hd := k2 _ _ hg0
          rw [k1.1, k1.2]
          simp only [withDirty, ← hd]
        · rw [hg0] at k1; simp [mapDirty] at k1
        · rw [hg0] at k1; simp [mapDirty] at k1
      have wl : WLoads view st (withDirty st1 st.c.dirty) := by
        refine ⟨⟨ld.wf.bpb_pos, ld.wf.cap, ld.wf.data_len, ld.wf.loaded_len, ?_, ?_, ld.wf.store⟩,
          ld.bpb, ld.total, rfl, ld.mono, ld.view_eq, ld.contents_eq⟩
        · show st.c.dirty.length = bitmapLen st1.c.total
          rw [ld.total]; exact h.dirty_len
        · intro i hi hd
          have hi' : i < st.c.total := by
            have : st1.c.total = st.c.total := ld.total
            simp only [withDirty] at hi; omega
          exact ld.mono i (h.dirty_loaded i hi' hd)
      refine ⟨_, wl, ?_⟩
      rcases ha with ⟨a1, a2, a3⟩ | ⟨j, be, a1, a2⟩
      · exact .inl ⟨trans _ a1, a2, a3⟩
      · exact .inr ⟨j, be, trans _ a1, a2⟩
  · left
    rw [if_neg hr] at hcbe
    exact ⟨hr, hcb _ hcbe⟩

/-- Writing into loaded blocks without marking them. -/
theorem poke_weak {view : S → Bytes} {st : St S} (h : Weak view st) {start count off : Nat} {v : Bytes}
    (hr : start + count ≤ st.c.total) (h1 : start * st.c.bpb ≤ off)
    (h2 : off + v.length ≤ start * st.c.bpb + count * st.c.bpb)
    (hl : ∀ j, start ≤ j → j < start + count → isLoaded st.c j = true) :
    Weak view ⟨{ st.c with data := splice st.c.data off v }, st.s⟩ ∧
    contents view ⟨{ st.c with data := splice st.c.data off v }, st.s⟩ =
      splice (contents view st) off v := by
  have hle : start * st.c.bpb + count * st.c.bpb ≤ st.c.total * st.c.bpb := by
    rw [← Nat.add_mul]; exact Nat.mul_le_mul_right _ hr
  obtain ⟨_, p2⟩ := poke_spec h.wf (start := start) (count := count) (off := off) (v := v) hr h1 h2 hl
    { (ghost st).c with data := splice st.c.data off v } rfl rfl rfl rfl rfl
    (by intro j
        by_cases hj : start ≤ j ∧ j < start + count
        · rw [if_pos hj]; exact hl j hj.1 hj.2
        · rw [if_neg hj])
    (by intro j
        by_cases hj : start ≤ j ∧ j < start + count
        · rw [if_pos hj]; exact hl j hj.1 hj.2
        · rw [if_neg hj])
  refine ⟨⟨h.bpb_pos, h.cap, ?_, h.loaded_len, h.dirty_len, h.dirty_loaded, h.store⟩, p2⟩
  show (splice st.c.data off v).length = _
  rw [length_splice (by rw [h.data_len]; omega)]; exact h.data_len

theorem resize_weak {b : Backend S} {bpb : Nat} {view : S → Bytes} (L : Lawful b bpb view)
    (st : St S) (h : Weak view st) (hb : st.c.bpb = bpb) (n : Nat) (hn : n * st.c.bpb ≤ maxInt) :
    (∃ be s', b.resize st.s n = (s', some be) ∧ view s' = view st.s ∧
      resize b st n = .ret (⟨st.c, s'⟩, .error (.resizeFailed be)) ∧ Weak view ⟨st.c, s'⟩ ∧
      contents view ⟨st.c, s'⟩ = contents view st) ∨
    (∃ st', (b.resize st.s n).2 = none ∧ resize b st n = .ret (st', .ok ()) ∧
      st'.s = (b.resize st.s n).1 ∧ Weak view st' ∧ st'.c.bpb = st.c.bpb ∧ st'.c.total = n ∧
      (∀ j, j < n → isDirty st'.c j = if st.c.total ≤ j then true else isDirty st.c j) ∧
      (∀ j, j < n → isLoaded st'.c j = if st.c.total ≤ j then true else isLoaded st.c j) ∧
      contents view st' = (contents view st).take (n * st.c.bpb) ++
        List.replicate (n * st.c.bpb - (contents view st).length) 0) := by
  unfold resize
  have hrf := L.resize_fail st.s n
  have hro := L.resize_ok st.s n (by rw [← hb]; exact hn)
  rcases hres : b.resize st.s n with ⟨s', _ | e⟩
  · right
    rw [hres] at hro
    obtain ⟨hvl, hvk⟩ := hro rfl
    simp only at hvl hvk
    have htot : n ≤ maxInt := Nat.le_trans (Nat.le_mul_of_pos_right _ h.bpb_pos) hn
    simp only
    rw [u64_of_lt (by unfold maxInt at *; omega), if_pos ⟨htot, hn⟩]
    have hbl : n ≤ bitmapLen n := le_bitmapLen _
    have hbl2 : st.c.total ≤ bitmapLen st.c.total := le_bitmapLen _
    have hmark : ∃ c2, markLoop (n - st.c.total) st.c.total
        { st.c with
          data := goCopy (List.replicate (n * st.c.bpb) 0) st.c.data
          dirty := bitCopy (bitmapLen n) st.c.dirty
          loaded := bitCopy (bitmapLen n) st.c.loaded } = .ret c2 ∧
        c2.bpb = st.c.bpb ∧ c2.data = goCopy (List.replicate (n * st.c.bpb) 0) st.c.data ∧
        c2.loaded.length = bitmapLen n ∧ c2.dirty.length = bitmapLen n ∧
        (∀ j, j < n → isLoaded c2 j = if st.c.total ≤ j then true else isLoaded st.c j) ∧
        (∀ j, j < n → isDirty c2 j = if st.c.total ≤ j then true else isDirty st.c j) := by
      by_cases hgrow : st.c.total ≤ n
      · obtain ⟨c', e1, e2, e3, e4, e5, e6, e7, e8⟩ := markLoop_spec (n - st.c.total) st.c.total
          { st.c with
            data := goCopy (List.replicate (n * st.c.bpb) 0) st.c.data
            dirty := bitCopy (bitmapLen n) st.c.dirty
            loaded := bitCopy (bitmapLen n) st.c.loaded }
          (by simp only [length_bitCopy]; omega) (by simp only [length_bitCopy]; omega)
        refine ⟨c', e1, e2, e4, by rw [e5, length_bitCopy], by rw [e6, length_bitCopy], ?_, ?_⟩
        · intro j hj
          rw [e7]
          by_cases hjt : st.c.total ≤ j
          · rw [if_pos (by omega), if_pos hjt]
          · rw [if_neg (by omega), if_neg hjt]
            exact getD_bitCopy (by omega)
        · intro j hj
          rw [e8]
          by_cases hjt : st.c.total ≤ j
          · rw [if_pos (by omega), if_pos hjt]
          · rw [if_neg (by omega), if_neg hjt]
            exact getD_bitCopy (by omega)
      · have e0 : n - st.c.total = 0 := by omega
        rw [e0]
        refine ⟨_, rfl, rfl, rfl, length_bitCopy _ _, length_bitCopy _ _, ?_, ?_⟩
        · intro j hj; rw [if_neg (by omega)]; exact getD_bitCopy (by omega)
        · intro j hj; rw [if_neg (by omega)]; exact getD_bitCopy (by omega)
    obtain ⟨c2, m1, m2, m3, m4, m5, m6, m7⟩ := hmark
    rw [m1]
    refine ⟨⟨{ c2 with total := n }, s'⟩, trivial, rfl, rfl, ?_, m2, rfl, m7, m6, ?_⟩
    · refine ⟨by simp only [m2]; exact h.bpb_pos, by simp only [m2]; exact hn, by
        simp only [m2, m3, goCopy_length, List.length_replicate], m4, m5, ?_, by
        simp only [m2, hb]; exact hvl⟩
      intro j hj hd
      have h6 := m6 j hj
      have h7 := m7 j hj
      simp only [isLoaded, isDirty] at h6 h7 hd ⊢
      rw [h6]
      rw [h7] at hd
      by_cases hjt : st.c.total ≤ j
      · rw [if_pos hjt]
      · rw [if_neg hjt] at hd ⊢
        exact h.dirty_loaded j (by omega) hd
    · have hblk : ∀ k, k < n * st.c.bpb → k / st.c.bpb < n := by
        intro k hk; rw [Nat.div_lt_iff_lt_mul h.bpb_pos]; exact hk
      have hby : ∀ k, k < n * st.c.bpb → byteAt view ⟨{ c2 with total := n }, s'⟩ k =
          if k < st.c.total * st.c.bpb then byteAt view st k else 0 := by
        intro k hk
        unfold byteAt
        have hkl := m6 (k / st.c.bpb) (hblk k hk)
        simp only [isLoaded, m2] at hkl ⊢
        rw [hkl, m3]
        by_cases hkt : k < st.c.total * st.c.bpb
        · have : k / st.c.bpb < st.c.total := by rw [Nat.div_lt_iff_lt_mul h.bpb_pos]; exact hkt
          rw [if_neg (show ¬ st.c.total ≤ k / st.c.bpb by omega), if_pos hkt]
          have hkv := hvk k (by rw [← hb]; exact hk) (by have := h.store; omega)
          rw [getD_eq_of hkv]
          have : (goCopy (List.replicate (n * st.c.bpb) 0) st.c.data)[k]? = st.c.data[k]? := by
            rw [getElem?_goCopy, if_pos (by rw [h.data_len, List.length_replicate]; omega)]
          rw [getD_eq_of this]
        · have : st.c.total ≤ k / st.c.bpb := by rw [Nat.le_div_iff_mul_le h.bpb_pos]; omega
          rw [if_pos this, if_neg hkt]
          simp only [if_true]
          rw [List.getD_eq_getElem?_getD, getElem?_goCopy, if_neg (by rw [h.data_len]; omega),
            List.getElem?_replicate, if_pos hk]; rfl
      apply List.ext_getElem?
      intro k
      rw [getElem?_contents, List.getElem?_append, List.length_take, length_contents,
        List.getElem?_take, getElem?_contents, List.getElem?_replicate]
      have hby' := hby
      simp only [m2] at hby' ⊢
      by_cases hk : k < n * st.c.bpb
      · rw [if_pos hk, hby' k hk]
        by_cases hkt : k < st.c.total * st.c.bpb
        · rw [if_pos hkt, if_pos (by omega), if_pos hk, if_pos hkt]
        · rw [if_neg hkt, if_neg (by omega), if_pos (by omega)]
      · rw [if_neg hk]
        by_cases hkt : k < st.c.total * st.c.bpb
        · rw [if_neg (by omega), if_neg (by omega)]
        · rw [if_neg (by omega), if_neg (by omega)]
  · left
    rw [hres] at hrf
    have hv := hrf (by simp)
    refine ⟨e, s', rfl, hv, rfl, ⟨h.bpb_pos, h.cap, h.data_len, h.loaded_len, h.dirty_len,
      h.dirty_loaded, by simp only at hv ⊢; rw [hv]; exact h.store⟩, ?_⟩
    refine contents_congr (st := st) (st' := ⟨st.c, s'⟩) rfl rfl ?_
    intro k _
    unfold byteAt
    simp only at hv ⊢
    rw [hv]

/-- Result of a flush loop over `[i, i+n)` that stopped after `m` blocks. -/
structure WFlushes (b : Backend S) (view : S → Bytes) (i n : Nat) (st st' : St S) (e : Option Err)
    (m : Nat) : Prop where
  weak : Weak view st'
  bpb : st'.c.bpb = st.c.bpb
  total : st'.c.total = st.c.total
  loaded : st'.c.loaded = st.c.loaded
  data : st'.c.data = st.c.data
  dirty : ∀ j, isDirty st'.c j = (isDirty st.c j && !(decide (i ≤ j) && decide (j < i + m)))
  vlen : (view st'.s).length = (view st.s).length
  stored : ∀ k, (e = none ∨ k / st.c.bpb ≠ i + m) → (view st'.s)[k]? =
    if i ≤ k / st.c.bpb ∧ k / st.c.bpb < i + m ∧ isDirty st.c (k / st.c.bpb) = true
    then st.c.data[k]? else (view st.s)[k]?
  ok : e = none → m = n
  fail : ∀ x, e = some x → m < n ∧ isDirty st.c (i + m) = true ∧ ∃ be, x = .flushFailed (i + m) be ∧
    ∃ s buf, (b.flush s (i + m) buf).2 = some be

theorem getSlice_one {b : Backend S} {view : S → Bytes} {st : St S} (h : Weak view st) {i : Nat}
    (hi : i < st.c.total) (hl : isLoaded st.c i = true) :
    getSlice b st i 1 = .ret (st, .ok ⟨i * st.c.bpb, 1 * st.c.bpb⟩) := by
  have hr : InRange st.c i (1 * st.c.bpb) := (inRange_blocks h.bpb_pos).2 ⟨by omega, by omega⟩
  have g := getSlice_loaded (b := b) h.wf (start := i) (count := 1) hr
    (by intro j h1 h2; have : j = i := by omega
        rw [this]; exact hl)
  have q1 : Quiet st st.c.dirty := by
    refine ⟨by rw [h.loaded_len, h.dirty_len], ?_⟩
    intro j hj hl
    cases hd : st.c.dirty.getD j false
    · rfl
    · have := h.dirty_loaded j hj hd
      rw [isLoaded, hl] at this; simp at this
  have htot : st.c.total ≤ maxInt :=
    Nat.le_trans (Nat.le_mul_of_pos_right _ h.bpb_pos) h.cap
  obtain ⟨k1, k2⟩ := getSlice_withDirty b st.c.loaded i 1 st
    (.inl (by rw [u64_of_lt (by unfold maxInt at *; omega)]; omega)) q1 ⟨rfl, fun _ _ hl => hl⟩
  rw [g] at k1
  rcases hg0 : getSlice b st i 1 with ⟨st2, r2⟩ | _ | _
  · rw [hg0] at k1
    have hd := k2 _ _ hg0
    simp only [mapDirty, Outcome.ret.injEq, Prod.mk.injEq] at k1
    obtain ⟨c2, s2⟩ := st2
    obtain ⟨c, s⟩ := st
    obtain ⟨e1, e2⟩ := k1
    simp only [ghost, withDirty, St.mk.injEq] at e1 hd
    rw [← e2]
    have : c2 = c := by
      cases c2; cases c
      simp only [Cache.mk.injEq] at e1 hd ⊢
      obtain ⟨⟨a1, a2, a3, a4, a5⟩, _⟩ := e1
      exact ⟨a1.symm, a2.symm, a3.symm, hd, a5.symm⟩
    rw [this, ← e1.2]; rfl
  · rw [hg0] at k1; simp [mapDirty] at k1
  · rw [hg0] at k1; simp [mapDirty] at k1

theorem flushLoop_weak {b : Backend S} {bpb : Nat} {view : S → Bytes} (L : Lawful b bpb view)
    (n i : Nat) (st : St S) (h : Weak view st) (hb : st.c.bpb = bpb) (hi : i + n ≤ st.c.total) :
    ∃ st' e m, flushLoop b n i st = .ret (st', e) ∧ WFlushes b view i n st st' e m := by
  induction n generalizing i st with
  | zero =>
    refine ⟨st, none, 0, rfl, h, rfl, rfl, rfl, rfl, ?_, rfl, ?_, by simp, by simp⟩
    · intro j
      have : (decide (i ≤ j) && decide (j < i + 0)) = false := by
        rw [← Bool.decide_and]; exact decide_eq_false (by omega)
      rw [this]; simp
    · intro k _; rw [if_neg (by omega)]
  | succ n ih =>
    have hbp := h.bpb_pos
    have hdlen : i < st.c.dirty.length := by
      rw [h.dirty_len]; have := le_bitmapLen st.c.total; omega
    unfold flushLoop
    rw [bitGet_eq hdlen]
    simp only [Outcome.bind_ret]
    have hend := block_end_le (n := st.c.bpb) (i := i) (total := st.c.total) (by omega)
    cases hd : st.c.dirty.getD i false with
    | false =>
      simp only [Bool.not_false, if_true]
      obtain ⟨st', e, m, h1, F⟩ := ih (i + 1) st h hb (by omega)
      refine ⟨st', e, m + 1, h1, F.weak, F.bpb, F.total, F.loaded, F.data, ?_, F.vlen, ?_, ?_, ?_⟩
      · intro j
        rw [F.dirty]
        by_cases hji : j = i
        · subst hji; simp only [isDirty, hd]; simp
        · congr 2
          rw [Bool.eq_iff_iff]; simp; omega
      · intro k hk
        rw [F.stored k (hk.imp (fun h => h) (fun h => by omega))]
        by_cases hki : k / st.c.bpb = i
        · rw [hki]
          simp only [isDirty, hd]; simp
        · by_cases hin : i ≤ k / st.c.bpb ∧ k / st.c.bpb < i + (m + 1) ∧ isDirty st.c (k / st.c.bpb) = true
          · rw [if_pos hin, if_pos ⟨by omega, by omega, hin.2.2⟩]
          · rw [if_neg hin, if_neg (fun hh => hin ⟨by omega, by omega, hh.2.2⟩)]
      · intro he; rw [F.ok he]
      · intro x hx
        obtain ⟨f1, f2, f3⟩ := F.fail x hx
        have : i + (m + 1) = i + 1 + m := by omega
        rw [this]; exact ⟨by omega, f2, f3⟩
    | true =>
      have hlo : isLoaded st.c i = true := h.dirty_loaded i (by omega) hd
      simp only [Bool.not_true, Bool.false_eq_true, if_false]
      rw [getSlice_one h (by omega) hlo]
      simp only [Outcome.bind_ret, Cache.peek, Nat.one_mul]
      have hsl : (slice st.c.data (i * st.c.bpb) st.c.bpb).length = st.c.bpb :=
        length_slice_of_le (by rw [h.data_len]; exact hend)
      have hfo := L.flush_ok st.s i (slice st.c.data (i * st.c.bpb) st.c.bpb)
        (by rw [← hb]; have := h.store; omega) (by rw [hsl, hb])
      have hff := L.flush_fail st.s i (slice st.c.data (i * st.c.bpb) st.c.bpb)
        (by rw [← hb]; have := h.store; omega) (by rw [hsl, hb])
      rcases hfl : b.flush st.s i (slice st.c.data (i * st.c.bpb) st.c.bpb) with ⟨s', e⟩
      rw [hfl] at hfo hff
      simp only at hfo hff
      cases e with
      | some e =>
        obtain ⟨v1, v2⟩ := hff (by simp)
        rw [← hb] at v2
        refine ⟨_, _, 0, rfl, ?_, rfl, rfl, rfl, rfl, ?_, v1, ?_, by simp, ?_⟩
        · exact ⟨hbp, h.cap, h.data_len, h.loaded_len, h.dirty_len, h.dirty_loaded, by
            simp only [v1]; exact h.store⟩
        · intro j
          have : (decide (i ≤ j) && decide (j < i + 0)) = false := by
            rw [← Bool.decide_and]; exact decide_eq_false (by omega)
          rw [this]; simp
        · intro k hk
          rw [if_neg (by omega)]
          rcases hk with hk | hk
          · simp at hk
          · exact v2 k hk
        · intro x hx
          simp at hx
          exact ⟨by omega, hd, e, hx.symm, st.s, _, by rw [Nat.add_zero, hfl]⟩
      | none =>
        have hv := hfo rfl
        rw [← hb] at hv
        simp only [bitSet_eq hdlen, Outcome.bind_ret]
        have hvk : ∀ k, (view s')[k]? = if k / st.c.bpb = i then st.c.data[k]? else (view st.s)[k]? := by
          intro k
          rw [hv, getElem?_splice (by have := h.store; omega), hsl]
          by_cases hki : k / st.c.bpb = i
          · have := (div_eq_block hbp).1 hki
            rw [if_pos hki, if_neg (by omega), if_pos (by omega), getElem?_slice, if_pos (by omega)]
            congr 1; omega
          · have := mt (div_eq_block (k := k) (i := i) hbp).2 hki
            rw [if_neg hki]
            by_cases hk : k < i * st.c.bpb
            · rw [if_pos hk]
            · rw [if_neg hk, if_neg (by omega)]
        have hvl : (view s').length = (view st.s).length := by
          rw [hv]; exact length_splice (by rw [hsl]; have := h.store; omega)
        have hdset : ∀ j, (st.c.dirty.set i false).getD j false =
            if j = i then false else st.c.dirty.getD j false := fun j => getD_set _ _ _ _ hdlen
        have hw : Weak view ⟨{ st.c with dirty := st.c.dirty.set i false }, s'⟩ := by
          refine ⟨hbp, h.cap, h.data_len, h.loaded_len, by
            simp only [List.length_set]; exact h.dirty_len, ?_, by
            simp only [hvl]; exact h.store⟩
          intro j hj hdj
          simp only [isDirty, hdset] at hdj
          by_cases hji : j = i
          · rw [if_pos hji] at hdj; simp at hdj
          · rw [if_neg hji] at hdj; exact h.dirty_loaded j hj hdj
        obtain ⟨st', e', m, h1, F⟩ := ih (i + 1) _ hw (by exact hb) (by show i + 1 + n ≤ st.c.total; omega)
        refine ⟨st', e', m + 1, h1, F.weak, F.bpb, F.total, F.loaded, F.data, ?_, F.vlen.trans hvl, ?_,
          ?_, ?_⟩
        · intro j
          rw [F.dirty]
          simp only [isDirty, hdset]
          by_cases hji : j = i
          · subst hji; simp
          · rw [if_neg hji]
            congr 2
            rw [Bool.eq_iff_iff]; simp; omega
        · intro k hk
          rw [F.stored k (hk.imp (fun h => h) (fun h => by simp only; omega))]
          simp only [isDirty, hdset]
          rw [hvk]
          by_cases hki : k / st.c.bpb = i
          · rw [hki, if_neg (by simp), if_pos rfl, if_pos ⟨by omega, by omega, hd⟩]
          · rw [if_neg hki, if_neg hki]
            by_cases hin : i ≤ k / st.c.bpb ∧ k / st.c.bpb < i + (m + 1) ∧
                st.c.dirty.getD (k / st.c.bpb) false = true
            · rw [if_pos hin, if_pos ⟨by omega, by omega, hin.2.2⟩]
            · rw [if_neg hin, if_neg (fun hh => hin ⟨by omega, by omega, hh.2.2⟩)]
        · intro he; rw [F.ok he]
        · intro x hx
          obtain ⟨f1, f2, f3⟩ := F.fail x hx
          have : i + (m + 1) = i + 1 + m := by omega
          rw [this]
          refine ⟨by omega, ?_, f3⟩
          simp only [isDirty, hdset] at f2 ⊢
          rw [if_neg (by omega)] at f2; exact f2

theorem flush_weak {b : Backend S} {bpb : Nat} {view : S → Bytes} (L : Lawful b bpb view)
    (st : St S) (h : Weak view st) (hb : st.c.bpb = bpb) :
    (st.c.total = 0 ∧ flush b st = .ret (st, .error .argumentOutOfRange)) ∨
    (0 < st.c.total ∧ ∃ st' e m, WFlushes b view 0 st.c.total st st' e m ∧
      flush b st = .ret (st', ofErr e)) := by
  unfold flush flushBlockRange
  have hcap := h.cap
  have hcb : st.c.checkBounds 0 (st.c.total * st.c.bpb) =
      .ret (if InRange st.c 0 (st.c.total * st.c.bpb) then none else some .argumentOutOfRange) :=
    checkBounds_eq h.wf 0 hcap
  rw [u64_of_lt (by unfold maxInt at *; omega), hcb]
  have htot : st.c.total ≤ maxInt :=
    Nat.le_trans (Nat.le_mul_of_pos_right _ h.bpb_pos) h.cap
  by_cases ht : st.c.total = 0
  · left
    refine ⟨ht, ?_⟩
    rw [if_neg (show ¬ InRange st.c 0 (st.c.total * st.c.bpb) by unfold InRange; omega)]; rfl
  · right
    refine ⟨by omega, ?_⟩
    rw [if_pos (show InRange st.c 0 (st.c.total * st.c.bpb) by unfold InRange; omega)]
    simp only [Outcome.bind_ret]
    rw [u64_of_lt (by unfold maxInt at *; omega)]
    have e0 : 0 + st.c.total - 0 = st.c.total := by omega
    rw [e0]
    obtain ⟨st', e, m, h1, F⟩ := flushLoop_weak L st.c.total 0 st h hb (by omega)
    rw [h1]
    refine ⟨st', e, m, F, ?_⟩
    cases e <;> rfl

theorem WFlushes.contents_eq {b : Backend S} {view : S → Bytes} {n m : Nat} {st st' : St S}
    {e : Option Err} (h : Weak view st) (F : WFlushes b view 0 n st st' e m) :
    contents view st' = contents view st := by
  refine contents_congr F.total F.bpb (fun k hk => ?_)
  unfold byteAt
  simp only [isLoaded, F.bpb, F.loaded, F.data]
  by_cases hl : st.c.loaded.getD (k / st.c.bpb) false = true
  · rw [if_pos hl, if_pos hl]
  · rw [if_neg hl, if_neg hl]
    have hkb : k / st.c.bpb < st.c.total := by rw [Nat.div_lt_iff_lt_mul h.bpb_pos]; exact hk
    have hnd : ¬ isDirty st.c (k / st.c.bpb) = true := fun hd => hl (h.dirty_loaded _ hkb hd)
    apply getD_eq_of
    rw [F.stored k ?_, if_neg (fun hh => hnd hh.2.2)]
    cases e with
    | none => left; rfl
    | some x =>
      right
      obtain ⟨_, f2, _⟩ := F.fail x rfl
      intro hh; rw [Nat.zero_add] at hh f2; rw [hh] at hnd; exact hnd f2

end Disko.BlockCache

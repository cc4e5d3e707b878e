import Verif.BlockCache.SlicesLemmas
/-!
C138: slices of the block cache that are kept across other operations.
-/
namespace Disko.BlockCache
open Disko Disko.BlockCache.Spec

variable {S : Type}

theorem sinv_new {b : Backend S} {bpb total : Nat} {view : S → Bytes} {s0 : S}
    (H : Setup b bpb total view s0) {c : Cache} (hn : new bpb total = .ret c) :
    SInv view ⟨⟨c, s0⟩, [], []⟩ (initial view bpb total s0) ∧ c.bpb = bpb := by
  obtain ⟨c', hn', w, hb, ht, _, _, hc⟩ := new_spec H.bpb_pos H.cap view s0 H.store
  rw [hn] at hn'; cases hn'
  refine ⟨⟨WF.weak w, hc.symm, rfl, fun _ => rfl, rfl, ?_, ?_, ?_, ?_, ?_, ?_⟩, hb⟩
  · intro h hh; cases hh
  · intro h hh; cases hh
  · intro h hh; cases hh
  · intro h hh; cases hh
  · intro h hh; cases hh
  · intro k hk _ hd; exact w.clean k hk hd

/-- C138: whatever a client does with the cache and with the slices it keeps, over storage that
may fail at any time, nothing panics and every answer is that of a flat array with views.  A view
shows the array of its time and writes to it: the current one until a Resize succeeds, a private
copy shared only with the other views of that time afterwards. -/
theorem C138_slices {b : Backend S} {bpb total : Nat} {view : S → Bytes} {s0 : S}
    (H : Setup b bpb total view s0) (ops : List SOp) (hv : ∀ op ∈ ops, SValid bpb op) :
    ∃ w rs R, SAfter b bpb total s0 ops w rs ∧
      SConformsAll b bpb ops rs (initial view bpb total s0) R ∧ R.now.length = w.st.c.totalBlocks * bpb := by
  obtain ⟨c, hn, _⟩ := new_spec H.bpb_pos H.cap view s0 H.store
  obtain ⟨I, hb⟩ := sinv_new H hn
  obtain ⟨w, rs, R, h1, h2, h3, h4⟩ := srun_spec H.lawful ops _ _ I hb hv
  refine ⟨w, rs, R, ⟨c, hn, hv, h1⟩, h2, ?_⟩
  rw [h3.now, length_contents, h4]; rfl

/-- C138: when Flush returns nil after any session, the storage holds the current array, except
possibly for blocks that were written through a slice and not marked (or rewritten) since. -/
theorem C138_durable {b : Backend S} {bpb total : Nat} {view : S → Bytes} {s0 : S}
    (H : Setup b bpb total view s0) {ops : List SOp} {w : World S} {rs : List SResult}
    (ha : SAfter b bpb total s0 ops w rs) {st' : St S} (hf : flush b w.st = .ret (st', .ok ())) :
    ∃ R, SConformsAll b bpb ops rs (initial view bpb total s0) R ∧
      R.now.length = w.st.c.totalBlocks * bpb ∧
      ∀ j, j < w.st.c.totalBlocks → R.unmarked j = false →
        slice (view st'.s) (j * bpb) bpb = slice R.now (j * bpb) bpb := by
  obtain ⟨c, hn, hv, hr⟩ := ha
  obtain ⟨I, hb⟩ := sinv_new H hn
  obtain ⟨w', rs', R, h1, h2, h3, h4⟩ := srun_spec H.lawful ops _ _ I hb hv
  rw [hr] at h1; cases h1
  refine ⟨R, h2, by rw [h3.now, length_contents, h4]; rfl, ?_⟩
  intro j hj hu
  obtain ⟨st2, r, s1, W⟩ := step_weak H.lawful w.st h3.weak h3.clean h4 .flush trivial
  rcases flush_weak H.lawful w.st h3.weak h4 with ⟨g1, g2⟩ | ⟨_, st3, e, m, F, g2⟩
  · rw [g2] at hf; cases hf
  · rw [g2] at hf
    cases e with
    | some x => cases hf
    | none =>
      simp only [Outcome.ret.injEq, Prod.mk.injEq] at hf
      obtain ⟨rfl, _⟩ := hf
      simp only [step, g2, Outcome.bind_ret, Outcome.pure_eq, Outcome.ret.injEq, Prod.mk.injEq] at s1
      obtain ⟨rfl, rfl⟩ := s1
      have hm := F.ok rfl
      apply slice_congr_of
      intro k k1 k2
      have hjk : k / bpb = j := by
        rw [Nat.div_eq_iff H.bpb_pos]; omega
      have hkt : k < w.st.c.total * bpb := by
        have : (j + 1) * bpb ≤ w.st.c.total * bpb := Nat.mul_le_mul_right _ hj
        rw [Nat.succ_mul] at this; omega
      have hcl := W.clean k (by rw [F.total, F.bpb, h4]; exact hkt)
        (by rw [F.bpb, h4, hjk]; simp only [hu]; rfl) (by
          rw [F.bpb, h4, hjk, F.dirty, hm]
          have hj' : j < w.st.c.total := hj
          simp [hj'])
      rw [h3.now, getElem?_contents, h4, if_pos hkt]
      rw [byteAt_of_contents F.total F.bpb (by rw [h4]; exact hkt) (by rw [F.contents_eq h3.weak])] at hcl
      rw [hcl]
      have hst := F.weak.store
      rw [F.total, F.bpb, h4] at hst
      rw [List.getD_eq_getElem?_getD, List.getElem?_eq_getElem (by omega)]
      rfl

/-- The session of the example: keep the first two blocks, change them through the slice, read
them back with ReadAt, grow the cache, change them again through the (now stale) slice, take a new
slice, change and mark its second block. -/
def exampleSession : List SOp :=
  [.keep 0 2, .put 0 1 [9, 9], .base (.read [0, 0, 0, 0] 0), .mark 0 0 1, .base (.resize 4),
   .put 0 0 [7], .look 0, .base (.read [0, 0, 0, 0] 0), .keepAll, .put 1 4 [5, 6], .mark 1 2 1]

example : ∃ w rs st', SAfter (mem 2) 2 3 ([1, 2, 3, 4, 5, 6, 7, 8], [true, false]) (.keep 0 2 :: exampleSession) w rs ∧
    rs = [.kept (.error (.fetchFailed 0 (.other 1))), .kept (.ok ()), .nothing,
      .base (.read (.ok ([1, 9, 9, 4], 4))), .marked (.ok ()), .base (.unit (.ok ())), .nothing,
      .seen [7, 9, 9, 4], .base (.read (.ok ([1, 9, 9, 4], 4))), .kept (.ok ()), .nothing, .marked (.ok ())] ∧
    flush (mem 2) w.st = .ret (st', .ok ()) ∧
    -- block 0 was marked; block 1 was changed by the first `put` and never marked
    st'.s.1 = [1, 9, 3, 4, 5, 6, 0, 0] :=
  ⟨_, _, _, ⟨exampleCache, by decide +kernel, by simp [exampleSession, SValid, Valid, maxInt], rfl⟩,
    by decide +kernel, rfl, by decide +kernel⟩

end Disko.BlockCache

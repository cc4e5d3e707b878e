import Verif.BlockCache.Logged
import Verif.BlockCache.Blank
import Verif.BlockCache.Props
/-!
C19, C20, C21: exactly when they hold.
-/
namespace Disko.BlockCache
open Disko Disko.BlockCache.Spec

variable {S : Type}

/-! ### C19 -/

/-- C19, exactly: whatever the history, on an empty cache all three fail with ErrArgumentOutOfRange and change
nothing; with callbacks that do not fail, they succeed exactly on caches that are not empty. -/
theorem C19_exact_partial {b : Backend S} {bpb total : Nat} {view : S → Bytes} {s0 : S}
    (H : Setup b bpb total view s0) {ops : List Op} {st : St S} {rs : List Result}
    (ha : After b bpb total s0 ops st rs) :
    (st.c.totalBlocks = 0 → flush b st = .ret (st, .error .argumentOutOfRange) ∧
      loadAll b st = .ret (st, .error .argumentOutOfRange) ∧ data b st = .ret (st, .error .argumentOutOfRange)) ∧
    (Reliable b → ((∃ st', flush b st = .ret (st', .ok ())) ↔ 0 < st.c.totalBlocks) ∧
      ((∃ st', loadAll b st = .ret (st', .ok ())) ↔ 0 < st.c.totalBlocks) ∧
      ((∃ st' w, data b st = .ret (st', .ok w)) ↔ 0 < st.c.totalBlocks)) := by
  have h0 : st.c.totalBlocks = 0 → flush b st = .ret (st, .error .argumentOutOfRange) ∧
      loadAll b st = .ret (st, .error .argumentOutOfRange) ∧ data b st = .ret (st, .error .argumentOutOfRange) := by
    intro h
    obtain ⟨w, hb, _⟩ := after_spec H ha
    have hl : loadAll b st = .ret (st, .error .argumentOutOfRange) := by
      unfold loadAll
      rcases loadBlockRange_spec H.lawful st w hb 0 st.c.total w.cap with ⟨_, h2⟩ | ⟨h1, _⟩
      · rw [h2]; rfl
      · have := h1.1
        unfold Cache.totalBlocks at h
        omega
    refine ⟨?_, hl, ?_⟩
    · rcases flush_spec H.lawful st w hb with ⟨_, h2⟩ | ⟨h1, _⟩
      · exact h2
      · unfold Cache.totalBlocks at h
        omega
    · unfold data
      rw [hl]; rfl
  refine ⟨h0, fun R => ?_⟩
  rcases Nat.eq_zero_or_pos st.c.totalBlocks with hz | hz
  · obtain ⟨h1, h2, h3⟩ := h0 hz
    rw [h1, h2, h3]
    refine ⟨⟨?_, ?_⟩, ⟨?_, ?_⟩, ⟨?_, ?_⟩⟩
    · rintro ⟨_, h⟩; simp at h
    · omega
    · rintro ⟨_, h⟩; simp at h
    · omega
    · rintro ⟨_, _, h⟩; simp at h
    · omega
  · obtain ⟨h1, h2, h3⟩ := C19_nonempty_partial H R ha hz
    exact ⟨⟨fun _ => hz, fun _ => h1⟩, ⟨fun _ => hz, fun _ => h2⟩, ⟨fun _ => hz, fun _ => h3⟩⟩

/-- Non-vacuity: a cache of three blocks shrunk to none. -/
example : ∃ st rs, After (mem 2) 2 3 ([1, 2, 3, 4, 5, 6, 7, 8], []) [.write [9] 1, .resize 0] st rs ∧ st.c.totalBlocks = 0 :=
  ⟨_, _, ⟨exampleCache, by decide +kernel, by simp [Valid, maxInt], rfl⟩, by decide +kernel⟩

/-! ### C20 -/

/-- C20, exactly: MarkBlockRangeDirty of a range inside the cache always succeeds, does not touch storage, and afterwards
the object reads the same except that the blocks of the range that were not in the cache read as zeros (and the next
successful Flush stores exactly that).  So it loses data exactly when a block of the range that is not in the cache holds a
byte other than zero.  For callbacks that do not fail. -/
theorem C20_exact_partial {b : Backend S} {bpb total : Nat} {view : S → Bytes} {s0 : S}
    (H : Setup b bpb total view s0) (R : Reliable b) {ops : List Op} {st : St S} {rs : List Result}
    (ha : After b bpb total s0 ops st rs) {start count : Nat} (hc : count * bpb ≤ maxInt)
    (hin : start < st.c.totalBlocks ∧ start + count ≤ st.c.totalBlocks) :
    ∃ st', markBlockRangeDirty st start count = .ret (st', .ok ()) ∧ st'.s = st.s ∧ st'.c.totalBlocks = st.c.totalBlocks ∧
      (contents view st').length = (contents view st).length ∧
      (∀ k, (contents view st').getD k 0 =
        if start ≤ k / bpb ∧ k / bpb < start + count ∧ isLoaded st.c (k / bpb) = false then 0 else (contents view st).getD k 0) ∧
      (contents view st' = contents view st ↔
        ∀ k, start ≤ k / bpb → k / bpb < start + count → isLoaded st.c (k / bpb) = false → (view st.s).getD k 0 = 0) ∧
      ∃ st'', flush b st' = .ret (st'', .ok ()) ∧ (view st''.s).take (st.c.totalBlocks * bpb) = contents view st' := by
  have hbk := after_blank H R ha
  obtain ⟨w, rfl, _⟩ := after_spec H ha
  unfold markBlockRangeDirty
  unfold Cache.totalBlocks at hin
  rw [u64_of_lt (by unfold maxInt at *; omega), checkBounds_eq w start hc, if_pos ((inRange_blocks w.bpb_pos).2 hin)]
  simp only [Outcome.bind_ret]
  have hbl := le_bitmapLen st.c.total
  obtain ⟨c', e1, e2, e3, e4, e5, e6, e7, e8⟩ := markLoop_spec count start st.c
    (by rw [w.loaded_len]; omega) (by rw [w.dirty_len]; omega)
  rw [e1]
  have hbytes : ∀ k, byteAt view ⟨c', st.s⟩ k =
      if start ≤ k / st.c.bpb ∧ k / st.c.bpb < start + count ∧ isLoaded st.c (k / st.c.bpb) = false then 0 else byteAt view st k := by
    intro k
    unfold byteAt
    simp only [e2, e7, e4]
    by_cases h1 : start ≤ k / st.c.bpb ∧ k / st.c.bpb < start + count
    · rw [if_pos h1, if_pos rfl]
      cases hl : isLoaded st.c (k / st.c.bpb)
      · rw [if_pos ⟨h1.1, h1.2, rfl⟩]
        exact hbk.zero k hl
      · rw [if_neg (by simp), if_pos rfl]
    · have h2 : ¬ (start ≤ k / st.c.bpb ∧ k / st.c.bpb < start + count ∧ isLoaded st.c (k / st.c.bpb) = false) :=
        fun h => h1 ⟨h.1, h.2.1⟩
      simp only [h1, h2, if_false]
  have hlen : ∀ k, k < st.c.total * st.c.bpb ↔ k / st.c.bpb < st.c.total := fun k => (Nat.div_lt_iff_lt_mul w.bpb_pos).symm
  have hget : ∀ (s : St S) (k : Nat), (contents view s).getD k 0 = if k < s.c.total * s.c.bpb then byteAt view s k else 0 := by
    intro s k
    rw [List.getD_eq_getElem?_getD, getElem?_contents]
    split <;> rfl
  refine ⟨⟨c', st.s⟩, rfl, rfl, e3, ?_, ?_, ?_, ?_⟩
  · rw [length_contents, length_contents]
    simp only [e2, e3]
  · intro k
    rw [hget, hget]
    simp only [e2, e3]
    rw [hbytes]
    by_cases hk : k < st.c.total * st.c.bpb
    · rw [if_pos hk, if_pos hk]
    · rw [if_neg hk, if_neg hk]
      split <;> rfl
  · constructor
    · intro h k h1 h2 h3
      have hk : k < st.c.total * st.c.bpb := by rw [hlen]; omega
      have := congrArg (fun l : Bytes => l.getD k 0) h
      simp only [hget, e2, e3] at this
      rw [if_pos hk, if_pos hk, hbytes, if_pos ⟨h1, h2, h3⟩] at this
      unfold byteAt at this
      rw [h3] at this
      simpa using this.symm
    · intro h
      refine contents_congr (st := st) e3 e2 ?_
      intro k hk
      rw [hbytes]
      split
      · rename_i hq
        unfold byteAt
        rw [hq.2.2]
        simpa using (h k hq.1 hq.2.1 hq.2.2).symm
      · rfl
  · have w' : WF view ⟨c', st.s⟩ := by
      refine ⟨by simp only [e2]; exact w.bpb_pos, by simp only [e2, e3]; exact w.cap, by simp only [e2, e3, e4]; exact w.data_len,
        by simp only [e5, e3]; exact w.loaded_len, by simp only [e6, e3]; exact w.dirty_len, ?_, by simp only [e2, e3]; exact w.store, ?_⟩
      · intro i hi hd
        simp only [e3] at hi
        simp only [e7, e8] at hd ⊢
        by_cases h1 : start ≤ i ∧ i < start + count
        · rw [if_pos h1]
        · rw [if_neg h1] at hd ⊢
          exact w.dirty_loaded i hi hd
      · intro k hk hd
        simp only [e2, e3] at hk hd
        rw [e8] at hd
        rw [hbytes]
        by_cases h1 : start ≤ k / st.c.bpb ∧ k / st.c.bpb < start + count
        · rw [if_pos h1] at hd; simp at hd
        · rw [if_neg h1] at hd
          rw [if_neg (fun h => h1 ⟨h.1, h.2.1⟩)]
          exact w.clean k hk hd
    rcases flush_spec H.lawful _ w' e2 with ⟨h0, _⟩ | ⟨_, st2, e, m, F, h2⟩
    · simp only [e3] at h0; omega
    · rcases e with _ | e
      · refine ⟨st2, h2, ?_⟩
        obtain ⟨w3, t3, b3, c3, d3⟩ := flush_ok_spec H.lawful w' e2 h2
        have := contents_of_clean w3 (by rw [t3]; exact d3)
        rw [c3, t3, b3] at this
        simp only [e2, e3] at this
        exact this
      · obtain ⟨_, _, be, _, s, buf, h4, _⟩ := F.fail e rfl
        rw [R.flush] at h4
        simp at h4

/-- Non-vacuity: block 1 was read, blocks 0 and 2 were not; marking all three erases 0 and 2. -/
example : ∃ st rs st', After (mem 2) 2 3 ([1, 2, 3, 4, 5, 6, 7, 8], []) [.read [0, 0] 1] st rs ∧
    markBlockRangeDirty st 0 3 = .ret (st', .ok ()) ∧ contents Prod.fst st' = [0, 0, 3, 4, 0, 0] :=
  ⟨_, _, _, ⟨exampleCache, by decide +kernel, by simp [Valid, maxInt], rfl⟩, rfl, by decide +kernel⟩

/-! ### C21 -/

/-- The recorded flush callbacks that succeeded were of blocks below the number given to WrapStream. -/
def FlushedBelow (t : Nat) (s : Stream × List Event) : Prop := ∀ j ∈ flushedOk s.2, j < t

theorem step_above {bpb t : Nat} {ar : Bool} (hb : 0 < bpb) (hb64 : bpb < 2 ^ 64) {st : St (Stream × List Event)}
    (w : WF (fun s : Stream × List Event => s.1.bytes) st) (hbp : st.c.bpb = bpb)
    (hd : ∀ j, t ≤ j → j < st.c.total → isDirty st.c j = true) (hg : FlushedBelow t st.s) (op : Op) (hv : Valid bpb op)
    {st' : St (Stream × List Event)} {r : Result} (h : step (logged (wrapStream bpb t ar)) st op = .ret (st', r)) :
    (∀ j, t ≤ j → j < st'.c.total → isDirty st'.c j = true) ∧ FlushedBelow t st'.s := by
  have hgood : FlushedBelow t st'.s := by
    have hfr := step_frame (R := fun s s' => FlushedBelow t s → FlushedBelow t s') (fun _ h => h) (fun h1 h2 h => h2 (h1 h))
      (logged (wrapStream bpb t ar)) bpb hb64
      (fun s i buf h j hj => by
        simp only [logged, flushedOk_append, flushedOk, List.append_nil] at hj
        exact h j hj)
      (fun s n h j hj => by
        simp only [logged, flushedOk_append, flushedOk, List.append_nil] at hj
        exact h j hj)
      st hbp op
      (fun _ s i buf _ h j hj => by
        simp only [logged, flushedOk_append, List.mem_append] at hj
        rcases hj with hj | hj
        · exact h j hj
        · by_cases hi : i < t
          · have : flushedOk [.flush i buf ((wrapStream bpb t ar).flush s.1 i buf).2.isNone] = [i] := by
              simp only [wrapStream]
              rw [if_neg (by omega)]
              rfl
            rw [this] at hj
            simp only [List.mem_singleton] at hj
            omega
          · have : flushedOk [.flush i buf ((wrapStream bpb t ar).flush s.1 i buf).2.isNone] = [] := by
              simp only [wrapStream]
              rw [if_pos (by omega)]
              rfl
            rw [this] at hj
            simp at hj)
    exact (hfr _ h).1 hg
  refine ⟨?_, hgood⟩
  obtain ⟨st1, r1, h1, s1⟩ := step_spec (lawful_logged (C21_wrapStream_lawful hb ar)) st w hbp op hv
  rw [h1] at h
  simp only [Outcome.ret.injEq, Prod.mk.injEq] at h
  obtain ⟨rfl, rfl⟩ := h
  obtain ⟨evs, t1, t2⟩ := s1.trace _ (logs_logged _)
  intro j hj hj2
  rw [t2.pending j hj2]
  have hj3 := hj2
  rw [s1.total] at hj3
  have hev : j ∉ flushedOk evs := by
    intro hm
    have := hgood j (by rw [t1, flushedOk_append]; exact List.mem_append_right _ hm)
    omega
  have hold : j < st.c.total → isDirty st.c j = true := hd j hj
  cases op <;> rcases r1 with (_ | _) | (_ | _) | (_ | _) | (_ | _) <;>
    simp only [nextPending, nextTotal, Bool.or_eq_true, Bool.and_eq_true, decide_eq_true_eq] at hj3 ⊢ <;>
    first
    | exact hold hj3
    | exact Or.inl (hold hj3)
    | (refine ⟨hold hj3, ?_⟩; simpa using hev)
    | (by_cases hjt : j < st.c.total; exact Or.inl (hold hjt); right; omega)

theorem run_above {bpb t : Nat} {ar : Bool} (hb : 0 < bpb) (hb64 : bpb < 2 ^ 64) : ∀ (ops : List Op) {st : St (Stream × List Event)},
    WF (fun s : Stream × List Event => s.1.bytes) st → st.c.bpb = bpb →
    (∀ j, t ≤ j → j < st.c.total → isDirty st.c j = true) → FlushedBelow t st.s → (∀ op ∈ ops, Valid bpb op) →
    ∀ {st' : St (Stream × List Event)} {rs : List Result}, runOps (logged (wrapStream bpb t ar)) st ops = .ret (st', rs) →
    ∀ j, t ≤ j → j < st'.c.total → isDirty st'.c j = true
  | [], st, _, _, hd, _, _, st', rs, h => by
    simp only [runOps, Outcome.ret.injEq, Prod.mk.injEq] at h
    rw [← h.1]
    exact hd
  | op :: ops, st, w, hbp, hd, hg, hv, st', rs, h => by
    obtain ⟨st1, r, h1, s1⟩ := step_spec (lawful_logged (C21_wrapStream_lawful (total := t) hb ar)) st w hbp op (hv op (by simp))
    obtain ⟨k1, k2⟩ := step_above hb hb64 w hbp hd hg op (hv op (by simp)) h1
    unfold runOps at h
    rw [h1] at h
    simp only [Outcome.bind_ret] at h
    rcases hr : runOps (logged (wrapStream bpb t ar)) st1 ops with ⟨st2, rs2⟩ | _ | _
    · rw [hr] at h
      simp only [Outcome.bind_ret, Outcome.pure_eq, Outcome.ret.injEq, Prod.mk.injEq] at h
      obtain ⟨rfl, _⟩ := h
      exact run_above hb hb64 ops s1.wf (s1.bpb.trans hbp) k1 k2 (fun o ho => hv o (by simp [ho])) hr
    · rw [hr] at h; simp at h
    · rw [hr] at h; simp at h

/-- After any history, the blocks beyond the number given to WrapStream are waiting to be written. -/
theorem after_above {bpb t : Nat} {f : Stream} {ar : Bool} (H : Setup (wrapStream bpb t ar) bpb t Stream.bytes f) {ops : List Op}
    {st : St Stream} {rs : List Result} (ha : After (wrapStream bpb t ar) bpb t f ops st rs) :
    ∀ j, t ≤ j → j < st.c.total → isDirty st.c j = true := by
  intro j hj hjt
  obtain ⟨w, hbp, _⟩ := after_spec H ha
  obtain ⟨c, hn, hv, hrun⟩ := ha
  obtain ⟨c', hn', w0, hb0, ht0, _⟩ := new_spec H.bpb_pos H.cap Stream.bytes f H.store
  rw [hn] at hn'; cases hn'
  obtain ⟨l', hl⟩ := logged_run (wrapStream bpb t ar) ops c f [] hrun
  have hb64 : bpb < 2 ^ 64 := by
    have h1 := w.cap
    rw [hbp] at h1
    have h2 : bpb ≤ st.c.total * bpb := Nat.le_mul_of_pos_left _ (by omega)
    unfold maxInt at h1
    omega
  refine run_above H.bpb_pos hb64 ops (st := ⟨c, (f, [])⟩)
    ⟨w0.bpb_pos, w0.cap, w0.data_len, w0.loaded_len, w0.dirty_len, w0.dirty_loaded, w0.store, w0.clean⟩ hb0 ?_ ?_ hv hl j hj hjt
  · intro j h1 h2
    simp only [ht0] at h2
    omega
  · intro j hj
    simp [flushedOk] at hj

/-- C21, exactly: whatever the history, Flush succeeds if and only if the cache is not empty and has no more blocks than were given
to WrapStream; if it has more, Flush has written the blocks below that number and stops at the first one after it, every
time it is called. -/
theorem C21_exact_partial {bpb total : Nat} {f : Stream} {allowResize : Bool}
    (H : Setup (wrapStream bpb total allowResize) bpb total Stream.bytes f) {ops : List Op} {st : St Stream} {rs : List Result}
    (ha : After (wrapStream bpb total allowResize) bpb total f ops st rs) :
    ((∃ st', flush (wrapStream bpb total allowResize) st = .ret (st', .ok ())) ↔ 0 < st.c.totalBlocks ∧ st.c.totalBlocks ≤ total) ∧
    (total < st.c.totalBlocks → ∃ st', flush (wrapStream bpb total allowResize) st = .ret (st', .error (.flushFailed total .argumentOutOfRange)) ∧
      st'.s.bytes.take (total * bpb) = (contents Stream.bytes st).take (total * bpb)) := by
  obtain ⟨w, hbp, _⟩ := after_spec H ha
  have habove := after_above H ha
  rcases flush_spec H.lawful st w hbp with ⟨h0, h1⟩ | ⟨h0, st', e, m, F, h1⟩
  · rw [h1]
    unfold Cache.totalBlocks
    refine ⟨⟨?_, by omega⟩, by omega⟩
    rintro ⟨_, h⟩; simp at h
  · have hafter : ∀ j, total ≤ j → j < st'.c.total → isDirty st'.c j = true := by
      obtain ⟨c, hn, hv, hrun⟩ := ha
      refine after_above H (ops := ops ++ [.flush]) (rs := rs ++ [.unit (ofErr e)]) ⟨c, hn, ?_, ?_⟩
      · intro op ho
        rcases List.mem_append.1 ho with ho | ho
        · exact hv op ho
        · rw [List.mem_singleton.1 ho]; trivial
      · exact runOps_snoc _ _ ops hrun (by simp only [step, h1, Outcome.bind_ret, Outcome.pure_eq])
    have hdirty : ∀ j, j < m → isDirty st'.c j = false := by
      intro j hj
      rw [F.dirty j, Nat.zero_add]
      simp [hj]
    rw [h1]
    cases e with
    | none =>
      have hm := F.ok rfl
      have hle : st.c.total ≤ total := by
        apply Nat.le_of_not_lt
        intro hlt
        have h2 := hafter total (Nat.le_refl _) (by rw [F.total]; exact hlt)
        rw [hdirty total (by omega)] at h2
        simp at h2
      exact ⟨⟨fun _ => ⟨h0, hle⟩, fun _ => ⟨st', rfl⟩⟩, fun h => absurd h (by unfold Cache.totalBlocks; omega)⟩
    | some x =>
      obtain ⟨f1, f2, be, f3, s, buf, f4, _⟩ := F.fail x rfl
      rw [Nat.zero_add] at f2 f3 f4
      subst f3
      simp only [wrapStream] at f4
      have hm : total ≤ m := by
        apply Nat.le_of_not_lt
        intro hlt
        rw [if_neg (by omega)] at f4
        simp at f4
      rw [if_pos (by omega)] at f4
      simp only [Option.some.injEq] at f4
      subst f4
      have hm2 : m = total := by
        apply Nat.le_antisymm _ hm
        apply Nat.le_of_not_lt
        intro hlt
        have h2 := hafter total (Nat.le_refl _) (by rw [F.total]; omega)
        rw [hdirty total hlt] at h2
        simp at h2
      subst hm2
      refine ⟨⟨?_, ?_⟩, ?_⟩
      · rintro ⟨_, h⟩; simp [ofErr] at h
      · unfold Cache.totalBlocks; omega
      · intro _
        refine ⟨st', rfl, ?_⟩
        have hle : m * bpb ≤ st.c.total * bpb := Nat.mul_le_mul_right _ (by omega)
        apply List.ext_getElem?
        intro k
        rw [List.getElem?_take, List.getElem?_take]
        by_cases hk : k < m * bpb
        · rw [if_pos hk, if_pos hk, getElem?_contents, if_pos (by rw [hbp]; omega), ← F.byteAt_eq w (by rw [hbp]; omega)]
          have hkm : k / st'.c.bpb < m := by
            rw [F.bpb, hbp, Nat.div_lt_iff_lt_mul H.bpb_pos]
            exact hk
          rw [F.wf.clean k (by rw [F.total, F.bpb, hbp]; omega) (hdirty _ hkm)]
          have hs := F.wf.store
          rw [F.total, F.bpb, hbp] at hs
          rw [List.getD_eq_getElem?_getD, List.getElem?_eq_getElem (by omega)]
          rfl
        · rw [if_neg hk, if_neg hk]

/-- Non-vacuity: a stream of one block, grown to three. -/
example : ∃ st rs, After (wrapStream 2 1 true) 2 1 ⟨[1, 2], true⟩ [.write [7] 0, .resize 3, .flush, .read [0] 2] st rs ∧
    1 < st.c.totalBlocks ∧ st.s.bytes = [7, 2, 0, 0, 0, 0] :=
  ⟨_, _, ⟨⟨2, 1, List.replicate 8 false, List.replicate 8 false, [0, 0]⟩, by decide +kernel, by simp [Valid, maxInt], rfl⟩, by decide +kernel,
    by decide +kernel⟩

end Disko.BlockCache

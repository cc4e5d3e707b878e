import Verif.BlockCache.Props4
/-!
C143: what the storage holds at every moment of a history (so, after a crash at any moment).
-/
namespace Disko.BlockCache

namespace Spec
variable {S : Type}

/-- What is known of the storage: the bytes of a block, or nothing (`none`). -/
abbrev Known := Nat → Option Bytes

/-- What is known of the storage after an operation with the given result, for an object that was `a` before it: Flush stores all blocks; a Flush
that fails at block `i` stored those before it, may have stored anything in block `i`, and did not touch the ones after it; a Resize
keeps the blocks that are still there. No other operation writes to the storage. -/
def nextKnown (bpb : Nat) (op : Op) (r : Result) (a : Bytes) (m : Known) : Known := fun j =>
  match op, r with
  | .flush, .unit (.ok _) => if j * bpb < a.length then some (slice a (j * bpb) bpb) else none
  | .flush, .unit (.error (.flushFailed i _)) => if j < i then some (slice a (j * bpb) bpb) else if j = i then none else m j
  | .resize n, .unit (.ok _) => if j < n then m j else none
  | _, _ => m j

/-- The reference, a flat byte array (`Conforms`), together with what is known of the storage, along a history. -/
def Tracks (bpb : Nat) : List Op → List Result → Bytes → Known → Bytes → Known → Prop
  | [], [], a, m, a', m' => a' = a ∧ m' = m
  | op :: ops, r :: rs, a, m, a', m' => ∃ a1, Conforms bpb op r a a1 ∧ Tracks bpb ops rs a1 (nextKnown bpb op r a m) a' m'
  | _, _, _, _, _, _ => False

/-- Before the first operation: what the storage holds. -/
def known0 (bpb total : Nat) (bytes : Bytes) : Known := fun j => if j < total then some (slice bytes (j * bpb) bpb) else none

/-- The same storage in a process that is killed after `n` writes of a block (the second component of the state): nothing reaches the storage
after that. -/
def killed (b : Backend S) : Backend (S × Nat) where
  fetch s i buf := let r := b.fetch s.1 i buf; ((r.1, s.2), r.2.1, r.2.2)
  flush s i buf := match s.2 with
    | 0 => (s, some (.other 0))
    | n + 1 => let r := b.flush s.1 i buf; ((r.1, n), r.2)
  resize s n := match s.2 with
    | 0 => (s, some (.other 0))
    | _ + 1 => let r := b.resize s.1 n; ((r.1, s.2), r.2)

/-- Neither Flush nor Resize. -/
def Op.quiet : Op → Prop
  | .flush => False
  | .resize _ => False
  | _ => True

end Spec

open Disko Disko.BlockCache.Spec
variable {S : Type}

/-- What is known is true. -/
structure Holds (view : S → Bytes) (st : St S) (m : Known) : Prop where
  inside : ∀ j x, m j = some x → j < st.c.total
  bytes : ∀ j x, m j = some x → slice (view st.s) (j * st.c.bpb) st.c.bpb = x

theorem bpb_small {view : S → Bytes} {st : St S} (h : WF view st) (h0 : 0 < st.c.total) : st.c.bpb < 2 ^ 64 := by
  have := Nat.le_mul_of_pos_left st.c.bpb h0
  have := h.cap
  unfold maxInt at this
  omega

/-- An operation that is neither Flush nor Resize leaves the storage alone. -/
theorem quiet_view {b : Backend S} {bpb : Nat} {view : S → Bytes} (L : Lawful b bpb view) (st : St S) (hb : st.c.bpb = bpb) (hb64 : bpb < 2 ^ 64)
    {op : Op} (hq : op.quiet) {st' : St S} {r : Result} (hs : step b st op = .ret (st', r)) : view st'.s = view st.s := by
  have := step_frame_op (R := fun a c : S => view c = view a) (fun _ => rfl) (fun h1 h2 => h2.trans h1) b bpb hb64 (fun s i buf => L.fetch_view s i buf) st hb op
    (fun n e => by subst e; exact hq.elim) (fun e => by subst e; exact hq.elim)
  exact (this _ hs).1

theorem quiet_known {bpb : Nat} {op : Op} (hq : op.quiet) (r : Result) (a : Bytes) (m : Known) : nextKnown bpb op r a m = m := by
  cases op <;> first | exact hq.elim | rfl

theorem quiet_total {op : Op} (hq : op.quiet) (t : Nat) (r : Result) : nextTotal t op r = t := by
  cases op <;> first | exact hq.elim | rfl

theorem slice_ext {d e : Bytes} {off n : Nat} (h : ∀ k, k < n → d[off + k]? = e[off + k]?) : slice d off n = slice e off n := by
  apply List.ext_getElem?
  intro k
  rw [getElem?_slice, getElem?_slice]
  by_cases hk : k < n
  · rw [if_pos hk, if_pos hk, h k hk]
  · rw [if_neg hk, if_neg hk]

/-- The blocks a Flush passed hold the contents, those after where it stopped what they held. -/
theorem Flushes.blocks {b : Backend S} {view : S → Bytes} {m : Nat} {st st' : St S} {e : Option Err} (w : WF view st)
    (F : Flushes b view 0 st.c.total st st' e m) {j : Nat} (hj : j < st.c.total) :
    (j < m → slice (view st'.s) (j * st.c.bpb) st.c.bpb = slice (contents view st) (j * st.c.bpb) st.c.bpb) ∧
    (m < j → slice (view st'.s) (j * st.c.bpb) st.c.bpb = slice (view st.s) (j * st.c.bpb) st.c.bpb) := by
  have hblk : ∀ k, k < st.c.bpb → (j * st.c.bpb + k) / st.c.bpb = j := by
    intro k hk; rw [div_eq_block w.bpb_pos]; omega
  constructor
  · intro hm
    refine slice_ext fun k hk => ?_
    have hlt : j * st.c.bpb + k < st.c.total * st.c.bpb := by
      have := block_end_le (n := st.c.bpb) hj; omega
    rw [F.stored _ (Or.inr (by rw [hblk k hk]; omega)), hblk k hk, getElem?_contents, if_pos hlt]
    by_cases hd : isDirty st.c j = true
    · rw [if_pos ⟨by omega, by omega, hd⟩]
      unfold byteAt
      rw [hblk k hk, if_pos (w.dirty_loaded j hj hd), List.getD_eq_getElem?_getD,
        List.getElem?_eq_getElem (by rw [w.data_len]; exact hlt)]; rfl
    · rw [if_neg (fun hh => hd hh.2.2), w.clean _ hlt (by rw [hblk k hk]; simpa using hd),
        List.getD_eq_getElem?_getD, List.getElem?_eq_getElem (by have := w.store; omega)]; rfl
  · intro hm
    refine slice_ext fun k hk => ?_
    rw [F.stored _ (Or.inr (by rw [hblk k hk]; omega)), hblk k hk, if_neg (by omega)]

theorem step_known {b : Backend S} {bpb : Nat} {view : S → Bytes} (L : Lawful b bpb view) (st : St S) (w : WF view st) (hb : st.c.bpb = bpb)
    {op : Op} (hv : Valid bpb op) {st' : St S} {r : Result} (hs : step b st op = .ret (st', r)) {m : Known} (hm : Holds view st m) :
    Holds view st' (nextKnown bpb op r (contents view st) m) := by
  obtain ⟨st1, r1, h1, ok⟩ := step_spec L st w hb op hv
  rw [hs] at h1
  cases h1
  subst hb
  by_cases hq : op.quiet
  · rw [quiet_known hq]
    refine ⟨fun j x h => ?_, fun j x h => ?_⟩
    · rw [ok.total, quiet_total hq]
      exact hm.inside j x h
    · rw [quiet_view L st rfl (bpb_small w (Nat.zero_lt_of_lt (hm.inside j x h))) hq hs, ok.bpb]
      exact hm.bytes j x h
  cases op with
  | flush =>
    simp only [step] at hs
    rcases flush_spec L st w rfl with ⟨h0, h2⟩ | ⟨hpos, st2, e, k, F, h2⟩
    · rw [h2] at hs
      cases hs
      exact hm
    · rw [h2] at hs
      simp only [Outcome.bind_ret] at hs
      cases hs
      have hlen := length_contents view st
      cases e with
      | none =>
        have hk := F.ok rfl
        simp only [ofErr]
        have key : ∀ j, j * st.c.bpb < (contents view st).length → j < st.c.total := fun j h => by
          rw [hlen] at h; exact Nat.lt_of_mul_lt_mul_right h
        refine ⟨fun j x h => ?_, fun j x h => ?_⟩ <;> simp only [nextKnown] at h
        · split at h
          · rename_i hj; rw [F.total]; exact key j hj
          · cases h
        · split at h
          · rename_i hj
            cases h
            rw [F.bpb]
            exact (F.blocks w (key j hj)).1 (by have := key j hj; omega)
          · cases h
      | some x =>
        obtain ⟨f1, f2, be, f3, _⟩ := F.fail x rfl
        rw [Nat.zero_add] at f3
        subst f3
        simp only [ofErr]
        refine ⟨fun j y h => ?_, fun j y h => ?_⟩ <;> simp only [nextKnown] at h
        · rw [F.total]
          split at h
          · omega
          · split at h
            · cases h
            · exact hm.inside j y h
        · rw [F.bpb]
          split at h
          · rename_i hj
            cases h
            exact (F.blocks w (by omega)).1 hj
          · split at h
            · cases h
            · rw [(F.blocks w (hm.inside j y h)).2 (by omega)]
              exact hm.bytes j y h
  | resize n =>
    simp only [step] at hs
    rcases resize_spec L st w rfl n hv with ⟨be, s', hr, h2, h3⟩ | ⟨st2, hr, h2, h3, h4⟩
    · rw [h2] at hs
      simp only [Outcome.bind_ret] at hs
      cases hs
      have := L.resize_fail st.s n (by rw [hr]; simp)
      rw [hr] at this
      exact ⟨hm.inside, fun j x h => by simp only at this ⊢; rw [this]; exact hm.bytes j x h⟩
    · rw [h2] at hs
      simp only [Outcome.bind_ret] at hs
      cases hs
      obtain ⟨r1, r2⟩ := L.resize_ok st.s n hv hr
      refine ⟨fun j x h => ?_, fun j x h => ?_⟩ <;> simp only [nextKnown] at h
      · split at h
        · rw [h4.total]; assumption
        · cases h
      · split at h
        · rename_i hj
          rw [h3, h4.bpb, ← hm.bytes j x h]
          refine slice_ext fun k hk => r2 _ ?_ ?_
          · have := block_end_le (n := st.c.bpb) hj; omega
          · have := block_end_le (n := st.c.bpb) (hm.inside j x h)
            have := w.store
            omega
        · cases h
  | _ => exact absurd trivial hq

theorem runOps_known {b : Backend S} {bpb : Nat} {view : S → Bytes} (L : Lawful b bpb view) : ∀ (ops : List Op) (st : St S), WF view st → st.c.bpb = bpb →
    (∀ op ∈ ops, Valid bpb op) → ∀ {st' : St S} {rs : List Result}, runOps b st ops = .ret (st', rs) → ∀ {m : Known}, Holds view st m →
    ∃ m', Tracks bpb ops rs (contents view st) m (contents view st') m' ∧ Holds view st' m' ∧ WF view st' ∧ st'.c.bpb = bpb
  | [], st, w, hb, _, st', rs, h, m, hm => by
    cases h
    exact ⟨m, ⟨rfl, rfl⟩, hm, w, hb⟩
  | op :: ops, st, w, hb, hv, st', rs, h, m, hm => by
    obtain ⟨st1, r, h1, ok⟩ := step_spec L st w hb op (hv op (by simp))
    have hm1 := step_known L st w hb (hv op (by simp)) h1 hm
    simp only [runOps, h1, Outcome.bind_ret] at h
    rcases h2 : runOps b st1 ops with ⟨st2, rs2⟩ | _ | _
    · rw [h2] at h
      simp only [Outcome.bind_ret] at h
      cases h
      obtain ⟨m', t, hm', w', hb'⟩ := runOps_known L ops st1 ok.wf (ok.bpb.trans hb) (fun o ho => hv o (by simp [ho])) h2 hm1
      exact ⟨m', ⟨_, by rw [← hb]; exact ok.conf, t⟩, hm', w', hb'⟩
    · rw [h2] at h; simp at h
    · rw [h2] at h; simp at h

/-- **C143**: at every moment, whatever the history and whichever callbacks failed, every block of the storage holds what the object had in that
block when the last Flush that reached the block was called (and what was in the storage to begin with if none did); except for a block
in which a Flush failed, and blocks that Resize added, as long as no later Flush has reached them. -/
theorem C143_storage {b : Backend S} {bpb total : Nat} {view : S → Bytes} {s0 : S}
    (H : Setup b bpb total view s0) {ops : List Op} {st : St S} {rs : List Result} (ha : After b bpb total s0 ops st rs) :
    ∃ a m, Tracks bpb ops rs ((view s0).take (total * bpb)) (known0 bpb total (view s0)) a m ∧
      ∀ j x, m j = some x → j < st.c.totalBlocks ∧ slice (view st.s) (j * bpb) bpb = x := by
  obtain ⟨c, hn, hv, hr⟩ := ha
  obtain ⟨c', hn', w, hb, ht, _, _, hc⟩ := new_spec H.bpb_pos H.cap view s0 H.store
  rw [hn] at hn'
  cases hn'
  have h0 : Holds view ⟨c, s0⟩ (known0 bpb total (view s0)) := by
    refine ⟨fun j x h => ?_, fun j x h => ?_⟩
    · unfold known0 at h
      split at h
      · rw [ht]; assumption
      · cases h
    · unfold known0 at h
      split at h
      · cases h; simp only; rw [hb]
      · cases h
  obtain ⟨m, t, hm, _, hb'⟩ := runOps_known H.lawful ops _ w hb hv hr h0
  rw [hc] at t
  exact ⟨_, m, t, fun j x h => ⟨hm.inside j x h, by rw [← hb']; exact hm.bytes j x h⟩⟩

/-- Non-vacuity: a Flush, writes, a Flush that fails at block 1. The storage has block 0 of the second Flush, an unknown block 1 and block 2 of
the first. -/
example : ∃ st rs, After (mem 2) 2 3 ([1, 2, 3, 4, 5, 6, 7, 8], [false, false, false, false, false, false, false, true])
      [.write [9, 9, 9, 9, 9, 9] 0, .flush, .write [7, 7, 7, 7, 7, 7] 0, .flush] st rs ∧
    rs = [.write (.ok 6), .unit (.ok ()), .write (.ok 6), .unit (.error (.flushFailed 1 (.other 2)))] ∧ st.s.1 = [7, 7, 9, 9, 9, 9, 7, 8] :=
  ⟨_, _, ⟨exampleCache, by decide +kernel, by simp [Valid, maxInt], rfl⟩, by decide +kernel, by decide +kernel⟩

/-- The last Flush that returned nil, with neither Flush nor Resize since: the storage holds the object as it was then. -/
theorem C143_last_flush {b : Backend S} {bpb total : Nat} {view : S → Bytes} {s0 : S}
    (H : Setup b bpb total view s0) {ops ops' : List Op} {st st1 st2 : St S} {rs rs' : List Result} (ha : After b bpb total s0 ops st rs)
    (hf : flush b st = .ret (st1, .ok ())) (hq : ∀ op ∈ ops', op.quiet) (hv : ∀ op ∈ ops', Valid bpb op) (hr : runOps b st1 ops' = .ret (st2, rs')) :
    ∃ a, ConformsAll bpb ops rs ((view s0).take (total * bpb)) a ∧ st2.c.totalBlocks * bpb = a.length ∧ (view st2.s).take a.length = a := by
  obtain ⟨a, h1, h2, h3⟩ := C10_flush_durable H ha hf
  obtain ⟨w, hb, _⟩ := after_spec H ha
  obtain ⟨w1, ht1, hb1, _⟩ := flush_ok_spec H.lawful w hb hf
  have hpos : 0 < st.c.total := by
    rcases flush_spec H.lawful st w hb with ⟨_, h⟩ | ⟨h, _⟩
    · rw [h] at hf; simp at hf
    · exact h
  have hb64 : bpb < 2 ^ 64 := hb ▸ bpb_small w hpos
  have key : ∀ (ops' : List Op) (st1 st2 : St S) (rs' : List Result), (∀ op ∈ ops', op.quiet) → (∀ op ∈ ops', Valid bpb op) → WF view st1 → st1.c.bpb = bpb →
      runOps b st1 ops' = .ret (st2, rs') → view st2.s = view st1.s ∧ st2.c.total = st1.c.total := by
    intro ops'
    induction ops' with
    | nil => intro st1 st2 rs' _ _ _ _ h; cases h; exact ⟨rfl, rfl⟩
    | cons op ops' ih =>
      intro st1 st2 rs' hq hv w1 hb1 h
      obtain ⟨sa, r, e1, ok⟩ := step_spec H.lawful st1 w1 hb1 op (hv op (by simp))
      have e2 := quiet_view H.lawful st1 hb1 hb64 (hq op (by simp)) e1
      simp only [runOps, e1, Outcome.bind_ret] at h
      rcases e3 : runOps b sa ops' with ⟨sb, rb⟩ | _ | _
      · rw [e3] at h
        simp only [Outcome.bind_ret] at h
        cases h
        obtain ⟨i1, i2⟩ := ih sa st2 rb (fun o ho => hq o (by simp [ho])) (fun o ho => hv o (by simp [ho])) ok.wf (ok.bpb.trans hb1) e3
        exact ⟨i1.trans e2, i2.trans (by rw [ok.total, quiet_total (hq op (by simp))])⟩
      · rw [e3] at h; simp at h
      · rw [e3] at h; simp at h
  obtain ⟨k1, k2⟩ := key ops' st1 st2 rs' hq hv w1 (hb1.trans hb) hr
  refine ⟨a, h1, ?_, by rw [k1]; exact h3⟩
  rw [h2]
  unfold Cache.totalBlocks
  rw [k2]

/-- **C143**: a new cache on storage left by a crash at any moment reads, in every block of which something is known, just that (or the storage
cannot be read). -/
theorem C143_reopen {b : Backend S} {bpb total : Nat} {view : S → Bytes} {s0 : S}
    (H : Setup b bpb total view s0) {ops : List Op} {st : St S} {rs : List Result} (ha : After b bpb total s0 ops st rs) :
    ∃ a m, Tracks bpb ops rs ((view s0).take (total * bpb)) (known0 bpb total (view s0)) a m ∧
      ∀ j x, m j = some x → ∀ buf : Bytes, buf.length = bpb → ∃ st' r, After b bpb st.c.totalBlocks st.s [.read buf j] st' [.read r] ∧
        (r = .ok (x, bpb) ∨ ∃ i be, r = .error (.fetchFailed i be)) := by
  obtain ⟨a, m, t, hm⟩ := C143_storage H ha
  refine ⟨a, m, t, fun j x hx buf hbuf => ?_⟩
  obtain ⟨hj, hbytes⟩ := hm j x hx
  obtain ⟨w, hb, _⟩ := after_spec H ha
  subst hb
  obtain ⟨c, hn, w', hb', ht', _, _, hc⟩ := new_spec w.bpb_pos w.cap view st.s w.store
  have hend := block_end_le (n := st.c.bpb) hj
  have hcap : buf.length ≤ maxInt := by
    have := w.cap
    unfold Cache.totalBlocks at hend
    omega
  have hin : InRange c j buf.length := by
    refine ⟨by rw [ht']; exact hj, ?_⟩
    rw [ht', hb', hbuf]
    exact hend
  rcases readAt_spec H.lawful ⟨c, st.s⟩ w' hb' buf j hcap with ⟨h1, _⟩ | ⟨_, st', hl, h2 | ⟨i, be, h2, hf⟩⟩
  · exact absurd hin h1
  · have hrun : runOps b ⟨c, st.s⟩ [.read buf j] = .ret (st', [.read (.ok (slice (contents view ⟨c, st.s⟩) (j * c.bpb) buf.length, (buf.length + (c.bpb - 1)) / c.bpb * c.bpb))]) := by
      simp only [runOps, step, h2, Outcome.bind_ret]; rfl
    refine ⟨st', _, ⟨c, hn, by simpa [Valid] using hcap, hrun⟩, .inl ?_⟩
    · have hp := w.bpb_pos
      rw [hc, hb', hbuf, ← hbytes]
      have : (st.c.bpb + (st.c.bpb - 1)) / st.c.bpb = 1 := by
        have := ceil_mul (t := 1) hp
        rwa [Nat.one_mul] at this
      rw [this, Nat.one_mul]
      congr 2
      refine slice_ext fun k hk => ?_
      unfold Cache.totalBlocks at hend
      rw [List.getElem?_take, if_pos (by omega)]
  · have hrun : runOps b ⟨c, st.s⟩ [.read buf j] = .ret (st', [.read (.error (.fetchFailed i be))]) := by
      simp only [runOps, step, h2, Outcome.bind_ret]; rfl
    exact ⟨st', _, ⟨c, hn, by simpa [Valid] using hcap, hrun⟩, .inr ⟨i, be, rfl⟩⟩

theorem lawful_killed {b : Backend S} {bpb : Nat} {view : S → Bytes} (L : Lawful b bpb view) : Lawful (killed b) bpb (fun s => view s.1) where
  fetch_view s i buf := L.fetch_view s.1 i buf
  fetch_ok s i buf h1 h2 h3 := L.fetch_ok s.1 i buf h1 h2 h3
  flush_ok s i buf h1 h2 h3 := by
    rcases s with ⟨s, _ | n⟩
    · cases h3
    · exact L.flush_ok s i buf h1 h2 h3
  flush_fail s i buf h1 h2 h3 := by
    rcases s with ⟨s, _ | n⟩
    · exact ⟨rfl, fun _ _ => rfl⟩
    · exact L.flush_fail s i buf h1 h2 h3
  resize_ok s n h1 h2 := by
    rcases s with ⟨s, _ | k⟩
    · cases h2
    · exact L.resize_ok s n h1 h2
  resize_fail s n h := by
    rcases s with ⟨s, _ | k⟩
    · rfl
    · exact L.resize_fail s n h

/-- **C143**: a process that is killed after any number of block writes, in the middle of whatever: the storage it leaves is the one that
C143 describes. -/
theorem C143_killed {b : Backend S} {bpb total : Nat} {view : S → Bytes} {s0 : S} (H : Setup b bpb total view s0) (n : Nat)
    (ops : List Op) (hv : ∀ op ∈ ops, Valid bpb op) :
    ∃ st rs a m, After (killed b) bpb total (s0, n) ops st rs ∧
      Tracks bpb ops rs ((view s0).take (total * bpb)) (known0 bpb total (view s0)) a m ∧
      ∀ j x, m j = some x → slice (view st.s.1) (j * bpb) bpb = x := by
  have H' : Setup (killed b) bpb total (fun s => view s.1) (s0, n) := ⟨lawful_killed H.lawful, H.bpb_pos, H.cap, H.store⟩
  obtain ⟨st, rs, _, ha, _⟩ := C09_flat_array H' ops hv
  obtain ⟨a, m, t, hm⟩ := C143_storage H' ha
  exact ⟨st, rs, a, m, ha, t, fun j x h => (hm j x h).2⟩

/-- Killed after the fourth write, in the second Flush. -/
example : ∃ st rs, After (killed (mem 2)) 2 3 (([1, 2, 3, 4, 5, 6, 7, 8], []), 4)
      [.write [9, 9, 9, 9, 9, 9] 0, .flush, .write [7, 7, 7, 7, 7, 7] 0, .flush] st rs ∧ st.s.1.1 = [7, 7, 9, 9, 9, 9, 7, 8] :=
  ⟨_, _, ⟨exampleCache, by decide +kernel, by simp [Valid, maxInt], rfl⟩, by decide +kernel⟩

end Disko.BlockCache

import Verif.Stream.Run
/-! ReadAt and WriteAt with negative offsets. -/
namespace Disko.Stream
open Disko Disko.BlockCache Disko.BlockCache.Spec Disko.Stream.Spec

variable {S : Type}

/-- A negative offset inside one block: block 0, and an offset just below 2^64. -/
theorem convert_near {x : Stm S} (hle : x.st.c.bpb ≤ maxInt) {m : Nat} (h0 : 0 < m) (h1 : m < x.st.c.bpb) :
    ∃ lo, convertLinearAddr x (-(m : Int)) = .ret (0, lo) ∧ lo + m = 2 ^ 64 := by
  obtain ⟨lo, hlo⟩ : ∃ lo, lo = 2 ^ 64 - m := ⟨_, rfl⟩
  refine ⟨lo, ?_, by unfold maxInt at hle; omega⟩
  unfold maxInt at hle
  unfold convertLinearAddr
  rw [i64_of_range (z := (x.st.c.bpb : Int)) (by omega) (by omega)]
  simp only
  rw [if_neg (by omega)]
  have e1 : (-(m : Int)).tdiv (x.st.c.bpb : Int) = 0 := by
    rw [Int.neg_tdiv, show (m : Int).tdiv (x.st.c.bpb : Int) = ((m / x.st.c.bpb : Nat) : Int) from rfl, Nat.div_eq_of_lt h1]; rfl
  have e2 : (-(m : Int)).tmod (x.st.c.bpb : Int) = -(m : Int) := by
    rw [Int.neg_tmod, show (m : Int).tmod (x.st.c.bpb : Int) = ((m % x.st.c.bpb : Nat) : Int) from rfl, Nat.mod_eq_of_lt h1]
  have e3 : toUint (-(m : Int)) = lo := by unfold toUint; omega
  rw [e1, e2, e3]
  rfl

/-- A negative offset further away: a block number of at least 2^63. -/
theorem convert_far {x : Stm S} (hp : 0 < x.st.c.bpb) (hle : x.st.c.bpb ≤ maxInt) {m : Nat} (h0 : x.st.c.bpb ≤ m) (h1 : m ≤ 2 ^ 63) :
    ∃ start o, convertLinearAddr x (-(m : Int)) = .ret (start, o) ∧ 2 ^ 63 ≤ start := by
  unfold maxInt at hle
  unfold convertLinearAddr
  rw [i64_of_range (z := (x.st.c.bpb : Int)) (by omega) (by omega)]
  simp only
  rw [if_neg (by omega)]
  refine ⟨_, _, rfl, ?_⟩
  have hq : 0 < m / x.st.c.bpb := Nat.div_pos h0 hp
  have hq2 : m / x.st.c.bpb ≤ m := Nat.div_le_self _ _
  rw [Int.neg_tdiv, show (m : Int).tdiv (x.st.c.bpb : Int) = ((m / x.st.c.bpb : Nat) : Int) from rfl]
  generalize m / x.st.c.bpb = q at *
  rw [i64_of_range (by omega) (by omega)]
  unfold toUint
  omega

theorem convert_any {x : Stm S} (hp : 0 < x.st.c.bpb) (hbl : x.st.c.bpb ≤ maxInt) (z : Int) : ∃ p, convertLinearAddr x z = .ret p := by
  unfold convertLinearAddr
  simp only
  rw [if_neg]
  · exact ⟨_, rfl⟩
  · unfold maxInt at hbl
    rw [i64_of_range (by omega) (by omega)]; omega

theorem start_far {bpb : Nat} {view : S → Bytes} {x : Stm S} (h : Inv bpb view x) {m : Nat} (h0 : 0 < m) (h1 : m ≤ 2 ^ 63)
    (ht : x.st.c.bpb ≤ m ∨ x.st.c.total = 0) : ∃ start o, convertLinearAddr x (-(m : Int)) = .ret (start, o) ∧ x.st.c.total ≤ start := by
  have hbl := h.bpb_le
  have hbp := h.weak.bpb_pos
  have htot : x.st.c.total ≤ maxInt := Nat.le_trans (Nat.le_mul_of_pos_right _ hbp) h.weak.cap
  by_cases hm : x.st.c.bpb ≤ m
  · obtain ⟨s, o, c1, c2⟩ := convert_far hbp hbl hm h1
    exact ⟨s, o, c1, by unfold maxInt at htot; omega⟩
  · obtain ⟨lo, clo, _⟩ := convert_near hbl h0 (by omega)
    exact ⟨0, lo, clo, by omega⟩

theorem getSlice_far (b : Backend S) {st : St S} (hp : 0 < st.c.bpb) {start : Nat} (h : st.c.total ≤ start) (count : Nat) :
    getSlice b st start count = .ret (st, .error .argumentOutOfRange) := by
  unfold getSlice loadBlockRange Cache.checkBounds Cache.getMinBlocksForSize
  rw [if_neg (by omega)]
  simp only [Outcome.bind_ret]
  rw [if_pos h]
  rfl

/-- Blocks from the first one on can be read, if the storage works. -/
theorem getSlice_first {b : Backend S} {bpb : Nat} {view : S → Bytes} (L : Lawful b bpb view) (R : Reliable b)
    {st : St S} (h : Weak view st) (hb : st.c.bpb = bpb) {count : Nat} (h0 : 0 < count) (hc : count ≤ st.c.total) :
    ∃ st', getSlice b st 0 count = .ret (st', .ok ⟨0, count * st.c.bpb⟩) ∧ WLoads view st st' := by
  have hcap : count * st.c.bpb ≤ maxInt := Nat.le_trans (Nat.mul_le_mul_right _ hc) h.cap
  rcases getSlice_weak L st h hb 0 count hcap with ⟨n, _⟩ | ⟨_, st', w, ⟨g, _⟩ | ⟨j, be, _, _, s, buf, hf⟩⟩
  · exact absurd ((inRange_blocks h.bpb_pos).2 ⟨by omega, by omega⟩) n
  · exact ⟨st', by rw [g, Nat.zero_mul], w⟩
  · rw [R.fetch] at hf; cases hf

/-- ReadAt with a negative offset less than a block away panics. -/
theorem readAt_near {b : Backend S} {bpb : Nat} {view : S → Bytes} (L : Lawful b bpb view) (R : Reliable b) {x : Stm S}
    (h : Inv bpb view x) (buf : Bytes) {off : Int} {m : Nat} (hoff : off = -(m : Int)) (h0 : 0 < m) (h1 : m < x.st.c.bpb) (hf : FitsRead x buf.length)
    (hr : Flags.read x.flags = true) (hne : buf ≠ []) (ht : 0 < x.st.c.total) : readAt b x buf off = .panic := by
  have hsn := h.size_nn
  have hsl := h.size_le
  have hbl := h.bpb_le
  have hbp := h.weak.bpb_pos
  have hcap := h.weak.cap
  have hfit : x.st.c.total * x.st.c.bpb + buf.length ≤ maxInt := hf
  have hlen : 0 < buf.length := List.length_pos_iff.2 hne
  have hpt : x.st.c.bpb ≤ x.st.c.total * x.st.c.bpb := Nat.le_mul_of_pos_left _ ht
  unfold readAt
  rw [hr]
  simp only [Bool.not_true, Bool.false_eq_true, if_false]
  obtain ⟨lo, clo, hlo⟩ := convert_near hbl h0 h1
  rw [← hoff] at clo
  have hb0 : ¬ buf.length = 0 := by omega
  have hb1 : ¬ off ≥ x.size := by omega
  rw [if_neg hb0, if_neg hb1]
  obtain ⟨n, hn, hn1, hn2, hn3⟩ : ∃ n : Int, (if i64 (off + (buf.length : Int)) ≥ x.size then i64 (x.size - off) else (buf.length : Int)) = n ∧
      0 < n ∧ n < 2 ^ 63 ∧ off + n ≤ x.size := by
    refine ⟨_, rfl, ?_⟩
    unfold maxInt at *
    rw [i64_of_range (by omega) (by omega)]
    split
    · -- the size might be so large that the difference overflows: not when the block is inside the object
      have hsum : x.size + m < 2 ^ 63 := by
        have h5 : x.size ≤ off + buf.length := by omega
        omega
      rw [i64_of_range (by omega) (by omega)]
      omega
    · omega
  simp only [hn]
  have hlast : ∃ lb o, convertLinearAddr x (i64 (i64 (off + n) - 1)) = .ret (lb, o) ∧ lb < x.st.c.total := by
    unfold maxInt at hfit hbl
    rw [i64_of_range (z := off + n) (by omega) (by omega), i64_of_range (by omega) (by omega)]
    by_cases hz : 0 ≤ off + n - 1
    · refine ⟨_, _, convert_eq hbp (by unfold maxInt; omega) hz (by omega), ?_⟩
      rw [Nat.div_lt_iff_lt_mul hbp]
      omega
    · obtain ⟨k, hk⟩ : ∃ k : Nat, off + n - 1 = -(k : Int) := ⟨(-(off + n - 1)).toNat, by omega⟩
      rw [hk]
      obtain ⟨lo2, clo2, _⟩ := convert_near (x := x) (m := k) (by unfold maxInt; omega) (by omega) (by omega)
      exact ⟨_, _, clo2, ht⟩
  obtain ⟨lb, o, hl1, hl2⟩ := hlast
  rw [clo, hl1]
  simp only [Outcome.bind_ret]
  have htot : x.st.c.total ≤ maxInt := Nat.le_trans (Nat.le_mul_of_pos_right _ hbp) hcap
  rw [u64sub_add_one (Nat.zero_le _) (by unfold maxInt at *; omega)]
  obtain ⟨st', g1, w⟩ := getSlice_first L R h.weak h.bpb (count := lb - 0 + 1) (by omega) (by omega)
  rw [g1]
  simp only [Outcome.bind_ret]
  rw [if_neg]
  intro ⟨q1, q2⟩
  rw [w.weak.data_len, w.total, w.bpb] at q2
  have e1 : toUint n = n.toNat := toUint_of (by omega) hn2
  rw [e1] at q1 q2
  unfold u64 at q1 q2
  unfold maxInt at *
  omega

/-- ReadAt with a negative offset at least a block away, or on an empty object, returns an error. -/
theorem readAt_far (b : Backend S) {bpb : Nat} {view : S → Bytes} {x : Stm S}
    (h : Inv bpb view x) (buf : Bytes) {off : Int} {m : Nat} (hoff : off = -(m : Int)) (h0 : 0 < m) (h1 : m ≤ 2 ^ 63)
    (hr : Flags.read x.flags = true) (hne : buf ≠ []) (ht : x.st.c.bpb ≤ m ∨ x.st.c.total = 0) :
    readAt b x buf off = .ret (x, ⟨buf, 0, some (.cache .argumentOutOfRange)⟩) := by
  have hsn := h.size_nn
  have hbl := h.bpb_le
  have hbp := h.weak.bpb_pos
  have hlen : 0 < buf.length := List.length_pos_iff.2 hne
  have htot : x.st.c.total ≤ maxInt := Nat.le_trans (Nat.le_mul_of_pos_right _ hbp) h.weak.cap
  unfold readAt
  rw [hr]
  simp only [Bool.not_true, Bool.false_eq_true, if_false]
  have hb0 : ¬ buf.length = 0 := by omega
  have hb1 : ¬ off ≥ x.size := by omega
  rw [if_neg hb0, if_neg hb1]
  obtain ⟨start, o, c1, c2⟩ := start_far h h0 h1 ht
  rw [← hoff] at c1
  obtain ⟨n, hn⟩ : ∃ n : Int, (if i64 (off + (buf.length : Int)) ≥ x.size then i64 (x.size - off) else (buf.length : Int)) = n := ⟨_, rfl⟩
  simp only [hn]
  obtain ⟨⟨lb, o2⟩, c3⟩ := convert_any hbp hbl (i64 (i64 (off + n) - 1))
  rw [c1, c3]
  simp only [Outcome.bind_ret]
  rw [getSlice_far b hbp c2]
  rfl

/-- WriteAt with a negative offset at least a block away returns an error. -/
theorem implWriteAt_far {b : Backend S} {bpb : Nat} {view : S → Bytes} (L : Lawful b bpb view) {x : Stm S}
    (h : Inv bpb view x) (buf : Bytes) {off : Int} {m : Nat} (hoff : off = -(m : Int)) (h1 : m ≤ 2 ^ 63)
    (hf : capacity x + buf.length + x.st.c.bpb ≤ maxInt) (hw : Flags.write x.flags = true) (ht : x.st.c.bpb ≤ m) :
    ∃ x' e, implWriteAt b x buf off = .ret (x', 0, some e) := by
  have hbl := h.bpb_le
  have hbp := h.weak.bpb_pos
  unfold implWriteAt
  rw [hw]
  simp only [Bool.not_true, Bool.false_eq_true, if_false]
  obtain ⟨start, o, c1, c2⟩ := convert_far hbp hbl ht h1
  rw [← hoff] at c1
  obtain ⟨e, he⟩ : ∃ e, off + (buf.length : Int) = e := ⟨_, rfl⟩
  have he64 : i64 e = e := by unfold maxInt at *; exact i64_of_range (by omega) (by omega)
  rw [he, he64]
  obtain ⟨⟨lb, o2⟩, c3⟩ := convert_any hbp hbl e
  rw [c1, c3]
  simp only [Outcome.bind_ret]
  have key : ∀ x1 : Stm S, Inv bpb view x1 → getSlice b x1.st start (u64 (lb + 1)) = .ret (x1.st, .error .argumentOutOfRange) := by
    intro x1 hi
    have : x1.st.c.total ≤ maxInt := Nat.le_trans (Nat.le_mul_of_pos_right _ hi.weak.bpb_pos) hi.weak.cap
    exact getSlice_far b hi.weak.bpb_pos (by unfold maxInt at this; omega) _
  by_cases hl : lb ≥ x.st.c.totalBlocks
  · rw [if_pos hl]
    obtain ⟨x1, e1, t1, t2, _⟩ := truncate_effect L h (n := e) (by show e + x.st.c.bpb ≤ maxInt; omega)
    rw [t1]
    simp only [Outcome.bind_ret]
    cases e1 with
    | some e1 => exact ⟨_, _, rfl⟩
    | none => simp only; rw [key x1 t2]; exact ⟨_, _, rfl⟩
  · rw [if_neg hl]
    simp only [Outcome.bind_ret]
    rw [key x h]; exact ⟨_, _, rfl⟩

/-- When a write at a negative offset less than a block away gets as far as copying. -/
def NearPanics (x : Stm S) (e : Int) : Prop :=
  if e < 0 then 0 < x.st.c.total else e.toNat / x.st.c.bpb < x.st.c.total ∨ e.toNat % x.st.c.bpb ≠ 0

/-- WriteAt with a negative offset less than a block away: panics, or returns an error. -/
theorem implWriteAt_near {b : Backend S} {bpb : Nat} {view : S → Bytes} (L : Lawful b bpb view) (R : AllReliable b) {x : Stm S}
    (h : Inv bpb view x) (buf : Bytes) {off e : Int} {m : Nat} (hoff : off = -(m : Int)) (h0 : 0 < m) (h1 : m < x.st.c.bpb)
    (he : off + (buf.length : Int) = e) (hf : capacity x + buf.length + x.st.c.bpb ≤ maxInt) (hw : Flags.write x.flags = true) :
    (NearPanics x e → implWriteAt b x buf off = .panic) ∧
    (¬ NearPanics x e → ∃ x' y, implWriteAt b x buf off = .ret (x', 0, some y)) := by
  have hbl := h.bpb_le
  have hbp := h.weak.bpb_pos
  unfold implWriteAt
  rw [hw]
  simp only [Bool.not_true, Bool.false_eq_true, if_false]
  obtain ⟨lo, c1, hlo⟩ := convert_near hbl h0 h1
  rw [← hoff] at c1
  have he64 : i64 e = e := by unfold maxInt at *; exact i64_of_range (by omega) (by omega)
  rw [he, he64]
  obtain ⟨lb, o2, c3, hlb⟩ : ∃ lb o2, convertLinearAddr x e = .ret (lb, o2) ∧ lb = if e < 0 then 0 else e.toNat / x.st.c.bpb := by
    by_cases hz : e < 0
    · obtain ⟨k, hk⟩ : ∃ k : Nat, e = -(k : Int) := ⟨(-e).toNat, by omega⟩
      obtain ⟨lo2, clo2, _⟩ := convert_near (x := x) (m := k) hbl (by omega) (by omega)
      exact ⟨0, lo2, by rw [hk]; exact clo2, by rw [if_pos hz]⟩
    · exact ⟨_, _, convert_eq hbp hbl (by omega) (by unfold maxInt at *; omega), by rw [if_neg hz]⟩
  rw [c1, c3]
  simp only [Outcome.bind_ret]
  have hlbm : lb ≤ maxInt := by
    rw [hlb]
    split
    · exact Nat.zero_le _
    · have : e.toNat / x.st.c.bpb ≤ e.toNat := Nat.div_le_self _ _
      omega
  have hu : u64 (lb + 1) = lb + 1 := u64_of_lt (by unfold maxInt at *; omega)
  rw [hu]
  -- the copy
  have copy : ∀ x1 : Stm S, Inv bpb view x1 → lb < x1.st.c.total → ∃ st', getSlice b x1.st 0 (lb + 1) = .ret (st', .ok ⟨0, (lb + 1) * x1.st.c.bpb⟩) ∧
      ¬ lo ≤ (lb + 1) * x1.st.c.bpb := by
    intro x1 hi hlt
    obtain ⟨st', g1, w⟩ := getSlice_first L R.cache hi.weak hi.bpb (count := lb + 1) (by omega) (by omega)
    refine ⟨st', g1, ?_⟩
    have h3 : (lb + 1) * x1.st.c.bpb ≤ x1.st.c.total * x1.st.c.bpb := Nat.mul_le_mul_right _ hlt
    have := hi.weak.cap
    unfold maxInt at *
    omega
  by_cases hl : lb ≥ x.st.c.totalBlocks
  · rw [if_pos hl]
    have hl' : x.st.c.total ≤ lb := hl
    have hfs : FitsSize x e := by show e + x.st.c.bpb ≤ maxInt; omega
    by_cases hz : e < 0
    · rw [if_pos hz] at hlb
      refine ⟨fun hp => ?_, fun _ => ?_⟩
      · unfold NearPanics at hp; rw [if_pos hz] at hp; omega
      · unfold truncate
        rw [hw]
        simp only [Bool.not_true, Bool.false_eq_true, if_false]
        rw [if_pos hz]
        exact ⟨_, _, rfl⟩
    · rw [if_neg hz] at hlb
      rcases truncate_spec L h hfs with ⟨q, _⟩ | ⟨_, q, _⟩ | ⟨_, _, s', be, _, ⟨k, q⟩, _⟩ | ⟨_, _, x1, t3, t4, t5⟩
      · rw [hw] at q; cases q
      · exact absurd q hz
      · rw [R.resize] at q; cases q
      · have hnp : NearPanics x e ↔ e.toNat % x.st.c.bpb ≠ 0 := by
          unfold NearPanics
          rw [if_neg hz]
          constructor
          · rintro (q | q)
            · omega
            · exact q
          · exact .inr
        have htot : x1.st.c.total = if e.toNat % x.st.c.bpb = 0 then lb else lb + 1 := by
          rw [t4.total, hlb]
          have hd := Nat.div_add_mod e.toNat x.st.c.bpb
          have hm := Nat.mod_lt e.toNat hbp
          split
          · rename_i hr
            rw [hr, Nat.add_zero] at hd
            rw [div_eq_block hbp]
            rw [Nat.mul_comm] at hd
            omega
          · rename_i hr
            rw [div_eq_block hbp]
            rw [Nat.mul_comm] at hd
            rw [Nat.succ_mul]
            omega
        have after : ∃ x2 e2, truncate b x e = .ret (x2, e2) ∧ Inv bpb view x2 ∧ x2.st.c.total = x1.st.c.total ∧
            (0 < x1.st.c.total → e2 = none) := by
          rw [t5]
          split
          · obtain ⟨x2, e2, s1, s2, s3⟩ := sync_spec L t3
            refine ⟨x2, e2, s1, s2, s3.total, fun hpos => ?_⟩
            cases e2 with
            | none => rfl
            | some y =>
              exfalso
              rcases s3.err y rfl with ⟨_, q, _⟩ | ⟨_, q⟩
              · omega
              · unfold CallbackFailed at q
                split at q
                · obtain ⟨s, bf, q⟩ := q; rw [R.cache.fetch] at q; cases q
                · obtain ⟨s, bf, q⟩ := q; rw [R.cache.flush] at q; cases q
                · obtain ⟨s, bf, q⟩ := q; rw [R.resize] at q; cases q
                · exact q
          · exact ⟨x1, none, rfl, t3, rfl, fun _ => rfl⟩
        obtain ⟨x2, e2, u1, u2, u3, u4⟩ := after
        rw [u1]
        simp only [Outcome.bind_ret]
        refine ⟨fun hp => ?_, fun hp => ?_⟩
        · rw [hnp] at hp
          rw [if_neg hp] at htot
          rw [u4 (by omega)]
          simp only
          obtain ⟨st', g1, g2⟩ := copy x2 u2 (by omega)
          rw [g1]
          simp only [Outcome.bind_ret]
          rw [if_neg g2]
        · rw [hnp] at hp
          rw [if_pos (by omega)] at htot
          cases e2 with
          | some y => exact ⟨_, _, rfl⟩
          | none =>
            simp only
            have hcount : (lb + 1) * x2.st.c.bpb ≤ maxInt := by
              have hd := Nat.div_mul_le_self e.toNat x.st.c.bpb
              rw [← hlb] at hd
              rw [u2.bpb, ← h.bpb, Nat.succ_mul]
              omega
            rcases getSlice_weak L x2.st u2.weak u2.bpb 0 (lb + 1) hcount with ⟨_, g⟩ | ⟨g, _⟩
            · rw [g]; exact ⟨_, _, rfl⟩
            · have := (inRange_blocks u2.weak.bpb_pos).1 g
              omega
  · rw [if_neg hl]
    have hl' : lb < x.st.c.total := Nat.lt_of_not_le hl
    simp only [Outcome.bind_ret]
    obtain ⟨st', g1, g2⟩ := copy x h hl'
    rw [g1]
    simp only [Outcome.bind_ret]
    rw [if_neg g2]
    refine ⟨fun _ => rfl, fun hp => ?_⟩
    exfalso
    apply hp
    unfold NearPanics
    split
    · omega
    · rename_i hz
      rw [if_neg hz] at hlb
      left; omega

end Disko.Stream

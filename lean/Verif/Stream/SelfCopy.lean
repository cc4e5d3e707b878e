import Verif.Stream.CopyLemmas
import Verif.Stream.Props
/-! A stream copied to itself. -/
namespace Disko.Stream.Copying
open Disko Disko.BlockCache Disko.BlockCache.Spec Disko.Stream Disko.Stream.Spec

variable {S : Type}

/-- `x'` still has the bytes of `x` before `k`, and is not shorter. -/
structure KeepsTo (view : S → Bytes) (k : Nat) (x x' : Stm S) : Prop where
  bytes : (file view x').take (min k x.size.toNat) = (file view x).take k
  size : x.size ≤ x'.size

theorem KeepsTo.refl {bpb : Nat} {view : S → Bytes} {x : Stm S} (h : Inv bpb view x) (k : Nat) : KeepsTo view k x x := by
  refine ⟨?_, Int.le_refl _⟩
  have := length_file h
  rcases Nat.le_total k x.size.toNat with q | q
  · rw [Nat.min_eq_left q]
  · rw [Nat.min_eq_right q, List.take_of_length_le (by omega), List.take_of_length_le (by omega)]

theorem KeepsTo.trans {bpb : Nat} {view : S → Bytes} {x y z : Stm S} {k : Nat} (hx : Inv bpb view x) (hy : Inv bpb view y)
    (a : KeepsTo view k x y) (c : KeepsTo view k y z) : KeepsTo view k x z := by
  refine ⟨?_, Int.le_trans a.size c.size⟩
  have h1 := a.size
  have h2 := hx.size_nn
  have e := congrArg (List.take (min k x.size.toNat)) c.bytes
  rw [List.take_take, List.take_take, show min (min k x.size.toNat) (min k y.size.toNat) = min k x.size.toNat by omega,
    show min (min k x.size.toNat) k = min k x.size.toNat by omega, a.bytes] at e
  exact e

theorem Still.keeps {bpb : Nat} {view : S → Bytes} {x x' : Stm S} (h : Inv bpb view x) (s : Still view x x') (k : Nat) :
    KeepsTo view k x x' := by
  have := KeepsTo.refl h k
  refine ⟨?_, by rw [s.size]; exact Int.le_refl _⟩
  rw [s.file]
  exact this.bytes

/-- A write keeps what is before its offset. -/
theorem write_keeps {b : Backend S} {bpb : Nat} {view : S → Bytes} (L : Lawful b bpb view) {x : Stm S} (h : Inv bpb view x) (buf : Bytes)
    (hf : FitsWrite x buf.length (writeOffset x)) :
    ∃ x' n e, write b x buf = .ret (x', n, e) ∧ Inv bpb view x' ∧ x'.flags = x.flags ∧ KeepsTo view (writeOffset x).toNat x x' := by
  have hwo := writeOffset_range h
  obtain ⟨x', n, e, w1, w2, w3, w4⟩ := write_effect L h buf hf
  refine ⟨x', n, e, w1, w2, w3, ?_⟩
  have hsn := h.size_nn
  have hsl := h.size_le
  have hlc : (contents view x.st).length = x.st.c.total * x.st.c.bpb := length_contents _ _
  have hle : ∀ off : Nat, x.size ≤ newSize x off buf.length := by
    intro off
    rw [newSize_eq h]
    split
    · rename_i hc
      have hc' : x.st.c.total * x.st.c.bpb ≤ off + buf.length := hc
      omega
    · exact Int.le_refl _
  rcases w4 with ⟨_, rfl, _⟩ | ⟨_, _, ⟨_, y, _, w⟩ | ⟨_, w⟩⟩
  · exact .refl h _
  · have hs : x.size ≤ x'.size := by
      rcases w.size with q | ⟨_, q⟩
      · rw [q]; exact Int.le_refl _
      · rw [q]; exact hle _
    refine ⟨?_, hs⟩
    unfold file
    rw [w.contents, List.take_take, List.take_take, List.take_append_of_le_length (by omega)]
    congr 1
    omega
  · refine ⟨?_, by rw [w.size]; exact hle _⟩
    have hs : x.size ≤ x'.size := by rw [w.size]; exact hle _
    have hin := w.inside
    have hg := w.grows
    unfold file
    rw [w.contents, List.take_take, List.take_take]
    apply List.ext_getElem?
    intro k
    rw [List.getElem?_take, List.getElem?_take]
    by_cases hk : k < min (writeOffset x).toNat x.size.toNat
    · rw [if_pos (by omega), if_pos (by omega), getElem?_splice (by rw [List.length_append, List.length_replicate]; omega), if_pos (by omega),
        List.getElem?_append_left (by omega)]
    · rw [if_neg (by omega), if_neg (by omega)]

theorem KeepsTo.mono {view : S → Bytes} {k k' : Nat} {x x' : Stm S} (a : KeepsTo view k' x x') (h : min k x.size.toNat ≤ k') :
    KeepsTo view k x x' := by
  refine ⟨?_, a.size⟩
  have e := congrArg (List.take (min k x.size.toNat)) a.bytes
  rw [List.take_take, List.take_take, show min (min k x.size.toNat) (min k' x.size.toNat) = min k x.size.toNat by omega,
    Nat.min_eq_left h] at e
  rw [e]
  unfold file
  rw [List.take_take, List.take_take]
  congr 1
  omega

/-- One Read, whatever the storage does. -/
theorem read_any {b : Backend S} {bpb : Nat} {view : S → Bytes} (L : Lawful b bpb view) {x : Stm S} (h : Inv bpb view x) (buf : Bytes)
    (hne : 0 < buf.length) (hf : FitsRead x buf.length) :
    ∃ x1 r, read b x buf = .ret (x1, r) ∧ Inv bpb view x1 ∧ Still view x x1 ∧ r.buf.length = buf.length ∧ 0 ≤ r.n ∧ r.n ≤ buf.length ∧
      (0 < r.n → x.position + r.n ≤ x.size) ∧
      (r.err = none ∧ r.n = buf.length ∧ x1.position = x.position + r.n ∨ r.err ≠ none ∧ x1.position = x.position) := by
  obtain ⟨x0, x1, r, r1, r2, r3, r4, r5⟩ := read_effect L h buf hf
  obtain ⟨x0', r', a1, _, _, a4, a5, a6, a7⟩ := readAt_effect L h buf h.pos_nn hf
  rw [r1] at a1; cases a1
  refine ⟨x1, r, r2, r3, r4, ?_, a5, ?_, fun hn => a7 (by omega), ?_⟩
  · rcases readAt_spec L h buf h.pos_nn hf with ⟨_, a⟩ | ⟨_, _, a⟩ | ⟨_, _, _, a⟩ | ⟨_, _, _, st', _, a | ⟨_, _, _, a⟩⟩ <;>
      (rw [r1] at a; cases a) <;> simp [goCopy_length]
  · rcases readAt_spec L h buf h.pos_nn hf with ⟨_, a⟩ | ⟨_, _, a⟩ | ⟨_, _, _, a⟩ | ⟨_, _, _, st', _, a | ⟨_, _, _, a⟩⟩ <;>
      (rw [r1] at a; cases a)
    · simp
    · simp
    · simp
    · unfold avail; simp only; omega
    · simp
  · by_cases he : r.err = none
    · left; refine ⟨he, a6 he, ?_⟩; rw [r5, if_pos he]
    · right; refine ⟨he, ?_⟩; rw [r5, if_neg he]

/-- A write of a block behind the first one succeeds only inside the object. -/
theorem wrote_inside {b : Backend S} {bpb : Nat} {view : S → Bytes} {x x' : Stm S} {buf : Bytes} {off : Nat} {e : Option SErr}
    (h : Inv bpb view x) (w : Wrote b view x buf off x' e) (ho : bpb ≤ off) :
    x'.size = x.size ∧ x'.st.c.total = x.st.c.total := by
  have hb := h.bpb
  have hbp : 0 < bpb := by rw [← hb]; exact h.weak.bpb_pos
  have hroom := w.room
  rw [w.total, hb] at hroom
  have hd : 0 < off / bpb := Nat.div_pos ho hbp
  by_cases hg : x.st.c.total ≤ lastBlk x off buf.length
  · exfalso
    have hl : lastBlk x off buf.length = (off + buf.length) / bpb := by unfold lastBlk; rw [hb]
    have ht : newTotal x off buf.length ≤ (off + buf.length) / bpb + 1 := by
      unfold newTotal
      rw [if_pos hg, hb]
      rw [Nat.div_le_iff_le_mul_add_pred hbp]
      have h3 := Nat.div_add_mod (off + buf.length) bpb
      have h4 := Nat.mod_lt (off + buf.length) hbp
      rw [Nat.mul_add, Nat.mul_one]
      omega
    rw [hl] at hroom
    omega
  · refine ⟨?_, ?_⟩
    · rw [w.size]; unfold newSize; rw [if_neg hg]
    · rw [w.total]; unfold newTotal; rw [if_neg hg]

theorem length_chunk {buf : Bytes} {n : Int} (h0 : 0 ≤ n) (h1 : n ≤ buf.length) : ((buf.take n.toNat).length : Int) = n := by
  rw [List.length_take]; omega

/-- ReadFrom with the stream itself: it ends, and keeps what was before the position. -/
theorem selfFromLoop_spec {b : Backend S} {bpb : Nat} {view : S → Bytes} (L : Lawful b bpb view) (fuel : Nat) {x : Stm S} (h : Inv bpb view x)
    (buf : Bytes) (hbuf : buf.length = bpb) (tot : Int) (hcap : x.st.c.total * bpb + 2 * bpb ≤ maxInt) (hpos : x.position + bpb ≤ maxInt)
    (hfuel : (x.size - x.position).toNat / bpb < fuel) {k : Nat} (hk : (k : Int) ≤ x.position) :
    ∃ x' n e, selfFromLoop b fuel buf x tot = .ret (x', n, e) ∧ KeepsTo view k x x' := by
  induction fuel generalizing x buf tot with
  | zero => exact absurd hfuel (Nat.not_lt_zero _)
  | succ fuel ih =>
    have hb := h.bpb
    have hbp : 0 < bpb := by rw [← hb]; exact h.weak.bpb_pos
    obtain ⟨x1, r, r1, r2, r3, r4, r5, r6, r7, r8⟩ := read_any L h buf (by omega) (by show x.st.c.total * _ + _ ≤ maxInt; rw [hb]; omega)
    have hlc := length_chunk r5 (by rw [r4]; exact r6)
    have hsl : x1.size ≤ (x1.st.c.total * x1.st.c.bpb : Nat) := r2.size_le
    rw [r3.total, r3.bpb, hb, r3.size] at hsl
    have hwo : writeOffset x1 = x.size ∨ writeOffset x1 = x1.position := by
      unfold writeOffset; split
      · left; exact r3.size
      · right; rfl
    have hsn := h.size_nn
    have hpn := h.pos_nn
    have hsize : writeOffset x1 + r.n + bpb ≤ (maxInt : Nat) := by
      rcases r8 with ⟨_, q1, q2⟩ | ⟨_, q2⟩
      · have := r7 (by omega)
        rcases hwo with q | q <;> omega
      · by_cases hn : 0 < r.n
        · have := r7 hn
          rcases hwo with q | q <;> omega
        · rcases hwo with q | q <;> omega
    have hfw : FitsWrite x1 (r.buf.take r.n.toNat).length (writeOffset x1) := by
      have hfs : FitsSize x1 (writeOffset x1 + (r.buf.take r.n.toNat).length) := by
        show _ + ((r.buf.take r.n.toNat).length : Int) + (x1.st.c.bpb : Nat) ≤ (maxInt : Nat)
        rw [hlc, r2.bpb]; exact hsize
      refine ⟨by omega, ?_, .inl hfs⟩
      show x1.st.c.total * x1.st.c.bpb + _ + x1.st.c.bpb ≤ maxInt
      rw [r3.total, r2.bpb]
      omega
    obtain ⟨x2, n, e, w1, w2, w3, w4⟩ := write_keeps L r2 (r.buf.take r.n.toNat) hfw
    have hkeep : KeepsTo view k x x2 := by
      refine KeepsTo.trans h r2 (Still.keeps h r3 k) (w4.mono ?_)
      rw [r3.size]
      rcases r8 with ⟨_, q1, q2⟩ | ⟨_, q2⟩ <;> rcases hwo with q | q <;> omega
    unfold selfFromLoop
    rw [r1]
    simp only [Outcome.bind_ret]
    rw [w1]
    simp only [Outcome.bind_ret]
    rcases r8 with ⟨q0, q1, q2⟩ | ⟨q0, q2⟩
    · rw [q0]
      simp only
      cases e with
      | some e => exact ⟨_, _, _, rfl, hkeep⟩
      | none =>
        simp only
        have hfull := r7 (by omega)
        obtain ⟨x2', n', e', v1, v2, v3, v4⟩ := write_effect L r2 (r.buf.take r.n.toNat) hfw
        rw [w1] at v1; cases v1
        have hoff : x1.position ≤ writeOffset x1 := by rcases hwo with q | q <;> omega
        rcases v4 with ⟨_, _, _, q⟩ | ⟨_, v5, ⟨_, _, q, _⟩ | ⟨v6, w⟩⟩
        · cases q
        · cases q
        · obtain ⟨i1, i2⟩ := wrote_inside r2 w (by omega)
          rw [r3.size] at i1
          rw [r3.total] at i2
          obtain ⟨x3, n3, e3, s1, s2⟩ := ih w2 r.buf (by omega) (i64 (tot + r.n)) (by rw [i2]; exact hcap)
            (by rcases hwo with q | q <;> omega)
            (by
              have hlt : (x2.size - x2.position).toNat + bpb ≤ (x.size - x.position).toNat := by rw [i1]; omega
              have := Nat.div_le_div_right (c := bpb) hlt
              rw [Nat.add_div_right _ hbp] at this
              omega)
            (by omega)
          exact ⟨x3, n3, e3, s1, KeepsTo.trans h w2 hkeep s2⟩
    · cases he : r.err with
      | none => exact absurd he q0
      | some e2 =>
        cases e2 <;> exact ⟨_, _, _, rfl, hkeep⟩

theorem newTotal_le {bpb : Nat} {view : S → Bytes} {x : Stm S} (h : Inv bpb view x) (off len : Nat) :
    newTotal x off len * bpb ≤ x.st.c.total * bpb + 0 ∨ newTotal x off len * bpb ≤ off + len + bpb := by
  unfold newTotal
  split
  · right
    rw [h.bpb]
    have := Nat.div_mul_le_self (off + len + (bpb - 1)) bpb
    omega
  · left; exact Nat.le_refl _

/-- A round of WriteTo with the stream itself that writes. -/
theorem selfToLoop_wrote {b : Backend S} (fuel : Nat) {x x1 x2 : Stm S} {buf : Bytes} {tot : Int} {r : ReadRes} {n : Int} {e : Option SErr}
    (r1 : read b x buf = .ret (x1, r)) (hn : 0 < r.n) (w1 : write b x1 (r.buf.take r.n.toNat) = .ret (x2, n, e)) :
    (r.err = none → selfToLoop b (fuel + 1) buf x tot = selfToLoop b fuel r.buf x2 (i64 (tot + r.n))) ∧
    (r.err ≠ none → ∃ e, selfToLoop b (fuel + 1) buf x tot = .ret (x2, i64 (tot + r.n), e)) := by
  have hs : selfToLoop b (fuel + 1) buf x tot = (match r.err with
    | some .eof => pure (x2, i64 (tot + r.n), none)
    | some e => pure (x2, i64 (tot + r.n), some e)
    | none => selfToLoop b fuel r.buf x2 (i64 (tot + r.n))) := by
    rw [selfToLoop.eq_def]
    simp only
    rw [r1]
    simp only [Outcome.bind_ret]
    rw [if_pos hn, w1]
    rfl
  constructor
  · intro he
    rw [hs, he]
  · intro he
    rw [hs]
    cases hr : r.err with
    | none => exact absurd hr he
    | some e2 => cases e2 <;> exact ⟨_, rfl⟩

/-- A round of WriteTo with the stream itself that has nothing to write. -/
theorem selfToLoop_idle {b : Backend S} (fuel : Nat) {x x1 : Stm S} {buf : Bytes} {tot : Int} {r : ReadRes}
    (r1 : read b x buf = .ret (x1, r)) (hn : ¬ 0 < r.n) (he : r.err ≠ none) :
    ∃ e, selfToLoop b (fuel + 1) buf x tot = .ret (x1, tot, e) := by
  rw [selfToLoop.eq_def]
  simp only
  rw [r1]
  simp only [Outcome.bind_ret]
  rw [if_neg hn]
  simp only [Outcome.bind_ret]
  cases hr : r.err with
  | none => exact absurd hr he
  | some e2 => cases e2 <;> exact ⟨_, rfl⟩

/-- One round of WriteTo with the stream itself. -/
theorem selfToLoop_step {b : Backend S} {bpb : Nat} {view : S → Bytes} (L : Lawful b bpb view) (fuel : Nat) {x : Stm S} (h : Inv bpb view x)
    (buf : Bytes) (hbuf : buf.length = bpb) (tot : Int) (hcap : x.st.c.total * bpb + 2 * bpb ≤ maxInt) {k : Nat} (hk : (k : Int) ≤ x.position) :
    ∃ x2 buf2 tot2, Inv bpb view x2 ∧ KeepsTo view k x x2 ∧ x2.flags = x.flags ∧ buf2.length = bpb ∧ x2.st.c.total * bpb ≤ x.st.c.total * bpb + 2 * bpb ∧
      (Flags.write x.flags = false ∨ x.size + bpb < (x.st.c.total * bpb : Nat) → x2.size = x.size ∧ x2.st.c.total = x.st.c.total) ∧
      ((∃ e, selfToLoop b (fuel + 1) buf x tot = .ret (x2, tot2, e)) ∨
       (selfToLoop b (fuel + 1) buf x tot = selfToLoop b fuel buf2 x2 tot2 ∧ x.position + bpb ≤ x.size ∧ x.position + bpb ≤ x2.position)) := by
  have hb := h.bpb
  have hbp : 0 < bpb := by rw [← hb]; exact h.weak.bpb_pos
  obtain ⟨x1, r, r1, r2, r3, r4, r5, r6, r7, r8⟩ := read_any L h buf (by omega) (by show x.st.c.total * _ + _ ≤ maxInt; rw [hb]; omega)
  have hlc := length_chunk r5 (by rw [r4]; exact r6)
  have hsl : x1.size ≤ (x1.st.c.total * x1.st.c.bpb : Nat) := r2.size_le
  rw [r3.total, r3.bpb, hb, r3.size] at hsl
  have hwo : writeOffset x1 = x.size ∨ writeOffset x1 = x1.position := by
    unfold writeOffset; split
    · left; exact r3.size
    · right; rfl
  have hsn := h.size_nn
  have hpn := h.pos_nn
  by_cases hn : 0 < r.n
  rotate_left
  · rcases r8 with ⟨q0, q1, q2⟩ | ⟨q0, q2⟩
    · omega
    · refine ⟨x1, r.buf, tot, r2, Still.keeps h r3 k, r3.flags, by omega, by rw [r3.total]; omega, fun _ => ⟨r3.size, r3.total⟩, .inl (selfToLoop_idle fuel r1 hn q0)⟩
  · have hin := r7 hn
    have hoff : writeOffset x1 ≤ x.size := by
      rcases hwo with q | q
      · omega
      · rcases r8 with ⟨_, q1, q2⟩ | ⟨_, q2⟩ <;> omega
    have hfw : FitsWrite x1 (r.buf.take r.n.toNat).length (writeOffset x1) := by
      have hfs : FitsSize x1 (writeOffset x1 + (r.buf.take r.n.toNat).length) := by
        show _ + ((r.buf.take r.n.toNat).length : Int) + (x1.st.c.bpb : Nat) ≤ (maxInt : Nat)
        rw [hlc, r2.bpb]; omega
      refine ⟨by omega, ?_, .inl hfs⟩
      show x1.st.c.total * x1.st.c.bpb + _ + x1.st.c.bpb ≤ maxInt
      rw [r3.total, r2.bpb]
      omega
    obtain ⟨x2, n, e, w1, w2, w3, w4⟩ := write_keeps L r2 (r.buf.take r.n.toNat) hfw
    obtain ⟨x2', n', e', v1, v2, v3, v4⟩ := write_effect L r2 (r.buf.take r.n.toNat) hfw
    rw [w1] at v1; cases v1
    have hwr := (writeOffset_range r2).1
    have hkeep : KeepsTo view k x x2 := by
      refine KeepsTo.trans h r2 (Still.keeps h r3 k) (w4.mono ?_)
      rw [r3.size]
      rcases r8 with ⟨_, q1, q2⟩ | ⟨_, q2⟩ <;> rcases hwo with q | q <;> omega
    have hnt := newTotal_le r2 (writeOffset x1).toNat (r.buf.take r.n.toNat).length
    rw [r3.total] at hnt
    have htl : x2.st.c.total * bpb ≤ x.st.c.total * bpb + 2 * bpb := by
      rcases v4 with ⟨_, rfl, _⟩ | ⟨_, _, ⟨_, _, _, w⟩ | ⟨_, w⟩⟩
      · rw [r3.total]; omega
      · rcases w.total with q | q
        · rw [q, r3.total]; omega
        · rw [q]; omega
      · rw [w.total]; omega
    have hno : Flags.write x.flags = false ∨ x.size + bpb < (x.st.c.total * bpb : Nat) → x2.size = x.size ∧ x2.st.c.total = x.st.c.total := by
      intro hc
      have hlb : Flags.write x1.flags = true → lastBlk x1 (writeOffset x1).toNat (r.buf.take r.n.toNat).length < x1.st.c.total := by
        intro hw
        rw [r3.flags] at hw
        rcases hc with hc | hc
        · rw [hw] at hc; cases hc
        · apply Nat.lt_of_not_le
          intro hle
          have hcl : x1.st.c.total * x1.st.c.bpb ≤ _ := (lastBlk_iff r2 _ _).1 hle
          rw [r3.total, r2.bpb] at hcl
          omega
      rcases v4 with ⟨_, rfl, _⟩ | ⟨hw, _, ⟨_, _, _, w⟩ | ⟨_, w⟩⟩
      · exact ⟨r3.size, r3.total⟩
      · have := w.same (hlb hw)
        exact ⟨this.1.trans r3.size, this.2.trans r3.total⟩
      · have := hlb hw
        refine ⟨?_, ?_⟩
        · rw [w.size]; unfold newSize; rw [if_neg (by omega)]; exact r3.size
        · rw [w.total]; unfold newTotal; rw [if_neg (by omega)]; exact r3.total
    have hpp : x1.position ≤ x2.position := by
      rcases v4 with ⟨_, rfl, _⟩ | ⟨_, v5, ⟨v6, _⟩ | ⟨v6, _⟩⟩
      · exact Int.le_refl _
      · rcases r8 with ⟨_, q1, q2⟩ | ⟨_, q2⟩ <;> rcases hwo with q | q <;> omega
      · rcases r8 with ⟨_, q1, q2⟩ | ⟨_, q2⟩ <;> rcases hwo with q | q <;> omega
    refine ⟨x2, r.buf, i64 (tot + r.n), w2, hkeep, w3.trans r3.flags, by omega, htl, hno, ?_⟩
    rcases r8 with ⟨q0, q1, q2⟩ | ⟨q0, q2⟩
    · right
      exact ⟨(selfToLoop_wrote fuel r1 hn w1).1 q0, by omega, by omega⟩
    · left
      exact (selfToLoop_wrote fuel r1 hn w1).2 q0

/-- WriteTo with the stream itself keeps what was before the position, if it ends. -/
theorem selfToLoop_keeps {b : Backend S} {bpb : Nat} {view : S → Bytes} (L : Lawful b bpb view) (fuel : Nat) {x : Stm S} (h : Inv bpb view x)
    (buf : Bytes) (hbuf : buf.length = bpb) (tot : Int) (hcap : x.st.c.total * bpb + fuel * (2 * bpb) ≤ maxInt) {k : Nat} (hk : (k : Int) ≤ x.position) :
    selfToLoop b fuel buf x tot = .timeout ∨ ∃ x' n e, selfToLoop b fuel buf x tot = .ret (x', n, e) ∧ KeepsTo view k x x' := by
  induction fuel generalizing x buf tot with
  | zero => left; rfl
  | succ fuel ih =>
    rw [Nat.succ_mul] at hcap
    obtain ⟨x2, buf2, tot2, s1, s2, s3, s4, s5, _, ⟨e, s⟩ | ⟨s, s6, s7⟩⟩ := selfToLoop_step L fuel h buf hbuf tot (by omega) hk
    · right; exact ⟨_, _, _, s, s2⟩
    · rw [s]
      rcases ih s1 buf2 s4 tot2 (by omega) (by omega) with t | ⟨x3, n, e, t, t2⟩
      · left; exact t
      · right; exact ⟨x3, n, e, t, KeepsTo.trans h s1 s2 t2⟩

/-- WriteTo with the stream itself ends if the stream cannot be written or its object is more than a block longer than its file. -/
theorem selfToLoop_ends {b : Backend S} {bpb : Nat} {view : S → Bytes} (L : Lawful b bpb view) (fuel : Nat) {x : Stm S} (h : Inv bpb view x)
    (buf : Bytes) (hbuf : buf.length = bpb) (tot : Int) (hcap : x.st.c.total * bpb + 2 * bpb ≤ maxInt) {k : Nat} (hk : (k : Int) ≤ x.position)
    (hc : Flags.write x.flags = false ∨ x.size + bpb < (x.st.c.total * bpb : Nat)) (hfuel : (x.size - x.position).toNat / bpb < fuel) :
    ∃ x' n e, selfToLoop b fuel buf x tot = .ret (x', n, e) ∧ KeepsTo view k x x' ∧ x'.size = x.size := by
  have hbp : 0 < bpb := by rw [← h.bpb]; exact h.weak.bpb_pos
  induction fuel generalizing x buf tot with
  | zero => exact absurd hfuel (Nat.not_lt_zero _)
  | succ fuel ih =>
    obtain ⟨x2, buf2, tot2, s1, s2, s3, s4, s5, s6, ⟨e, s⟩ | ⟨s, s7, s8⟩⟩ := selfToLoop_step L fuel h buf hbuf tot hcap hk
    · exact ⟨_, _, _, s, s2, (s6 hc).1⟩
    · rw [s]
      obtain ⟨t1, t2⟩ := s6 hc
      obtain ⟨x3, n, e, t, t3, t4⟩ := ih s1 buf2 s4 tot2 (by rw [t2]; exact hcap) (by omega) (by rw [s3, t1, t2]; exact hc)
        (by
          have hlt : (x2.size - x2.position).toNat + bpb ≤ (x.size - x.position).toNat := by rw [t1]; omega
          have := Nat.div_le_div_right (c := bpb) hlt
          rw [Nat.add_div_right _ hbp] at this
          omega)
      exact ⟨x3, n, e, t, KeepsTo.trans h s1 s2 t3, t4.trans t1⟩

/-- A block that is read at index `i` by WriteTo with the stream itself, when nothing fails: the state afterwards. -/
theorem selfToLoop_block {b : Backend S} {bpb : Nat} {view : S → Bytes} (L : Lawful b bpb view) (R : AllReliable b) (fuel : Nat) {x : Stm S}
    (h : Inv bpb view x) (hrd : Flags.read x.flags = true) (hw : Flags.write x.flags = true) (ha : Flags.append x.flags = false)
    (buf : Bytes) (hbuf : buf.length = bpb) (tot : Int) (hcap : x.st.c.total * bpb + 2 * bpb ≤ maxInt) {i : Nat} (hi : x.position = (i * bpb : Nat))
    (hfull : ((i + 1) * bpb : Nat) ≤ x.size) :
    ∃ x2 buf2 tot2, Inv bpb view x2 ∧ x2.flags = x.flags ∧ buf2.length = bpb ∧
      selfToLoop b (fuel + 1) buf x tot = selfToLoop b fuel buf2 x2 tot2 ∧
      (if i + 2 < x.st.c.total then x2.size = x.size ∧ x2.st.c.total = x.st.c.total else x2.size = ((i + 2) * bpb : Nat) ∧ x2.st.c.total = i + 2) ∧
      x2.position = ((if 2 * i + 4 ≤ x.st.c.total then i + 2 else i + 1) * bpb : Nat) := by
  have hb := h.bpb
  have hbp : 0 < bpb := by rw [← hb]; exact h.weak.bpb_pos
  have hsl := h.size_le
  rw [hb] at hsl
  have hsn := h.size_nn
  have hlf := length_file h
  have e1 : (i + 1) * bpb = i * bpb + bpb := Nat.succ_mul _ _
  have e2 : (i + 2) * bpb = i * bpb + bpb + bpb := by rw [Nat.succ_mul, Nat.succ_mul]
  obtain ⟨x1, r, r1, r2, r3, r4, r5 | ⟨r5, _⟩⟩ := read_ok L R h hrd buf hbuf (by show x.st.c.total * _ + _ ≤ maxInt; rw [hb]; omega)
  rotate_left
  · exfalso
    rw [List.length_drop, hlf] at r5
    omega
  obtain ⟨_, q1, q2, q3, q4⟩ := r5
  have hlc : (r.buf.take r.n.toNat).length = bpb := by rw [List.length_take]; omega
  have ho : writeOffset x1 = ((i + 1) * bpb : Nat) := by
    unfold writeOffset; rw [r3.flags, ha, q4, hi]; simp only [Bool.false_eq_true, if_false]; omega
  have hfs : FitsSize x1 ((((i + 1) * bpb : Nat) : Int) + (r.buf.take r.n.toNat).length) := by
    show _ + ((r.buf.take r.n.toNat).length : Int) + (x1.st.c.bpb : Nat) ≤ (maxInt : Nat)
    rw [hlc, r2.bpb]; omega
  have hfw : FitsWrite x1 (r.buf.take r.n.toNat).length (((i + 1) * bpb : Nat) : Int) := by
    refine ⟨by omega, ?_, .inl hfs⟩
    show x1.st.c.total * x1.st.c.bpb + _ + x1.st.c.bpb ≤ maxInt
    rw [r3.total, r2.bpb]
    omega
  obtain ⟨w1, w2⟩ := write_ok L R r2 (by rw [r3.flags]; exact hw) (r.buf.take r.n.toNat) ho hfw hfs
  rw [hlc] at w1 w2
  have hd1 : (i + 1) * bpb / bpb = i + 1 := Nat.mul_div_cancel _ hbp
  have hd2 : ((i + 1) * bpb + bpb) / bpb = i + 2 := by rw [← Nat.succ_mul, Nat.mul_div_cancel _ hbp]
  rw [hd1, hd2] at w1 w2
  have hnt : newTotal x1 ((i + 1) * bpb) bpb = if i + 2 < x.st.c.total then x.st.c.total else i + 2 := by
    unfold newTotal lastBlk
    rw [r2.bpb, hd2, r3.total]
    by_cases hlt : i + 2 < x.st.c.total
    · rw [if_neg (by omega), if_pos hlt]
    · rw [if_pos (by omega), if_neg hlt, ← Nat.succ_mul, Nat.add_comm, Nat.add_mul_div_right _ _ hbp, Nat.div_eq_of_lt (by omega), Nat.zero_add]
  have hns : newSize x1 ((i + 1) * bpb) bpb = if i + 2 < x.st.c.total then x.size else ((i + 2) * bpb : Nat) := by
    unfold newSize lastBlk
    rw [r2.bpb, hd2, r3.total, r3.size]
    by_cases hlt : i + 2 < x.st.c.total
    · rw [if_neg (by omega), if_pos hlt]
    · rw [if_pos (by omega), if_neg hlt]; omega
  rw [hnt] at w1 w2
  have hstep : ∀ x2 n e, write b x1 (r.buf.take r.n.toNat) = .ret (x2, n, e) →
      selfToLoop b (fuel + 1) buf x tot = selfToLoop b fuel r.buf x2 (i64 (tot + r.n)) := by
    intro x2 n e hwr
    exact (selfToLoop_wrote fuel r1 (by omega) hwr).1 q1
  have hgoal : ∀ x2 : Stm S, x2.size = newSize x1 ((i + 1) * bpb) bpb → x2.st.c.total = newTotal x1 ((i + 1) * bpb) bpb →
      (if i + 2 < x.st.c.total then x2.size = x.size ∧ x2.st.c.total = x.st.c.total else x2.size = ((i + 2) * bpb : Nat) ∧ x2.st.c.total = i + 2) := by
    intro x2 a c
    rw [hns] at a
    rw [hnt] at c
    by_cases hlt : i + 2 < x.st.c.total
    · rw [if_pos hlt] at a c ⊢; exact ⟨a, c⟩
    · rw [if_neg hlt] at a c ⊢; exact ⟨a, c⟩
  by_cases hroom : 2 * i + 4 ≤ x.st.c.total
  · obtain ⟨x2, k1, k⟩ := w1 (by rw [if_pos (by omega)]; omega)
    have k3 := k.size; have k4 := k.total
    rw [hlc] at k3 k4
    refine ⟨x2, r.buf, _, k.inv, k.flags.trans r3.flags, r4, hstep _ _ _ k1, hgoal _ k3 k4, ?_⟩
    rw [k.position, hlc, if_pos hroom]; omega
  · obtain ⟨x2, k1, k⟩ := w2 (by split <;> omega)
    have k3 := k.size; have k4 := k.total
    rw [hlc] at k3 k4
    refine ⟨x2, r.buf, _, k.inv, k.flags.trans r3.flags, r4, hstep _ _ _ k1, hgoal _ k3 k4, ?_⟩
    rw [k.position, if_neg hroom]

/-- WriteTo with the stream itself, from the start of a block on, of a file that fills its object (up to less than a block), with a whole
block left: it does not end. -/
theorem selfToLoop_never {b : Backend S} {bpb : Nat} {view : S → Bytes} (L : Lawful b bpb view) (R : AllReliable b) (fuel : Nat) {x : Stm S}
    (h : Inv bpb view x) (hrd : Flags.read x.flags = true) (hw : Flags.write x.flags = true) (ha : Flags.append x.flags = false)
    (buf : Bytes) (hbuf : buf.length = bpb) (tot : Int) (hcap : x.st.c.total * bpb + fuel * (2 * bpb) ≤ maxInt) {i : Nat} (hi : x.position = (i * bpb : Nat))
    (hfull : ((i + 1) * bpb : Nat) ≤ x.size) (hends : (x.st.c.total * bpb : Nat) < x.size + bpb) :
    selfToLoop b fuel buf x tot = .timeout := by
  have hbp : 0 < bpb := by rw [← h.bpb]; exact h.weak.bpb_pos
  induction fuel generalizing x buf tot i with
  | zero => rfl
  | succ fuel ih =>
    rw [Nat.succ_mul] at hcap
    obtain ⟨x2, buf2, tot2, s1, s2, s3, s4, s5, s6⟩ := selfToLoop_block L R fuel h hrd hw ha buf hbuf tot (by omega) hi hfull
    rw [s4]
    have e1 : (i + 1) * bpb = i * bpb + bpb := Nat.succ_mul _ _
    have e2 : (i + 2) * bpb = i * bpb + bpb + bpb := by rw [Nat.succ_mul, Nat.succ_mul]
    by_cases hlt : i + 2 < x.st.c.total
    · rw [if_pos hlt] at s5
      refine ih s1 (by rw [s2]; exact hrd) (by rw [s2]; exact hw) (by rw [s2]; exact ha) buf2 s3 tot2 (by rw [s5.2]; omega) s6 ?_
        (by rw [s5.1, s5.2]; exact hends)
      rw [s5.1]
      by_cases hroom : 2 * i + 4 ≤ x.st.c.total
      · rw [if_pos hroom]
        have : (i + 4) * bpb ≤ x.st.c.total * bpb := Nat.mul_le_mul_right _ (by omega)
        have e4 : (i + 4) * bpb = (i + 2 + 1) * bpb + bpb := by rw [← Nat.succ_mul]
        omega
      · rw [if_neg hroom]
        have : (i + 3) * bpb ≤ x.st.c.total * bpb := Nat.mul_le_mul_right _ (by omega)
        have e4 : (i + 3) * bpb = (i + 1 + 1) * bpb + bpb := by rw [← Nat.succ_mul]
        omega
    · rw [if_neg hlt] at s5
      rw [if_neg (by omega)] at s6
      have hsl := h.size_le
      rw [h.bpb] at hsl
      have : (i + 1) * bpb ≤ x.st.c.total * bpb := by omega
      refine ih s1 (by rw [s2]; exact hrd) (by rw [s2]; exact hw) (by rw [s2]; exact ha) buf2 s3 tot2 (by rw [s5.2]; omega) s6 ?_
        (by rw [s5.1, s5.2]; omega)
      rw [s5.1]; exact Int.le_refl _

/-- The same with O_APPEND, for any position with a whole block left. -/
theorem selfToLoop_never_append {b : Backend S} {bpb : Nat} {view : S → Bytes} (L : Lawful b bpb view) (R : AllReliable b) (fuel : Nat) {x : Stm S}
    (h : Inv bpb view x) (hrd : Flags.read x.flags = true) (hw : Flags.write x.flags = true) (ha : Flags.append x.flags = true)
    (buf : Bytes) (hbuf : buf.length = bpb) (tot : Int) (hcap : x.st.c.total * bpb + fuel * (2 * bpb) ≤ maxInt)
    (hfull : x.position + bpb ≤ x.size) (hends : (x.st.c.total * bpb : Nat) ≤ x.size + bpb) :
    selfToLoop b fuel buf x tot = .timeout := by
  have hbp : 0 < bpb := by rw [← h.bpb]; exact h.weak.bpb_pos
  induction fuel generalizing x buf tot with
  | zero => rfl
  | succ fuel ih =>
    rw [Nat.succ_mul] at hcap
    have hb := h.bpb
    have hsl := h.size_le
    rw [hb] at hsl
    have hsn := h.size_nn
    have hpn := h.pos_nn
    have hlf := length_file h
    obtain ⟨x1, r, r1, r2, r3, r4, r5 | ⟨r5, _⟩⟩ := read_ok L R h hrd buf hbuf (by show x.st.c.total * _ + _ ≤ maxInt; rw [hb]; omega)
    rotate_left
    · exfalso
      rw [List.length_drop, hlf] at r5
      omega
    obtain ⟨_, q1, q2, q3, q4⟩ := r5
    have hlc : (r.buf.take r.n.toNat).length = bpb := by rw [List.length_take]; omega
    obtain ⟨o, ho'⟩ : ∃ o : Nat, x.size = o := ⟨x.size.toNat, by omega⟩
    have ho : writeOffset x1 = o := by unfold writeOffset; rw [r3.flags, ha, r3.size, ho']; rfl
    obtain ⟨hfw, hfs⟩ : FitsWrite x1 (r.buf.take r.n.toNat).length (o : Int) ∧ FitsSize x1 ((o : Int) + (r.buf.take r.n.toNat).length) := by
      have hfs : FitsSize x1 ((o : Int) + (r.buf.take r.n.toNat).length) := by
        show _ + ((r.buf.take r.n.toNat).length : Int) + (x1.st.c.bpb : Nat) ≤ (maxInt : Nat)
        rw [hlc, r2.bpb]; omega
      refine ⟨⟨by omega, ?_, .inl hfs⟩, hfs⟩
      show x1.st.c.total * x1.st.c.bpb + _ + x1.st.c.bpb ≤ maxInt
      rw [r3.total, r2.bpb]
      omega
    obtain ⟨_, w2⟩ := write_ok L R r2 (by rw [r3.flags]; exact hw) (r.buf.take r.n.toNat) ho hfw hfs
    rw [hlc] at w2
    have hg : x1.st.c.total ≤ (o + bpb) / bpb := by
      rw [r3.total, Nat.le_div_iff_mul_le hbp]; omega
    obtain ⟨g1, g2⟩ := newTotal_grow r2 (o := o) (n := bpb) hg
    have hd : 0 < o / bpb := Nat.div_pos (by omega) hbp
    have hub : (o + bpb + (bpb - 1)) / bpb ≤ (o + bpb) / bpb + 1 := by
      rw [← Nat.add_div_right _ hbp]
      exact Nat.div_le_div_right (by omega)
    obtain ⟨x2, k1, k⟩ := w2 (by rw [g1]; omega)
    have k3 := k.size; have k4 := k.total
    rw [hlc, g2] at k3
    rw [hlc] at k4
    have k5 := k.position
    have htl : x2.st.c.total * bpb ≤ o + bpb + bpb := by
      rw [k4, g1]
      have := Nat.div_mul_le_self (o + bpb + (bpb - 1)) bpb
      omega
    rw [(selfToLoop_wrote fuel r1 (by omega) k1).1 q1]
    have hfl := k.flags.trans r3.flags
    exact ih k.inv (by rw [hfl]; exact hrd) (by rw [hfl]; exact hw) (by rw [hfl]; exact ha) r.buf r4 _ (by omega) (by omega) (by omega)

end Disko.Stream.Copying

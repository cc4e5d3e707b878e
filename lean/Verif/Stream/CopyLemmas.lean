import Verif.Stream.Copy
import Verif.Stream.Props2
/-! Copying between streams: single reads and writes with callbacks that never fail, and the
loops as sequences of them. -/
namespace Disko.Stream.Copying
open Disko Disko.BlockCache Disko.BlockCache.Spec Disko.Stream Disko.Stream.Spec

variable {S T : Type}

theorem noFail {b : Backend S} (R : AllReliable b) (y : SErr) : ¬ CallbackFailed b y := by
  intro hy
  unfold CallbackFailed at hy
  split at hy
  · obtain ⟨s, buf, hq⟩ := hy; rw [R.cache.fetch] at hq; simp at hq
  · obtain ⟨s, buf, hq⟩ := hy; rw [R.cache.flush] at hq; simp at hq
  · obtain ⟨s, m, hq⟩ := hy; rw [R.resize] at hq; simp at hq
  · exact hy

/-- Read with a buffer of one block. -/
theorem read_ok {b : Backend S} {bpb : Nat} {view : S → Bytes} (L : Lawful b bpb view) (R : AllReliable b)
    {x : Stm S} (h : Inv bpb view x) (hrd : Flags.read x.flags = true) (buf : Bytes) (hbl : buf.length = bpb)
    (hf : FitsRead x bpb) :
    ∃ x' r, read b x buf = .ret (x', r) ∧ Inv bpb view x' ∧ Still view x x' ∧ r.buf.length = bpb ∧
      ((bpb ≤ ((file view x).drop x.position.toNat).length ∧ r.err = none ∧ r.n = bpb ∧
          r.buf.take r.n.toNat = ((file view x).drop x.position.toNat).take bpb ∧
          x'.position = x.position + bpb) ∨
       (((file view x).drop x.position.toNat).length < bpb ∧ r.err = some .eof ∧
          r.n = ((file view x).drop x.position.toNat).length ∧
          r.buf.take r.n.toNat = (file view x).drop x.position.toNat ∧ x'.position = x.position)) := by
  have hbp : 0 < bpb := by rw [← h.bpb]; exact h.weak.bpb_pos
  obtain ⟨x1, x', r, r1, r2, r3, r4, r5⟩ := read_effect L h buf (by rw [hbl]; exact hf)
  have hlf := length_file h
  have hpn := h.pos_nn
  have hlen : ((file view x).drop x.position.toNat).length = x.size.toNat - x.position.toNat := by
    rw [List.length_drop, hlf]
  refine ⟨x', r, r2, r3, r4, ?_⟩
  rcases readAt_spec L h buf h.pos_nn (by rw [hbl]; exact hf) with
    ⟨a0, a⟩ | ⟨_, hb, a⟩ | ⟨a0, _, a1, a⟩ | ⟨a0, a1, a2, st', wl, a | ⟨j, be, a3, a⟩⟩
  · rw [hrd] at a0; simp at a0
  · rw [hb] at hbl; simp at hbl; omega
  · rw [a] at r1; cases r1
    refine ⟨hbl, .inr ⟨by omega, rfl, ?_, ?_, ?_⟩⟩
    · show (0 : Int) = _; omega
    · have hd : (file view x).drop x.position.toNat = [] := List.drop_eq_nil_of_le (by omega)
      rw [hd]; simp
    · rw [r5]; simp
  · rw [a] at r1; cases r1
    refine ⟨by rw [goCopy_length]; exact hbl, ?_⟩
    have havl : avail x buf.length x.position ≤ buf.length := by unfold avail; omega
    have havd : avail x buf.length x.position = min bpb (x.size.toNat - x.position.toNat) := by
      unfold avail; omega
    generalize hA : avail x buf.length x.position = n at *
    have hsl : (slice (file view x) x.position.toNat n).length = n := length_slice_of_le (by omega)
    have hgo : (goCopy buf (slice (file view x) x.position.toNat n)).take n =
        slice (file view x) x.position.toNat n := by
      unfold goCopy
      rw [List.take_append_of_le_length (by rw [List.length_take, hsl]; omega),
        List.take_take, Nat.min_eq_left havl, List.take_of_length_le (by omega)]
    by_cases hlt : n < buf.length
    · right
      rw [if_pos hlt] at r5
      refine ⟨by omega, by rw [if_pos hlt], by show (n : Int) = _; omega, ?_, by rw [r5]; simp⟩
      show (goCopy buf _).take ((n : Int).toNat) = _
      rw [Int.toNat_natCast, hgo]
      exact List.take_of_length_le (by omega)
    · left
      rw [if_neg hlt] at r5
      have hn : n = bpb := by omega
      refine ⟨by omega, by rw [if_neg hlt], by show (n : Int) = _; omega, ?_, by rw [r5]; simp; omega⟩
      show (goCopy buf _).take ((n : Int).toNat) = _
      rw [Int.toNat_natCast, hgo, hn]; rfl
  · exact absurd a3.2 (by
      rintro ⟨s, bf, hq⟩; rw [R.cache.fetch] at hq; simp at hq)

/-- The stream after a successful write. -/
structure Put (bpb : Nat) (view : T → Bytes) (y : Stm T) (o : Nat) (c : Bytes) (y' : Stm T) : Prop where
  inv : Inv bpb view y'
  flags : y'.flags = y.flags
  position : y'.position = o + c.length
  size : y'.size = newSize y o c.length
  total : y'.st.c.total = newTotal y o c.length
  contents : contents view y'.st = splice (contents view y.st ++
    List.replicate (newTotal y o c.length * bpb - y.st.c.total * bpb) 0) o c

/-- The stream after a write that was refused. -/
structure Unput (bpb : Nat) (view : T → Bytes) (y : Stm T) (o : Nat) (c : Bytes) (y' : Stm T) : Prop where
  inv : Inv bpb view y'
  flags : y'.flags = y.flags
  position : y'.position = o
  size : y'.size = newSize y o c.length
  total : y'.st.c.total = newTotal y o c.length
  contents : contents view y'.st = contents view y.st ++
    List.replicate (newTotal y o c.length * bpb - y.st.c.total * bpb) 0

theorem write_ok {b : Backend T} {bpb : Nat} {view : T → Bytes} (L : Lawful b bpb view) (R : AllReliable b)
    {y : Stm T} (h : Inv bpb view y) (hw : Flags.write y.flags = true) (c : Bytes) {o : Nat}
    (ho : writeOffset y = o) (hf : FitsWrite y c.length o) (hs : FitsSize y ((o : Int) + c.length)) :
    (o / bpb + (o + c.length) / bpb + 1 ≤ newTotal y o c.length →
      ∃ y', write b y c = .ret (y', (c.length : Int), none) ∧ Put bpb view y o c y') ∧
    (newTotal y o c.length < o / bpb + (o + c.length) / bpb + 1 →
      ∃ y', write b y c = .ret (y', 0, some (.cache .argumentOutOfRange)) ∧ Unput bpb view y o c y') := by
  have hb := h.bpb
  obtain ⟨y', n, e, w1, w2, w3, w4⟩ := write_effect L h c (by rw [ho]; exact hf)
  rw [ho] at w4
  simp only [Int.toNat_natCast] at w4
  have hs' : (o : Int) + c.length + y.st.c.bpb ≤ (maxInt : Nat) := hs
  rcases w4 with ⟨a, _⟩ | ⟨_, w5, ⟨rfl, z, rfl, w⟩ | ⟨rfl, w⟩⟩
  · rw [hw] at a; simp at a
  · rcases w.why with ⟨_, q, _⟩ | ⟨_, _, q, _⟩ | ⟨_, q⟩ | ⟨_, _, hz, q⟩
    · rw [hw] at q; simp at q
    · omega
    · exact absurd q (noFail R _)
    · subst hz
      have he : y'.size = newSize y o c.length ∧ y'.st.c.total = newTotal y o c.length := by
        rcases w.exact with q | q
        · exact absurd rfl q
        · exact q
      have q' : newTotal y o c.length < o / bpb + (o + c.length) / bpb + 1 := by
        have e1 : lastBlk y o c.length = (o + c.length) / bpb := by unfold lastBlk; rw [hb]
        rw [e1, hb] at q; exact q
      refine ⟨fun hr => absurd hr (by omega), fun _ => ⟨y', w1, w2, w3, by omega, he.1, he.2, ?_⟩⟩
      rw [w.contents, he.2, hb]
  · have hroom : o / bpb + (o + c.length) / bpb + 1 ≤ newTotal y o c.length := by
      have e1 : lastBlk y o c.length = (o + c.length) / bpb := by unfold lastBlk; rw [hb]
      have := w.room
      rw [e1, hb, w.total] at this; exact this
    refine ⟨fun _ => ⟨y', ?_, w2, w3, by omega, w.size, w.total, ?_⟩, fun hr => absurd hroom (by omega)⟩
    · rw [w1]
      cases e with
      | none => rfl
      | some z => exact absurd (w.err z rfl) (noFail R _)
    · rw [w.contents, w.total, hb]

/-- Writes one after the other, whatever they return. -/
def sent (b : Backend T) (y : Stm T) : List Bytes → Outcome (Stm T)
  | [] => .ret y
  | c :: cs => do
    let (y', _) ← write b y c
    sent b y' cs

/-- `q` pieces of `n` bytes, and what is left if it is not empty. -/
def pieces (n : Nat) : Nat → Bytes → List Bytes
  | 0, d => if d = [] then [] else [d]
  | q + 1, d => d.take n :: pieces n q (d.drop n)

theorem copyLoop_ok {b : Backend S} {bpb : Nat} {view : S → Bytes} (L : Lawful b bpb view) (R : AllReliable b)
    (bd : Backend T) (q : Nat) : ∀ (fuel : Nat) (buf : Bytes) (x : Stm S) (tot : Int),
    Inv bpb view x → Flags.read x.flags = true → buf.length = bpb → FitsRead x bpb → q < fuel →
    ((file view x).drop x.position.toNat).length / bpb = q → 0 ≤ tot →
    tot + ((file view x).drop x.position.toNat).length < 2 ^ 63 →
    ∃ x', Inv bpb view x' ∧ Still view x x' ∧ x'.position = x.position + (q * bpb : Nat) ∧
      ∀ y : Stm T, copyLoop b bd fuel buf x y tot =
        (sent bd y (pieces bpb q ((file view x).drop x.position.toNat))).bind fun y' =>
          .ret (x', y', tot + ((file view x).drop x.position.toNat).length, none) := by
  induction q with
  | zero =>
    intro fuel buf x tot h hrd hbl hf hfu hq ht0 ht
    obtain ⟨fuel, rfl⟩ : ∃ f, fuel = f + 1 := ⟨fuel - 1, by omega⟩
    have hbp : 0 < bpb := by rw [← h.bpb]; exact h.weak.bpb_pos
    obtain ⟨x', r, r1, r2, r3, r4, r5⟩ := read_ok L R h hrd buf hbl hf
    have hlt : ((file view x).drop x.position.toNat).length < bpb := by
      rcases Nat.div_eq_zero_iff.1 hq with h0 | h0 <;> omega
    rcases r5 with ⟨a, _⟩ | ⟨_, a2, a3, a4, a5⟩
    · omega
    refine ⟨x', r2, r3, by rw [a5]; simp, fun y => ?_⟩
    unfold copyLoop
    rw [r1]
    simp only [Outcome.bind_ret, a2, a4]
    rw [a3]
    generalize (file view x).drop x.position.toNat = d at *
    cases d with
    | nil => simp [pieces, sent, Outcome.bind]
    | cons c cs =>
      have hi : i64 (tot + ((c :: cs).length : Int)) = tot + (c :: cs).length := i64_nonneg (by omega) (by omega)
      rw [hi, if_pos (by simp)]
      simp only [pieces, sent, reduceCtorEq, if_false]
      rcases write bd y (c :: cs) with ⟨y', _⟩ | _ | _ <;> rfl
  | succ q ih =>
    intro fuel buf x tot h hrd hbl hf hfu hq ht0 ht
    obtain ⟨fuel, rfl⟩ : ∃ f, fuel = f + 1 := ⟨fuel - 1, by omega⟩
    have hbp : 0 < bpb := by rw [← h.bpb]; exact h.weak.bpb_pos
    obtain ⟨x1, r, r1, r2, r3, r4, r5⟩ := read_ok L R h hrd buf hbl hf
    have hle : bpb ≤ ((file view x).drop x.position.toNat).length := by
      have := Nat.div_pos_iff.1 (show 0 < ((file view x).drop x.position.toNat).length / bpb by omega)
      exact this.2
    rcases r5 with ⟨_, a2, a3, a4, a5⟩ | ⟨a, _⟩
    · have hfile : file view x1 = file view x := r3.file
      have hpn := h.pos_nn
      have hdrop : (file view x1).drop x1.position.toNat = ((file view x).drop x.position.toNat).drop bpb := by
        rw [hfile, a5, List.drop_drop]; congr 1; omega
      have hl1 : ((file view x1).drop x1.position.toNat).length = ((file view x).drop x.position.toNat).length - bpb := by
        rw [hdrop, List.length_drop]
      have hq1 : ((file view x1).drop x1.position.toNat).length / bpb = q := by
        rw [hl1]
        have e := Nat.sub_mul_div ((file view x).drop x.position.toNat).length bpb 1
        rw [Nat.mul_one] at e
        rw [e, hq]; rfl
      obtain ⟨x2, k1, k2, k3, k4⟩ := ih fuel r.buf x1 (tot + bpb) r2 (by rw [r3.flags]; exact hrd) r4
        (by show capacity x1 + bpb ≤ maxInt; rw [r3.capacity]; exact hf) (by omega) hq1 (by omega) (by omega)
      refine ⟨x2, k1, r3.trans k2, by rw [k3, a5, Nat.succ_mul]; omega, fun y => ?_⟩
      have hi : i64 (tot + (bpb : Int)) = tot + bpb := i64_nonneg (by omega) (by omega)
      unfold copyLoop
      rw [r1]
      simp only [Outcome.bind_ret, a2, a4]
      rw [a3, hi, if_pos (by omega)]
      simp only [pieces, sent]
      rw [hdrop] at k4
      rcases write bd y (((file view x).drop x.position.toNat).take bpb) with ⟨y', _⟩ | _ | _
      · simp only [Outcome.bind_ret, Outcome.bind]
        rw [k4 y']
        have : tot + (bpb : Int) + ((((file view x).drop x.position.toNat).drop bpb).length : Int) =
          tot + ((file view x).drop x.position.toNat).length := by
          rw [List.length_drop]; omega
        rw [this]; rfl
      · rfl
      · rfl
    · omega

/-- Reads and writes of ReadFrom: stop at the first Write that fails, except the last. -/
def received (b : Backend T) (last : Bytes) (y : Stm T) : List Bytes → Outcome (Stm T × Nat × Option SErr)
  | [] => (write b y last).bind fun w => .ret (w.1, last.length, none)
  | c :: cs => (write b y c).bind fun w =>
    match w.2.2 with
    | some e => .ret (w.1, c.length, some e)
    | none => (received b last w.1 cs).bind fun v => .ret (v.1, c.length + v.2.1, v.2.2)

/-- `q` pieces of `n` bytes. -/
def fulls (n : Nat) : Nat → Bytes → List Bytes
  | 0, _ => []
  | q + 1, d => d.take n :: fulls n q (d.drop n)

theorem copyFromLoop_ok {b : Backend S} {bpb : Nat} {view : S → Bytes} (L : Lawful b bpb view) (R : AllReliable b)
    {bd : Backend T} (q : Nat) : ∀ (fuel : Nat) (buf : Bytes) (x : Stm S) (y : Stm T) (tot : Int) (y' : Stm T) (n : Nat) (e : Option SErr),
    Inv bpb view x → Flags.read x.flags = true → buf.length = bpb → FitsRead x bpb → q < fuel →
    ((file view x).drop x.position.toNat).length / bpb = q → 0 ≤ tot →
    tot + ((file view x).drop x.position.toNat).length < 2 ^ 63 →
    received bd (((file view x).drop x.position.toNat).drop (q * bpb)) y
      (fulls bpb q ((file view x).drop x.position.toNat)) = .ret (y', n, e) →
    ∃ x', Inv bpb view x' ∧ Still view x x' ∧ copyFromLoop b bd fuel buf y x tot = .ret (y', x', tot + n, e) ∧
      x'.position = x.position + (n / bpb * bpb : Nat) := by
  induction q with
  | zero =>
    intro fuel buf x y tot y' n e h hrd hbl hf hfu hq ht0 ht hrec
    obtain ⟨fuel, rfl⟩ : ∃ f, fuel = f + 1 := ⟨fuel - 1, by omega⟩
    have hbp : 0 < bpb := by rw [← h.bpb]; exact h.weak.bpb_pos
    obtain ⟨x', r, r1, r2, r3, r4, r5⟩ := read_ok L R h hrd buf hbl hf
    have hlt : ((file view x).drop x.position.toNat).length < bpb := by
      rcases Nat.div_eq_zero_iff.1 hq with h0 | h0 <;> omega
    rcases r5 with ⟨a, _⟩ | ⟨_, a2, a3, a4, a5⟩
    · omega
    refine ⟨x', r2, r3, ?_⟩
    unfold copyFromLoop
    rw [r1]
    simp only [Outcome.bind_ret, a2, a4]
    rw [a3]
    simp only [fulls, received, Nat.zero_mul, List.drop_zero] at hrec
    generalize (file view x).drop x.position.toNat = d at *
    have hi : i64 (tot + (d.length : Int)) = tot + d.length := i64_nonneg (by omega) (by omega)
    rcases hw : write bd y d with ⟨y1, z⟩ | _ | _
    · rw [hw] at hrec
      simp only [Outcome.bind, Outcome.ret.injEq, Prod.mk.injEq] at hrec
      obtain ⟨rfl, rfl, rfl⟩ := hrec
      simp only [Outcome.bind_ret]
      refine ⟨by rw [hi]; rfl, ?_⟩
      rw [a5, Nat.div_eq_of_lt hlt]; simp
    · rw [hw] at hrec; simp [Outcome.bind] at hrec
    · rw [hw] at hrec; simp [Outcome.bind] at hrec
  | succ q ih =>
    intro fuel buf x y tot y' n e h hrd hbl hf hfu hq ht0 ht hrec
    obtain ⟨fuel, rfl⟩ : ∃ f, fuel = f + 1 := ⟨fuel - 1, by omega⟩
    have hbp : 0 < bpb := by rw [← h.bpb]; exact h.weak.bpb_pos
    obtain ⟨x1, r, r1, r2, r3, r4, r5⟩ := read_ok L R h hrd buf hbl hf
    have hle : bpb ≤ ((file view x).drop x.position.toNat).length := by
      have := Nat.div_pos_iff.1 (show 0 < ((file view x).drop x.position.toNat).length / bpb by omega)
      exact this.2
    rcases r5 with ⟨_, a2, a3, a4, a5⟩ | ⟨a, _⟩
    · have hfile : file view x1 = file view x := r3.file
      have hpn := h.pos_nn
      have hdrop : (file view x1).drop x1.position.toNat = ((file view x).drop x.position.toNat).drop bpb := by
        rw [hfile, a5, List.drop_drop]; congr 1; omega
      have hl1 : ((file view x1).drop x1.position.toNat).length = ((file view x).drop x.position.toNat).length - bpb := by
        rw [hdrop, List.length_drop]
      have hq1 : ((file view x1).drop x1.position.toNat).length / bpb = q := by
        rw [hl1]
        have e := Nat.sub_mul_div ((file view x).drop x.position.toNat).length bpb 1
        rw [Nat.mul_one] at e
        rw [e, hq]; rfl
      have hi : i64 (tot + (bpb : Int)) = tot + bpb := i64_nonneg (by omega) (by omega)
      have htl : (((file view x).drop x.position.toNat).take bpb).length = bpb := by rw [List.length_take]; omega
      simp only [fulls, received] at hrec
      unfold copyFromLoop
      rw [r1]
      simp only [Outcome.bind_ret, a2, a4]
      rw [a3, hi]
      rcases hw : write bd y (((file view x).drop x.position.toNat).take bpb) with ⟨y1, m, _ | z⟩ | _ | _
      · rw [hw] at hrec
        simp only [Outcome.bind] at hrec
        rw [show (q + 1) * bpb = bpb + q * bpb by rw [Nat.succ_mul]; omega, ← List.drop_drop, ← hdrop] at hrec
        rcases hv : received bd (((file view x1).drop x1.position.toNat).drop (q * bpb)) y1
          (fulls bpb q ((file view x1).drop x1.position.toNat)) with ⟨y2, n2, e2⟩ | _ | _
        · rw [hv] at hrec
          simp only [Outcome.ret.injEq, Prod.mk.injEq] at hrec
          obtain ⟨rfl, rfl, rfl⟩ := hrec
          obtain ⟨x2, k1, k2, k3, k4⟩ := ih fuel r.buf x1 y1 (tot + bpb) _ _ _ r2 (by rw [r3.flags]; exact hrd) r4
            (by show capacity x1 + bpb ≤ maxInt; rw [r3.capacity]; exact hf) (by omega) hq1 (by omega) (by omega) hv
          refine ⟨x2, k1, r3.trans k2, ?_, ?_⟩
          · simp only [Outcome.bind_ret]
            rw [k3, htl]
            congr 4; omega
          · rw [k4, a5, htl, Nat.add_div_left _ hbp, Nat.succ_mul]; omega
        · rw [hv] at hrec; simp at hrec
        · rw [hv] at hrec; simp at hrec
      · rw [hw] at hrec
        simp only [Outcome.bind, Outcome.ret.injEq, Prod.mk.injEq] at hrec
        obtain ⟨rfl, rfl, rfl⟩ := hrec
        refine ⟨x1, r2, r3, ?_, ?_⟩
        · simp only [Outcome.bind_ret]
          rw [htl]; rfl
        · rw [a5, htl, Nat.div_self hbp, Nat.one_mul]
      · rw [hw] at hrec; simp [Outcome.bind] at hrec
      · rw [hw] at hrec; simp [Outcome.bind] at hrec
    · omega

/-! ### A destination of whole blocks -/

/-- A stream on a file of `N` whole blocks with contents `D`, positioned at block `i`. -/
structure At (bpb : Nat) (view : T → Bytes) (N i : Nat) (D : Bytes) (y : Stm T) : Prop where
  inv : Inv bpb view y
  write : Flags.write y.flags = true
  append : Flags.append y.flags = false
  position : y.position = (i * bpb : Nat)
  total : y.st.c.total = N
  size : y.size = (N * bpb : Nat)
  contents : contents view y.st = D

theorem At.length {bpb : Nat} {view : T → Bytes} {N i : Nat} {D : Bytes} {y : Stm T} (a : At bpb view N i D y) :
    D.length = N * bpb := by rw [← a.contents, length_contents, a.total, a.inv.bpb]

theorem at_fits {bpb : Nat} {view : T → Bytes} {N i : Nat} {D : Bytes} {y : Stm T} (a : At bpb view N i D y)
    (hi : 2 * i ≤ N) (hcap : N * bpb + 2 * bpb ≤ maxInt) (n : Nat) (hn : n ≤ bpb) :
    writeOffset y = (i * bpb : Nat) ∧ FitsWrite y n (i * bpb : Nat) ∧ FitsSize y (((i * bpb : Nat) : Int) + n) := by
  have hib : i * bpb ≤ N * bpb := Nat.mul_le_mul_right _ (by omega)
  have hb := a.inv.bpb
  have hc : capacity y = N * bpb := by show y.st.c.total * y.st.c.bpb = _; rw [a.total, hb]
  have hsz : FitsSize y (((i * bpb : Nat) : Int) + n) := by
    show ((i * bpb : Nat) : Int) + n + (y.st.c.bpb : Nat) ≤ (maxInt : Nat)
    rw [hb]; omega
  refine ⟨by unfold writeOffset; rw [a.append, a.position]; simp, ⟨by omega, ?_, .inl hsz⟩, hsz⟩
  show capacity y + n + y.st.c.bpb ≤ maxInt
  rw [hc, hb]; omega

/-- Nothing grows. -/
theorem at_stays {bpb : Nat} {view : T → Bytes} {N i : Nat} {D : Bytes} {y : Stm T} (a : At bpb view N i D y)
    (hN : 0 < N) (hi : 2 * i ≤ N) (n : Nat) (hn : n ≤ bpb) (hroom : n < bpb ∨ (i + 1 < N ∨ N = i + 1)) :
    newTotal y (i * bpb) n = N ∧ newSize y (i * bpb) n = (N * bpb : Nat) := by
  have hb := a.inv.bpb
  have hbp : 0 < bpb := by rw [← hb]; exact a.inv.weak.bpb_pos
  unfold newTotal newSize lastBlk
  rw [a.total, hb]
  have hdiv : (i * bpb + n) / bpb = if n < bpb then i else i + 1 := by
    split
    · rename_i hlt
      rw [Nat.add_comm, Nat.add_mul_div_right _ _ hbp, Nat.div_eq_of_lt hlt, Nat.zero_add]
    · rw [show n = bpb by omega, ← Nat.succ_mul, Nat.mul_div_cancel _ hbp]
  rw [hdiv]
  split
  · rw [if_neg (by omega), if_neg (by omega)]; exact ⟨rfl, a.size⟩
  · by_cases hlt : i + 1 < N
    · rw [if_neg (by omega), if_neg (by omega)]; exact ⟨rfl, a.size⟩
    · have hNi : N = i + 1 := by omega
      have hnb : n = bpb := by omega
      rw [if_pos (by omega), if_pos (by omega), hnb, hNi]
      refine ⟨?_, ?_⟩
      · rw [← Nat.succ_mul, Nat.add_comm, Nat.add_mul_div_right _ _ hbp, Nat.div_eq_of_lt (by omega), Nat.zero_add]
      · rw [Nat.succ_mul]; rfl

theorem at_full {b : Backend T} {bpb : Nat} {view : T → Bytes} (L : Lawful b bpb view) (R : AllReliable b)
    {N i : Nat} {D : Bytes} {y : Stm T} (a : At bpb view N i D y) (hN : 0 < N) (hi : 2 * i ≤ N)
    (hcap : N * bpb + 2 * bpb ≤ maxInt) (c : Bytes) (hc : c.length = bpb) :
    (2 * (i + 1) ≤ N → ∃ y', write b y c = .ret (y', (c.length : Int), none) ∧
      At bpb view N (i + 1) (splice D (i * bpb) c) y') ∧
    (N < 2 * (i + 1) → ∃ y', write b y c = .ret (y', 0, some (.cache .argumentOutOfRange)) ∧ At bpb view N i D y') := by
  have hbp : 0 < bpb := by rw [← a.inv.bpb]; exact a.inv.weak.bpb_pos
  obtain ⟨f1, f2, f3⟩ := at_fits a hi hcap c.length (by omega)
  obtain ⟨g1, g2⟩ := at_stays a hN hi c.length (by omega) (.inr (by omega))
  obtain ⟨w1, w2⟩ := write_ok L R a.inv a.write c f1 f2 f3
  rw [g1] at w1 w2
  rw [Nat.mul_div_cancel _ hbp, hc, ← Nat.succ_mul, Nat.mul_div_cancel _ hbp] at w1 w2
  have ht := a.total
  constructor
  · intro hr
    obtain ⟨y', k1, k⟩ := w1 (by omega)
    refine ⟨y', by rw [hc]; exact k1, k.inv, by rw [k.flags]; exact a.write, by rw [k.flags]; exact a.append, ?_, k.total.trans g1,
      k.size.trans g2, ?_⟩
    · rw [k.position, hc, Nat.succ_mul]; omega
    · rw [k.contents, g1, ht, Nat.sub_self, a.contents]; simp
  · intro hr
    obtain ⟨y', k1, k⟩ := w2 (by omega)
    refine ⟨y', k1, k.inv, by rw [k.flags]; exact a.write, by rw [k.flags]; exact a.append, k.position, k.total.trans g1,
      k.size.trans g2, ?_⟩
    rw [k.contents, g1, ht, Nat.sub_self, a.contents]; simp

theorem at_last {b : Backend T} {bpb : Nat} {view : T → Bytes} (L : Lawful b bpb view) (R : AllReliable b)
    {N i : Nat} {D : Bytes} {y : Stm T} (a : At bpb view N i D y) (hN : 0 < N) (hi : 2 * i ≤ N)
    (hcap : N * bpb + 2 * bpb ≤ maxInt) (c : Bytes) (hc : c.length < bpb) :
    ∃ y' n e, write b y c = .ret (y', n, e) ∧ y'.size = (N * bpb : Nat) ∧ Inv bpb view y' ∧
      contents view y'.st = splice D (i * bpb) (if 2 * i < N then c else []) := by
  have hbp : 0 < bpb := by omega
  obtain ⟨f1, f2, f3⟩ := at_fits a hi hcap c.length (by omega)
  obtain ⟨g1, g2⟩ := at_stays a hN hi c.length (by omega) (.inl hc)
  obtain ⟨w1, w2⟩ := write_ok L R a.inv a.write c f1 f2 f3
  rw [g1] at w1 w2
  rw [Nat.mul_div_cancel _ hbp, Nat.add_comm (i * bpb), Nat.add_mul_div_right _ _ hbp, Nat.div_eq_of_lt hc, Nat.zero_add] at w1 w2
  have ht := a.total
  by_cases hr : 2 * i < N
  · obtain ⟨y', k1, k⟩ := w1 (by omega)
    refine ⟨y', _, _, k1, k.size.trans g2, k.inv, ?_⟩
    rw [k.contents, g1, ht, Nat.sub_self, a.contents, if_pos hr]; simp
  · obtain ⟨y', k1, k⟩ := w2 (by omega)
    refine ⟨y', _, _, k1, k.size.trans g2, k.inv, ?_⟩
    rw [k.contents, g1, ht, Nat.sub_self, a.contents, if_neg hr]; simp

theorem splice_splice {d v w : Bytes} {a : Nat} (h : a + v.length + w.length ≤ d.length) :
    splice (splice d a v) (a + v.length) w = splice d a (v ++ w) := by
  apply List.ext_getElem?
  intro k
  rw [getElem?_splice (by rw [length_splice (by omega)]; omega), getElem?_splice (by omega),
    getElem?_splice (by omega), List.length_append, List.getElem?_append]
  by_cases h1 : k < a
  · rw [if_pos (by omega), if_pos h1, if_pos h1]
  · by_cases h2 : k < a + v.length
    · rw [if_pos h2, if_neg h1, if_pos h2, if_neg h1, if_pos (by omega), if_pos (by omega)]
    · rw [if_neg h2, if_neg h1, if_neg h2, if_neg h1]
      by_cases h3 : k < a + v.length + w.length
      · rw [if_pos h3, if_pos (by omega), if_neg (by omega)]; congr 1; omega
      · rw [if_neg h3, if_neg (by omega)]

/-- What a destination of `N` whole blocks holds after WriteTo sent it `q` blocks and a rest. -/
theorem sent_at {b : Backend T} {bpb : Nat} {view : T → Bytes} (L : Lawful b bpb view) (R : AllReliable b)
    {N : Nat} (hN : 0 < N) (hcap : N * bpb + 2 * bpb ≤ maxInt) (q : Nat) :
    ∀ (i : Nat) (D d : Bytes) (y : Stm T), At bpb view N i D y → 2 * i ≤ N → d.length / bpb = q →
    ∃ y', sent b y (pieces bpb q d) = .ret y' ∧ y'.size = (N * bpb : Nat) ∧ Inv bpb view y' ∧
      contents view y'.st = splice (splice D (i * bpb) (d.take (min q (N / 2 - i) * bpb))) ((i + min q (N / 2 - i)) * bpb)
        (if 2 * (i + min q (N / 2 - i)) < N then d.drop (q * bpb) else []) := by
  induction q with
  | zero =>
    intro i D d y a hi hq
    have hbp : 0 < bpb := by rw [← a.inv.bpb]; exact a.inv.weak.bpb_pos
    have hlt : d.length < bpb := by
      rcases Nat.div_eq_zero_iff.1 hq with h0 | h0 <;> omega
    simp only [pieces, Nat.zero_min, Nat.zero_mul, List.take_zero, splice_nil, Nat.add_zero, List.drop_zero]
    by_cases hd : d = []
    · subst hd
      exact ⟨y, by simp [sent], a.size, a.inv, by simp [a.contents]⟩
    · rw [if_neg hd]
      obtain ⟨y', n, e, k1, k2, k3, k4⟩ := at_last L R a hN hi hcap d hlt
      exact ⟨y', by simp [sent, k1], k2, k3, k4⟩
  | succ q ih =>
    intro i D d y a hi hq
    have hbp : 0 < bpb := by rw [← a.inv.bpb]; exact a.inv.weak.bpb_pos
    have hle : bpb ≤ d.length := (Nat.div_pos_iff.1 (show 0 < d.length / bpb by omega)).2
    have htl : (d.take bpb).length = bpb := by rw [List.length_take]; omega
    have hq1 : (d.drop bpb).length / bpb = q := by
      have e := Nat.sub_mul_div d.length bpb 1
      rw [Nat.mul_one] at e
      rw [List.length_drop, e, hq]; rfl
    have hdd : (d.drop bpb).drop (q * bpb) = d.drop ((q + 1) * bpb) := by
      rw [List.drop_drop, Nat.succ_mul, Nat.add_comm]
    obtain ⟨w1, w2⟩ := at_full L R a hN hi hcap (d.take bpb) htl
    simp only [pieces, sent]
    by_cases hroom : 2 * (i + 1) ≤ N
    · obtain ⟨y1, k1, k2⟩ := w1 hroom
      obtain ⟨y', s1, s2, s3, s4⟩ := ih (i + 1) _ (d.drop bpb) y1 k2 hroom hq1
      refine ⟨y', by rw [k1]; exact s1, s2, s3, ?_⟩
      have hm : min (q + 1) (N / 2 - i) = min q (N / 2 - (i + 1)) + 1 := by omega
      rw [s4, hm, hdd]
      have hmq : min q (N / 2 - (i + 1)) ≤ q := Nat.min_le_left _ _
      have hmN : i + 1 + min q (N / 2 - (i + 1)) ≤ N := by omega
      generalize min q (N / 2 - (i + 1)) = m at *
      have hDl := a.length
      have hmN' := Nat.mul_le_mul_right bpb hmN
      rw [Nat.add_mul, Nat.succ_mul] at hmN'
      have e1 : splice (splice D (i * bpb) (d.take bpb)) ((i + 1) * bpb) ((d.drop bpb).take (m * bpb)) =
          splice D (i * bpb) (d.take ((m + 1) * bpb)) := by
        have := splice_splice (d := D) (a := i * bpb) (v := d.take bpb) (w := (d.drop bpb).take (m * bpb)) (by
          rw [htl, List.length_take, hDl]; omega)
        rw [htl] at this
        rw [show (i + 1) * bpb = i * bpb + bpb by rw [Nat.succ_mul], this]
        congr 1
        rw [Nat.succ_mul, Nat.add_comm (m * bpb), List.take_add]
      rw [e1, show i + 1 + m = i + (m + 1) by omega]
    · obtain ⟨y1, k1, k2⟩ := w2 (by omega)
      obtain ⟨y', s1, s2, s3, s4⟩ := ih i _ (d.drop bpb) y1 k2 hi hq1
      refine ⟨y', by rw [k1]; exact s1, s2, s3, ?_⟩
      have hm : min (q + 1) (N / 2 - i) = 0 := by omega
      have hm' : min q (N / 2 - i) = 0 := by omega
      rw [s4, hm, hm', hdd]
      simp

/-- The same for ReadFrom. -/
theorem received_at {b : Backend T} {bpb : Nat} {view : T → Bytes} (L : Lawful b bpb view) (R : AllReliable b)
    {N : Nat} (hN : 0 < N) (hcap : N * bpb + 2 * bpb ≤ maxInt) (q : Nat) :
    ∀ (i : Nat) (D d : Bytes) (y : Stm T), At bpb view N i D y → 2 * i ≤ N → d.length / bpb = q →
    ∃ y' n e, received b (d.drop (q * bpb)) y (fulls bpb q d) = .ret (y', n, e) ∧ y'.size = (N * bpb : Nat) ∧
      Inv bpb view y' ∧
      ((2 * (i + q) ≤ N ∧ n = d.length ∧ e = none ∧
          contents view y'.st = splice D (i * bpb) (if 2 * (i + q) < N then d else d.take (q * bpb))) ∨
       (N < 2 * (i + q) ∧ n = (N / 2 - i + 1) * bpb ∧ e = some (.cache .argumentOutOfRange) ∧
          contents view y'.st = splice D (i * bpb) (d.take ((N / 2 - i) * bpb)))) := by
  induction q with
  | zero =>
    intro i D d y a hi hq
    have hbp : 0 < bpb := by rw [← a.inv.bpb]; exact a.inv.weak.bpb_pos
    have hlt : d.length < bpb := by
      rcases Nat.div_eq_zero_iff.1 hq with h0 | h0 <;> omega
    obtain ⟨y', n, e, k1, k2, k3, k4⟩ := at_last L R a hN hi hcap d hlt
    refine ⟨y', d.length, none, by simp [fulls, received, k1, Outcome.bind], k2, k3, .inl ⟨by omega, rfl, rfl, ?_⟩⟩
    rw [k4]; simp
  | succ q ih =>
    intro i D d y a hi hq
    have hbp : 0 < bpb := by rw [← a.inv.bpb]; exact a.inv.weak.bpb_pos
    have hle : bpb ≤ d.length := (Nat.div_pos_iff.1 (show 0 < d.length / bpb by omega)).2
    have htl : (d.take bpb).length = bpb := by rw [List.length_take]; omega
    have hq1 : (d.drop bpb).length / bpb = q := by
      have e := Nat.sub_mul_div d.length bpb 1
      rw [Nat.mul_one] at e
      rw [List.length_drop, e, hq]; rfl
    have hdd : (d.drop bpb).drop (q * bpb) = d.drop ((q + 1) * bpb) := by
      rw [List.drop_drop, Nat.succ_mul, Nat.add_comm]
    obtain ⟨w1, w2⟩ := at_full L R a hN hi hcap (d.take bpb) htl
    simp only [fulls, received]
    by_cases hroom : 2 * (i + 1) ≤ N
    · obtain ⟨y1, k1, k2⟩ := w1 hroom
      obtain ⟨y', n, e, s1, s2, s3, s4⟩ := ih (i + 1) _ (d.drop bpb) y1 k2 hroom hq1
      have hDl := a.length
      have join : ∀ v, (i + 1) * bpb + v.length ≤ N * bpb → splice (splice D (i * bpb) (d.take bpb)) ((i + 1) * bpb) v =
          splice D (i * bpb) (d.take bpb ++ v) := by
        intro v hv
        rw [Nat.succ_mul] at hv
        have := splice_splice (d := D) (a := i * bpb) (v := d.take bpb) (w := v) (by rw [htl, hDl]; omega)
        rw [htl] at this
        rw [show (i + 1) * bpb = i * bpb + bpb by rw [Nat.succ_mul], this]
      have hmod := Nat.div_add_mod (d.drop bpb).length bpb
      rw [hq1, List.length_drop, Nat.mul_comm] at hmod
      have hml := Nat.mod_lt (d.length - bpb) hbp
      refine ⟨y', bpb + n, e, by rw [k1, ← hdd]; simp only [Outcome.bind]; rw [s1, htl], s2, s3, ?_⟩
      rcases s4 with ⟨p1, p2, p3, p4⟩ | ⟨p1, p2, p3, p4⟩
      · left
        refine ⟨by omega, by rw [p2, List.length_drop]; omega, p3, ?_⟩
        rw [p4, show i + 1 + q = i + (q + 1) by omega]
        split
        · rename_i hlt
          rw [join, List.take_append_drop]
          have h3 := Nat.mul_le_mul_right bpb (show i + 1 + q + 1 ≤ N by omega)
          rw [Nat.succ_mul, Nat.add_mul, Nat.succ_mul] at h3
          rw [List.length_drop, Nat.succ_mul]; omega
        · rw [join, Nat.succ_mul, Nat.add_comm (q * bpb), List.take_add]
          have h3 := Nat.mul_le_mul_right bpb (show i + 1 + q ≤ N by omega)
          rw [Nat.add_mul] at h3
          rw [List.length_take]; omega
      · right
        refine ⟨by omega, ?_, p3, ?_⟩
        · rw [p2, show N / 2 - i + 1 = N / 2 - (i + 1) + 1 + 1 by omega, Nat.succ_mul (N / 2 - (i + 1) + 1)]; omega
        · rw [p4, join, show N / 2 - i = N / 2 - (i + 1) + 1 by omega, Nat.succ_mul, Nat.add_comm _ bpb, List.take_add]
          have h3 := Nat.mul_le_mul_right bpb (show i + 1 + (N / 2 - (i + 1)) ≤ N by omega)
          rw [Nat.add_mul] at h3
          rw [List.length_take]; omega
    · obtain ⟨y1, k1, k2⟩ := w2 (by omega)
      refine ⟨y1, bpb, _, by rw [k1]; simp only [Outcome.bind]; rw [htl], k2.size, k2.inv, .inr ⟨by omega, ?_, rfl, ?_⟩⟩
      · rw [show N / 2 - i = 0 by omega]; omega
      · rw [k2.contents, show N / 2 - i = 0 by omega]; simp

/-! ### An empty destination -/

theorem newTotal_grow {bpb : Nat} {view : T → Bytes} {y : Stm T} (h : Inv bpb view y) {o n : Nat}
    (hg : y.st.c.total ≤ (o + n) / bpb) :
    newTotal y o n = (o + n + (bpb - 1)) / bpb ∧ newSize y o n = (o + n : Nat) := by
  unfold newTotal newSize lastBlk
  rw [h.bpb, if_pos hg, if_pos hg]
  exact ⟨rfl, by omega⟩

theorem fits_small {bpb : Nat} {view : T → Bytes} {y : Stm T} (h : Inv bpb view y) {o n : Nat}
    (hcap : y.st.c.total * bpb + o + n + bpb ≤ maxInt) :
    FitsWrite y n (o : Int) ∧ FitsSize y ((o : Int) + n) := by
  have hb := h.bpb
  have hsz : FitsSize y ((o : Int) + n) := by
    show (o : Int) + n + (y.st.c.bpb : Nat) ≤ (maxInt : Nat)
    rw [hb]; omega
  refine ⟨⟨by omega, ?_, .inl hsz⟩, hsz⟩
  show y.st.c.total * y.st.c.bpb + n + y.st.c.bpb ≤ maxInt
  rw [hb]; omega

theorem contents_nil {view : T → Bytes} {st : St T} (h : st.c.total = 0) : contents view st = [] := by
  apply List.eq_nil_of_length_eq_zero
  rw [length_contents, h, Nat.zero_mul]

/-- Chunks shorter than a block go to an empty file. -/
theorem short_ok {b : Backend T} {bpb : Nat} {view : T → Bytes} (L : Lawful b bpb view) (R : AllReliable b)
    {y : Stm T} (h : Inv bpb view y) (hw : Flags.write y.flags = true)
    (hp : writeOffset y = 0) (ht : y.st.c.total = 0) (hcap : 3 * bpb ≤ maxInt) (c : Bytes) (hc : c.length < bpb)
    (hne : c ≠ []) :
    ∃ y', write b y c = .ret (y', (c.length : Int), none) ∧ Inv bpb view y' ∧ y'.size = c.length ∧ file view y' = c := by
  have hbp : 0 < bpb := by omega
  have hcl : 0 < c.length := List.length_pos_iff.2 hne
  obtain ⟨f1, f2⟩ := fits_small h (o := 0) (n := c.length) (by rw [ht]; omega)
  obtain ⟨g1, g2⟩ := newTotal_grow h (o := 0) (n := c.length) (by rw [ht]; exact Nat.zero_le _)
  have hone : (0 + c.length + (bpb - 1)) / bpb = 1 := by
    rw [show 0 + c.length + (bpb - 1) = (c.length - 1) + 1 * bpb by omega, Nat.add_mul_div_right _ _ hbp, Nat.div_eq_of_lt (by omega)]
  obtain ⟨y', k1, k⟩ := (write_ok L R h hw c (o := 0) hp f1 f2).1 (by
    rw [g1, hone, Nat.zero_div, Nat.zero_add, Nat.zero_add, Nat.div_eq_of_lt hc]; omega)
  have hs : y'.size = c.length := by rw [k.size, g2, Nat.zero_add]
  refine ⟨y', k1, k.inv, hs, ?_⟩
  unfold file
  rw [k.contents, g1, hone, contents_nil ht, hs]
  simp [splice]

/-- A full block makes an empty file one block of zeros, and is refused. -/
theorem fresh_full {b : Backend T} {bpb : Nat} {view : T → Bytes} (L : Lawful b bpb view) (R : AllReliable b)
    {y : Stm T} (h : Inv bpb view y) (hw : Flags.write y.flags = true) (ha : Flags.append y.flags = false)
    (hp : y.position = 0) (ht : y.st.c.total = 0) (hcap : 3 * bpb ≤ maxInt) (c : Bytes) (hc : c.length = bpb) :
    ∃ y', write b y c = .ret (y', 0, some (.cache .argumentOutOfRange)) ∧ At bpb view 1 0 (List.replicate bpb 0) y' := by
  have hbp : 0 < bpb := by rw [← h.bpb]; exact h.weak.bpb_pos
  obtain ⟨f1, f2⟩ := fits_small h (o := 0) (n := c.length) (by rw [ht]; omega)
  obtain ⟨g1, g2⟩ := newTotal_grow h (o := 0) (n := c.length) (by rw [ht]; exact Nat.zero_le _)
  have hone : (0 + c.length + (bpb - 1)) / bpb = 1 := by
    rw [show 0 + c.length + (bpb - 1) = (bpb - 1) + 1 * bpb by omega, Nat.add_mul_div_right _ _ hbp, Nat.div_eq_of_lt (by omega)]
  obtain ⟨y', k1, k⟩ := (write_ok L R h hw c (o := 0) (by unfold writeOffset; rw [ha, hp]; simp) f1 f2).2 (by
    rw [g1, hone, Nat.zero_div, Nat.zero_add, Nat.zero_add, hc, Nat.div_self hbp]; omega)
  refine ⟨y', k1, k.inv, by rw [k.flags]; exact hw, by rw [k.flags]; exact ha, by rw [k.position]; simp,
    by rw [k.total, g1, hone], by rw [k.size, g2, hc]; simp, ?_⟩
  rw [k.contents, g1, hone, contents_nil ht, ht]
  simp

/-- A stream opened with O_APPEND on a file of `j` blocks of zeros. -/
structure Zeros (bpb : Nat) (view : T → Bytes) (j : Nat) (y : Stm T) : Prop where
  inv : Inv bpb view y
  write : Flags.write y.flags = true
  append : Flags.append y.flags = true
  total : y.st.c.total = j
  size : y.size = (j * bpb : Nat)
  contents : contents view y.st = List.replicate (j * bpb) 0

theorem zeros_full {b : Backend T} {bpb : Nat} {view : T → Bytes} (L : Lawful b bpb view) (R : AllReliable b)
    {j : Nat} {y : Stm T} (z : Zeros bpb view j y) (hcap : 2 * (j * bpb) + 2 * bpb ≤ maxInt) (c : Bytes) (hc : c.length = bpb) :
    ∃ y', Stream.write b y c = .ret (y', 0, some (.cache .argumentOutOfRange)) ∧ Zeros bpb view (j + 1) y' := by
  have h := z.inv
  have hbp : 0 < bpb := by rw [← h.bpb]; exact h.weak.bpb_pos
  obtain ⟨f1, f2⟩ := fits_small h (o := j * bpb) (n := c.length) (by rw [z.total]; omega)
  obtain ⟨g1, g2⟩ := newTotal_grow h (o := j * bpb) (n := c.length) (by
    rw [z.total, hc, ← Nat.succ_mul, Nat.mul_div_cancel _ hbp]; exact Nat.le_succ _)
  have hone : (j * bpb + c.length + (bpb - 1)) / bpb = j + 1 := by
    rw [hc, ← Nat.succ_mul, Nat.add_comm, Nat.add_mul_div_right _ _ hbp, Nat.div_eq_of_lt (by omega), Nat.zero_add]
  obtain ⟨y', k1, k⟩ := (write_ok L R h z.write c (o := j * bpb) (by unfold writeOffset; rw [z.append, z.size]; simp) f1 f2).2 (by
    rw [g1, hone, Nat.mul_div_cancel _ hbp, hc, ← Nat.succ_mul, Nat.mul_div_cancel _ hbp]; omega)
  refine ⟨y', k1, k.inv, by rw [k.flags]; exact z.write, by rw [k.flags]; exact z.append, by rw [k.total, g1, hone],
    by rw [k.size, g2, hc, Nat.succ_mul], ?_⟩
  rw [k.contents, g1, hone, z.contents, z.total, List.replicate_append_replicate]
  congr 1
  rw [Nat.succ_mul]; omega

theorem zeros_last {b : Backend T} {bpb : Nat} {view : T → Bytes} (L : Lawful b bpb view) (R : AllReliable b)
    {j : Nat} {y : Stm T} (z : Zeros bpb view j y) (hj : 0 < j) (hcap : 2 * (j * bpb) + 2 * bpb ≤ maxInt) (c : Bytes) (hc : c.length < bpb)
    (hne : c ≠ []) :
    ∃ y', Stream.write b y c = .ret (y', 0, some (.cache .argumentOutOfRange)) ∧ Inv bpb view y' ∧ y'.size = (j * bpb + c.length : Nat) ∧
      file view y' = List.replicate (j * bpb + c.length) 0 := by
  have h := z.inv
  have hbp : 0 < bpb := by omega
  have hcl : 0 < c.length := List.length_pos_iff.2 hne
  obtain ⟨f1, f2⟩ := fits_small h (o := j * bpb) (n := c.length) (by rw [z.total]; omega)
  have hdiv : (j * bpb + c.length) / bpb = j := by
    rw [Nat.add_comm, Nat.add_mul_div_right _ _ hbp, Nat.div_eq_of_lt hc, Nat.zero_add]
  obtain ⟨g1, g2⟩ := newTotal_grow h (o := j * bpb) (n := c.length) (by rw [z.total, hdiv]; exact Nat.le_refl _)
  have hone : (j * bpb + c.length + (bpb - 1)) / bpb = j + 1 := by
    rw [show j * bpb + c.length + (bpb - 1) = (c.length - 1) + (j + 1) * bpb by rw [Nat.succ_mul]; omega, Nat.add_mul_div_right _ _ hbp,
      Nat.div_eq_of_lt (by omega), Nat.zero_add]
  obtain ⟨y', k1, k⟩ := (write_ok L R h z.write c (o := j * bpb) (by unfold writeOffset; rw [z.append, z.size]; simp) f1 f2).2 (by
    rw [g1, hone, Nat.mul_div_cancel _ hbp, hdiv]; omega)
  have hs : y'.size = (j * bpb + c.length : Nat) := by rw [k.size, g2]
  refine ⟨y', k1, k.inv, hs, ?_⟩
  unfold file
  rw [k.contents, g1, hone, z.contents, z.total, List.replicate_append_replicate, hs, List.take_replicate, Int.toNat_natCast]
  congr 1
  rw [Nat.succ_mul]; omega

theorem zeros_file {bpb : Nat} {view : T → Bytes} {j : Nat} {y : Stm T} (z : Zeros bpb view j y) :
    file view y = List.replicate (j * bpb) 0 := by
  unfold file
  rw [z.contents, z.size, Int.toNat_natCast, List.take_replicate, Nat.min_self]

/-- What an O_APPEND destination holds after WriteTo sent it `q` blocks and a rest. -/
theorem sent_zeros {b : Backend T} {bpb : Nat} {view : T → Bytes} (L : Lawful b bpb view) (R : AllReliable b) (q : Nat) :
    ∀ (j : Nat) (d : Bytes) (y : Stm T), Zeros bpb view j y → 0 < j + q → d.length / bpb = q →
      2 * (j * bpb + d.length) + 2 * bpb ≤ maxInt →
    ∃ y', sent b y (pieces bpb q d) = .ret y' ∧ y'.size = (j * bpb + d.length : Nat) ∧ Inv bpb view y' ∧
      file view y' = List.replicate (j * bpb + d.length) 0 := by
  induction q with
  | zero =>
    intro j d y z hj hq hcap
    have hbp : 0 < bpb := by rw [← z.inv.bpb]; exact z.inv.weak.bpb_pos
    have hlt : d.length < bpb := by
      rcases Nat.div_eq_zero_iff.1 hq with h0 | h0 <;> omega
    simp only [pieces]
    by_cases hd : d = []
    · subst hd
      exact ⟨y, by simp [sent], by rw [z.size]; simp, z.inv, by rw [zeros_file z]; simp⟩
    · rw [if_neg hd]
      obtain ⟨y', k1, k2, k3, k4⟩ := zeros_last L R z (by omega) (by omega) d hlt hd
      exact ⟨y', by simp [sent, k1], k3, k2, k4⟩
  | succ q ih =>
    intro j d y z hj hq hcap
    have hbp : 0 < bpb := by rw [← z.inv.bpb]; exact z.inv.weak.bpb_pos
    have hle : bpb ≤ d.length := (Nat.div_pos_iff.1 (show 0 < d.length / bpb by omega)).2
    have htl : (d.take bpb).length = bpb := by rw [List.length_take]; omega
    have hq1 : (d.drop bpb).length / bpb = q := by
      have e := Nat.sub_mul_div d.length bpb 1
      rw [Nat.mul_one] at e
      rw [List.length_drop, e, hq]; rfl
    have hlen : (j + 1) * bpb + (d.drop bpb).length = j * bpb + d.length := by
      rw [List.length_drop, Nat.succ_mul]; omega
    obtain ⟨y1, k1, k2⟩ := zeros_full L R z (by omega) (d.take bpb) htl
    obtain ⟨y', s1, s2, s3, s4⟩ := ih (j + 1) (d.drop bpb) y1 k2 (by omega) hq1 (by rw [hlen]; exact hcap)
    rw [hlen] at s2 s4
    exact ⟨y', by simp only [pieces, sent]; rw [k1]; exact s1, s2, s3, s4⟩

/-! ### A destination with room -/

/-- `d` has been written at `p` in `y0`, which has twice the blocks needed for that. -/
structure Near (bpb : Nat) (view : T → Bytes) (y0 : Stm T) (p : Nat) (d : Bytes) (y : Stm T) : Prop where
  base : Inv bpb view y0
  inv : Inv bpb view y
  flags : y.flags = y0.flags
  position : y.position = (p + d.length : Nat)
  total : y.st.c.total = y0.st.c.total
  size : y.size = y0.size
  contents : contents view y.st = splice (contents view y0.st) p d

theorem near_step {b : Backend T} {bpb : Nat} {view : T → Bytes} (L : Lawful b bpb view) (R : AllReliable b)
    {y0 y : Stm T} {p : Nat} {d : Bytes} (hw : Flags.write y0.flags = true) (ha : Flags.append y0.flags = false)
    (n : Near bpb view y0 p d y) (c : Bytes) (hroom : 2 * ((p + d.length + c.length) / bpb) + 1 ≤ y0.st.c.total)
    (hcap : y0.st.c.total * bpb + (p + d.length + c.length) + bpb ≤ maxInt) :
    ∃ y', write b y c = .ret (y', (c.length : Int), none) ∧ Near bpb view y0 p (d ++ c) y' := by
  have h := n.inv
  have hbp : 0 < bpb := by rw [← h.bpb]; exact h.weak.bpb_pos
  obtain ⟨f1, f2⟩ := fits_small h (o := p + d.length) (n := c.length) (by rw [n.total]; omega)
  have hst : (p + d.length) / bpb ≤ (p + d.length + c.length) / bpb := Nat.div_le_div_right (by omega)
  have hg : newTotal y (p + d.length) c.length = y0.st.c.total ∧ newSize y (p + d.length) c.length = y0.size := by
    unfold newTotal newSize lastBlk
    rw [h.bpb, n.total, if_neg (by omega), if_neg (by omega)]
    exact ⟨rfl, n.size⟩
  obtain ⟨y', k1, k⟩ := (write_ok L R h (by rw [n.flags]; exact hw) c (o := p + d.length)
    (by unfold writeOffset; rw [n.flags, ha, n.position]; simp) f1 f2).1 (by rw [hg.1]; omega)
  refine ⟨y', k1, n.base, k.inv, k.flags.trans n.flags, by rw [k.position, List.length_append]; omega, k.total.trans hg.1, k.size.trans hg.2, ?_⟩
  rw [k.contents, hg.1, n.total, Nat.sub_self, n.contents]
  have hin : p + d.length + c.length ≤ (contents view y0.st).length := by
    have e0 : (contents view y0.st).length = y0.st.c.total * bpb := by rw [length_contents, n.base.bpb]
    rw [e0]
    exact lastBlk_room hbp (by omega)
  simp only [List.replicate_zero, List.append_nil]
  exact splice_splice hin

theorem sent_near {b : Backend T} {bpb : Nat} {view : T → Bytes} (L : Lawful b bpb view) (R : AllReliable b)
    {y0 : Stm T} {p : Nat} (hw : Flags.write y0.flags = true) (ha : Flags.append y0.flags = false) (cs : List Bytes) :
    ∀ (d : Bytes) (y : Stm T), Near bpb view y0 p d y →
    2 * ((p + d.length + cs.flatten.length) / bpb) + 1 ≤ y0.st.c.total →
    y0.st.c.total * bpb + (p + d.length + cs.flatten.length) + bpb ≤ maxInt →
    ∃ y', sent b y cs = .ret y' ∧ Near bpb view y0 p (d ++ cs.flatten) y' := by
  induction cs with
  | nil => intro d y n _ _; exact ⟨y, rfl, by simpa using n⟩
  | cons c cs ih =>
    intro d y n hroom hcap
    rw [List.flatten_cons, List.length_append] at hroom hcap
    have hst : (p + d.length + c.length) / bpb ≤ (p + d.length + (c.length + cs.flatten.length)) / bpb :=
      Nat.div_le_div_right (by omega)
    obtain ⟨y1, k1, k2⟩ := near_step L R hw ha n c (by omega) (by omega)
    obtain ⟨y', s1, s2⟩ := ih (d ++ c) y1 k2 (by rw [List.length_append, ← Nat.add_assoc, Nat.add_assoc _ c.length]; exact hroom)
      (by rw [List.length_append]; omega)
    refine ⟨y', by simp only [sent]; rw [k1]; exact s1, ?_⟩
    rw [List.flatten_cons, ← List.append_assoc]; exact s2

theorem received_near {b : Backend T} {bpb : Nat} {view : T → Bytes} (L : Lawful b bpb view) (R : AllReliable b)
    {y0 : Stm T} {p : Nat} (hw : Flags.write y0.flags = true) (ha : Flags.append y0.flags = false) (last : Bytes) (cs : List Bytes) :
    ∀ (d : Bytes) (y : Stm T), Near bpb view y0 p d y →
    2 * ((p + d.length + (cs.flatten.length + last.length)) / bpb) + 1 ≤ y0.st.c.total →
    y0.st.c.total * bpb + (p + d.length + (cs.flatten.length + last.length)) + bpb ≤ maxInt →
    ∃ y', received b last y cs = .ret (y', cs.flatten.length + last.length, none) ∧ Near bpb view y0 p (d ++ (cs.flatten ++ last)) y' := by
  induction cs with
  | nil =>
    intro d y n hroom hcap
    simp only [List.flatten_nil, List.length_nil, Nat.zero_add] at hroom hcap
    obtain ⟨y1, k1, k2⟩ := near_step L R hw ha n last hroom hcap
    exact ⟨y1, by simp [received, k1, Outcome.bind], by simpa using k2⟩
  | cons c cs ih =>
    intro d y n hroom hcap
    rw [List.flatten_cons, List.length_append] at hroom hcap
    have hst : (p + d.length + c.length) / bpb ≤ (p + d.length + (c.length + cs.flatten.length + last.length)) / bpb :=
      Nat.div_le_div_right (by omega)
    obtain ⟨y1, k1, k2⟩ := near_step L R hw ha n c (by omega) (by omega)
    obtain ⟨y', s1, s2⟩ := ih (d ++ c) y1 k2 (by
        rw [List.length_append, show p + (d.length + c.length) + (cs.flatten.length + last.length) =
          p + d.length + (c.length + cs.flatten.length + last.length) by omega]
        exact hroom)
      (by rw [List.length_append]; omega)
    refine ⟨y', ?_, ?_⟩
    · simp only [received]
      rw [k1]
      simp only [Outcome.bind]
      rw [s1]
      simp only [List.flatten_cons, List.length_append, Nat.add_assoc]
    · rw [List.flatten_cons, List.append_assoc, ← List.append_assoc d]; exact s2

theorem pieces_flatten (n q : Nat) (d : Bytes) : (pieces n q d).flatten = d := by
  induction q generalizing d with
  | zero => simp only [pieces]; split <;> simp [*]
  | succ q ih => simp only [pieces, List.flatten_cons]; rw [ih, List.take_append_drop]

theorem fulls_flatten (n q : Nat) (d : Bytes) : (fulls n q d).flatten ++ d.drop (q * n) = d := by
  induction q generalizing d with
  | zero => simp [fulls]
  | succ q ih =>
    simp only [fulls, List.flatten_cons]
    rw [Nat.succ_mul, Nat.add_comm, ← List.drop_drop, List.append_assoc, ih, List.take_append_drop]

end Disko.Stream.Copying

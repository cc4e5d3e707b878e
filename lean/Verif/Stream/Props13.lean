import Verif.Stream.Props3
import Verif.Stream.Clients
/-
C152: the reading functions of the standard library on a stream.
-/
namespace Disko.Stream.Clients
open Disko Disko.BlockCache Disko.BlockCache.Spec Disko.Stream Disko.Stream.Spec

variable {S : Type}

/-- The bytes from the position to the end of the file. -/
abbrev rest (view : S → Bytes) (x : Stm S) : Bytes := (file view x).drop x.tell.toNat

/-- The three things a Read can do. -/
theorem read_cases {b : Backend S} {bpb total : Nat} {view : S → Bytes} {s0 : S}
    (H : StreamSetup b bpb total view s0) {x : Stm S} (hr : Reachable b bpb total s0 x)
    (hread : Flags.read x.flags = true) (buf : Bytes) (hf : FitsRead x buf.length) :
    ∃ x' r, read b x buf = .ret (x', r) ∧ Reachable b bpb total s0 x' ∧ Flags.read x'.flags = true ∧ file view x' = file view x ∧
      capacity x' = capacity x ∧
      ((r.err = none ∧ r.n = buf.length ∧ r.buf = (rest view x).take buf.length ∧ buf.length ≤ (rest view x).length ∧
          x'.tell = x.tell + buf.length) ∨
       (r.err = some .eof ∧ r.n = (rest view x).length ∧ r.buf = rest view x ++ buf.drop (rest view x).length ∧
          (rest view x).length < buf.length ∧ x'.tell = x.tell) ∨
       (∃ y, r.err = some y ∧ y ≠ .eof ∧ CallbackFailed b y ∧ r.n = 0 ∧ r.buf = buf ∧ x'.tell = x.tell ∧ rest view x ≠ [])) := by
  have h := reachable_inv H hr
  obtain ⟨x1, x', r, r1, r2, r3, r4, r5⟩ := read_effect H.cache.lawful h buf hf
  have hre : Reachable b bpb total s0 x' := .call hr (c := .read buf) hf (by simp [stepCall, r2])
  have hp := h.pos_nn
  have hlf := length_file h
  obtain ⟨_, x2, q, q1, q2, q3, q4, q5⟩ := C23_readAt H hr hread buf x.tell.toNat hf
  have hpe : ((x.tell.toNat : Nat) : Int) = x.position := by unfold Stm.tell; omega
  rw [hpe, r1] at q1
  cases q1
  have hfl : x'.flags = x.flags := by
    rw [r5]
    have := readAt_spec H.cache.lawful h buf h.pos_nn hf
    rcases this with ⟨_, a⟩ | ⟨_, hb, a⟩ | ⟨_, _, _, a⟩ | ⟨_, _, a1, st', w, a | ⟨j, be, a2, a⟩⟩ <;>
      (rw [a] at r1; cases r1; rfl)
  refine ⟨x', r, r2, hre, by rw [hfl]; exact hread, r4.file, r4.capacity, ?_⟩
  have hlr : (rest view x).length = (file view x).length - x.tell.toNat := by simp
  rcases q5 with ⟨n, n1, n2, n3, n4, n5⟩ | ⟨j, be, e1, e2⟩
  · by_cases hn : buf.length ≤ (rest view x).length
    · left
      have hnl : n = buf.length := by omega
      have he : r.err = none := by
        rcases n4 with a | a
        · exact a
        · exact absurd (n5.1 a).2 (by omega)
      refine ⟨he, by rw [n1, hnl], ?_, hn, ?_⟩
      · rw [n3, hnl]; simp [slice]
      · rw [r5]; simp only [he, if_true, Stm.tell]; rw [n1, hnl]
    · right; left
      have hnl : n = (rest view x).length := by omega
      have he : r.err = some .eof := n5.2 ⟨by intro hb; rw [hb] at hn; simp at hn, by omega⟩
      refine ⟨he, by rw [n1, hnl], ?_, by omega, ?_⟩
      · rw [n3, hnl]
        congr 1
        simp only [slice]
        rw [List.take_of_length_le (by simp)]
      · rw [r5]; simp [he, Stm.tell]
  · right; right
    obtain ⟨e2a, e2b⟩ := e2
    refine ⟨.cache (.fetchFailed j be), by rw [e1], by simp, ?_, by rw [e1], by rw [e1], ?_, ?_⟩
    · exact e2b
    · rw [r5, e1]; simp [Stm.tell]
    · intro hrs
      have hlen0 : (rest view x).length = 0 := by rw [hrs]; rfl
      rcases readAt_spec H.cache.lawful h buf h.pos_nn hf with
        ⟨_, a⟩ | ⟨_, hb, a⟩ | ⟨_, _, _, a⟩ | ⟨_, _, a1, st', w, a | ⟨j, be, a2, a⟩⟩
      · rw [a] at r1; cases r1; simp at e1
      · rw [a] at r1; cases r1; simp at e1
      · rw [a] at r1; cases r1; simp at e1
      · rw [hlr] at hlen0; unfold Stm.tell at hlen0; omega
      · rw [hlr] at hlen0; unfold Stm.tell at hlen0; omega

/-! ### io.ReadAll -/

theorem readAll_run {b : Backend S} {bpb total : Nat} {view : S → Bytes} {s0 : S}
    (H : StreamSetup b bpb total view s0) (room : Nat → Nat) (hroom : ∀ k, 0 < room k) (fuel : Nat) {x : Stm S}
    (hr : Reachable b bpb total s0 x) (hread : Flags.read x.flags = true) (got : Bytes)
    (hf : ∀ k, k ≤ got.length + (rest view x).length → FitsRead x (room k))
    (hfuel : (rest view x).length < fuel) :
    ∃ (x' : Stm S) (p : Bytes) (e : Option SErr), readAll b room fuel x got = .ret (x', got ++ p, e) ∧ Reachable b bpb total s0 x' ∧
      Flags.read x'.flags = true ∧ file view x' = file view x ∧ capacity x' = capacity x ∧ p <+: rest view x ∧
      (e = none ↔ p = rest view x) ∧ (∀ y, e = some y → CallbackFailed b y) ∧ ∃ m : Nat, x'.tell = x.tell + m ∧ m ≤ p.length ∧
        (e = none → p.length < m + room (got.length + m)) ∧ (e ≠ none → m = p.length) := by
  induction fuel generalizing x got with
  | zero => omega
  | succ fuel ih =>
    obtain ⟨x1, r, r1, r2, r3, r4, r5, rc⟩ := read_cases H hr hread (List.replicate (room got.length) 0)
      (by simpa using hf got.length (by omega))
    have hp := (reachable_inv H hr).pos_nn
    simp only [List.length_replicate] at rc
    simp only [readAll, r1, Outcome.bind_ret]
    rcases rc with ⟨c1, c2, c3, c4, c5⟩ | ⟨c1, c2, c3, c4, c5⟩ | ⟨y, c1, c2, c3, c4, c5, c6, c7⟩
    · have h0 := hroom got.length
      have htn : x1.tell.toNat = x.tell.toNat + room got.length := by rw [c5]; have : 0 ≤ x.tell := hp; omega
      have hrest : rest view x1 = (rest view x).drop (room got.length) := by
        show (file view x1).drop _ = _
        rw [r4, htn, List.drop_drop]
      have hl1 : (rest view x1).length = (rest view x).length - room got.length := by rw [hrest, List.length_drop]
      have htake : r.buf.take r.n.toNat = (rest view x).take (room got.length) := by
        rw [c2, c3, Int.toNat_natCast, List.take_take, Nat.min_self]
      have hlen : ((rest view x).take (room got.length)).length = room got.length := by rw [List.length_take]; omega
      obtain ⟨x', p, e, i1, i2, i3, i4, i5, i6, i7, i8, m, i9, i10, i11, i12⟩ := ih r2 r3 (got ++ (rest view x).take (room got.length)) (fun k hk => by
        show capacity x1 + room k ≤ maxInt
        rw [r5]
        exact hf k (by rw [List.length_append, hlen, hl1] at hk; omega)) (by omega)
      refine ⟨x', (rest view x).take (room got.length) ++ p, e, ?_, i2, i3, by rw [i4, r4], by rw [i5, r5], ?_, ?_, i8, room got.length + m, ?_, ?_, ?_, ?_⟩
      · simp only [c1, htake]
        rw [i1, List.append_assoc]
      · rw [hrest] at i6
        obtain ⟨t, ht⟩ := i6
        exact ⟨t, by rw [List.append_assoc, ht, List.take_append_drop]⟩
      · rw [i7, hrest]
        constructor
        · intro he; rw [he, List.take_append_drop]
        · intro he
          have : (rest view x).take (room got.length) ++ p = (rest view x).take (room got.length) ++ (rest view x).drop (room got.length) := by
            rw [he, List.take_append_drop]
          exact List.append_cancel_left this
      · rw [i9, c5]; omega
      · rw [List.length_append, hlen]; omega
      · intro he
        have := i11 he
        rw [List.length_append, hlen] at this
        rw [List.length_append, hlen, show got.length + (room got.length + m) = got.length + room got.length + m by omega]
        omega
      · intro he; rw [List.length_append, hlen, i12 he]
    · refine ⟨x1, rest view x, none, ?_, r2, r3, r4, r5, List.prefix_refl _, by simp, by simp, 0, by rw [c5]; simp, by omega, ?_, by simp⟩
      · simp only [c1, Outcome.pure_eq]
        rw [c2, c3]; simp
      · intro _; simpa using c4
    · refine ⟨x1, [], some y, ?_, r2, r3, r4, r5, List.nil_prefix, ?_, ?_, 0, by rw [c6]; simp, by simp, by simp, by simp⟩
      · simp only [c1]
        rw [c4]
        cases y <;> simp_all
      · exact ⟨by simp, fun hc => absurd hc.symm c7⟩
      · intro z hz; cases hz; exact c3

/-- C152: io.ReadAll returns the bytes from the position to the end of the file, all of them, in order, and nil; the only other thing that can
happen is a failure of the fetch callback, and then it returns a beginning of them (not all) and the error.  It always returns. -/
theorem C152_readAll {b : Backend S} {bpb total : Nat} {view : S → Bytes} {s0 : S}
    (H : StreamSetup b bpb total view s0) {x : Stm S} (hr : Reachable b bpb total s0 x) (hread : Flags.read x.flags = true)
    (room : Nat → Nat) (hroom : ∀ k, 0 < room k) (hf : ∀ k, k ≤ (file view x).length → FitsRead x (room k))
    (fuel : Nat) (hfuel : (file view x).length < fuel) :
    ∃ (x' : Stm S) (got : Bytes) (e : Option SErr), readAll b room fuel x [] = .ret (x', got, e) ∧ file view x' = file view x ∧
      got <+: (file view x).drop x.tell.toNat ∧ (e = none ↔ got = (file view x).drop x.tell.toNat) ∧
      (∀ y, e = some y → CallbackFailed b y) := by
  have hl : (rest view x).length ≤ (file view x).length := by simp
  obtain ⟨x', p, e, i1, i2, i3, i4, i5, i6, i7, i8, _⟩ := readAll_run H room hroom fuel hr hread [] (fun k hk => hf k (by
    simp only [List.length_nil] at hk; omega)) (by omega)
  exact ⟨x', p, e, by simpa using i1, i4, i6, i7, i8⟩

/-- C152: where io.ReadAll leaves the position when it succeeds: not at the end, but before the bytes that came with io.EOF, which are fewer than the
free part of the buffer; a second io.ReadAll returns these bytes again (C24). -/
theorem C152_again {b : Backend S} {bpb total : Nat} {view : S → Bytes} {s0 : S}
    (H : StreamSetup b bpb total view s0) {x : Stm S} (hr : Reachable b bpb total s0 x) (hread : Flags.read x.flags = true)
    (room : Nat → Nat) (hroom : ∀ k, 0 < room k) (hf : ∀ k, k ≤ (file view x).length → FitsRead x (room k))
    (fuel : Nat) (hfuel : (file view x).length < fuel) {x' : Stm S} {got : Bytes} (h1 : readAll b room fuel x [] = .ret (x', got, none)) :
    ∃ m : Nat, x'.tell = x.tell + m ∧ m ≤ got.length ∧ got.length < m + room m ∧
      ∃ (x'' : Stm S) (e : Option SErr), (∃ again, readAll b room fuel x' [] = .ret (x'', again, e) ∧ (e = none → again = got.drop m)) ∧
        ∀ y, e = some y → CallbackFailed b y := by
  have hl : (rest view x).length ≤ (file view x).length := by simp
  obtain ⟨x1, p, e, i1, i2, i3, i4, i5, i6, i7, i8, m, i9, i10, i11, i12⟩ := readAll_run H room hroom fuel hr hread [] (fun k hk => hf k (by
    simp only [List.length_nil] at hk; omega)) (by omega)
  rw [h1] at i1
  simp only [List.nil_append] at i1
  cases i1
  have hp := (reachable_inv H hr).pos_nn
  refine ⟨m, i9, i10, by simpa using i11 rfl, ?_⟩
  obtain ⟨x'', again, e, j1, j2, j3, j4, j5⟩ := C152_readAll H i2 i3 room hroom (fun k hk => by
    show capacity x' + room k ≤ maxInt
    rw [i5]
    exact hf k (by rw [i4] at hk; exact hk)) fuel (by rw [i4]; exact hfuel)
  refine ⟨x'', e, ⟨again, j1, fun he => ?_⟩, j5⟩
  rw [j4.1 he, i4, i9, i7.1 rfl]
  show _ = ((file view x).drop x.tell.toNat).drop m
  rw [List.drop_drop]
  congr 1
  unfold Stm.tell
  omega

/-! ### io.ReadAtLeast and io.ReadFull -/

/-- C152: io.ReadAtLeast(stream, buf, min) with 0 < min ≤ len(buf) makes one Read.  If the file has enough bytes for the whole buffer they fill
it; if it has at least `min` they are returned with nil, but the position does not move; if it has fewer they are returned with
io.ErrUnexpectedEOF, or io.EOF if there are none.  The only other thing that can happen is a failure of the fetch callback: nothing is read. -/
theorem C152_readAtLeast {b : Backend S} {bpb total : Nat} {view : S → Bytes} {s0 : S}
    (H : StreamSetup b bpb total view s0) {x : Stm S} (hr : Reachable b bpb total s0 x) (hread : Flags.read x.flags = true)
    (buf : Bytes) (min : Nat) (h0 : 0 < min) (hm : min ≤ buf.length) (hf : FitsRead x buf.length) (fuel : Nat) (hfuel : 1 < fuel) :
    ∃ (x' : Stm S) (out : Bytes) (n : Nat) (e : Option CErr), readAtLeast b min fuel x buf = .ret (x', out, n, e) ∧
      file view x' = file view x ∧
      ((n = buf.length ∧ buf.length ≤ ((file view x).drop x.tell.toNat).length ∧ e = none ∧
          out = ((file view x).drop x.tell.toNat).take n ∧ x'.tell = x.tell + n) ∨
       (n = ((file view x).drop x.tell.toNat).length ∧ n < buf.length ∧
          e = (if min ≤ n then none else if 0 < n then some .unexpectedEof else some .eof) ∧
          out = (file view x).drop x.tell.toNat ++ buf.drop n ∧ x'.tell = x.tell) ∨
       (∃ y, e = some (.stream y) ∧ CallbackFailed b y ∧ n = 0 ∧ out = buf ∧ x'.tell = x.tell)) := by
  obtain ⟨x1, r, r1, r2, r3, r4, r5, rc⟩ := read_cases H hr hread buf hf
  obtain ⟨f, rfl⟩ : ∃ f, fuel = f + 2 := ⟨fuel - 2, by omega⟩
  have hne : ¬ buf.length < min := by omega
  unfold readAtLeast
  rw [if_neg hne]
  simp only [readAtLeastLoop, List.length_nil, h0, if_true, r1, Outcome.bind_ret, List.nil_append]
  rcases rc with ⟨c1, c2, c3, c4, c5⟩ | ⟨c1, c2, c3, c4, c5⟩ | ⟨y, c1, c2, c3, c4, c5, c6, c7⟩
  · have hl : (((rest view x).take buf.length).take buf.length).length = buf.length := by simp at c4 ⊢; omega
    have ht : r.buf.take r.n.toNat = ((rest view x).take buf.length).take buf.length := by rw [c2, c3]; simp
    have hd : r.buf.drop r.n.toNat = [] := by rw [c2, c3]; simp
    simp only [c1, ht, hd, hl, hne, if_false, Outcome.bind_ret, Outcome.pure_eq]
    refine ⟨_, _, _, _, rfl, r4, .inl ⟨rfl, c4, by simp [hm], ?_, c5⟩⟩
    simp [List.take_take]
  · have ht : r.buf.take r.n.toNat = rest view x := by rw [c2, c3]; simp
    have hd : r.buf.drop r.n.toNat = buf.drop (rest view x).length := by rw [c2, c3]; simp
    simp only [c1, ht, hd, Outcome.bind_ret, Outcome.pure_eq]
    exact ⟨_, _, _, _, rfl, r4, .inr (.inl ⟨rfl, c4, by split <;> rfl, rfl, c5⟩)⟩
  · have ht : r.buf.take r.n.toNat = [] := by rw [c4]; simp
    have hd : r.buf.drop r.n.toNat = buf := by rw [c4, c5]; simp
    simp only [c1, ht, hd, Outcome.bind_ret, Outcome.pure_eq]
    refine ⟨_, _, _, _, rfl, r4, .inr (.inr ⟨y, ?_, c3, rfl, rfl, c6⟩)⟩
    have : ¬ min ≤ 0 := by omega
    simp only [List.length_nil, this, if_false]

/-- C152: io.ReadFull fills the buffer with the next bytes of the file and moves the position behind them, or, if they do not fill it, returns
what there is with io.ErrUnexpectedEOF (io.EOF if there is nothing) and does not move the position; or the fetch callback failed. -/
theorem C152_readFull {b : Backend S} {bpb total : Nat} {view : S → Bytes} {s0 : S}
    (H : StreamSetup b bpb total view s0) {x : Stm S} (hr : Reachable b bpb total s0 x) (hread : Flags.read x.flags = true)
    (buf : Bytes) (h0 : buf ≠ []) (hf : FitsRead x buf.length) (fuel : Nat) (hfuel : 1 < fuel) :
    ∃ (x' : Stm S) (out : Bytes) (n : Nat) (e : Option CErr), readFull b fuel x buf = .ret (x', out, n, e) ∧ file view x' = file view x ∧
      ((n = buf.length ∧ buf.length ≤ ((file view x).drop x.tell.toNat).length ∧ e = none ∧
          out = ((file view x).drop x.tell.toNat).take n ∧ x'.tell = x.tell + n) ∨
       (n = ((file view x).drop x.tell.toNat).length ∧ n < buf.length ∧ e = (if 0 < n then some .unexpectedEof else some .eof) ∧
          out = (file view x).drop x.tell.toNat ++ buf.drop n ∧ x'.tell = x.tell) ∨
       (∃ y, e = some (.stream y) ∧ CallbackFailed b y ∧ n = 0 ∧ out = buf ∧ x'.tell = x.tell)) := by
  have := List.length_pos_iff.2 h0
  obtain ⟨x', out, n, e, k1, k2, k3⟩ := C152_readAtLeast H hr hread buf buf.length this (Nat.le_refl _) hf fuel hfuel
  refine ⟨x', out, n, e, k1, k2, ?_⟩
  rcases k3 with k | ⟨a1, a2, a3, a4⟩ | k
  · exact .inl k
  · exact .inr (.inl ⟨a1, a2, by rw [a3, if_neg (by omega)], a4⟩)
  · exact .inr (.inr k)

/-! ### io.CopyN -/

theorem copyLimited_run {b : Backend S} {bpb total : Nat} {view : S → Bytes} {s0 : S}
    (H : StreamSetup b bpb total view s0) {W : Type} (k : Compression.Sink W) (size : Nat) (hsize : 0 < size) (fuel : Nat) {x : Stm S}
    (hr : Reachable b bpb total s0 x) (hread : Flags.read x.flags = true) (w : W) (limit written : Nat)
    (hf : FitsRead x (min size limit)) (hfuel : (rest view x).length < fuel) :
    ∃ (x' : Stm S) (w' : W) (p : Bytes) (e : Option CErr), copyLimited b k size fuel x w limit written = .ret (x', w', written + p.length, e) ∧
      file view x' = file view x ∧ k.accepted w' = k.accepted w ++ p ∧ p <+: (rest view x).take limit ∧
      (e = none → p = (rest view x).take limit) ∧
      (∀ y, e = some y → (∃ z, y = .stream z ∧ CallbackFailed b z) ∨ (∃ i v q, y = .writer i ∧ (k.write v q).2.2 = some i)) := by
  induction fuel generalizing x w limit written with
  | zero => omega
  | succ fuel ih =>
    by_cases hl0 : limit = 0
    · subst hl0
      exact ⟨x, w, [], none, by simp [copyLimited], rfl, by simp, by simp, by simp, by simp⟩
    · obtain ⟨x1, r, r1, r2, r3, r4, r5, rc⟩ := read_cases H hr hread (List.replicate (Nat.min size limit) 0) (by simpa using hf)
      have hp := (reachable_inv H hr).pos_nn
      have hmp : 0 < Nat.min size limit := by simp only [Nat.min_def]; split <;> omega
      have hms : Nat.min size limit ≤ limit := Nat.min_le_right _ _
      simp only [List.length_replicate] at rc
      simp only [copyLimited, hl0, if_false, r1, Outcome.bind_ret]
      -- what the writer does with a chunk
      have hwrite : ∀ chunk : Bytes, chunk <+: (rest view x).take limit → ∀ (i : Nat), (k.write w chunk).2.2 = some i →
          ∃ p : Bytes, k.accepted (k.write w chunk).1 = k.accepted w ++ p ∧ p <+: (rest view x).take limit ∧ p.length = (k.write w chunk).2.1 := by
        intro chunk hc i hi
        obtain ⟨l1, l2, l3⟩ := k.law w chunk
        exact ⟨chunk.take (k.write w chunk).2.1, l2, (List.take_prefix _ _).trans hc, by simp; omega⟩
      rcases rc with ⟨c1, c2, c3, c4, c5⟩ | ⟨c1, c2, c3, c4, c5⟩ | ⟨y, c1, c2, c3, c4, c5, c6, c7⟩
      · generalize hmm : Nat.min size limit = mm at *
        have htake : r.buf.take r.n.toNat = (rest view x).take mm := by rw [c2, c3, Int.toNat_natCast, List.take_take, Nat.min_self]
        have hlen : ((rest view x).take mm).length = mm := by rw [List.length_take]; omega
        have htn : x1.tell.toNat = x.tell.toNat + mm := by rw [c5]; have : 0 ≤ x.tell := hp; omega
        have hrest : rest view x1 = (rest view x).drop mm := by
          show (file view x1).drop _ = _
          rw [r4, htn, List.drop_drop]
        have hpre : (rest view x).take mm <+: (rest view x).take limit := by
          rw [show (rest view x).take mm = ((rest view x).take limit).take mm by rw [List.take_take, Nat.min_eq_left hms]]
          exact List.take_prefix _ _
        simp only [htake, hlen, hmp, if_true, c1]
        cases hwe : (k.write w ((rest view x).take mm)).2.2 with
        | some i =>
          obtain ⟨p, p1, p2, p3⟩ := hwrite _ hpre i hwe
          refine ⟨x1, _, p, some (.writer i), ?_, r4, p1, p2, by simp, ?_⟩
          · simp [p3]
          · intro z hz; cases hz; exact .inr ⟨i, _, _, rfl, hwe⟩
        | none =>
          obtain ⟨l1, l2, l3⟩ := k.law w ((rest view x).take mm)
          have l4 := l3 hwe
          simp only [l4, hlen, ne_eq, not_true_eq_false, if_false]
          obtain ⟨x', w', p, e, i1, i2, i3, i4, i5, i6⟩ := ih r2 r3 (k.write w ((rest view x).take mm)).1 (limit - mm) (written + mm) (by
            show capacity x1 + _ ≤ maxInt
            rw [r5]
            have : capacity x + min size limit ≤ maxInt := hf
            omega) (by rw [hrest, List.length_drop]; omega)
          refine ⟨x', w', (rest view x).take mm ++ p, e, ?_, by rw [i2, r4], ?_, ?_, ?_, i6⟩
          · rw [i1, List.length_append, hlen, Nat.add_assoc]
          · rw [i3, l2, l4, List.take_length, List.append_assoc]
          · rw [hrest] at i4
            have : (rest view x).take limit = (rest view x).take mm ++ ((rest view x).drop mm).take (limit - mm) := by
              rw [← List.take_add]; congr 1; omega
            rw [this]
            exact (List.prefix_append_right_inj _).2 i4
          · intro he
            rw [i5 he, hrest, ← List.take_add]; congr 1; omega
      · have htake : r.buf.take r.n.toNat = rest view x := by rw [c2, c3]; simp
        have hall : (rest view x).take limit = rest view x := List.take_of_length_le (by omega)
        simp only [htake, c1]
        split
        · cases hwe : (k.write w (rest view x)).2.2 with
          | some i =>
            obtain ⟨p, p1, p2, p3⟩ := hwrite (rest view x) (by rw [hall]; exact List.prefix_refl _) i hwe
            refine ⟨x1, _, p, some (.writer i), ?_, r4, p1, p2, by simp, ?_⟩
            · simp [p3]
            · intro z hz; cases hz; exact .inr ⟨i, _, _, rfl, hwe⟩
          | none =>
            obtain ⟨l1, l2, l3⟩ := k.law w (rest view x)
            have l4 := l3 hwe
            simp only [l4, ne_eq, not_true_eq_false, if_false]
            refine ⟨x1, _, rest view x, none, rfl, r4, ?_, by rw [hall]; exact List.prefix_refl _, fun _ => hall.symm, by simp⟩
            rw [l2, l4, List.take_length]
        · rename_i hz
          have : rest view x = [] := List.length_eq_zero_iff.1 (by omega)
          exact ⟨x1, w, [], none, rfl, r4, by simp, by simp, fun _ => by rw [this]; simp, by simp⟩
      · have htake : r.buf.take r.n.toNat = [] := by rw [c4]; simp
        simp only [htake, c1, List.length_nil, Nat.lt_irrefl, if_false]
        refine ⟨x1, w, [], some (.stream y), ?_, r4, by simp, by simp, by simp, ?_⟩
        · cases y <;> simp_all
        · intro z hz; cases hz; exact .inl ⟨y, rfl, c3⟩

/-- C152: io.CopyN(dst, stream, n) writes the next n bytes of the file to dst and returns n and nil; if there are fewer it writes those and returns
io.EOF; otherwise it returns an error of the fetch callback or of dst, and what dst accepted is a beginning of these bytes, and counted. -/
theorem C152_copyN {b : Backend S} {bpb total : Nat} {view : S → Bytes} {s0 : S}
    (H : StreamSetup b bpb total view s0) {x : Stm S} (hr : Reachable b bpb total s0 x) (hread : Flags.read x.flags = true)
    {W : Type} (k : Compression.Sink W) (w : W) (n : Nat) (hf : FitsRead x (min 32768 n))
    (fuel : Nat) (hfuel : (file view x).length < fuel) :
    ∃ (x' : Stm S) (w' : W) (p : Bytes) (e : Option CErr), copyN b k fuel x w n = .ret (x', w', p.length, e) ∧ file view x' = file view x ∧
      k.accepted w' = k.accepted w ++ p ∧ p <+: ((file view x).drop x.tell.toNat).take n ∧
      (e = none ↔ p.length = n) ∧ (e = some .eof → p = (file view x).drop x.tell.toNat ∧ p.length < n) ∧
      (∀ y, e = some y → y = .eof ∨ (∃ z, y = .stream z ∧ CallbackFailed b z) ∨ (∃ i v q, y = .writer i ∧ (k.write v q).2.2 = some i)) := by
  have hl : (rest view x).length ≤ (file view x).length := by simp
  generalize hs : (if n < 1 then 1 else if n < 32768 then n else 32768) = size
  have hs0 : 0 < size ∧ min size n = min 32768 n := by split at hs <;> (try split at hs) <;> omega
  obtain ⟨x', w', p, e, i1, i2, i3, i4, i5, i6⟩ := copyLimited_run H k size hs0.1 fuel hr hread w n 0 (by
    show capacity x + min size n ≤ maxInt
    rw [hs0.2]; exact hf) (by omega)
  have hple : p.length ≤ n ∧ p.length ≤ (rest view x).length := by have := i4.length_le; simp only [List.length_take] at this; omega
  unfold copyN
  rw [hs, i1]
  simp only [Outcome.bind_ret, Nat.zero_add, Outcome.pure_eq]
  by_cases hpn : p.length = n
  · rw [if_pos hpn]
    exact ⟨x', w', p, none, by rw [hpn], i2, i3, i4, by simp [hpn], by simp, by simp⟩
  · rw [if_neg hpn]
    split
    · rename_i hc
      have hpe := i5 hc.2
      have hall : p = rest view x := by
        rw [hpe]; apply List.take_of_length_le
        have : p.length = min n (rest view x).length := by rw [hpe]; simp
        omega
      exact ⟨x', w', p, some .eof, rfl, i2, i3, i4, by simp [hpn], fun _ => ⟨hall, hc.1⟩, by simp⟩
    · rename_i hc
      have hne : e ≠ none := fun he => hc ⟨by omega, he⟩
      refine ⟨x', w', p, e, rfl, i2, i3, i4, by simp [hpn, hne], ?_, fun y hy => .inr (i6 y hy)⟩
      intro he
      rcases i6 _ he with ⟨z, hz, _⟩ | ⟨i, v, q, hz, _⟩ <;> simp at hz

/-- The hypotheses and the functions on a file of 5 bytes, in blocks of 2: io.ReadAll with a buffer that has room for 3 bytes, twice. -/
example : Reachable (mem 2) 2 3 exStore (exStream 5 Flags.O_RDONLY) ∧ (∀ k, k ≤ 5 → FitsRead (exStream 5 Flags.O_RDONLY) ((fun _ => 3) k)) ∧
    (readAll (mem 2) (fun _ => 3) 6 (exStream 5 Flags.O_RDONLY) []).bind
      (fun p => (readAll (mem 2) (fun _ => 3) 6 p.1 []).bind fun q => .ret (p.2.1, p.2.2, p.1.tell, q.2.1)) =
      .ret ([1, 2, 3, 4, 5], none, 3, [4, 5]) :=
  ⟨exReachable _ _ (by omega) (by decide +kernel), by decide +kernel, by decide +kernel⟩

/-- io.ReadFull of 4 bytes, then of 4 again. -/
example : (readFull (mem 2) 2 (exStream 5 Flags.O_RDONLY) [9, 9, 9, 9]).bind (fun p => (readFull (mem 2) 2 p.1 [9, 9, 9, 9]).bind fun q =>
      .ret (p.2, q.2)) = .ret (([1, 2, 3, 4], 4, none), ([5, 9, 9, 9], 1, some .unexpectedEof)) := by decide +kernel

/-- io.ReadAtLeast of 1 byte into a buffer of 9, twice: the same bytes. -/
example : (readAtLeast (mem 2) 1 2 (exStream 5 Flags.O_RDONLY) (List.replicate 9 0)).bind (fun p => (readAtLeast (mem 2) 1 2 p.1 (List.replicate 9 0)).bind fun q =>
      .ret (p.2, q.2)) = .ret (([1, 2, 3, 4, 5, 0, 0, 0, 0], 5, none), ([1, 2, 3, 4, 5, 0, 0, 0, 0], 5, none)) := by decide +kernel

/-- io.CopyN of 4 bytes, then of 4 again. -/
example : (copyN (mem 2) Compression.bufferSink 6 (exStream 5 Flags.O_RDONLY) [7] 4).bind (fun p =>
      (copyN (mem 2) Compression.bufferSink 6 p.1 p.2.1 4).bind fun q => .ret (p.2, q.2)) =
    .ret (([7, 1, 2, 3, 4], 4, none), ([7, 1, 2, 3, 4, 5], 1, some .eof)) := by decide +kernel

end Disko.Stream.Clients

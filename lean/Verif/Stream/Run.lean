import Verif.Stream.Effects
/-! Histories of calls; WriteTo and ReadFrom. -/
namespace Disko.Stream
open Disko Disko.BlockCache Disko.BlockCache.Spec Disko.Stream.Spec

variable {S : Type}

theorem truncate_effect {b : Backend S} {bpb : Nat} {view : S → Bytes} (L : Lawful b bpb view) {x : Stm S}
    (h : Inv bpb view x) {n : Int} (hf : FitsSize x n) :
    ∃ x' e, truncate b x n = .ret (x', e) ∧ Inv bpb view x' ∧ x'.flags = x.flags ∧
      x'.position = x.position ∧ (Flags.write x.flags = false → x' = x) := by
  rcases truncate_spec L h hf with ⟨_, t⟩ | ⟨_, _, t⟩ | ⟨t1, _, s', be, t, _, _, t6, _⟩ | ⟨t1, _, x1, t3, t4, t5⟩
  · exact ⟨_, _, t, h, rfl, rfl, fun _ => rfl⟩
  · exact ⟨_, _, t, h, rfl, rfl, fun _ => rfl⟩
  · exact ⟨_, _, t, t6, rfl, rfl, by rw [t1]; simp⟩
  · rw [t5]
    split
    · obtain ⟨x2, e, s1, s2, s3⟩ := sync_spec L t3
      exact ⟨_, _, s1, s2, s3.flags.trans t4.flags, s3.position.trans t4.position, by rw [t1]; simp⟩
    · exact ⟨_, _, rfl, t3, t4.flags, t4.position, by rw [t1]; simp⟩

theorem seek_effect {bpb : Nat} {view : S → Bytes} {x : Stm S} (h : Inv bpb view x) {off whence : Int}
    (h1 : -(2 ^ 63) ≤ off) (h2 : off < 2 ^ 63) :
    Inv bpb view (seek x off whence).1 ∧ Still view x (seek x off whence).1 := by
  have hi : ∀ z, i64 z < 2 ^ 63 := by
    intro z; unfold i64; rw [Int.bmod_def]; omega
  have key : ∀ a : Int, a < 2 ^ 63 →
      Inv bpb view (if a < 0 then (x, x.position, some SErr.invalidSeek)
        else ({ x with position := a }, a, none)).1 ∧
      Still view x (if a < 0 then (x, x.position, some SErr.invalidSeek)
        else ({ x with position := a }, a, none)).1 := by
    intro a ha
    split
    · exact ⟨h, .refl _ _⟩
    · exact ⟨h.pos (by omega) ha, (Still.refl view x).pos _⟩
  unfold seek
  by_cases w0 : whence = 0
  · simp only [w0, if_true]; exact key _ h2
  · by_cases w1 : whence = 1
    · simp only [w1, if_true]; exact key _ (hi _)
    · by_cases w2 : whence = 2
      · simp only [w2, if_true]; exact key _ (hi _)
      · simp only [w0, w1, w2, if_false]; exact ⟨h, .refl _ _⟩

/-! ### WriteTo -/

theorem Still.capacity {view : S → Bytes} {x x' : Stm S} (s : Still view x x') : capacity x' = capacity x := by
  show x'.st.c.total * _ = x.st.c.total * _
  rw [s.total, s.bpb]

theorem drop_slice_append {d : Bytes} {a n : Nat} : slice d a n ++ d.drop (a + n) = d.drop a := by
  unfold slice
  rw [← List.drop_drop, List.take_append_drop]

/-- WriteTo: what the writer is given, for any writer and any number of iterations. -/
theorem writeToLoop_effect {b : Backend S} {bpb : Nat} {view : S → Bytes} (L : Lawful b bpb view) {W : Type}
    (k : Compression.Sink W) (fuel : Nat) (buffer : Bytes) (x : Stm S) (w : W × List Bytes) (tot : Int)
    (h : Inv bpb view x) (hbuf : buffer.length = bpb) (hf : FitsRead x bpb) (ht0 : 0 ≤ tot)
    (ht : tot + ((file view x).drop x.position.toNat).length < 2 ^ 63) :
    (writeToLoop b (recording k) fuel buffer x w tot = .timeout ∧
      fuel ≤ ((file view x).drop x.position.toNat).length) ∨
    ∃ x' w' n e ps, writeToLoop b (recording k) fuel buffer x w tot = .ret (x', (w', w.2 ++ ps), n, e) ∧
      Inv bpb view x' ∧ Still view x x' ∧
      ps.flatten <+: (file view x).drop x.position.toNat ∧ n = tot + ps.flatten.length ∧
      (e = none → ps.flatten = (file view x).drop x.position.toNat) ∧
      (∀ y, e = some y → CallbackFailed b y ∨ (y = .notPermitted ∧ Flags.read x.flags = false)) ∧
      (Flags.read x.flags = false → ps = []) ∧
      (fuel = 0 → False) := by
  induction fuel generalizing buffer x w tot with
  | zero => left; exact ⟨rfl, Nat.zero_le _⟩
  | succ fuel ih =>
    have hbp : 0 < bpb := by rw [← h.bpb]; exact h.weak.bpb_pos
    obtain ⟨x1, x', r, r1, r2, r3, r4, r5⟩ := read_effect L h buffer (by rw [hbuf]; exact hf)
    have hlf := length_file h
    have hpn := h.pos_nn
    unfold writeToLoop
    rw [r2]
    simp only [Outcome.bind_ret]
    rcases readAt_spec L h buffer h.pos_nn (by rw [hbuf]; exact hf) with
      ⟨a0, a⟩ | ⟨_, hb, a⟩ | ⟨a0, _, a1, a⟩ | ⟨a0, a1, a2, st', wl, a | ⟨j, be, a3, a⟩⟩
    · rw [a] at r1; cases r1
      right
      refine ⟨x', w.1, tot, some .notPermitted, [], by simp, r3, r4, by simp, by simp, by simp, ?_, by simp, by simp⟩
      intro y hy; cases hy; exact .inr ⟨rfl, a0⟩
    · rw [hb] at hbuf; simp at hbuf; omega
    · rw [a] at r1; cases r1
      right
      have hd : (file view x).drop x.position.toNat = [] := by
        apply List.drop_eq_nil_of_le; omega
      refine ⟨x', w.1, tot, none, [], by simp, r3, r4, by simp, by simp, by rw [hd]; simp, by simp, by simp, by simp⟩
    · rw [a] at r1; cases r1
      have hav : 0 < avail x buffer.length x.position := by unfold avail; omega
      have havl : avail x buffer.length x.position ≤ buffer.length := by unfold avail; omega
      have havs : x.position + avail x buffer.length x.position ≤ x.size := by unfold avail; omega
      have hlen : ((file view x).drop x.position.toNat).length = x.size.toNat - x.position.toNat := by
        rw [List.length_drop, hlf]
      generalize hA : avail x buffer.length x.position = n at *
      have hsl : (slice (file view x) x.position.toNat n).length = n := length_slice_of_le (by omega)
      have hgo : (goCopy buffer (slice (file view x) x.position.toNat n)).take n =
          slice (file view x) x.position.toNat n := by
        unfold goCopy
        rw [List.take_append_of_le_length (by rw [List.length_take, hsl]; omega),
          List.take_take, Nat.min_eq_left havl, List.take_of_length_le (by omega)]
      have hsp := drop_slice_append (d := file view x) (a := x.position.toNat) (n := n)
      have hi : i64 (tot + (n : Int)) = tot + n := by
        refine i64_nonneg (by omega) ?_
        rw [hlen] at ht; omega
      simp only [show (n : Int) > 0 from by omega, if_true, Int.toNat_natCast, hgo, hi]
      by_cases hlt : n < buffer.length
      · rw [if_pos hlt] at r5 ⊢
        right
        have hdz : (file view x).drop (x.position.toNat + n) = [] := by
          apply List.drop_eq_nil_of_le; rw [hlf]
          unfold avail at hA; omega
        rw [hdz, List.append_nil] at hsp
        refine ⟨x', (k.write w.1 (slice (file view x) x.position.toNat n)).1, tot + n, none,
          [slice (file view x) x.position.toNat n], rfl, r3, r4, ?_, ?_, ?_, by simp, by rw [a0]; simp, by simp⟩
        · simp only [List.flatten_cons, List.flatten_nil, List.append_nil]
          rw [hsp]; exact List.prefix_refl _
        · simp only [List.flatten_cons, List.flatten_nil, List.append_nil]; rw [hsl]
        · intro _; simp only [List.flatten_cons, List.flatten_nil, List.append_nil]; exact hsp
      · rw [if_neg hlt] at r5 ⊢
        simp only [if_true] at r5
        have hx'p : x'.position = x.position + n := by rw [r5]
        have hfile : file view x' = file view x := r4.file
        have hpt : x'.position.toNat = x.position.toNat + n := by rw [hx'p]; omega
        have hlen' : ((file view x').drop x'.position.toNat).length + n =
            ((file view x).drop x.position.toNat).length := by
          rw [hfile, hpt, List.length_drop, List.length_drop, hlf]; omega
        have := ih (goCopy buffer (slice (file view x) x.position.toNat n)) x'
          ((k.write w.1 (slice (file view x) x.position.toNat n)).1,
            w.2 ++ [slice (file view x) x.position.toNat n]) (tot + n) r3
          (by rw [goCopy_length]; exact hbuf) (by
            show capacity x' + bpb ≤ maxInt
            rw [r4.capacity]; exact hf) (by omega) (by omega)
        rcases this with ⟨t1, t2⟩ | ⟨x2, w2, m, e, ps, t1, t2, t3, t4, t5, t6, t7, t8, _⟩
        · left
          refine ⟨t1, by omega⟩
        · right
          rw [hfile, hpt] at t4 t6
          refine ⟨x2, w2, m, e, slice (file view x) x.position.toNat n :: ps, ?_, t2, r4.trans t3, ?_, ?_, ?_, ?_,
            by rw [a0]; simp, by simp⟩
          · show writeToLoop b (recording k) fuel _ x' _ _ = _
            rw [List.append_cons]; exact t1
          · rw [List.flatten_cons, ← hsp]
            exact (List.prefix_append_right_inj _).2 t4
          · rw [t5, List.flatten_cons, List.length_append, hsl]; omega
          · intro he; rw [List.flatten_cons, t6 he, hsp]
          · rw [r4.flags] at t7; exact t7
    · rw [a] at r1; cases r1
      right
      refine ⟨x', w.1, tot, some (.cache (.fetchFailed j be)), [], by simp, r3, r4, by simp, by simp, by simp, ?_,
        by simp, by simp⟩
      intro y hy; cases hy; exact .inl a3.2

/-- A run of WriteTo with a writer is the same with a recording of it. -/
theorem writeToLoop_recording (b : Backend S) {W : Type} (k : Compression.Sink W) (fuel : Nat) (buffer : Bytes)
    (x : Stm S) (w : W) (l : List Bytes) (tot : Int) :
    writeToLoop b k fuel buffer x w tot =
      (do
        let (x', w', n, e) ← writeToLoop b (recording k) fuel buffer x (w, l) tot
        return (x', w'.1, n, e)) := by
  induction fuel generalizing buffer x w l tot with
  | zero => rfl
  | succ fuel ih =>
    unfold writeToLoop
    rcases read b x buffer with ⟨x', r⟩ | _ | _
    · simp only [Outcome.bind_ret]
      by_cases hn : r.n > 0
      · simp only [hn, if_true]
        rcases r.err with _ | y
        · exact ih _ _ _ _ _
        · cases y <;> rfl
      · simp only [hn, if_false]
        rcases r.err with _ | y
        · exact ih _ _ _ _ _
        · cases y <;> rfl
    · rfl
    · rfl

theorem writeToLoop_log (b : Backend S) {W : Type} (k : Compression.Sink W) (fuel : Nat) (buffer : Bytes)
    (x : Stm S) (w : W × List Bytes) (tot : Int) {x' : Stm S} {w' : W} {l' : List Bytes} {n : Int}
    {e : Option SErr}
    (h : writeToLoop b (recording k) fuel buffer x w tot = .ret (x', (w', l'), n, e)) :
    ∃ qs, l' = w.2 ++ qs := by
  induction fuel generalizing buffer x w tot with
  | zero => simp [writeToLoop] at h
  | succ fuel ih =>
    unfold writeToLoop at h
    rcases hr : read b x buffer with ⟨x1, r⟩ | _ | _
    · rw [hr] at h
      simp only [Outcome.bind_ret] at h
      by_cases hn : r.n > 0
      · simp only [hn, if_true] at h
        rcases hre : r.err with _ | y
        · rw [hre] at h
          obtain ⟨qs, hq⟩ := ih _ _ _ _ h
          exact ⟨r.buf.take r.n.toNat :: qs, by rw [hq]; simp [recording]⟩
        · rw [hre] at h
          cases y <;> simp [recording] at h <;> exact ⟨_, h.2.1.2.symm⟩
      · simp only [hn, if_false] at h
        rcases hre : r.err with _ | y
        · rw [hre] at h
          exact ih _ _ _ _ h
        · rw [hre] at h
          cases y <;> simp at h <;> exact ⟨[], by rw [List.append_nil, h.2.1]⟩
    · rw [hr] at h; simp at h
    · rw [hr] at h; simp at h

/-- The writer's final state is the result of the writes recorded, in order. -/
theorem writeToLoop_replay (b : Backend S) {W : Type} (k : Compression.Sink W) (fuel : Nat) (buffer : Bytes)
    (x : Stm S) (w : W) (l : List Bytes) (tot : Int) {x' : Stm S} {w' : W} {ps : List Bytes} {n : Int}
    {e : Option SErr}
    (h : writeToLoop b (recording k) fuel buffer x (w, l) tot = .ret (x', (w', l ++ ps), n, e)) :
    w' = ps.foldl (fun v p => (k.write v p).1) w := by
  induction fuel generalizing buffer x w l tot ps with
  | zero => simp [writeToLoop] at h
  | succ fuel ih =>
    have fin : ∀ {v : W} {l2 : List Bytes} {z : Int} {o : Option SErr} {y : Stm S} (q : List Bytes),
        l2 = l ++ q → v = q.foldl (fun v p => (k.write v p).1) w →
        (Outcome.ret (y, (v, l2), z, o) : Outcome (Stm S × (W × List Bytes) × Int × Option SErr)) =
          .ret (x', (w', l ++ ps), n, e) → w' = ps.foldl (fun v p => (k.write v p).1) w := by
      intro v l2 z o y q hq hv hh
      simp only [Outcome.ret.injEq, Prod.mk.injEq] at hh
      obtain ⟨_, ⟨h1, h2⟩, _⟩ := hh
      rw [hq] at h2
      rw [← List.append_cancel_left h2, ← hv, h1]
    unfold writeToLoop at h
    rcases hr : read b x buffer with ⟨x1, r⟩ | _ | _
    · rw [hr] at h
      simp only [Outcome.bind_ret] at h
      by_cases hn : r.n > 0
      · simp only [hn, if_true] at h
        rcases hre : r.err with _ | y
        · rw [hre] at h
          simp only at h
          have hlog : ∃ qs, ps = r.buf.take r.n.toNat :: qs := by
            obtain ⟨qs, hq⟩ := writeToLoop_log b k fuel _ _ _ _ h
            have hq' : l ++ ps = l ++ [r.buf.take r.n.toNat] ++ qs := hq
            exact ⟨qs, by rw [List.append_assoc] at hq'; exact List.append_cancel_left hq'⟩
          obtain ⟨qs, rfl⟩ := hlog
          rw [List.append_cons] at h
          exact ih (w := (k.write w (r.buf.take r.n.toNat)).1) (l := l ++ [r.buf.take r.n.toNat]) _ _ _ h
        · rw [hre] at h
          cases y <;> exact fin [r.buf.take r.n.toNat] rfl rfl h
      · simp only [hn, if_false] at h
        rcases hre : r.err with _ | y
        · rw [hre] at h
          exact ih _ _ _ _ _ h
        · rw [hre] at h
          cases y <;> exact fin [] (by simp) rfl h
    · rw [hr] at h; simp at h
    · rw [hr] at h; simp at h

/-! ### ReadFrom -/

theorem i64_add (a c : Int) : i64 (i64 a + c) = i64 (a + c) := by
  unfold i64; rw [Int.bmod_add_bmod]

theorem readFromLoop_inv {b : Backend S} {bpb : Nat} {view : S → Bytes} (L : Lawful b bpb view) {R : Type}
    (src : Source R) (bs fuel : Nat) (x : Stm S) (r : R) (tot : Int) (h : Inv bpb view x)
    (hf : FitsReadFrom b src bs x r) :
    readFromLoop b src bs fuel x r tot = .timeout ∨
    ∃ x' r' n e, readFromLoop b src bs fuel x r tot = .ret (x', r', n, e) ∧ Inv bpb view x' ∧
      x'.flags = x.flags := by
  induction fuel generalizing x r tot with
  | zero => left; rfl
  | succ fuel ih =>
    obtain ⟨_, _, hw, hnext⟩ := hf
    unfold readFromLoop
    rcases hr : src.read r bs with ⟨r', chunk, re⟩
    rw [hr] at hw hnext
    simp only at hw hnext ⊢
    obtain ⟨x', n, e, w1, w2, w3, _⟩ := write_effect L h chunk hw
    rw [w1]
    simp only [Outcome.bind_ret]
    rcases re with _ | re
    · rcases e with _ | e
      · rcases ih x' r' (i64 (tot + chunk.length)) w2 (hnext x' n w1) with t | ⟨x2, r2, n2, e2, t1, t2, t3⟩
        · left; exact t
        · right; exact ⟨x2, r2, n2, e2, t1, t2, t3.trans w3⟩
      · right; exact ⟨_, _, _, _, rfl, w2, w3⟩
    · cases re <;> (right; exact ⟨_, _, _, _, rfl, w2, w3⟩)

/-- The reader never returns data together with an error. -/
def Separate {R : Type} (src : Source R) : Prop :=
  ∀ r n, (src.read r n).2.2 ≠ none → (src.read r n).2.1 = []

theorem readFromLoop_written {b : Backend S} {bpb : Nat} {view : S → Bytes} (L : Lawful b bpb view) {R : Type}
    (src : Source R) (hsep : Separate src) (bs fuel : Nat) (x : Stm S) (r : R) (l : List Bytes) (tot : Int)
    (h : Inv bpb view x) (hwf : Flags.write x.flags = true)
    (hf : FitsReadFrom b src bs x r) {x' : Stm S} {r' : R} {l' : List Bytes} {n : Int}
    (hr : readFromLoop b (recordingSource src) bs fuel x (r, l) tot = .ret (x', (r', l'), n, none)) :
    ∃ chunks x1 m e, l' = l ++ chunks ++ [[]] ∧ Written b x chunks x1 ∧ write b x1 [] = .ret (x', m, e) ∧
      n = i64 (tot + chunks.flatten.length) := by
  induction fuel generalizing x r l tot with
  | zero => simp [readFromLoop] at hr
  | succ fuel ih =>
    obtain ⟨_, _, hw, hnext⟩ := hf
    unfold readFromLoop at hr
    simp only [recordingSource] at hr
    have hs := hsep r bs
    rcases hre : src.read r bs with ⟨r2, chunk, re⟩
    rw [hre] at hw hnext hr hs
    simp only at hw hnext hr hs
    obtain ⟨x2, m, e, w1, w2, w3, w4⟩ := write_effect L h chunk hw
    rw [w1] at hr
    simp only [Outcome.bind_ret] at hr
    rcases re with _ | re
    · rcases e with _ | e
      · simp only at hr
        have hm : m = chunk.length := by
          rcases w4 with ⟨w4, _⟩ | ⟨_, _, ⟨_, y, hy, _⟩ | ⟨hm, _⟩⟩
          · rw [hwf] at w4; simp at w4
          · simp at hy
          · exact hm
        obtain ⟨chunks, x1, m2, e2, c1, c2, c3, c4⟩ := ih x2 r2 (l ++ [chunk]) _ w2 (by rw [w3]; exact hwf)
          (hnext x2 m w1) hr
        refine ⟨chunk :: chunks, x1, m2, e2, by rw [c1]; simp, ?_, c3, ?_⟩
        · exact .cons (by rw [w1, hm]) c2
        · rw [c4, i64_add, List.flatten_cons, List.length_append]
          have : tot + (chunk.length : Int) + (chunks.flatten.length : Int) =
            tot + ((chunk.length + chunks.flatten.length : Nat) : Int) := by omega
          rw [this]
      · simp at hr
    · have hc := hs (by simp)
      subst hc
      cases re with
      | eof =>
        simp only [Outcome.pure_eq, Outcome.ret.injEq, Prod.mk.injEq] at hr
        obtain ⟨rfl, ⟨rfl, rfl⟩, rfl, _⟩ := hr
        exact ⟨[], x, m, e, by simp, .nil _, w1, by simp⟩
      | io _ => simp at hr

/-! ### Invariance -/

theorem cacheSize_eq {view : S → Bytes} {st : St S} (wf : WF view st) (h2 : st.c.bpb ≤ maxInt) :
    st.c.size = ((st.c.total * st.c.bpb : Nat) : Int) := by
  have h1 := wf.cap
  have htot : st.c.total ≤ maxInt := Nat.le_trans (Nat.le_mul_of_pos_right _ wf.bpb_pos) wf.cap
  unfold Cache.size
  rw [i64_nonneg (z := (st.c.bpb : Int)) (by omega) (lt_of_maxInt (by omega)),
    i64_nonneg (z := (st.c.total : Int)) (by omega) (lt_of_maxInt (by omega))]
  have : (st.c.bpb : Int) * (st.c.total : Int) = ((st.c.total * st.c.bpb : Nat) : Int) := by
    rw [Int.natCast_mul, Int.mul_comm]
  rw [this]
  exact i64_nonneg (by omega) (lt_of_maxInt (by omega))

theorem new_inv {b : Backend S} {bpb total : Nat} {view : S → Bytes} {s0 : S} (H : StreamSetup b bpb total view s0)
    {ops : List Op} {st : St S} {rs : List Result} (ha : After b bpb total s0 ops st rs) {size : Int}
    {flags : Flags.IOFlags} {x : Stm S} {e : Option SErr} (hn : new b size st flags = .ret (some x, e)) :
    Inv bpb view x := by
  obtain ⟨wf, hb, _⟩ := after_spec H.cache ha
  have hsz := cacheSize_eq wf (by rw [hb]; exact H.bpb_le)
  unfold new at hn
  split at hn
  · simp at hn
  · rename_i hs
    rw [hsz] at hs
    have hs1 : 0 ≤ size := by omega
    have hs2 : size ≤ ((st.c.total * st.c.bpb : Nat) : Int) := by omega
    have hinv : Inv bpb view { size, position := 0, st, flags } :=
      ⟨WF.weak wf, hb, by show st.c.bpb ≤ _; rw [hb]; exact H.bpb_le, hs1, hs2, Int.le_refl _, by show (0 : Int) < _; omega⟩
    simp only at hn
    split at hn
    · obtain ⟨x', e', t1, t2, _⟩ := truncate_effect H.cache.lawful hinv (n := 0) (by
        show (0 : Int) + st.c.bpb ≤ maxInt
        have := H.bpb_le
        rw [hb]; omega)
      rw [t1] at hn
      simp only [Outcome.bind_ret, Outcome.pure_eq, Outcome.ret.injEq, Prod.mk.injEq, Option.some.injEq] at hn
      rw [← hn.1]; exact t2
    · simp only [Outcome.pure_eq, Outcome.ret.injEq, Prod.mk.injEq, Option.some.injEq] at hn
      rw [← hn.1]; exact hinv

theorem writeOffset_ro {x : Stm S} (h : Flags.write x.flags = false) (b : Backend S) (buf : Bytes) :
    write b x buf = .ret (x, 0, some .notPermitted) := by
  unfold write; rw [h]; rfl

/-- Every call (with numbers that fit) returns, or is a WriteTo/ReadFrom still running; and what
is left is a valid stream; without write permission nothing changes. -/
theorem step_inv {b : Backend S} {bpb : Nat} {view : S → Bytes} (L : Lawful b bpb view) {x : Stm S}
    (h : Inv bpb view x) (c : Call) (hf : Fits b x c) :
    stepCall b x c = .timeout ∨
    ∃ x', stepCall b x c = .ret x' ∧ Inv bpb view x' ∧ x'.flags = x.flags ∧
      (Flags.write x.flags = false → Still view x x') := by
  cases c with
  | read buf =>
    right
    obtain ⟨x1, x', r, _, r2, r3, r4, _⟩ := read_effect L h buf hf
    exact ⟨x', by simp [stepCall, r2], r3, r4.flags, fun _ => r4⟩
  | readAt buf off =>
    right
    obtain ⟨x', r, r1, r2, r3, _⟩ := readAt_effect L h buf hf.2 hf.1
    exact ⟨x', by simp [stepCall, r1], r2, r3.flags, fun _ => r3⟩
  | seek off whence =>
    right
    obtain ⟨s1, s2⟩ := seek_effect (whence := whence) h hf.1 hf.2
    exact ⟨_, rfl, s1, s2.flags, fun _ => s2⟩
  | sync =>
    right
    obtain ⟨x', e, s1, s2, s3⟩ := sync_spec L h
    exact ⟨x', by simp [stepCall, s1], s2, s3.flags, fun _ => .synced s3⟩
  | truncate n =>
    right
    obtain ⟨x', e, t1, t2, t3, t4, t5⟩ := truncate_effect L h (n := n) hf
    exact ⟨x', by simp [stepCall, t1], t2, t3, fun hw => by rw [t5 hw]; exact .refl _ _⟩
  | write buf =>
    right
    obtain ⟨x', n, e, w1, w2, w3, w4⟩ := write_effect L h buf hf
    refine ⟨x', by simp [stepCall, w1], w2, w3, fun hw => ?_⟩
    rw [writeOffset_ro hw] at w1
    simp only [Outcome.ret.injEq, Prod.mk.injEq] at w1
    rw [← w1.1]; exact .refl _ _
  | writeAt buf off =>
    right
    obtain ⟨hf, h0⟩ := hf
    obtain ⟨o, rfl⟩ := Int.eq_ofNat_of_zero_le h0
    simp only [stepCall]
    unfold writeAt
    split
    · exact ⟨x, rfl, h, rfl, fun _ => .refl _ _⟩
    · obtain ⟨x', n, e, w1, w2, w3, _, w4⟩ := implWriteAt_effect L h buf hf
      rw [w1]
      refine ⟨x', rfl, w2, w3, fun hw => ?_⟩
      unfold implWriteAt at w1
      rw [hw] at w1
      simp only [Bool.not_false, if_true, Outcome.pure_eq, Outcome.ret.injEq, Prod.mk.injEq] at w1
      rw [← w1.1]; exact .refl _ _
  | writeTo k w fuel =>
    simp only [stepCall]
    unfold writeTo
    rw [writeToLoop_recording b k fuel _ x w []]
    have hlf := length_file h
    rcases writeToLoop_effect L k fuel (List.replicate x.st.c.bpb 0) x (w, []) 0 h
      (by rw [List.length_replicate]; exact h.bpb) (by have := hf; rw [← h.bpb]; exact this) (Int.le_refl _) (by
        rw [List.length_drop, hlf]; have := h.size_lt; omega) with
      ⟨t, _⟩ | ⟨x', w', n, e, ps, t1, t2, t3, _⟩
    · left; rw [t]; rfl
    · right; rw [t1]; exact ⟨x', rfl, t2, t3.flags, fun _ => t3⟩
  | readFrom src r bs fuel =>
    simp only [stepCall]
    unfold readFrom
    cases hw : Flags.write x.flags with
    | false => right; exact ⟨x, rfl, h, rfl, fun _ => .refl _ _⟩
    | true =>
      simp only [Bool.not_true, Bool.false_eq_true, if_false]
      rcases readFromLoop_inv L src bs fuel x r 0 h hf with t | ⟨x', r', n, e, t1, t2, t3⟩
      · left; rw [t]; rfl
      · right; rw [t1]; exact ⟨x', rfl, t2, t3, by simp⟩

theorem reachable_inv {b : Backend S} {bpb total : Nat} {view : S → Bytes} {s0 : S}
    (H : StreamSetup b bpb total view s0) {x : Stm S} (hr : Reachable b bpb total s0 x) : Inv bpb view x := by
  induction hr with
  | opened ha hn => exact new_inv H ha hn
  | call hr hf hs ih =>
    rcases step_inv H.cache.lawful ih _ hf with t | ⟨x', t1, t2, _⟩
    · rw [hs] at t; simp at t
    · rw [hs] at t1; cases t1; exact t2

end Disko.Stream

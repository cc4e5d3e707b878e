import Verif.Stream.Run
/-! What the calls of a stream leave alone in the storage. -/
namespace Disko.Stream
open Disko Disko.BlockCache Disko.BlockCache.Spec Disko.Stream.Spec

variable {S : Type}

/-- The blocks in `A` are there, not waiting to be flushed, and hold what they hold in `v`. -/
structure Untouched (A : Nat → Prop) (v : Bytes) (view : S → Bytes) (st : St S) : Prop where
  inside : ∀ j, A j → j < st.c.total
  clean : ∀ j, A j → isDirty st.c j = false
  bytes : ∀ k, A (k / st.c.bpb) → (view st.s)[k]? = v[k]?

theorem Untouched.loads {A : Nat → Prop} {v : Bytes} {view : S → Bytes} {st st' : St S} (u : Untouched A v view st)
    (w : WLoads view st st') : Untouched A v view st' :=
  ⟨by rw [w.total]; exact u.inside, by intro j hj; rw [isDirty, w.dirty]; exact u.clean j hj,
    by rw [w.bpb, w.view_eq]; exact u.bytes⟩

theorem flush_untouched {A : Nat → Prop} {v : Bytes} {b : Backend S} {bpb : Nat} {view : S → Bytes} (L : Lawful b bpb view)
    {st st' : St S} (h : Weak view st) (hb : st.c.bpb = bpb) (u : Untouched A v view st) {r : Except BlockCache.Err Unit}
    (hf : flush b st = .ret (st', r)) : Untouched A v view st' := by
  rcases flush_weak L st h hb with ⟨_, h2⟩ | ⟨_, st1, e, m, F, h2⟩
  · rw [h2] at hf
    simp only [Outcome.ret.injEq, Prod.mk.injEq] at hf
    rw [← hf.1]; exact u
  · rw [h2] at hf
    simp only [Outcome.ret.injEq, Prod.mk.injEq] at hf
    rw [← hf.1]
    refine ⟨by rw [F.total]; exact u.inside, ?_, ?_⟩
    · intro j hj; rw [F.dirty, u.clean j hj]; rfl
    · intro k hk
      rw [F.bpb] at hk
      have hcl := u.clean _ hk
      rw [F.stored k, if_neg (by rw [hcl]; simp)]
      · exact u.bytes k hk
      · rcases e with _ | e
        · exact .inl rfl
        · right
          intro he
          have := (F.fail e rfl).2.1
          rw [← he, hcl] at this
          simp at this

theorem sync_untouched {A : Nat → Prop} {v : Bytes} {b : Backend S} {bpb : Nat} {view : S → Bytes} (L : Lawful b bpb view)
    {x x' : Stm S} (h : Inv bpb view x) (u : Untouched A v view x.st) {e : Option SErr} (hs : sync b x = .ret (x', e)) :
    Untouched A v view x'.st := by
  unfold sync at hs
  rcases hf : flush b x.st with ⟨st', r⟩ | _ | _
  · have := flush_untouched L h.weak h.bpb u hf
    rw [hf] at hs
    rcases r with r | r <;>
    · simp only [Outcome.bind_ret, Outcome.pure_eq, Outcome.ret.injEq, Prod.mk.injEq] at hs
      rw [← hs.1]; exact this
  · rw [hf] at hs; simp at hs
  · rw [hf] at hs; simp at hs

/-- Truncate, as long as the blocks stay inside. -/
theorem truncate_untouched {A : Nat → Prop} {v : Bytes} {b : Backend S} {bpb : Nat} {view : S → Bytes} (L : Lawful b bpb view)
    {x x' : Stm S} (h : Inv bpb view x) (u : Untouched A v view x.st) {n : Int} (hf : FitsSize x n) {e : Option SErr}
    (ht : truncate b x n = .ret (x', e)) (hin : ∀ j, A j → j < x'.st.c.total) : Untouched A v view x'.st := by
  rcases truncate_spec L h hf with ⟨_, t⟩ | ⟨_, _, t⟩ | ⟨_, hn, _⟩ | ⟨_, hn, x1, t3, t4, t5⟩
  · rw [t] at ht; cases ht; exact u
  · rw [t] at ht; cases ht; exact u
  · rename_i hh
    obtain ⟨s', be, t, _, t2, _⟩ := hh
    rw [t] at ht; cases ht
    exact ⟨u.inside, u.clean, by intro k hk; simp only [t2]; exact u.bytes k hk⟩
  · -- the state after Resize
    have key : ∀ {x2 : Stm S}, x2 = x1 → (∀ j, A j → j < x2.st.c.total) → Untouched A v view x2.st := by
      intro x2 hx hin
      subst hx
      refine ⟨hin, ?_, ?_⟩
      · intro j hj
        rw [t4.dirty j (hin j hj), if_neg (by have := u.inside j hj; omega)]
        exact u.clean j hj
      · intro k hk
        rw [t4.bpb] at hk
        rw [← u.bytes k hk]
        have hk2 := hin _ hk
        have hk3 := u.inside _ hk
        rw [Nat.div_lt_iff_lt_mul h.weak.bpb_pos] at hk2 hk3
        exact t4.stored k hk2 (by have := h.weak.store; omega)
    rw [t5] at ht
    split at ht
    · obtain ⟨x2, e2, s1, s2, s3⟩ := sync_spec L t3
      rw [s1] at ht; cases ht
      exact sync_untouched L t3 (key rfl (by rw [← s3.total]; exact hin)) s1
    · cases ht
      exact key rfl hin

theorem writeTail_untouched {A : Nat → Prop} {v : Bytes} {b : Backend S} {bpb : Nat} {view : S → Bytes} (L : Lawful b bpb view)
    {x1 x' : Stm S} (h : Inv bpb view x1) (u : Untouched A v view x1.st) {fl : Flags.IOFlags} {buf : Bytes} {off p : Nat}
    (hpp : x1.st.c.bpb = p) (hfit : off + buf.length + p ≤ maxInt) {n : Int} {e : Option SErr}
    (hw : writeTail b x1 fl buf (off / p) (off % p) ((off + buf.length) / p) = .ret (x', n, e)) :
    Untouched A v view x'.st := by
  rcases writeTail_spec L fl h buf off p hpp hfit with ⟨_, n2⟩ | ⟨_, st', w, ⟨j, be, _, f2⟩ | ⟨i1, _, _, i4⟩⟩
  · rw [n2] at hw; cases hw; exact u
  · rw [f2] at hw; cases hw; exact u.loads w
  · have u2 : Untouched A v view (poked x1 st' off buf).st :=
      ⟨(u.loads w).inside, (u.loads w).clean, (u.loads w).bytes⟩
    rw [i4] at hw
    unfold finish at hw
    split at hw
    · rcases hs : sync b (poked x1 st' off buf) with ⟨x3, e3⟩ | _ | _
      · have := sync_untouched L i1 u2 hs
        rw [hs] at hw
        simp only [Outcome.bind_ret, Outcome.pure_eq, Outcome.ret.injEq, Prod.mk.injEq] at hw
        rw [← hw.1]; exact this
      · rw [hs] at hw; simp at hw
      · rw [hs] at hw; simp at hw
    · cases hw; exact u2

theorem implWriteAt_untouched {A : Nat → Prop} {v : Bytes} {b : Backend S} {bpb : Nat} {view : S → Bytes} (L : Lawful b bpb view)
    {x x' : Stm S} (h : Inv bpb view x) (u : Untouched A v view x.st) {buf : Bytes} {off : Nat}
    (hf : FitsWrite x buf.length off) {n : Int} {e : Option SErr} (hw : implWriteAt b x buf off = .ret (x', n, e)) :
    Untouched A v view x'.st := by
  rcases implWriteAt_spec (b := b) h buf (off := (off : Int)) (by omega) hf with ⟨a1, a2⟩ | ⟨a1, a2, a3⟩ | ⟨a1, a2, a3⟩
  · rw [a2] at hw; cases hw; exact u
  · rw [a3] at hw; cases hw; exact u
  · have a2' : (off : Int) + buf.length + x.st.c.bpb ≤ (maxInt : Nat) := a2
    simp only [Int.toNat_natCast] at a3
    rcases a3 with ⟨l1, l2⟩ | ⟨l1, l2⟩
    · rw [l2] at hw
      exact writeTail_untouched L h u rfl (by omega) hw
    · rw [l2] at hw
      obtain ⟨x1, e1, t1, t2, _⟩ := truncate_effect L h a2
      have hgrow : x.st.c.total ≤ x1.st.c.total ∧ x1.st.c.bpb = x.st.c.bpb := by
        rcases truncate_spec L h a2 with ⟨_, t⟩ | ⟨_, _, t⟩ | ⟨_, _, s', be, t, _⟩ | ⟨_, _, x2, t3, t4, t5⟩
        · rw [t] at t1; cases t1; exact ⟨Nat.le_refl _, rfl⟩
        · rw [t] at t1; cases t1; exact ⟨Nat.le_refl _, rfl⟩
        · rw [t] at t1; cases t1; exact ⟨Nat.le_refl _, rfl⟩
        · have hle : x.st.c.total ≤ x2.st.c.total := by
            rw [t4.total]
            have e0 : ((off : Int) + buf.length).toNat = off + buf.length := by omega
            rw [e0]
            exact Nat.le_trans l1 (Nat.div_le_div_right (by omega))
          rw [t5] at t1
          split at t1
          · obtain ⟨x3, e3, s1, s2, s3⟩ := sync_spec L t3
            rw [s1] at t1; cases t1
            exact ⟨by rw [s3.total]; exact hle, s3.bpb.trans t4.bpb⟩
          · cases t1; exact ⟨hle, t4.bpb⟩
      have u1 := truncate_untouched L h u a2 t1 (fun j hj => Nat.lt_of_lt_of_le (u.inside j hj) hgrow.1)
      rw [t1] at hw
      simp only [Outcome.bind_ret, afterGrow] at hw
      rcases e1 with _ | e1
      · exact writeTail_untouched L t2 u1 hgrow.2 (by omega) hw
      · simp only [Outcome.pure_eq, Outcome.ret.injEq, Prod.mk.injEq] at hw
        rw [← hw.1]; exact u1

theorem write_untouched {A : Nat → Prop} {v : Bytes} {b : Backend S} {bpb : Nat} {view : S → Bytes} (L : Lawful b bpb view)
    {x x' : Stm S} (h : Inv bpb view x) (u : Untouched A v view x.st) {buf : Bytes}
    (hf : FitsWrite x buf.length (writeOffset x)) {n : Int} {e : Option SErr} (hw : write b x buf = .ret (x', n, e)) :
    Untouched A v view x'.st := by
  cases hwf : Flags.write x.flags with
  | false => rw [writeOffset_ro hwf] at hw; cases hw; exact u
  | true =>
    obtain ⟨w1, w2⟩ := writeOffset_range h
    obtain ⟨o, ho⟩ := Int.eq_ofNat_of_zero_le w1
    rw [write_eq h buf hwf] at hw
    rw [ho] at hf w2 hw
    rcases hi : implWriteAt b { x with position := (o : Int) } buf o with ⟨x1, n1, e1⟩ | _ | _
    · have := implWriteAt_untouched (x := { x with position := (o : Int) }) L (h.pos (by omega) w2) u hf hi
      rw [hi] at hw
      simp only [Outcome.bind_ret, Outcome.pure_eq, Outcome.ret.injEq, Prod.mk.injEq] at hw
      rw [← hw.1]; exact this
    · rw [hi] at hw; simp at hw
    · rw [hi] at hw; simp at hw

theorem readFromLoop_untouched {A : Nat → Prop} {v : Bytes} {b : Backend S} {bpb : Nat} {view : S → Bytes} (L : Lawful b bpb view)
    {R : Type} (src : Source R) (bs fuel : Nat) (x : Stm S) (r : R) (tot : Int) (h : Inv bpb view x) (u : Untouched A v view x.st)
    (hf : FitsReadFrom b src bs x r) {x' : Stm S} {r' : R} {n : Int} {e : Option SErr}
    (hr : readFromLoop b src bs fuel x r tot = .ret (x', r', n, e)) : Untouched A v view x'.st := by
  induction fuel generalizing x r tot with
  | zero => simp [readFromLoop] at hr
  | succ fuel ih =>
    obtain ⟨_, _, hw, hnext⟩ := hf
    unfold readFromLoop at hr
    rcases hre : src.read r bs with ⟨r2, chunk, re⟩
    rw [hre] at hw hnext hr
    simp only at hw hnext hr
    obtain ⟨x2, m, e2, w1, w2, _⟩ := write_effect L h chunk hw
    have u2 := write_untouched L h u hw w1
    rw [w1] at hr
    simp only [Outcome.bind_ret] at hr
    rcases re with _ | re
    · rcases e2 with _ | e2
      · exact ih x2 r2 _ w2 u2 (hnext x2 m w1) hr
      · simp only [Outcome.pure_eq, Outcome.ret.injEq, Prod.mk.injEq] at hr
        rw [← hr.1]; exact u2
    · cases re <;>
      · simp only [Outcome.pure_eq, Outcome.ret.injEq, Prod.mk.injEq] at hr
        rw [← hr.1]; exact u2

theorem readAt_untouched {A : Nat → Prop} {v : Bytes} {b : Backend S} {bpb : Nat} {view : S → Bytes} (L : Lawful b bpb view)
    {x x' : Stm S} (h : Inv bpb view x) (u : Untouched A v view x.st) {buf : Bytes} {off : Int} (h0 : 0 ≤ off)
    (hf : FitsRead x buf.length) {r : ReadRes} (hr : readAt b x buf off = .ret (x', r)) :
    Untouched A v view x'.st ∧ x'.st.c.total = x.st.c.total := by
  rcases readAt_spec L h buf h0 hf with ⟨_, a⟩ | ⟨_, _, a⟩ | ⟨_, _, _, a⟩ | ⟨_, _, _, st', w, a | ⟨j, be, _, a⟩⟩
  · rw [a] at hr; cases hr; exact ⟨u, rfl⟩
  · rw [a] at hr; cases hr; exact ⟨u, rfl⟩
  · rw [a] at hr; cases hr; exact ⟨u, rfl⟩
  · rw [a] at hr; cases hr; exact ⟨u.loads w, w.total⟩
  · rw [a] at hr; cases hr; exact ⟨u.loads w, w.total⟩

theorem read_untouched {A : Nat → Prop} {v : Bytes} {b : Backend S} {bpb : Nat} {view : S → Bytes} (L : Lawful b bpb view)
    {x x' : Stm S} (h : Inv bpb view x) (u : Untouched A v view x.st) {buf : Bytes}
    (hf : FitsRead x buf.length) {r : ReadRes} (hr : read b x buf = .ret (x', r)) : Untouched A v view x'.st := by
  obtain ⟨x1, x2, r2, a1, a2, _, _, a5⟩ := read_effect L h buf hf
  have := (readAt_untouched L h u h.pos_nn hf a1).1
  rw [a2] at hr; cases hr
  rw [a5]; exact this

theorem writeToLoop_untouched {A : Nat → Prop} {v : Bytes} {b : Backend S} {bpb : Nat} {view : S → Bytes} (L : Lawful b bpb view)
    {W : Type} (k : Compression.Sink W) (fuel : Nat) (buffer : Bytes) (x : Stm S) (w : W) (tot : Int) (h : Inv bpb view x)
    (u : Untouched A v view x.st) (hbuf : buffer.length = bpb) (hf : FitsRead x bpb) {x' : Stm S} {w' : W} {n : Int} {e : Option SErr}
    (hr : writeToLoop b k fuel buffer x w tot = .ret (x', w', n, e)) : Untouched A v view x'.st := by
  induction fuel generalizing buffer x w tot with
  | zero => simp [writeToLoop] at hr
  | succ fuel ih =>
    have hf' : FitsRead x buffer.length := by rw [hbuf]; exact hf
    obtain ⟨x1, x2, r, a1, a2, a3, a4, _⟩ := read_effect L h buffer hf'
    have u2 := read_untouched L h u hf' a2
    unfold writeToLoop at hr
    rw [a2] at hr
    simp only [Outcome.bind_ret] at hr
    split at hr
    · cases hr; exact u2
    · cases hr; exact u2
    · rename_i hn
      have hlen : r.buf.length = bpb := by
        rcases readAt_spec L h buffer h.pos_nn hf' with ⟨_, a⟩ | ⟨_, _, a⟩ | ⟨_, _, _, a⟩ | ⟨_, _, _, st', w, a | ⟨j, be, _, a⟩⟩ <;>
        · rw [a] at a1; cases a1
          first
          | exact hbuf
          | (rw [goCopy_length]; exact hbuf)
      exact ih r.buf x2 _ _ a3 u2 hlen (by unfold FitsRead; rw [a4.capacity]; exact hf) hr

/-- No call touches the blocks, as long as they stay inside. -/
theorem step_untouched {A : Nat → Prop} {v : Bytes} {b : Backend S} {bpb : Nat} {view : S → Bytes} (L : Lawful b bpb view)
    {x x' : Stm S} (h : Inv bpb view x) (u : Untouched A v view x.st) (c : Call) (hf : Fits b x c)
    (hs : stepCall b x c = .ret x') (hin : ∀ j, A j → j < x'.st.c.total) : Untouched A v view x'.st := by
  have fst : ∀ {α : Type} {o : Outcome (Stm S × α)}, (do let (x', _) ← o; return x') = .ret x' → ∃ r, o = .ret (x', r) := by
    intro α o ho
    rcases o with ⟨y, r⟩ | _ | _
    · simp only [Outcome.bind_ret, Outcome.pure_eq, Outcome.ret.injEq] at ho
      exact ⟨r, by rw [ho]⟩
    · simp at ho
    · simp at ho
  cases c with
  | read buf => obtain ⟨r, hr⟩ := fst hs; exact read_untouched L h u hf hr
  | readAt buf off => obtain ⟨r, hr⟩ := fst hs; exact (readAt_untouched L h u hf.2 hf.1 hr).1
  | seek off whence =>
    simp only [stepCall, Outcome.ret.injEq] at hs
    rw [← hs]
    have : (seek x off whence).1.st = x.st := by
      unfold seek
      simp only
      repeat' split
      all_goals rfl
    rw [this]; exact u
  | sync => obtain ⟨r, hr⟩ := fst hs; exact sync_untouched L h u hr
  | truncate n => obtain ⟨r, hr⟩ := fst hs; exact truncate_untouched L h u hf hr hin
  | write buf => obtain ⟨⟨n, e⟩, hr⟩ := fst hs; exact write_untouched L h u hf hr
  | writeAt buf off =>
    obtain ⟨⟨n, e⟩, hr⟩ := fst hs
    obtain ⟨o, rfl⟩ := Int.eq_ofNat_of_zero_le hf.2
    unfold writeAt at hr
    split at hr
    · cases hr; exact u
    · exact implWriteAt_untouched L h u hf.1 hr
  | writeTo k w fuel =>
    obtain ⟨⟨w', n, e⟩, hr⟩ := fst hs
    exact writeToLoop_untouched L k fuel _ x w 0 h u (by rw [List.length_replicate]; exact h.bpb)
      (by have := hf; rw [← h.bpb]; exact this) hr
  | readFrom src r bs fuel =>
    obtain ⟨⟨r', n, e⟩, hr⟩ := fst hs
    unfold readFrom at hr
    split at hr
    · cases hr; exact u
    · exact readFromLoop_untouched L src bs fuel x r 0 h u hf hr

end Disko.Stream

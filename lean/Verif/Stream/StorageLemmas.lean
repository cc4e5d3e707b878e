import Verif.Stream.Storage
import Verif.Stream.MachineLemmas
/-! Proof that the storage below a stream is the storage below its reference machine (for C149). -/
namespace Disko.Stream.Reference
open Disko Disko.BlockCache Disko.BlockCache.Spec Disko.Stream Disko.Stream.Spec

variable {S : Type}

theorem getElem?_held (view : S → Bytes) (st : St S) (k : Nat) : (held view st)[k]? =
    if k < st.c.total * st.c.bpb then some (if isDirty st.c (k / st.c.bpb) then none else (view st.s)[k]?) else none := by
  unfold held
  rw [List.getElem?_map, length_contents]
  by_cases hk : k < st.c.total * st.c.bpb
  · rw [List.getElem?_range hk, if_pos hk]; rfl
  · rw [if_neg hk, List.getElem?_eq_none (by rw [List.length_range]; omega)]; rfl

theorem length_held (view : S → Bytes) (st : St S) : (held view st).length = st.c.total * st.c.bpb := by
  unfold held; rw [List.length_map, List.length_range, length_contents]

theorem held_eq {view : S → Bytes} {st st' : St S} (ht : st'.c.total = st.c.total) (hb : st'.c.bpb = st.c.bpb) (hd : st'.c.dirty = st.c.dirty)
    (hv : view st'.s = view st.s) : held view st' = held view st := by
  apply List.ext_getElem?
  intro k
  rw [getElem?_held, getElem?_held, ht, hb, hv]
  unfold isDirty
  rw [hd]

theorem held_loads {view : S → Bytes} {st st' : St S} (w : WLoads view st st') : held view st' = held view st :=
  held_eq w.total w.bpb w.dirty w.view_eq

theorem getElem?_flushed (object : Bytes) (s : Stored) (k : Nat) : (Stored.flushed object s)[k]? =
    match object[k]?, s[k]? with
    | some a, some h => some (some (h.getD a))
    | _, _ => none := by
  unfold Stored.flushed
  rw [List.getElem?_zipWith]
  cases object[k]? <;> cases s[k]? <;> rfl

section
variable {bpb : Nat} {view : S → Bytes} {x : Stm S} {b : Backend S} (L : Lawful b bpb view) (R : AllReliable b)
include L R

theorem sync_held (h : Inv bpb view x) {x' : Stm S} {e : Option SErr} (hs : sync b x = .ret (x', e)) :
    held view x'.st = Stored.flushed (contents view x.st) (held view x.st) := by
  obtain ⟨x2, e2, a1, a2, a3⟩ := sync_spec L h
  rw [hs] at a1
  cases a1
  have hbp := h.weak.bpb_pos
  apply List.ext_getElem?
  intro k
  rw [getElem?_flushed, getElem?_held, getElem?_held, getElem?_contents, a3.total, a3.bpb]
  by_cases hk : k < x.st.c.total * x.st.c.bpb
  · rw [if_pos hk, if_pos hk, if_pos hk]
    have hj : k / x.st.c.bpb < x.st.c.total := by rw [Nat.div_lt_iff_lt_mul hbp]; exact hk
    have he : e = none := by
      rcases e with _ | z
      · rfl
      · rcases a3.err z rfl with ⟨_, h0, _⟩ | ⟨_, hc⟩
        · rw [h0] at hk; omega
        · exact absurd hc (no_callback R)
    rw [a3.clean he _ hj, a3.stored he k]
    simp only [hk, true_and]
    cases hd : isDirty x.st.c (k / x.st.c.bpb) with
    | true =>
      simp only [if_true, Bool.false_eq_true, if_false, Option.getD_none]
      unfold byteAt
      rw [if_pos (h.weak.dirty_loaded _ hj hd), List.getD_eq_getElem?_getD,
        List.getElem?_eq_getElem (show k < x.st.c.data.length by rw [h.weak.data_len]; exact hk)]
      rfl
    | false =>
      simp only [Bool.false_eq_true, if_false]
      rw [List.getElem?_eq_getElem (show k < (view x.st.s).length by have := h.weak.store; omega)]
      rfl
  · rw [if_neg hk, if_neg hk]

omit L R in
theorem resized_held (h : Inv bpb view x) {n : Int} {x1 : Stm S} (r : Resized view x n x1) :
    held view x1.st = Stored.resized (held view x.st) (whole x.st.c.bpb n.toNat) := by
  have hbp := h.weak.bpb_pos
  have hn : whole x.st.c.bpb n.toNat = x1.st.c.total * x.st.c.bpb := by rw [r.total]; rfl
  rw [hn]
  apply List.ext_getElem?
  intro k
  unfold Stored.resized
  rw [getElem?_held, r.bpb, List.getElem?_append, List.length_take, length_held, List.getElem?_take, getElem?_held, List.getElem?_replicate]
  by_cases hk : k < x1.st.c.total * x.st.c.bpb
  · have hj : k / x.st.c.bpb < x1.st.c.total := by rw [Nat.div_lt_iff_lt_mul hbp]; exact hk
    rw [if_pos hk, r.dirty _ hj]
    by_cases hk2 : k < x.st.c.total * x.st.c.bpb
    · have hj2 : k / x.st.c.bpb < x.st.c.total := by rw [Nat.div_lt_iff_lt_mul hbp]; exact hk2
      have hv := h.weak.store
      rw [if_pos (show k < min _ _ by omega), if_pos hk, if_pos hk2, if_neg (show ¬ x.st.c.total ≤ k / x.st.c.bpb by omega), r.stored k hk (by omega)]
    · have hj2 : x.st.c.total ≤ k / x.st.c.bpb := by rw [Nat.le_div_iff_mul_le hbp]; omega
      rw [if_neg (show ¬ k < min _ _ by omega), if_pos hj2,
        if_pos (show k - min (x1.st.c.total * x.st.c.bpb) (x.st.c.total * x.st.c.bpb) < x1.st.c.total * x.st.c.bpb - x.st.c.total * x.st.c.bpb by omega)]
      rfl
  · rw [if_neg hk]
    by_cases hk2 : k < x.st.c.total * x.st.c.bpb
    · rw [if_neg (show ¬ k < min _ _ by omega), if_neg (by omega)]
    · rw [if_neg (show ¬ k < min _ _ by omega), if_neg (by omega)]

theorem truncate_held (h : Inv bpb view x) {n : Int} (hf : FitsSize x n) {x' : Stm S} {e : Option SErr} (ht : truncate b x n = .ret (x', e)) :
    held view x'.st = Stored.truncate (shown view x) (held view x.st) n := by
  have c3 : shown view x' = ((shown view x).truncate n).1 := by
    obtain ⟨x9, c1, c2, c3⟩ := truncate_machine L R h hf
    rw [ht] at c1
    cases c1
    exact c3
  unfold Stored.truncate
  rw [← c3]
  show _ = if Flags.write x.flags = false ∨ n < 0 then _ else if Flags.synchronous x.flags = true then
    Stored.flushed (contents view x'.st) (Stored.resized (held view x.st) (whole x.st.c.bpb n.toNat)) else Stored.resized (held view x.st) (whole x.st.c.bpb n.toNat)
  rcases truncate_spec L h hf with ⟨f1, a⟩ | ⟨f1, g1, a⟩ | ⟨f1, _, _, be, _, ⟨m, h⟩, _⟩ | ⟨f1, g1, x1, i1, r1, a⟩
  · rw [a] at ht; cases ht; rw [if_pos (.inl f1)]
  · rw [a] at ht; cases ht; rw [if_pos (.inr g1)]
  · rw [R.resize] at h; cases h
  · rw [if_neg (by rw [f1]; simp; omega), ← resized_held h r1]
    cases hs : Flags.synchronous x.flags with
    | true =>
      rw [hs] at a
      simp only [if_true] at a ⊢
      rw [a] at ht
      rw [sync_held L R i1 ht]
      obtain ⟨x2, e2, s1, s2, s3⟩ := sync_spec L i1
      rw [ht] at s1
      cases s1
      rw [s3.contents]
    | false =>
      rw [hs] at a
      simp only [Bool.false_eq_true, if_false] at a ⊢
      rw [a] at ht
      cases ht
      rfl

theorem writeTail_held {x1 : Stm S} (h : Inv bpb view x1) {fl : Flags.IOFlags} {buf : Bytes} {off p : Nat}
    (hpp : x1.st.c.bpb = p) (hfit : off + buf.length + p ≤ maxInt) {x' : Stm S} {n : Int} {e : Option SErr}
    (hw : writeTail b x1 fl buf (off / p) (off % p) ((off + buf.length) / p) = .ret (x', n, e)) :
    held view x'.st = if e = none ∧ Flags.synchronous fl = true then Stored.flushed (contents view x'.st) (held view x1.st) else held view x1.st := by
  rcases writeTail_spec L fl h buf off p hpp hfit with ⟨_, n2⟩ | ⟨_, st', w, ⟨j, be, ⟨_, s, q, hq⟩, _⟩ | ⟨i1, _, _, i4⟩⟩
  · rw [n2] at hw; cases hw; rw [if_neg (by simp)]
  · rw [R.cache.fetch] at hq; cases hq
  · have hp : held view (poked x1 st' off buf).st = held view x1.st :=
      (held_eq (st := st') (st' := (poked x1 st' off buf).st) rfl rfl rfl rfl).trans (held_loads w)
    rw [i4] at hw
    unfold finish at hw
    cases hs : Flags.synchronous fl with
    | true =>
      rw [hs] at hw
      simp only [if_true] at hw
      obtain ⟨x3, e3, s1, s2, s3⟩ := sync_spec L i1
      have hh := sync_held L R i1 s1
      rw [s1] at hw
      simp only [Outcome.bind_ret, Outcome.pure_eq, Outcome.ret.injEq, Prod.mk.injEq] at hw
      obtain ⟨rfl, _, rfl⟩ := hw
      rw [hh, hp, s3.contents]
      rcases e3 with _ | z
      · rw [if_pos ⟨rfl, rfl⟩]
      · rcases s3.err z rfl with ⟨_, h0, _⟩ | ⟨_, hc⟩
        · -- nothing there
          rw [if_neg (by simp)]
          have h0' : x1.st.c.total = 0 := by rw [← w.total]; exact h0
          apply List.ext_getElem?
          intro k
          rw [getElem?_flushed, getElem?_held, h0']
          simp
        · exact absurd hc (no_callback R)
    | false =>
      rw [hs] at hw
      simp only [Bool.false_eq_true, if_false] at hw
      cases hw
      rw [if_neg (by simp), hp]

theorem put_held (h : Inv bpb view x) {buf : Bytes} {off : Nat} (hf : FitsWrite x buf.length off)
    {x' : Stm S} {n : Int} {e : Option SErr} (hw : implWriteAt b x buf off = .ret (x', n, e)) :
    held view x'.st = Stored.put (shown view x) (held view x.st) buf off := by
  obtain ⟨x9, n9, e9, a1, a2, a3, p1, a4⟩ := implWriteAt_effect L h buf hf
  obtain ⟨q1, q2⟩ := put_machine R h buf off hf.2.2 a2 a3 a4
  rw [hw] at a1
  cases a1
  have hobj : ((shown view x).put buf off).1.object = contents view x'.st := by
    have := congrArg Machine.object q2
    exact this.symm
  have hM : (maxInt : Int) = 2 ^ 63 - 1 := by unfold maxInt; omega
  have hbp := h.weak.bpb_pos
  unfold Stored.put
  simp only
  rw [hobj, q1]
  show _ = if Flags.write x.flags = false ∨ 2 ^ 63 ≤ off + buf.length then held view x.st else
    if e = none ∧ Flags.synchronous x.flags = true then
      Stored.flushed (contents view x'.st) (if off + buf.length < (contents view x.st).length then held view x.st else
        if Flags.synchronous x.flags = true then Stored.flushed ((shown view x).grow (off + buf.length)).object (Stored.resized (held view x.st) (whole x.st.c.bpb (off + buf.length)))
        else Stored.resized (held view x.st) (whole x.st.c.bpb (off + buf.length)))
    else (if off + buf.length < (contents view x.st).length then held view x.st else
        if Flags.synchronous x.flags = true then Stored.flushed ((shown view x).grow (off + buf.length)).object (Stored.resized (held view x.st) (whole x.st.c.bpb (off + buf.length)))
        else Stored.resized (held view x.st) (whole x.st.c.bpb (off + buf.length)))
  rcases implWriteAt_spec (b := b) h buf (off := (off : Int)) (by omega) hf with ⟨f1, b2⟩ | ⟨f1, b2, b3⟩ | ⟨f1, b2, b3⟩
  · rw [b2] at hw; cases hw; rw [if_pos (.inl f1)]
  · rw [b3] at hw; cases hw; rw [if_pos (.inr (by omega))]
  · have b2' : (off : Int) + buf.length + x.st.c.bpb ≤ (maxInt : Nat) := b2
    simp only [Int.toNat_natCast] at b3
    rw [if_neg (by rw [f1]; simp; omega)]
    have hlast : (off + buf.length < (contents view x.st).length) ↔ (off + buf.length) / x.st.c.bpb < x.st.c.total := by
      rw [length_contents, Nat.div_lt_iff_lt_mul hbp]
    rcases b3 with ⟨l1, l2⟩ | ⟨l1, l2⟩
    · rw [l2] at hw
      rw [if_pos (hlast.2 l1)]
      exact writeTail_held L R h rfl (by omega) hw
    · have hnl : ¬ off + buf.length < (contents view x.st).length := by rw [hlast]; omega
      rw [if_neg hnl]
      rw [l2] at hw
      obtain ⟨x1, t1, t2, t3⟩ := truncate_machine L R h b2
      have th := truncate_held L R h b2 t1
      have he0 : ((off : Int) + buf.length).toNat = off + buf.length := by omega
      have hgr : ((shown view x).grow (off + buf.length)).object = ((shown view x).truncate ((off : Int) + buf.length)).1.object := by
        unfold Machine.grow Machine.truncate
        have hcw : ¬ (!(shown view x).canWrite) = true := by show ¬ (!Flags.write x.flags) = true; rw [f1]; decide
        rw [if_neg (show ¬ off + buf.length < (shown view x).object.length from hnl), if_neg hcw, if_neg (by omega), he0]
      have hgrown : held view x1.st = if Flags.synchronous x.flags = true then Stored.flushed ((shown view x).grow (off + buf.length)).object (Stored.resized (held view x.st) (whole x.st.c.bpb (off + buf.length)))
          else Stored.resized (held view x.st) (whole x.st.c.bpb (off + buf.length)) := by
        rw [th, hgr]
        unfold Stored.truncate
        have hcw : ¬ ((shown view x).canWrite = false ∨ (off : Int) + buf.length < 0) := by
          show ¬ (Flags.write x.flags = false ∨ _)
          rw [f1]; simp; omega
        rw [if_neg hcw, he0]
        rfl
      rw [← hgrown]
      rw [t1] at hw
      simp only [Outcome.bind_ret, afterGrow] at hw
      have hb1 : x1.st.c.bpb = x.st.c.bpb := t2.bpb.trans h.bpb.symm
      generalize ((shown view x).truncate ((off : Int) + buf.length)).2 = tz at hw
      rcases tz with _ | z
      · exact writeTail_held L R t2 hb1 (by omega) hw
      · cases hw
        rw [if_neg (by simp)]

omit L R in
theorem put_pos (m : Machine) (s : Stored) (buf : Bytes) (off p : Nat) : Stored.put { m with pos := p } s buf off = Stored.put m s buf off := by
  have h2 : (({ m with pos := p } : Machine).put buf off).2 = (m.put buf off).2 ∧ (({ m with pos := p } : Machine).put buf off).1.object = (m.put buf off).1.object := by
    unfold Machine.put Machine.grow
    by_cases h0 : off + buf.length < m.object.length
    · simp only [if_pos h0]
      repeat' split
      all_goals exact ⟨rfl, rfl⟩
    · simp only [if_neg h0]
      repeat' split
      all_goals exact ⟨rfl, rfl⟩
  have h3 : (({ m with pos := p } : Machine).grow (off + buf.length)).object = (m.grow (off + buf.length)).object := by
    unfold Machine.grow
    by_cases h0 : off + buf.length < m.object.length
    · simp only [if_pos h0]
    · simp only [if_neg h0]
  unfold Stored.put
  simp only
  rw [h2.1, h2.2, h3]

theorem write_held (h : Inv bpb view x) {buf : Bytes} (hf : FitsWrite x buf.length (writeOffset x))
    {x' : Stm S} {n : Int} {e : Option SErr} (hw : write b x buf = .ret (x', n, e)) :
    held view x'.st = Stored.write (shown view x) (held view x.st) buf := by
  have hwe : writeOffset x = (((if (shown view x).appends then (shown view x).size else (shown view x).pos : Nat)) : Int) := by
    unfold writeOffset
    show _ = (((if Flags.append x.flags = true then x.size.toNat else x.position.toNat : Nat)) : Int)
    have := h.size_nn
    have := h.pos_nn
    split <;> omega
  unfold Stored.write
  generalize ho : (if (shown view x).appends then (shown view x).size else (shown view x).pos) = o at hwe
  cases hwf : Flags.write x.flags with
  | false =>
    rw [writeOffset_ro hwf] at hw
    cases hw
    unfold Stored.put
    simp only
    rw [if_pos (.inl (show (shown view x).canWrite = false from hwf))]
  | true =>
    obtain ⟨w1, w2⟩ := writeOffset_range h
    rw [write_eq h buf hwf] at hw
    rw [hwe] at hf w2 hw
    rcases hi : implWriteAt b { x with position := (o : Int) } buf o with ⟨x1, n1, e1⟩ | _ | _
    · have key := put_held (x := { x with position := (o : Int) }) L R (h.pos (by omega) w2) hf hi
      rw [hi] at hw
      simp only [Outcome.bind_ret, Outcome.pure_eq, Outcome.ret.injEq, Prod.mk.injEq] at hw
      rw [← hw.1]
      exact key.trans (put_pos (shown view x) _ buf o o)
    · rw [hi] at hw; simp at hw
    · rw [hi] at hw; simp at hw

omit R in
theorem readAt_held (h : Inv bpb view x) {buf : Bytes} {off : Int} (h0 : 0 ≤ off) (hf : FitsRead x buf.length) {x' : Stm S} {r : ReadRes}
    (hr : readAt b x buf off = .ret (x', r)) : held view x'.st = held view x.st := by
  rcases readAt_spec L h buf h0 hf with ⟨_, a⟩ | ⟨_, _, a⟩ | ⟨_, _, _, a⟩ | ⟨_, _, _, st', w, a | ⟨j, be, _, a⟩⟩
  · rw [a] at hr; cases hr; rfl
  · rw [a] at hr; cases hr; rfl
  · rw [a] at hr; cases hr; rfl
  · rw [a] at hr; cases hr; exact held_loads w
  · rw [a] at hr; cases hr; exact held_loads w

theorem read_held (h : Inv bpb view x) {buf : Bytes} (hf : FitsRead x buf.length) {x' : Stm S} {r : ReadRes}
    (hr : read b x buf = .ret (x', r)) : held view x'.st = held view x.st := by
  obtain ⟨x1, x2, r2, a1, a2, _, _, a5⟩ := read_effect L h buf hf
  have := readAt_held L h h.pos_nn hf a1
  rw [a2] at hr; cases hr
  rw [a5]; exact this

theorem writeToLoop_held {W : Type} (k : Compression.Sink W) : ∀ (fuel : Nat) (buffer : Bytes) (x : Stm S) (w : W) (tot : Int), Inv bpb view x →
    buffer.length = bpb → FitsRead x bpb → ∀ {x' : Stm S} {w' : W} {n : Int} {e : Option SErr},
    writeToLoop b k fuel buffer x w tot = .ret (x', w', n, e) → held view x'.st = held view x.st := by
  intro fuel
  induction fuel with
  | zero => intro buffer x w tot _ _ _ x' w' n e hr; simp [writeToLoop] at hr
  | succ fuel ih =>
    intro buffer x w tot h hbuf hf x' w' n e hr
    have hf' : FitsRead x buffer.length := by rw [hbuf]; exact hf
    obtain ⟨x1, x2, r, a1, a2, a3, a4, _⟩ := read_effect L h buffer hf'
    have u2 := read_held L R h hf' a2
    unfold writeToLoop at hr
    rw [a2] at hr
    simp only [Outcome.bind_ret] at hr
    split at hr
    · cases hr; exact u2
    · cases hr; exact u2
    · have hlen : r.buf.length = bpb := by
        rcases readAt_spec L h buffer h.pos_nn hf' with ⟨_, a⟩ | ⟨_, _, a⟩ | ⟨_, _, _, a⟩ | ⟨_, _, _, st', w, a | ⟨j, be, _, a⟩⟩ <;>
        · rw [a] at a1; cases a1
          first
          | exact hbuf
          | (rw [goCopy_length]; exact hbuf)
      exact (ih r.buf x2 _ _ a3 hlen (by unfold FitsRead; rw [a4.capacity]; exact hf) hr).trans u2

theorem readFromLoop_held {Q : Type} (src : Source Q) (bs : Nat) : ∀ (fuel : Nat) (x : Stm S) (q : Q) (tot : Int), Inv bpb view x →
    FitsReadFrom b src bs x q → ∀ {x' : Stm S} {q' : Q} {n : Int} {e : Option SErr}, readFromLoop b src bs fuel x q tot = .ret (x', q', n, e) →
    held view x'.st = Stored.readFrom src bs fuel (shown view x) q (held view x.st) := by
  intro fuel
  induction fuel with
  | zero => intro x q tot _ _ x' q' n e hr; simp [readFromLoop] at hr
  | succ fuel ih =>
    intro x q tot h hf x' q' n e hr
    rcases hf with ⟨_, _, hw, next⟩
    obtain ⟨x1, a1, a2, a3⟩ := write_machine L R h _ hw
    have key := write_held L R h hw a1
    unfold readFromLoop at hr
    unfold Stored.readFrom
    simp only at hr ⊢
    rw [a1] at hr
    simp only [Outcome.bind_ret] at hr
    rcases hm : (shown view x).write (src.read q bs).2.1 with ⟨m', n1, e1⟩
    rw [hm] at a1 a3 hr
    simp only at a1 a3 hr ⊢
    rcases hre : (src.read q bs).2.2 with _ | re
    · rw [hre] at hr
      rcases e1 with _ | e1
      · rw [if_pos ⟨rfl, rfl⟩, ← key, ← a3]
        exact ih x1 _ _ a2 (next _ _ a1) hr
      · rw [if_neg (by simp)]
        cases hr; exact key
    · rw [hre] at hr
      rw [if_neg (by simp)]
      cases re <;> (cases hr; exact key)

/-- One call. -/
theorem call_held (h : Inv bpb view x) (c : Call) (hf : Fits b x c) {x' : Stm S} {a : Answer} (hc : answerCall b x c = .ret (x', a)) :
    held view x'.st = Stored.call (shown view x) (held view x.st) c := by
  have fst : ∀ {α : Type} {o : Outcome (Stm S × α)} {f : α → Answer}, (do let (x', r) ← o; return (x', f r)) = Outcome.ret (x', a) → ∃ r, o = .ret (x', r) := by
    intro α o f ho
    rcases o with ⟨y, r⟩ | _ | _
    · simp only [Outcome.bind_ret, Outcome.pure_eq, Outcome.ret.injEq, Prod.mk.injEq] at ho
      exact ⟨r, by rw [ho.1]⟩
    · simp at ho
    · simp at ho
  cases c with
  | read buf => obtain ⟨r, hr⟩ := fst hc; exact read_held L R h hf hr
  | readAt buf off => obtain ⟨r, hr⟩ := fst hc; exact readAt_held L h hf.2 hf.1 hr
  | seek off whence =>
    cases hc
    have : (seek x off whence).1.st = x.st := by
      unfold seek
      simp only
      repeat' split
      all_goals rfl
    rw [this]; rfl
  | sync => obtain ⟨r, hr⟩ := fst hc; exact sync_held L R h hr
  | truncate n => obtain ⟨r, hr⟩ := fst hc; exact truncate_held L R h hf hr
  | write buf =>
    obtain ⟨⟨n, e⟩, hr⟩ := fst (α := Int × Option SErr) (f := fun r => .wrote r.1 r.2) hc
    exact write_held L R h hf hr
  | writeAt buf off =>
    obtain ⟨⟨n, e⟩, hr⟩ := fst (α := Int × Option SErr) (f := fun r => .wrote r.1 r.2) hc
    obtain ⟨o, rfl⟩ := Int.eq_ofNat_of_zero_le hf.2
    simp only [Stored.call]
    unfold Stored.writeAt
    unfold writeAt at hr
    show _ = if Flags.append x.flags = true then _ else _
    split at hr
    · cases hr
      rename_i ha
      rw [if_pos ha]
    · rename_i ha
      rw [if_neg ha]
      exact put_held L R h hf.1 hr
  | writeTo k w fuel =>
    obtain ⟨⟨w', n, e⟩, hr⟩ := fst (α := (_ × List Bytes) × Int × Option SErr) (f := fun r => .copied r.1.2 r.2.1 r.2.2) hc
    unfold writeTo at hr
    exact writeToLoop_held L R (recording k) fuel _ x (w, []) 0 h (by rw [List.length_replicate]; exact h.bpb) (by rw [← h.bpb]; exact hf) hr
  | readFrom src q bs fuel =>
    obtain ⟨⟨q', n, e⟩, hr⟩ := fst (α := _ × Int × Option SErr) (f := fun r => .wrote r.2.1 r.2.2) hc
    unfold readFrom at hr
    simp only [Stored.call]
    show _ = if Flags.write x.flags = true then _ else _
    cases hw : Flags.write x.flags with
    | false =>
      rw [hw] at hr
      cases hr
      rfl
    | true =>
      rw [hw] at hr
      simp only [Bool.not_true, Bool.false_eq_true, if_false, if_true] at hr ⊢
      exact readFromLoop_held L R src bs fuel x q 0 h hf hr

/-- A whole history. -/
theorem ran_held (cs : List Call) : ∀ {x : Stm S}, Inv bpb view x → FitsAll b x cs → ∀ {x' as}, ran b x cs = .ret (x', as) →
    held view x'.st = Stored.run (shown view x) (held view x.st) cs := by
  induction cs with
  | nil => intro x _ _ x' as hr; cases hr; rfl
  | cons c cs ih =>
    intro x h hf x' as hr
    rcases call_machine L R h c hf.1 with ⟨a, e⟩ | ⟨x1, r, a, i1, e⟩
    · simp only [ran, a] at hr
      cases hr
    · have hc := call_held L R h c hf.1 a
      simp only [ran, a, Outcome.bind_ret] at hr
      rcases hr2 : ran b x1 cs with ⟨x2, as2⟩ | _ | _
      · rw [hr2] at hr
        simp only [Outcome.bind_ret, Outcome.pure_eq, Outcome.ret.injEq, Prod.mk.injEq] at hr
        obtain ⟨rfl, _⟩ := hr
        simp only [Stored.run, e]
        rw [← hc]
        exact ih i1 (hf.2 _ _ a) hr2
      · rw [hr2] at hr; cases hr
      · rw [hr2] at hr; cases hr

end

end Disko.Stream.Reference

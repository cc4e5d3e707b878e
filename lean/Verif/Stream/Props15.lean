import Verif.Stream.MachineLemmas
import Verif.Stream.Retry
import Verif.Stream.Props12
/-! C158: repeating a failed call on an open stream. -/
namespace Disko.Stream.Reference
open Disko Disko.BlockCache Disko.BlockCache.Spec Disko.Stream Disko.Stream.Spec

variable {S : Type}

/-! ### The machine: doing a call again -/

theorem fit_whole {d : Bytes} {n : Nat} : (fit d n).length = n := by
  unfold fit
  rw [List.length_append, List.length_take, List.length_replicate]; omega

theorem fit_self {d : Bytes} : fit d d.length = d := by unfold fit; simp

theorem fit_fit {d : Bytes} {n : Nat} : fit (fit d n) n = fit d n := by
  have h := fit_whole (d := d) (n := n)
  generalize fit d n = e at h
  subst h
  unfold fit
  simp

namespace Machine

theorem truncate_again (m : Machine) (n : Int) : (m.truncate n).1.truncate n = m.truncate n := by
  unfold truncate
  by_cases h1 : (!m.canWrite) = true
  · rw [if_pos h1]; simp only; rw [if_pos h1]
  · rw [if_neg h1]
    by_cases h2 : n < 0
    · rw [if_pos h2]; simp only; rw [if_neg h1, if_pos h2]
    · rw [if_neg h2]; simp only; rw [if_neg h1, if_neg h2, fit_fit]

theorem grow_again (m : Machine) (last p : Nat) : ({ m.grow last with pos := p } : Machine).grow last = { m.grow last with pos := p } := by
  unfold grow
  by_cases h : last < m.object.length
  · simp only [if_pos h]
  · simp only [if_neg h, fit_fit, ite_self]

theorem grow_pos (m : Machine) (last p : Nat) : ({ m with pos := p } : Machine).grow last = { m.grow last with pos := p } := by
  unfold grow
  simp only
  split <;> rfl

/-- A write does not depend on the position, and leaves it. -/
theorem put_pos (m : Machine) (buf : Bytes) (off p : Nat) :
    ({ m with pos := p } : Machine).put buf off = ({ (m.put buf off).1 with pos := p }, (m.put buf off).2) := by
  unfold put
  simp only [grow_pos]
  by_cases h1 : (!m.canWrite) = true
  · simp only [if_pos h1]
  · simp only [if_neg h1]
    by_cases h2 : 2 ^ 63 ≤ off + buf.length
    · simp only [if_pos h2]
    · simp only [if_neg h2]
      split <;> rfl

theorem put_grown (m : Machine) (buf : Bytes) (off : Nat) (h : off + buf.length < 2 ^ 63) (hw : m.canWrite = true) :
    (m.grow (off + buf.length)).put buf off = m.put buf off := by
  have hg : (m.grow (off + buf.length)).grow (off + buf.length) = m.grow (off + buf.length) := grow_again m (off + buf.length) (m.grow (off + buf.length)).pos
  have hw' : (m.grow (off + buf.length)).canWrite = true := by unfold grow; split <;> exact hw
  have hb' : (m.grow (off + buf.length)).block = m.block := by unfold grow; split <;> rfl
  unfold put
  simp only [hg, hw, hw', hb', Bool.not_true, Bool.false_eq_true, if_false, if_neg (show ¬ 2 ^ 63 ≤ off + buf.length by omega)]

/-- What is in the object after a write at an offset. -/
abbrev over (d buf : Bytes) (off : Nat) : Bytes := d.take off ++ buf ++ d.drop (off + buf.length)

theorem put_room {m : Machine} {buf : Bytes} {off : Nat} (hw : m.canWrite = true) (h2 : ¬ 2 ^ 63 ≤ off + buf.length)
    (hr : (off / m.block + ((off + buf.length) / m.block + 1)) * m.block ≤ (m.grow (off + buf.length)).object.length) :
    m.put buf off = ({ m.grow (off + buf.length) with object := over (m.grow (off + buf.length)).object buf off }, ((buf.length : Nat) : Int), none) := by
  unfold put
  simp only [hw, Bool.not_true, Bool.false_eq_true, if_false, if_neg h2, if_pos hr]

theorem put_again (m : Machine) (buf : Bytes) (off : Nat) (hw : m.canWrite = true) (he : (m.put buf off).2.2 = none) (hb : 0 < m.block) :
    (m.put buf off).1.put buf off = m.put buf off := by
  have h2 : ¬ 2 ^ 63 ≤ off + buf.length := by
    intro h2
    unfold put at he
    simp only [hw, Bool.not_true, Bool.false_eq_true, if_false, if_pos h2] at he
    simp at he
  have hr : (off / m.block + ((off + buf.length) / m.block + 1)) * m.block ≤ (m.grow (off + buf.length)).object.length := by
    refine Classical.byContradiction fun hr => ?_
    unfold put at he
    simp only [hw, Bool.not_true, Bool.false_eq_true, if_false, if_neg h2, if_neg hr] at he
    simp at he
  rw [put_room hw h2 hr]
  have hg := grow_again m (off + buf.length) (m.grow (off + buf.length)).pos
  have hw' : (m.grow (off + buf.length)).canWrite = true := by unfold grow; split <;> exact hw
  have hbl : (m.grow (off + buf.length)).block = m.block := by unfold grow; split <;> rfl
  generalize m.grow (off + buf.length) = g at hr hw' hbl hg ⊢
  change g.grow (off + buf.length) = g at hg
  have hin : off + buf.length ≤ g.object.length := by
    have h1 := Nat.div_add_mod (off + buf.length) m.block
    have h2 := Nat.mod_lt (off + buf.length) hb
    have h3 : ((off + buf.length) / m.block + 1) * m.block ≤ (off / m.block + ((off + buf.length) / m.block + 1)) * m.block := Nat.mul_le_mul_right _ (Nat.le_add_left _ _)
    have h4 : ((off + buf.length) / m.block + 1) * m.block = m.block * ((off + buf.length) / m.block) + m.block := by
      rw [Nat.add_mul, Nat.one_mul, Nat.mul_comm]
    omega
  have hl : (over g.object buf off).length = g.object.length := by
    simp only [over, List.length_append, List.length_take, List.length_drop]; omega
  have hgg : ({ g with object := over g.object buf off } : Machine).grow (off + buf.length) = { g with object := over g.object buf off } := by
    unfold grow at hg ⊢
    simp only [hl]
    by_cases hc : off + buf.length < g.object.length
    · rw [if_pos hc]
    · rw [if_neg hc] at hg ⊢
      have e1 := congrArg Machine.object hg
      have e2 := congrArg Machine.size hg
      simp only at e1 e2
      have e3 := congrArg List.length e1
      rw [fit_whole] at e3
      have e4 : fit (over g.object buf off) (whole g.block (off + buf.length)) = over g.object buf off := by
        rw [e3, ← hl]; exact fit_self
      rw [e4, e2]
  have e1 : (over g.object buf off).take off = g.object.take off := by
    unfold over
    rw [List.append_assoc, List.take_append_of_le_length (by rw [List.length_take]; omega), List.take_of_length_le (by rw [List.length_take]; omega)]
  have e2 : (over g.object buf off).drop (off + buf.length) = g.object.drop (off + buf.length) := by
    unfold over
    rw [List.drop_append_of_le_length (by simp only [List.length_append, List.length_take]; omega),
      List.drop_of_length_le (by simp only [List.length_append, List.length_take]; omega), List.nil_append]
  have e3 : over (over g.object buf off) buf off = over g.object buf off := by
    show (over g.object buf off).take off ++ buf ++ (over g.object buf off).drop (off + buf.length) = _
    rw [e1, e2]
  have := put_room (m := { g with object := over g.object buf off }) (buf := buf) (off := off) hw' h2 (by
    rw [hgg]; show _ ≤ (over g.object buf off).length; rw [hl]; show (off / g.block + ((off + buf.length) / g.block + 1)) * g.block ≤ _
    rw [hbl]; exact hr)
  rw [this, hgg]
  simp only [e3]

/-- The errors of the machine are not those of callbacks. -/
theorem put_error {b : Backend S} (m : Machine) (buf : Bytes) (off : Nat) {z : SErr} (h : (m.put buf off).2.2 = some z) : ¬ CallbackFailed b z := by
  unfold put at h
  simp only at h
  (repeat' split at h) <;> simp at h <;> (subst h; exact fun h => h)

theorem sync_error {b : Backend S} (m : Machine) {z : SErr} (h : m.sync = some z) : ¬ CallbackFailed b z := by
  unfold sync at h
  split at h <;> simp at h
  subst h; exact fun h => h

theorem truncate_error {b : Backend S} (m : Machine) (n : Int) {z : SErr} (h : (m.truncate n).2 = some z) : ¬ CallbackFailed b z := by
  unfold truncate at h
  split at h
  · simp at h; subst h; exact fun h => h
  · split at h
    · simp at h; subst h; exact fun h => h
    · simp only at h
      split at h
      · exact sync_error _ h
      · simp at h

theorem readAt_error {b : Backend S} (m : Machine) (buf : Bytes) (off : Nat) {z : SErr} (h : (m.readAt buf off).err = some z) : ¬ CallbackFailed b z := by
  unfold readAt at h
  (repeat' split at h) <;> simp at h <;> (try subst h) <;> first | exact fun h => h | (obtain ⟨_, rfl⟩ := h; exact fun h => h)

theorem seek_error {b : Backend S} (m : Machine) (off whence : Int) {z : SErr} (h : (m.seek off whence).2.2 = some z) : ¬ CallbackFailed b z := by
  unfold seek at h
  generalize (if whence = 0 then some off else if whence = 1 then some (m.pos + off) else if whence = 2 then some (m.size + off) else none) = t at h
  cases t with
  | none => simp at h; subst h; exact fun h => h
  | some t =>
    simp only at h
    by_cases hc : 0 ≤ t ∧ t < 2 ^ 63
    · rw [if_pos hc] at h; simp at h
    · rw [if_neg hc] at h; simp at h; subst h; exact fun h => h

end Machine

/-! ### One attempt -/

section
variable {bpb : Nat} {view : S → Bytes} {x : Stm S} {b : Backend S} (L : Lawful b bpb view)
include L

theorem truncate_cases (h : Inv bpb view x) {n : Int} (hf : FitsSize x n) :
    ∃ x' e, truncate b x n = .ret (x', e) ∧ Inv bpb view x' ∧
      ((e = ((shown view x).truncate n).2 ∧ shown view x' = ((shown view x).truncate n).1) ∨
       (∃ z, e = some z ∧ CallbackFailed b z ∧ (shown view x' = shown view x ∨ shown view x' = ((shown view x).truncate n).1))) := by
  unfold Machine.truncate
  show ∃ x' e, _ = Outcome.ret (x', e) ∧ _ ∧ ((e = (if !Flags.write x.flags then _ else _ : Machine × Option SErr).2 ∧
    _ = (if !Flags.write x.flags then _ else _ : Machine × Option SErr).1) ∨ ∃ z, _ ∧ _ ∧ (_ ∨ _ = (if !Flags.write x.flags then _ else _ : Machine × Option SErr).1))
  rcases truncate_spec L h hf with ⟨f1, a⟩ | ⟨f1, g1, a⟩ | ⟨f1, _, s', be, a, ⟨m, hm⟩, _, i1, hc⟩ | ⟨f1, g1, x1, i1, r1, a⟩
  · rw [f1]; exact ⟨x, _, a, h, .inl ⟨rfl, rfl⟩⟩
  · rw [f1]
    simp only [Bool.not_true, Bool.false_eq_true, if_false]
    rw [if_pos g1]; exact ⟨x, _, a, h, .inl ⟨rfl, rfl⟩⟩
  · refine ⟨_, _, a, i1, .inr ⟨_, rfl, ⟨_, _, hm⟩, .inl ?_⟩⟩
    unfold shown Stm.size' Stm.tell
    simp only [hc]
  · rw [f1]
    simp only [Bool.not_true, Bool.false_eq_true, if_false]
    rw [if_neg (by omega)]
    simp only
    have e1 : shown view x1 = { shown view x with object := fit (shown view x).object (whole (shown view x).block n.toNat), size := n.toNat } := by
      unfold shown Stm.size' Stm.tell
      rw [r1.size, r1.position, r1.flags, r1.bpb, r1.contents, r1.total]; rfl
    rw [← e1]
    show ∃ x' e, _ = Outcome.ret (x', e) ∧ _ ∧ ((e = (if Flags.synchronous x.flags = true then _ else _) ∧ _) ∨ _)
    cases hs : Flags.synchronous x.flags with
    | true =>
      rw [hs] at a
      simp only [if_true] at a ⊢
      obtain ⟨x2, e, a1, a2, a3⟩ := sync_spec L i1
      refine ⟨x2, e, a.trans a1, a2, ?_⟩
      have hsh : shown view x2 = shown view x1 := shown_still (.synced a3) a3.position
      by_cases hcb : ∃ z, e = some z ∧ CallbackFailed b z
      · obtain ⟨z, hz, hc⟩ := hcb
        exact .inr ⟨z, hz, hc, .inr hsh⟩
      · left
        obtain ⟨x3, c1, _⟩ := sync_machine_of L (fun x' z hz hc => hcb ⟨z, by rw [a1] at hz; cases hz; rfl, hc⟩) i1
        rw [a1] at c1
        cases c1
        exact ⟨rfl, hsh⟩
    | false =>
      rw [hs] at a
      simp only [Bool.false_eq_true, if_false] at a ⊢
      exact ⟨x1, _, a, i1, .inl ⟨rfl, rfl⟩⟩

theorem read_attempt (h : Inv bpb view x) (buf : Bytes) (hf : FitsRead x buf.length) :
    ∃ x' r, read b x buf = .ret (x', r) ∧ Inv bpb view x' ∧ Still view x x' ∧
      ((r = ((shown view x).read buf).2 ∧ shown view x' = ((shown view x).read buf).1) ∨
       (∃ z, r.err = some z ∧ z ≠ .eof ∧ CallbackFailed b z ∧ r.n = 0 ∧ shown view x' = shown view x)) := by
  obtain ⟨x1, x', r, a1, a2, a3, a4, a5⟩ := read_effect L h buf hf
  refine ⟨x', r, a2, a3, a4, ?_⟩
  obtain ⟨x2, r2, c1, c2, c3, c4, c5⟩ := readAt_cases L h buf h.pos_nn hf
  rw [a1] at c1
  cases c1
  obtain ⟨x3, r3, d1, d2, d3, d4, d5, d6, d7⟩ := readAt_effect L h buf h.pos_nn hf
  rw [a1] at d1
  cases d1
  rcases c5 with hr | ⟨j, be, h1, h2, h3⟩
  · left
    refine ⟨hr, ?_⟩
    show _ = (if ((shown view x).readAt buf x.position.toNat).err = none then { shown view x with pos := x.position.toNat + buf.length } else shown view x)
    rw [← hr]
    have hp := h.pos_nn
    by_cases he : r.err = none
    · rw [if_pos he]
      refine shown_moved a4 ?_
      rw [a5, if_pos he, d6 he]
      show x.position + (buf.length : Int) = _
      omega
    · rw [if_neg he]
      refine shown_still a4 ?_
      rw [a5, if_neg he]
  · exact .inr ⟨_, h2, by simp, h1.2, h3, shown_still a4 (by rw [a5, h2]; rfl)⟩

theorem attempt (h : Inv bpb view x) (c : Call) (hs : Single c) (hf : Fits b x c) :
    ∃ x' a, answerCall b x c = .ret (x', a) ∧ Inv bpb view x' ∧
      ((∀ e, error? a = some e → ¬ CallbackFailed b e) → (shown view x).call c = some (shown view x', a)) ∧
      (∀ e, error? a = some e → CallbackFailed b e → NothingSeen x x' c a → (shown view x').call c = (shown view x).call c) := by
  cases c with
  | read buf =>
    obtain ⟨x', r, a1, a2, a3, a4⟩ := read_attempt L h buf hf
    refine ⟨x', .read r, by simp only [answerCall, a1, Outcome.bind_ret, Outcome.pure_eq], a2, fun hno => ?_, fun e he hc _ => ?_⟩
    · rcases a4 with ⟨h1, h2⟩ | ⟨z, h1, _, h2, _⟩
      · rw [h2, h1]; rfl
      · exact absurd h2 (hno z h1)
    · have he' : r.err = some e := he
      rcases a4 with ⟨h1, h2⟩ | ⟨z, _, _, _, _, h3⟩
      · exact absurd hc (Machine.readAt_error (shown view x) buf (shown view x).pos (by rw [h1] at he'; exact he'))
      · rw [h3]
  | readAt buf off =>
    obtain ⟨x', r, a1, a2, a3, a4, a5⟩ := readAt_cases L h buf hf.2 hf.1
    refine ⟨x', .read r, by simp only [answerCall, a1, Outcome.bind_ret, Outcome.pure_eq], a2, fun hno => ?_, fun e he _ _ => by rw [shown_still a3 a4]⟩
    have hr : r = (shown view x).readAt buf off.toNat := by
      rcases a5 with h | ⟨j, be, h1, h2, _⟩
      · exact h
      · exact absurd h1.2 (hno _ h2)
    rw [shown_still a3 a4, hr]; rfl
  | seek off whence =>
    obtain ⟨a1, a2⟩ := seek_machine (whence := whence) h hf
    refine ⟨_, _, rfl, (seek_effect h hf.1 hf.2).1, fun _ => by rw [a2, a1]; rfl, fun e he hc _ => ?_⟩
    exfalso
    rw [show error? (.moved (seek x off whence).2.1 (seek x off whence).2.2) = (seek x off whence).2.2 from rfl, a1] at he
    exact Machine.seek_error _ off whence he hc
  | sync =>
    obtain ⟨x', e, a1, a2, a3⟩ := sync_spec L h
    have hsh : shown view x' = shown view x := shown_still (.synced a3) a3.position
    refine ⟨x', .did e, by simp only [answerCall, a1, Outcome.bind_ret, Outcome.pure_eq], a2, fun hno => ?_, fun e he _ _ => by rw [hsh]⟩
    obtain ⟨x2, c1, _⟩ := sync_machine_of L (fun x' z hz => hno z (by rw [a1] at hz; cases hz; rfl)) h
    rw [a1] at c1
    cases c1
    rw [hsh]; rfl
  | truncate n =>
    obtain ⟨x', e, a1, a2, a3⟩ := truncate_cases L h hf
    refine ⟨x', .did e, by simp only [answerCall, a1, Outcome.bind_ret, Outcome.pure_eq], a2, fun hno => ?_, fun e' he hc _ => ?_⟩
    · rcases a3 with ⟨h1, h2⟩ | ⟨z, h1, h2, _⟩
      · rw [h1, h2]; rfl
      · exact absurd h2 (hno z h1)
    · show some (((shown view x').truncate n).1, Answer.did ((shown view x').truncate n).2) = some (((shown view x).truncate n).1, Answer.did ((shown view x).truncate n).2)
      have he : e = some e' := he
      rcases a3 with ⟨h1, h2⟩ | ⟨z, h1, h2, h3 | h3⟩
      · exact absurd hc (Machine.truncate_error _ n (h1.symm.trans he))
      · rw [h3]
      · rw [h3, Machine.truncate_again]
  | writeAt buf off =>
    obtain ⟨o, rfl⟩ := Int.eq_ofNat_of_zero_le hf.2
    have hwf : FitsWrite x buf.length (o : Int) := hf.1
    show ∃ x' a, _ ∧ _ ∧ (_ → some (((shown view x).writeAt buf o).1, Answer.wrote ((shown view x).writeAt buf o).2.1 ((shown view x).writeAt buf o).2.2) = _) ∧
      (∀ e, _ → _ → _ → some (((shown view _).writeAt buf o).1, Answer.wrote ((shown view _).writeAt buf o).2.1 ((shown view _).writeAt buf o).2.2) =
        some (((shown view x).writeAt buf o).1, Answer.wrote ((shown view x).writeAt buf o).2.1 ((shown view x).writeAt buf o).2.2))
    have hA : ∀ {y : Stm S}, (shown view y).writeAt buf o = if Flags.append y.flags = true then (shown view y, 0, some .notPermitted) else (shown view y).put buf o := fun {y} => rfl
    cases ha : Flags.append x.flags with
    | true =>
      refine ⟨x, .wrote 0 (some .notPermitted), ?_, h, fun _ => ?_, fun _ _ _ _ => rfl⟩
      · simp only [answerCall, writeAt, ha, if_true]; rfl
      · rw [hA, ha]; rfl
    | false =>
      obtain ⟨x', n, e, a1, a2, a3, p1, a4⟩ := implWriteAt_effect L h buf hwf
      have hpc := put_cases h buf o hwf.2.2 a2 a3 a4
      have hpos : x'.position.toNat = (shown view x).pos := by rw [p1]; rfl
      have hput : ({ ((shown view x).put buf o).1 with pos := x'.position.toNat } : Machine) = ((shown view x).put buf o).1 := by
        have := Machine.put_pos (shown view x) buf o (shown view x).pos
        have e1 : ({ shown view x with pos := (shown view x).pos } : Machine) = shown view x := rfl
        rw [e1] at this
        rw [hpos, congrArg Prod.fst this]
      have hgr : ({ (shown view x).grow (o + buf.length) with pos := x'.position.toNat } : Machine) = (shown view x).grow (o + buf.length) := by
        have := Machine.grow_pos (shown view x) (o + buf.length) (shown view x).pos
        have e1 : ({ shown view x with pos := (shown view x).pos } : Machine) = shown view x := rfl
        rw [e1] at this
        rw [hpos]; exact this.symm
      have hsm : ({ shown view x with pos := x'.position.toNat } : Machine) = shown view x := by rw [hpos]
      rw [hput, hgr, hsm] at hpc
      refine ⟨x', .wrote n e, ?_, a2, fun hno => ?_, fun e' he hc _ => ?_⟩
      · simp only [answerCall, writeAt, ha, Bool.false_eq_true, if_false, a1, Outcome.bind_ret, Outcome.pure_eq]
      · rw [hA, ha]
        simp only [Bool.false_eq_true, if_false]
        rcases hpc with ⟨h1, h2⟩ | ⟨z, h1, h2, _⟩
        · rw [h1, ← h2]
        · exact absurd h2 (hno z h1)
      · have he : e = some e' := he
        rw [hA, hA, a3, ha]
        simp only [Bool.false_eq_true, if_false]
        have key : (shown view x').put buf o = (shown view x).put buf o := by
          rcases hpc with ⟨h1, h2⟩ | ⟨z, h1, h2, h3, ⟨_, h4 | ⟨h5, h4⟩⟩ | ⟨_, h5, h4⟩⟩
          · exact absurd hc (Machine.put_error _ buf o (by rw [h1]; exact he))
          · rw [h4]
          · rw [h4, Machine.put_grown _ _ _ h5 h3]
          · rw [h4, Machine.put_again _ _ _ h3 (by rw [h5]) (by show 0 < x.st.c.bpb; exact h.weak.bpb_pos)]
        rw [key]
  | write buf =>
    obtain ⟨x', n, e, a1, a2, a3, a4⟩ := write_effect L h buf hf
    have hwo := writeOffset_range h
    have hoff : ∀ {y : Stm S}, Inv bpb view y → (writeOffset y).toNat = (if (shown view y).appends then (shown view y).size else (shown view y).pos) := by
      intro y hy
      unfold writeOffset
      show _ = (if Flags.append y.flags = true then y.size.toNat else y.position.toNat)
      split <;> rfl
    refine ⟨x', .wrote n e, by simp only [answerCall, a1, Outcome.bind_ret, Outcome.pure_eq], a2, fun hno => ?_, fun e' he hc hns => ?_⟩
    · obtain ⟨x2, c1, _, c2⟩ := write_machine_of L h buf (fun x' n z hz => hno z (by rw [a1] at hz; cases hz; rfl)) hf
      rw [a1] at c1
      obtain ⟨q1, q2⟩ := Prod.mk.inj (Outcome.ret.inj c1)
      subst q1
      show some (((shown view x).write buf).1, Answer.wrote ((shown view x).write buf).2.1 ((shown view x).write buf).2.2) = _
      rw [c2, ← q2]
    · have he : e = some e' := he
      obtain ⟨⟨e2, hz⟩, happ⟩ := hns
      cases hz
      show some (((shown view x').write buf).1, Answer.wrote ((shown view x').write buf).2.1 ((shown view x').write buf).2.2) =
        some (((shown view x).write buf).1, Answer.wrote ((shown view x).write buf).2.1 ((shown view x).write buf).2.2)
      rcases a4 with ⟨f1, rfl, _, rfl⟩ | ⟨f1, p1, a4⟩
      · rfl
      have hpc := put_cases h buf (writeOffset x).toNat (by rw [Int.toNat_of_nonneg hwo.1]; exact hf.2.2) a2 a3 a4
      have hpo : x'.position.toNat = (writeOffset x).toNat := by rw [p1]; omega
      have hoff' : (writeOffset x').toNat = (writeOffset x).toNat := by
        unfold writeOffset at hpo ⊢
        rw [a3]
        by_cases ha : Flags.append x.flags = true
        · rw [if_pos ha, if_pos ha]
          have := happ ha
          unfold Stm.size' at this
          rw [this]
        · rw [if_neg ha] at hpo ⊢
          rw [if_neg ha]; exact hpo
      have hcw : (shown view x').canWrite = (shown view x).canWrite := by show Flags.write x'.flags = Flags.write x.flags; rw [a3]
      have key : ((shown view x').put buf (writeOffset x).toNat).2 = ((shown view x).put buf (writeOffset x).toNat).2 ∧
          ∀ p, ({ ((shown view x').put buf (writeOffset x).toNat).1 with pos := p } : Machine) = { ((shown view x).put buf (writeOffset x).toNat).1 with pos := p } := by
        generalize (writeOffset x).toNat = o at *
        rcases hpc with ⟨h1, h2⟩ | ⟨z, h1, h2, h3, ⟨_, h4 | ⟨h5, h4⟩⟩ | ⟨_, h5, h4⟩⟩
        · exact absurd hc (Machine.put_error _ buf o (by rw [h1]; exact he))
        · rw [h4, Machine.put_pos]; exact ⟨rfl, fun _ => rfl⟩
        · rw [h4, Machine.put_pos, Machine.put_grown _ _ _ h5 h3]; exact ⟨rfl, fun _ => rfl⟩
        · rw [h4, Machine.put_pos, Machine.put_again _ _ _ h3 (by rw [h5]) (by show 0 < x.st.c.bpb; exact h.weak.bpb_pos)]; exact ⟨rfl, fun _ => rfl⟩
      have hw : ∀ y : Stm S, Inv bpb view y → (shown view y).canWrite = true → (shown view y).write buf =
          ({ ((shown view y).put buf (writeOffset y).toNat).1 with pos := (writeOffset y).toNat + ((shown view y).put buf (writeOffset y).toNat).2.1.toNat },
            ((shown view y).put buf (writeOffset y).toNat).2) := by
        intro y hy hc
        rw [hoff hy]
        unfold Machine.write
        rw [hc]
        rfl
      have hcx : (shown view x).canWrite = true := f1
      rw [hw x h hcx, hw x' a2 (hcw.trans hcx), hoff', key.1, key.2]
  | writeTo => exact absurd hs (fun h => h)
  | readFrom => exact absurd hs (fun h => h)

end

theorem retried_machine {bpb : Nat} {view : S → Bytes} {b : Backend S} (L : Lawful b bpb view) {x x' : Stm S} {cs : List Call}
    {as : List (Answer × Int × Int)} (ht : Retried b NothingSeen x cs x' as) (h : Inv bpb view x) :
    (shown view x).run cs = some (shown view x', as) := by
  induction ht with
  | nil => rfl
  | @done x x1 x2 c cs a as hs hf ha hno _ ih =>
    obtain ⟨x1', a', a1, i1, h1, _⟩ := attempt L h _ hs hf
    rw [ha] at a1
    cases a1
    have hs : (((shown view x1).size : Nat) : Int) = x1.size' := by
      show (x1.size.toNat : Int) = x1.size
      have := i1.size_nn
      omega
    have hp : (((shown view x1).pos : Nat) : Int) = x1.tell := by
      show (x1.position.toNat : Int) = x1.position
      have := i1.pos_nn
      omega
    simp only [Machine.run, h1 hno, ih i1, Option.bind_eq_bind, Option.bind_some, hs, hp]
    rfl
  | again hs hf ha he hc hm _ ih =>
    obtain ⟨x1, a, a1, i1, _, h1⟩ := attempt L h _ hs hf
    rw [ha] at a1
    cases a1
    have := ih i1
    simp only [Machine.run, h1 _ he hc hm] at this ⊢
    exact this

/-! ### C158 -/

/-- C158, in full: on storage that may fail at any time, a history in which each call (other than WriteTo and ReadFrom) that failed because of the storage is
repeated until it does not, gives the answers of the reference machine of C148, which knows no storage, and leaves the stream looking as the machine does. -/
def C158_statement : Prop :=
  ∀ (S : Type) (b : Backend S) (bpb total : Nat) (view : S → Bytes) (s0 : S), StreamSetup b bpb total view s0 →
    ∀ x, Reachable b bpb total s0 x → ∀ cs x' as, Retried b (fun _ _ _ _ => True) x cs x' as → (shown view x).run cs = some (shown view x', as)

/-- C158 holds if a Write is only repeated if it returned 0 and, in append mode, Size returns what it did before the call. -/
theorem C158_retry_partial {b : Backend S} {bpb total : Nat} {view : S → Bytes} {s0 : S} (H : StreamSetup b bpb total view s0) {x : Stm S}
    (hr : Reachable b bpb total s0 x) {cs : List Call} {x' : Stm S} {as : List (Answer × Int × Int)} (ht : Retried b NothingSeen x cs x' as) :
    (shown view x).run cs = some (shown view x', as) :=
  retried_machine H.cache.lawful ht (reachable_inv H hr)

/-- C158, the other case: a Write or WriteAt that failed because of the storage but returned the length of its (not empty) buffer has done all that it would have done if the
storage had not failed: the stream looks as it would then.  (What is left to do is Sync.) -/
theorem C158_written_partial {b : Backend S} {bpb total : Nat} {view : S → Bytes} {s0 : S} (H : StreamSetup b bpb total view s0) {x : Stm S}
    (hr : Reachable b bpb total s0 x) (buf : Bytes) (hne : buf ≠ []) {x' : Stm S} {z : SErr} (hz : CallbackFailed b z) :
    (FitsWrite x buf.length (writeOffset x) → write b x buf = .ret (x', buf.length, some z) →
      (shown view x).write buf = (shown view x', ((buf.length : Nat) : Int), none)) ∧
    (∀ off : Int, 0 ≤ off → FitsWrite x buf.length off → writeAt b x buf off = .ret (x', buf.length, some z) →
      (shown view x).writeAt buf off.toNat = (shown view x', ((buf.length : Nat) : Int), none)) := by
  have h := reachable_inv H hr
  have L := H.cache.lawful
  have hlen : buf.length ≠ 0 := by simpa using hne
  constructor
  · intro hf hw
    obtain ⟨x2, n, e, a1, a2, a3, a4⟩ := write_effect L h buf hf
    rw [hw] at a1
    cases a1
    have hwo := writeOffset_range h
    rcases a4 with ⟨f1, _, h0, _⟩ | ⟨f1, p1, a4⟩
    · omega
    have hpc := put_cases h buf (writeOffset x).toNat (by rw [Int.toNat_of_nonneg hwo.1]; exact hf.2.2) a2 a3 a4
    have hoff : (writeOffset x).toNat = (if (shown view x).appends then (shown view x).size else (shown view x).pos) := by
      unfold writeOffset
      show _ = (if Flags.append x.flags = true then x.size.toNat else x.position.toNat)
      split <;> rfl
    rcases hpc with ⟨h1, h2⟩ | ⟨z', h1, h2, h3, ⟨h0, _⟩ | ⟨_, h5, h4⟩⟩
    · exact absurd hz (Machine.put_error _ buf _ (by rw [h1]))
    · omega
    · rcases hp : (shown view x).put buf (writeOffset x).toNat with ⟨m', n', e'⟩
      rw [hp] at h5 h4
      obtain ⟨rfl, rfl⟩ := Prod.mk.inj h5
      unfold Machine.write
      rw [show (shown view x).canWrite = true from f1]
      simp only [Bool.not_true, Bool.false_eq_true, if_false]
      rw [← hoff, hp]
      have e1 : x'.position.toNat = (writeOffset x).toNat + ((buf.length : Nat) : Int).toNat := by rw [p1]; omega
      rw [h4, e1]
  · intro off h0 hf hw
    obtain ⟨o, rfl⟩ := Int.eq_ofNat_of_zero_le h0
    unfold writeAt at hw
    cases ha : Flags.append x.flags with
    | true =>
      rw [ha, if_pos rfl] at hw
      have := (Prod.mk.inj (Prod.mk.inj (Outcome.ret.inj hw)).2).1
      omega
    | false =>
      rw [ha, if_neg Bool.false_ne_true] at hw
      obtain ⟨x2, n, e, a1, a2, a3, p1, a4⟩ := implWriteAt_effect L h buf hf
      rw [hw] at a1
      cases a1
      have hpc := put_cases h buf o hf.2.2 a2 a3 a4
      rcases hpc with ⟨h1, h2⟩ | ⟨z', h1, h2, h3, ⟨h0, _⟩ | ⟨_, h5, h4⟩⟩
      · exact absurd hz (Machine.put_error _ buf _ (by rw [h1]))
      · omega
      · unfold Machine.writeAt
        rw [show (shown view x).appends = false from ha, if_neg Bool.false_ne_true]
        have e2 : x'.position.toNat = (shown view x).pos := by rw [p1]; rfl
        have e3 := Machine.put_pos (shown view x) buf o (shown view x).pos
        rw [show ({ shown view x with pos := (shown view x).pos } : Machine) = shown view x from rfl] at e3
        rw [h4, e2]
        show (shown view x).put buf o = _
        have e4 : ({ ((shown view x).put buf o).1 with pos := (shown view x).pos } : Machine) = ((shown view x).put buf o).1 := (congrArg Prod.fst e3).symm
        rw [e4, ← h5]


/-! ### WriteTo -/

section
variable {bpb : Nat} {view : S → Bytes} {b : Backend S} (L : Lawful b bpb view)
include L

theorem writeToLoop_attempt {W : Type} (k : Compression.Sink W) : ∀ (fuel : Nat) (buffer : Bytes) (x : Stm S) (w : W) (ps : List Bytes) (tot : Int),
    Inv bpb view x → Flags.read x.flags = true → buffer.length = bpb → FitsRead x bpb → 0 ≤ tot →
    tot + ((shown view x).rest.length : Int) < 2 ^ 63 →
    writeToLoop b (recording k) fuel buffer x (w, ps) tot = .timeout ∨
    ∃ x' w' qs, ∃ n : Nat, ∃ e, writeToLoop b (recording k) fuel buffer x (w, ps) tot = .ret (x', (w', ps ++ qs), tot + n, e) ∧ Inv bpb view x' ∧ x'.flags = x.flags ∧
      ((e = none ∧ qs = Machine.pieces bpb (shown view x).rest ∧ n = (shown view x).rest.length ∧
          shown view x' = { shown view x with pos := (shown view x).pos + (shown view x).rest.length / bpb * bpb }) ∨
       (∃ z, e = some z ∧ CallbackFailed b z ∧ n ≤ (shown view x).rest.length ∧ n % bpb = 0 ∧
          qs ++ Machine.pieces bpb ((shown view x).rest.drop n) = Machine.pieces bpb (shown view x).rest ∧
          shown view x' = { shown view x with pos := (shown view x).pos + n })) := by
  intro fuel
  induction fuel with
  | zero => intro buffer x w ps tot _ _ _ _ _ _; exact .inl rfl
  | succ fuel ih =>
    intro buffer x w ps tot h hrd hbl hf ht0 ht
    have hbp : 0 < bpb := h.bpb ▸ h.weak.bpb_pos
    have hfb : FitsRead x buffer.length := by rw [hbl]; exact hf
    obtain ⟨x1, r, a1, a2, a3, a4⟩ := read_attempt L h buffer hfb
    rcases a4 with ⟨hr, a4⟩ | ⟨z, z1, z2, z3, z4, z5⟩
    rotate_left
    · right
      refine ⟨x1, w, [], 0, some z, ?_, a2, a3.flags, .inr ⟨z, rfl, z3, Nat.zero_le _, Nat.zero_mod _, rfl, z5⟩⟩
      unfold writeToLoop
      simp only [a1, Outcome.bind_ret, z4, gt_iff_lt, Int.lt_irrefl, if_false, z1]
      simp only [List.append_nil, Int.natCast_zero, Int.add_zero]
      cases z <;> first | exact absurd rfl z2 | rfl
    subst hr
    have hne : buffer ≠ [] := by intro hc; rw [hc] at hbl; simp at hbl; omega
    -- what the machine reads
    have hres : (shown view x).readAt buffer (shown view x).pos = ⟨(shown view x).rest.take bpb ++ buffer.drop ((shown view x).rest.take bpb).length,
        ((shown view x).rest.take bpb).length, if ((shown view x).rest.take bpb).length < bpb then some .eof else none⟩ := by
      unfold Machine.readAt
      show (if !Flags.read x.flags then _ else _) = _
      rw [hrd]
      simp only [Bool.not_true, Bool.false_eq_true, if_false]
      rw [if_neg hne, hbl]
      rfl
    have hrr : ((shown view x).read buffer).2 = (shown view x).readAt buffer (shown view x).pos := rfl
    rw [hrr, hres] at a1
    have hmod : ((shown view x).read buffer).1 = if ((shown view x).readAt buffer (shown view x).pos).err = none then { shown view x with pos := (shown view x).pos + buffer.length } else shown view x := rfl
    rw [hmod, hres, hbl] at a4
    generalize hd : (shown view x).rest = d at *
    unfold writeToLoop
    rw [a1]
    simp only [Outcome.bind_ret]
    by_cases hfull : bpb ≤ d.length
    · -- a full block
      have htl : (d.take bpb).length = bpb := by rw [List.length_take]; omega
      simp only [htl, Nat.lt_irrefl, if_false, if_true] at a4 ⊢
      have hpos : (0 : Int) < (bpb : Int) := by omega
      rw [if_pos hpos]
      have hrest1 : (shown view x1).rest = d.drop bpb := by
        rw [a4]
        rw [← hd]
        unfold Machine.rest
        show (shown view x).file.drop ((shown view x).pos + bpb) = _
        rw [List.drop_drop]
      have hbuf : (d.take bpb ++ buffer.drop bpb).length = bpb := by
        rw [List.length_append, htl, List.length_drop, hbl]; omega
      have htake : (d.take bpb ++ buffer.drop bpb).take (bpb : Int).toNat = d.take bpb := by
        rw [Int.toNat_natCast, List.take_append_of_le_length (by omega), List.take_of_length_le (by omega)]
      have hi64 : i64 (tot + (bpb : Int)) = tot + bpb := i64_of_range (by omega) (by omega)
      have hf1 : FitsRead x1 bpb := by
        unfold FitsRead at *
        rw [a3.capacity]; exact hf
      have hq : d.length / bpb = (d.length - bpb) / bpb + 1 := by
        rw [Nat.div_eq d.length bpb, if_pos ⟨hbp, hfull⟩]
      have c := ih (d.take bpb ++ buffer.drop bpb) x1 (k.write w (d.take bpb)).1 (ps ++ [d.take bpb]) (tot + bpb) a2 (by rw [a3.flags]; exact hrd) hbuf hf1
        (by omega) (by rw [hrest1, List.length_drop]; omega)
      rw [hrest1, List.length_drop] at c
      rw [htake, hi64]
      show writeToLoop b (recording k) fuel _ x1 ((k.write w (d.take bpb)).1, ps ++ [d.take bpb]) (tot + bpb) = _ ∨
        ∃ x' w' qs, ∃ n : Nat, ∃ e, writeToLoop b (recording k) fuel _ x1 ((k.write w (d.take bpb)).1, ps ++ [d.take bpb]) (tot + bpb) = _ ∧ _
      rcases c with c | ⟨x', w', qs, n, e, c1, c2, c3, c4⟩
      · exact .inl c
      · right
        refine ⟨x', w', d.take bpb :: qs, bpb + n, e, ?_, c2, c3.trans a3.flags, ?_⟩
        · rw [c1]
          simp only [List.append_assoc, List.singleton_append, Outcome.ret.injEq, Prod.mk.injEq, true_and, and_true]
          omega
        · rcases c4 with ⟨rfl, rfl, rfl, e3⟩ | ⟨z, rfl, z1, z2, z3, z4, z5⟩
          · left
            refine ⟨rfl, (pieces_cons hbp hfull).symm, by omega, ?_⟩
            rw [e3, a4, hq, Nat.add_mul]
            have hn : (shown view x).pos + bpb + (d.length - bpb) / bpb * bpb = (shown view x).pos + ((d.length - bpb) / bpb * bpb + 1 * bpb) := by omega
            rw [← hn]
          · right
            refine ⟨z, rfl, z1, by omega, by rw [Nat.add_mod_left]; exact z3, ?_, ?_⟩
            · rw [pieces_cons hbp hfull, ← z4, List.drop_drop]; rfl
            · rw [z5, a4, Nat.add_assoc]
    · -- the end
      have htl : d.take bpb = d := List.take_of_length_le (by omega)
      have hlt : d.length < bpb := by omega
      simp only [htl, if_pos hlt, reduceCtorEq, if_false] at a4 ⊢
      have hq0 : d.length / bpb = 0 := Nat.div_eq_of_lt hlt
      rw [pieces_short hlt]
      have hsx : shown view x1 = { shown view x with pos := (shown view x).pos + d.length / bpb * bpb } := by
        rw [a4, hq0]
        simp
      right
      by_cases hd0 : d = []
      · rw [hd0]
        simp only [List.length_nil, Int.natCast_zero, gt_iff_lt, Int.lt_irrefl, if_false, if_true]
        exact ⟨x1, w, [], 0, none, by simp, a2, a3.flags, .inl ⟨rfl, rfl, rfl, by rw [hsx, hd0]; rfl⟩⟩
      · have hpos : (0 : Int) < (d.length : Int) := by
          have := List.length_pos_iff.2 hd0
          omega
        rw [if_pos hpos, if_neg hd0]
        have htake : (d ++ buffer.drop d.length).take (d.length : Int).toNat = d := by
          rw [Int.toNat_natCast, List.take_append_of_le_length (by omega), List.take_of_length_le (by omega)]
        have hi64 : i64 (tot + (d.length : Int)) = tot + d.length := i64_of_range (by omega) (by omega)
        rw [htake, hi64]
        exact ⟨x1, _, [d], d.length, none, rfl, a2, a3.flags, .inl ⟨rfl, rfl, rfl, hsx⟩⟩

theorem resumed_machine {x x' : Stm S} {ps : List Bytes} {n : Int} (ht : Resumed b x ps n x') (h : Inv bpb view x) (hrd : Flags.read x.flags = true) :
    ps = Machine.pieces bpb (shown view x).rest ∧ n = (shown view x).rest.length ∧
      shown view x' = { shown view x with pos := (shown view x).pos + (shown view x).rest.length / bpb * bpb } := by
  have start : ∀ {x : Stm S}, Inv bpb view x → (List.replicate x.st.c.bpb (0 : UInt8)).length = bpb ∧ ((0 : Int) + ((shown view x).rest.length : Int) < 2 ^ 63) := by
    intro x h
    refine ⟨by rw [List.length_replicate]; exact h.bpb, ?_⟩
    unfold Machine.rest
    rw [List.length_drop, file_shown, file_length h]
    have := h.size_lt
    omega
  induction ht with
  | @done W k fuel x x' w w' ps n hf hw =>
    rcases writeToLoop_attempt L k fuel _ x w [] 0 h hrd (start h).1 (by rw [← h.bpb]; exact hf) (Int.le_refl 0) (start h).2 with
      c | ⟨x2, w2, qs, m, e, c, i, _, ⟨rfl, rfl, rfl, e3⟩ | ⟨z, rfl, _⟩⟩
    · unfold writeTo at hw; rw [hw] at c; cases c
    · unfold writeTo at hw; rw [hw] at c
      simp only [List.nil_append, Int.zero_add, Outcome.ret.injEq, Prod.mk.injEq] at c
      obtain ⟨rfl, ⟨_, rfl⟩, rfl, _⟩ := c
      exact ⟨rfl, rfl, e3⟩
    · unfold writeTo at hw; rw [hw] at c
      simp at c
  | @again W k fuel x x1 x' w w' ps qs n m e hf hw hc _ ih =>
    rcases writeToLoop_attempt L k fuel _ x w [] 0 h hrd (start h).1 (by rw [← h.bpb]; exact hf) (Int.le_refl 0) (start h).2 with
      c | ⟨x2, w2, rs, j, e, c, i, fl, ⟨rfl, rfl, rfl, e3⟩ | ⟨z, rfl, _, z2, z3, z4, z5⟩⟩
    · unfold writeTo at hw; rw [hw] at c; cases c
    · unfold writeTo at hw; rw [hw] at c
      simp at c
    · unfold writeTo at hw; rw [hw] at c
      simp only [List.nil_append, Int.zero_add, Outcome.ret.injEq, Prod.mk.injEq] at c
      obtain ⟨rfl, ⟨_, rfl⟩, rfl, _⟩ := c
      obtain ⟨i1, i2, i3⟩ := ih i (by rw [fl]; exact hrd)
      have hrest : (shown view x1).rest = (shown view x).rest.drop j := by
        rw [z5]
        show (shown view x).file.drop ((shown view x).pos + j) = ((shown view x).file.drop (shown view x).pos).drop j
        rw [List.drop_drop]
      rw [hrest] at i1 i2 i3
      refine ⟨by rw [i1]; exact z4, by rw [i2, List.length_drop]; omega, ?_⟩
      rw [i3, z5, List.length_drop]
      have hbp : 0 < bpb := h.bpb ▸ h.weak.bpb_pos
      have hq : (shown view x).pos + j + ((shown view x).rest.length - j) / bpb * bpb = (shown view x).pos + (shown view x).rest.length / bpb * bpb := by
        obtain ⟨q, rfl⟩ := Nat.dvd_of_mod_eq_zero z3
        rw [Nat.mul_comm bpb q] at z2 ⊢
        have e : (shown view x).rest.length / bpb = ((shown view x).rest.length - q * bpb) / bpb + q := by
          rw [← Nat.add_mul_div_right _ _ hbp, Nat.sub_add_cancel z2]
        rw [e, Nat.add_mul]; omega
      rw [← hq]

end

/-- C158 for WriteTo: called again as long as it fails because of the storage, each time with any writer, WriteTo gives the writers one after the other exactly the bytes from the
position to the end of the file, once, in order; the counts add up to their number; and the stream looks as it does after one WriteTo that does not fail. -/
theorem C158_writeTo {b : Backend S} {bpb total : Nat} {view : S → Bytes} {s0 : S} (H : StreamSetup b bpb total view s0) {x : Stm S}
    (hr : Reachable b bpb total s0 x) (hread : Flags.read x.flags = true) {ps : List Bytes} {n : Int} {x' : Stm S} (ht : Resumed b x ps n x') :
    ps.flatten = (file view x).drop x.tell.toNat ∧ n = ps.flatten.length ∧
      ∀ fuel, (ps.flatten).length < fuel → (shown view x).writeTo fuel = some (shown view x', ps, n, none) := by
  have h := reachable_inv H hr
  have hbp : 0 < bpb := h.bpb ▸ h.weak.bpb_pos
  obtain ⟨h1, h2, h3⟩ := resumed_machine H.cache.lawful ht h hread
  have hfl : ps.flatten = (shown view x).rest := by
    rw [h1, ← pieces_machine hbp _ _ rfl, Copying.pieces_flatten]
  refine ⟨by rw [hfl]; rfl, by rw [h2, hfl], fun fuel hfuel => ?_⟩
  rw [hfl] at hfuel
  have hblk : (shown view x).block = bpb := h.bpb
  have hlt : (shown view x).rest.length / bpb < fuel := Nat.lt_of_le_of_lt (Nat.div_le_self _ _) hfuel
  have hcr : (shown view x).canRead = true := hread
  rw [h3, h1, h2]
  generalize shown view x = m at *
  rcases m with ⟨o, bl, sz, p, cr, cw, ap, sy⟩
  simp only at hblk hcr
  subst hblk hcr
  unfold Machine.writeTo
  rw [if_neg (by omega), if_neg (show ¬ (!true) = true by decide), if_pos hlt]

/-! ### Storage that fails now and then -/

/-- Storage in memory with a list that says which of the next callbacks fail (and do nothing). -/
def moody (bpb : Nat) : Backend (Bytes × List Bool) where
  fetch s i buf := if s.2.headD false then ((s.1, s.2.tail), buf, some (.other 5)) else ((s.1, s.2.tail), slice s.1 (i * bpb) bpb, none)
  flush s i buf := if s.2.headD false then ((s.1, s.2.tail), some (.other 6)) else ((splice s.1 (i * bpb) buf, s.2.tail), none)
  resize s n := if s.2.headD false then ((s.1, s.2.tail), some (.other 7)) else
    ((s.1.take (n * bpb) ++ List.replicate (n * bpb - s.1.length) 0, s.2.tail), none)

theorem lawful_moody (bpb : Nat) : Lawful (moody bpb) bpb (fun s => s.1) := by
  refine ⟨?_, ?_, ?_, ?_, ?_, ?_⟩
  · intro s i buf; simp only [moody]; split <;> rfl
  · intro s i buf _ _ h
    simp only [moody] at h ⊢
    split at h
    · simp at h
    · rename_i hc; rw [if_neg hc]
  · intro s i buf _ _ h
    simp only [moody] at h ⊢
    split at h
    · simp at h
    · rename_i hc; rw [if_neg hc]
  · intro s i buf _ _ h
    simp only [moody] at h ⊢
    split at h
    · rename_i hc; rw [if_pos hc]; exact ⟨rfl, fun _ _ => rfl⟩
    · simp at h
  · intro s n hn h
    simp only [moody] at h ⊢
    split at h
    · simp at h
    · rename_i hc
      rw [if_neg hc]
      constructor
      · simp only [List.length_append, List.length_take, List.length_replicate]; omega
      · intro k hk hl
        simp only
        rw [List.getElem?_append_left (by rw [List.length_take]; omega), List.getElem?_take, if_pos hk]
  · intro s n h
    simp only [moody] at h ⊢
    split at h
    · rename_i hc; rw [if_pos hc]
    · simp at h

/-- 3 blocks of 2 bytes on it. -/
def moodyStream (size : Int) (flags : Flags.IOFlags) (fails : List Bool) : Stm (Bytes × List Bool) := ⟨size, 0, ⟨exampleCache, ([1, 2, 3, 4, 5, 6], fails)⟩, flags⟩

theorem moodySetup (fails : List Bool) : StreamSetup (moody 2) 2 3 (fun s => s.1) ([1, 2, 3, 4, 5, 6], fails) :=
  ⟨⟨lawful_moody 2, by omega, by decide +kernel, by simp⟩, by decide +kernel⟩

theorem moodyReachable (size : Int) (flags : Flags.IOFlags) (fails : List Bool) (h : 0 ≤ size ∧ size ≤ 6)
    (hf : Flags.truncate flags = false) : Reachable (moody 2) 2 3 ([1, 2, 3, 4, 5, 6], fails) (moodyStream size flags fails) := by
  refine .opened (ops := []) (rs := []) (st := ⟨exampleCache, ([1, 2, 3, 4, 5, 6], fails)⟩)
    ⟨exampleCache, by decide +kernel, by simp, rfl⟩ (size := size) (flags := flags) (e := none) ?_
  unfold new
  have : exampleCache.size = 6 := by decide +kernel
  simp only [this]
  rw [if_neg (by omega), hf]; rfl

/-- The stream after a call of the example, and the answer. -/
def tried (x : Stm (Bytes × List Bool)) (c : Call) : Stm (Bytes × List Bool) × Answer :=
  match answerCall (moody 2) x c with
  | .ret r => r
  | _ => (x, .did none)


/-- A history on it, with all attempts, and the stream before each of them. -/
def exTries : List Call := [.truncate 7, .truncate 7, .read [0, 0, 0], .read [0, 0, 0], .read [0, 0, 0], .sync, .sync, .seek 0 0, .write (List.replicate 9 9), .write (List.replicate 9 9), .write (List.replicate 9 9)]

def exAt (n : Nat) : Stm (Bytes × List Bool) :=
  (exTries.take n).foldl (fun x c => (tried x c).1) (moodyStream 6 Flags.O_RDWR [true, false, true, false, true, false, true, false, true, false, true, false])

def exAnswer (n : Nat) (c : Call) : Answer := (tried (exAt n) c).2

theorem fetch_moody (j : Nat) : CallbackFailed (moody 2) (.cache (.fetchFailed j (.other 5))) := ⟨([], [true]), [], rfl⟩
theorem flush_moody (j : Nat) : CallbackFailed (moody 2) (.cache (.flushFailed j (.other 6))) := ⟨([], [true]), [], rfl⟩
theorem resize_moody : CallbackFailed (moody 2) (.cache (.resizeFailed (.other 7))) := ⟨([], [true]), 0, rfl⟩

/-- The hypotheses of C158_retry_partial are met: five calls, six failures on the way. -/
example : Reachable (moody 2) 2 3 ([1, 2, 3, 4, 5, 6], [true, false, true, false, true, false, true, false, true, false, true, false]) (exAt 0) ∧
    ∃ as, Retried (moody 2) NothingSeen (exAt 0) [.truncate 7, .read [0, 0, 0], .sync, .seek 0 0, .write (List.replicate 9 9)] (exAt 11) as ∧
      as = [(.did none, 7, 0), (.read ⟨[1, 2, 3], 3, none⟩, 7, 3), (.did none, 7, 3), (.moved 0 none, 7, 0), (.wrote 9 none, 9, 9)] := by
  refine ⟨moodyReachable 6 Flags.O_RDWR _ (by omega) (by decide +kernel),
    [(exAnswer 1 (.truncate 7), (exAt 2).size', (exAt 2).tell),
      (exAnswer 4 (.read [0, 0, 0]), (exAt 5).size', (exAt 5).tell),
      (exAnswer 6 (.sync), (exAt 7).size', (exAt 7).tell),
      (exAnswer 7 (.seek 0 0), (exAt 8).size', (exAt 8).tell),
      (exAnswer 10 (.write (List.replicate 9 9)), (exAt 11).size', (exAt 11).tell)], ?_, ?_⟩
  refine .again (x1 := exAt 1) (a := exAnswer 0 (.truncate 7)) (e := .cache (.resizeFailed (.other 7))) trivial (by simp only [Fits]; decide +kernel) (by decide +kernel) (by decide +kernel) resize_moody trivial ?_
  refine .done (x1 := exAt 2) (a := exAnswer 1 (.truncate 7)) trivial (by simp only [Fits]; decide +kernel) (by decide +kernel) (fun e he => absurd he (by rw [show error? (exAnswer 1 (.truncate 7)) = none by decide +kernel]; simp)) ?_
  refine .again (x1 := exAt 3) (a := exAnswer 2 (.read [0, 0, 0])) (e := .cache (.fetchFailed 0 (.other 5))) trivial (by simp only [Fits]; decide +kernel) (by decide +kernel) (by decide +kernel) (fetch_moody _) trivial ?_
  refine .again (x1 := exAt 4) (a := exAnswer 3 (.read [0, 0, 0])) (e := .cache (.fetchFailed 1 (.other 5))) trivial (by simp only [Fits]; decide +kernel) (by decide +kernel) (by decide +kernel) (fetch_moody _) trivial ?_
  refine .done (x1 := exAt 5) (a := exAnswer 4 (.read [0, 0, 0])) trivial (by simp only [Fits]; decide +kernel) (by decide +kernel) (fun e he => absurd he (by rw [show error? (exAnswer 4 (.read [0, 0, 0])) = none by decide +kernel]; simp)) ?_
  refine .again (x1 := exAt 6) (a := exAnswer 5 (.sync)) (e := .cache (.flushFailed 3 (.other 6))) trivial (by simp [Fits]) (by decide +kernel) (by decide +kernel) (flush_moody _) trivial ?_
  refine .done (x1 := exAt 7) (a := exAnswer 6 (.sync)) trivial (by simp [Fits]) (by decide +kernel) (fun e he => absurd he (by rw [show error? (exAnswer 6 (.sync)) = none by decide +kernel]; simp)) ?_
  refine .done (x1 := exAt 8) (a := exAnswer 7 (.seek 0 0)) trivial (by simp only [Fits]; decide +kernel) (by decide +kernel) (fun e he => absurd he (by rw [show error? (exAnswer 7 (.seek 0 0)) = none by decide +kernel]; simp)) ?_
  refine .again (x1 := exAt 9) (a := exAnswer 8 (.write (List.replicate 9 9))) (e := .cache (.resizeFailed (.other 7))) trivial (by simp only [Fits]; decide +kernel) (by decide +kernel) (by decide +kernel) resize_moody ⟨⟨some (.cache (.resizeFailed (.other 7))), by decide +kernel⟩, fun h => absurd h (by decide +kernel)⟩ ?_
  refine .again (x1 := exAt 10) (a := exAnswer 9 (.write (List.replicate 9 9))) (e := .cache (.fetchFailed 2 (.other 5))) trivial (by simp only [Fits]; decide +kernel) (by decide +kernel) (by decide +kernel) (fetch_moody _) ⟨⟨some (.cache (.fetchFailed 2 (.other 5))), by decide +kernel⟩, fun h => absurd h (by decide +kernel)⟩ ?_
  refine .done (x1 := exAt 11) (a := exAnswer 10 (.write (List.replicate 9 9))) trivial (by simp only [Fits]; decide +kernel) (by decide +kernel) (fun e he => absurd he (by rw [show error? (exAnswer 10 (.write (List.replicate 9 9))) = none by decide +kernel]; simp)) ?_
  · exact .nil _
  · decide +kernel

set_option synthInstance.maxSize 2000 in
set_option synthInstance.maxHeartbeats 200000 in
/-- The hypotheses of C158_writeTo are met: the fetch of the second block fails at first. -/
example : Resumed (moody 2) (moodyStream 5 Flags.O_RDWR [false, true]) [[1, 2], [3, 4], [5]] 5
    (tried (tried (moodyStream 5 Flags.O_RDWR [false, true]) (.writeTo Compression.bufferSink [] 9)).1 (.writeTo Compression.bufferSink [] 9)).1 := by
  refine .again (W := Bytes) (k := Compression.bufferSink) (fuel := 9) (w := []) (w' := [1, 2]) (ps := [[1, 2]]) (qs := [[3, 4], [5]]) (n := 2) (m := 3) (e := .cache (.fetchFailed 1 (.other 5)))
    (x1 := (tried (moodyStream 5 Flags.O_RDWR [false, true]) (.writeTo Compression.bufferSink [] 9)).1) (by decide +kernel) (by decide +kernel) (fetch_moody _) ?_
  exact .done (W := Bytes) (k := Compression.bufferSink) (fuel := 9) (w := []) (w' := [3, 4, 5]) (by decide +kernel) (by decide +kernel)

/-- The streams of the counterexamples. -/
def exSync (n : Nat) : Stm (Bytes × List Bool) :=
  (List.replicate n (Call.write [9])).foldl (fun x c => (tried x c).1)
    (tried (moodyStream 6 (Flags.O_RDWR ||| Flags.O_SYNC) [false, true, false, true]) (.truncate 7)).1

def exAppend (n : Nat) : Stm (Bytes × List Bool) :=
  (List.replicate n (Call.write (List.replicate 6 9))).foldl (fun x c => (tried x c).1) (moodyStream 1 (Flags.O_RDWR ||| Flags.O_APPEND) [false, true])

/-- C158 is false of the code: with O_SYNC, a Write whose data is in place but whose Sync failed moved the position, so the repeated Write puts a second copy behind the first. -/
theorem C158_refuted : ¬ C158_statement := by
  intro h
  have hr : Reachable (moody 2) 2 3 ([1, 2, 3, 4, 5, 6], [false, true, false, true]) (tried (moodyStream 6 (Flags.O_RDWR ||| Flags.O_SYNC) [false, true, false, true]) (.truncate 7)).1 := by
    refine .call (moodyReachable 6 (Flags.O_RDWR ||| Flags.O_SYNC) [false, true, false, true] (by omega) (by decide +kernel)) (c := .truncate 7) (by simp only [Fits]; decide +kernel) ?_
    decide +kernel
  have ht : Retried (moody 2) (fun _ _ _ _ => True) (exSync 0) [.write [9]] (exSync 2) [(.wrote 1 none, 7, 2)] := by
    refine .again (x1 := exSync 1) (a := .wrote 1 (some (.cache (.flushFailed 3 (.other 6))))) trivial (by simp only [Fits]; decide +kernel) (by decide +kernel) rfl (flush_moody _) trivial ?_
    exact .done (x1 := exSync 2) (a := .wrote 1 none) trivial (by simp only [Fits]; decide +kernel) (by decide +kernel) (fun e he => by cases he) (.nil _)
  have := h _ _ _ _ _ _ (moodySetup _) _ hr _ _ _ ht
  revert this
  decide +kernel

/-- Nor is it true without O_SYNC: a Write in append mode that failed may have extended the file, and then the repeated Write is one behind that. -/
theorem C158_append_refuted : ¬ ∀ (S : Type) (b : Backend S) (bpb total : Nat) (view : S → Bytes) (s0 : S), StreamSetup b bpb total view s0 →
    ∀ x, Reachable b bpb total s0 x → Flags.synchronous x.flags = false → ∀ cs x' as, Retried b (fun _ _ _ _ => True) x cs x' as →
      (shown view x).run cs = some (shown view x', as) := by
  intro h
  have ht : Retried (moody 2) (fun _ _ _ _ => True) (exAppend 0) [.write (List.replicate 6 9)] (exAppend 2) [(.wrote 0 (some (.cache .argumentOutOfRange)), 13, 7)] := by
    refine .again (x1 := exAppend 1) (a := .wrote 0 (some (.cache (.fetchFailed 0 (.other 5))))) trivial (by simp only [Fits]; decide +kernel) (by decide +kernel) rfl (fetch_moody _) trivial ?_
    exact .done (x1 := exAppend 2) (a := .wrote 0 (some (.cache .argumentOutOfRange))) trivial (by simp only [Fits]; decide +kernel) (by decide +kernel)
      (fun e he => by cases he; exact fun h => h) (.nil _)
  have := h _ _ _ _ _ _ (moodySetup _) _ (moodyReachable 1 (Flags.O_RDWR ||| Flags.O_APPEND) [false, true] (by omega) (by decide +kernel)) (by decide +kernel) _ _ _ ht
  revert this
  decide +kernel

/-- The hypotheses of C158_written_partial are met (the stream of C158_refuted). -/
example : write (moody 2) (exSync 0) [9] = .ret (exSync 1, 1, some (.cache (.flushFailed 3 (.other 6)))) ∧ FitsWrite (exSync 0) 1 (writeOffset (exSync 0)) ∧
    (shown (fun s => s.1) (exSync 1)).file = [9, 2, 3, 4, 5, 6, 0] := by
  refine ⟨?_, ?_, ?_⟩ <;> decide +kernel

end Disko.Stream.Reference

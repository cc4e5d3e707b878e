import Verif.Stream.Machine
import Verif.Stream.CopyLemmas
/-! Proof that a stream and its reference machine do the same (for C148). -/
namespace Disko.Stream.Reference
open Disko Disko.BlockCache Disko.BlockCache.Spec Disko.Stream Disko.Stream.Spec

variable {S : Type}

theorem shown_still {view : S → Bytes} {x x' : Stm S} (s : Still view x x') (hp : x'.position = x.position) : shown view x' = shown view x := by
  unfold shown Stm.size' Stm.tell
  rw [s.contents, s.bpb, s.size, hp, s.flags]

theorem shown_moved {view : S → Bytes} {x x' : Stm S} (s : Still view x x') {p : Nat} (hp : x'.position = p) :
    shown view x' = { shown view x with pos := p } := by
  unfold shown Stm.size' Stm.tell
  rw [s.contents, s.bpb, s.size, hp, s.flags]; rfl

theorem file_shown {view : S → Bytes} (x : Stm S) : (shown view x).file = file view x := rfl

theorem file_length {bpb : Nat} {view : S → Bytes} {x : Stm S} (h : Inv bpb view x) : (file view x).length = x.size.toNat := by
  unfold Spec.file
  rw [List.length_take, length_contents]
  have := h.size_le
  have := h.size_nn
  omega

section
variable {bpb : Nat} {view : S → Bytes} {x : Stm S} {b : Backend S} (L : Lawful b bpb view) (R : AllReliable b)
include L R

omit R in
/-- What ReadAt can do: what the machine does, or a fetch fails. -/
theorem readAt_cases (h : Inv bpb view x) (buf : Bytes) {off : Int} (h0 : 0 ≤ off) (hf : FitsRead x buf.length) :
    ∃ x' r, readAt b x buf off = .ret (x', r) ∧ Inv bpb view x' ∧ Still view x x' ∧ x'.position = x.position ∧
      (r = (shown view x).readAt buf off.toNat ∨ ∃ j be, FetchFails b x.st.c.total j be ∧ r.err = some (.cache (.fetchFailed j be)) ∧ r.n = 0) := by
  obtain ⟨x', r, a1, a2, a3, a4, _⟩ := readAt_effect L h buf h0 hf
  refine ⟨x', r, a1, a2, a3, a4, ?_⟩
  have s := readAt_spec L h buf h0 hf
  rw [a1] at s
  simp only [Outcome.ret.injEq, Prod.mk.injEq] at s
  rcases s with ⟨f1, _, rfl⟩ | ⟨f1, g1, _, rfl⟩ | ⟨f1, g1, k1, _, rfl⟩ | ⟨f1, g1, k1, _, _, ⟨_, rfl⟩ | ⟨j, be, h, _, rfl⟩⟩
  · left
    unfold Machine.readAt
    show _ = if !Flags.read x.flags then _ else _
    rw [f1]; rfl
  · left
    unfold Machine.readAt
    show _ = if !Flags.read x.flags then _ else _
    rw [f1, g1]; rfl
  · left
    unfold Machine.readAt
    show _ = if !Flags.read x.flags then _ else _
    rw [f1]
    simp only [Bool.not_true, Bool.false_eq_true, if_false]
    rw [if_neg g1, file_shown]
    have hl : (file view x).drop off.toNat = [] := by
      apply List.drop_eq_nil_of_le
      rw [file_length h]; omega
    have hp : 0 < buf.length := List.length_pos_iff.2 g1
    rw [hl]
    simp [hp]
  · left
    unfold Machine.readAt
    show _ = if !Flags.read x.flags then _ else _
    rw [f1]
    simp only [Bool.not_true, Bool.false_eq_true, if_false]
    rw [if_neg g1, file_shown]
    have hl := file_length h
    have hlen : ((file view x).drop off.toNat).length = (x.size - off).toNat := by
      rw [List.length_drop, hl]; omega
    have e1 : slice (file view x) off.toNat (avail x buf.length off) = ((file view x).drop off.toNat).take buf.length := by
      unfold slice avail
      rw [List.take_eq_take_iff, hlen]; omega
    have e2 : avail x buf.length off = (((file view x).drop off.toNat).take buf.length).length := by
      rw [List.length_take, hlen]; rfl
    rw [e1, e2]
    unfold goCopy
    rw [List.take_of_length_le (l := ((file view x).drop off.toNat).take buf.length) (by rw [List.length_take]; omega)]
  · exact .inr ⟨j, be, h, rfl, rfl⟩

omit R in
theorem readAt_machine_of (hfe : ∀ j be, ¬ FetchFails b x.st.c.total j be) (h : Inv bpb view x) (buf : Bytes) {off : Int} (h0 : 0 ≤ off) (hf : FitsRead x buf.length) :
    ∃ x', readAt b x buf off = .ret (x', (shown view x).readAt buf off.toNat) ∧ Inv bpb view x' ∧ Still view x x' ∧ x'.position = x.position := by
  obtain ⟨x', r, a1, a2, a3, a4, rfl | ⟨j, be, hj, _⟩⟩ := readAt_cases L h buf h0 hf
  · exact ⟨x', a1, a2, a3, a4⟩
  · exact absurd hj (hfe j be)

theorem readAt_machine (h : Inv bpb view x) (buf : Bytes) {off : Int} (h0 : 0 ≤ off) (hf : FitsRead x buf.length) :
    ∃ x', readAt b x buf off = .ret (x', (shown view x).readAt buf off.toNat) ∧ Inv bpb view x' ∧ Still view x x' ∧ x'.position = x.position :=
  readAt_machine_of L (fun j be ⟨_, s, q, h⟩ => by rw [R.cache.fetch] at h; cases h) h buf h0 hf

omit R in
theorem read_machine_of (hfe : ∀ j be, ¬ FetchFails b x.st.c.total j be) (h : Inv bpb view x) (buf : Bytes) (hf : FitsRead x buf.length) :
    ∃ x', read b x buf = .ret (x', ((shown view x).read buf).2) ∧ Inv bpb view x' ∧ Still view x x' ∧ shown view x' = ((shown view x).read buf).1 := by
  obtain ⟨x1, x', r, a1, a2, a3, a4, a5⟩ := read_effect L h buf hf
  obtain ⟨x2, c1, c2, c3, c4⟩ := readAt_machine_of L hfe h buf h.pos_nn hf
  rw [a1] at c1
  cases c1
  refine ⟨x', a2, a3, a4, ?_⟩
  obtain ⟨x3, r3, d1, d2, d3, d4, d5, d6, d7⟩ := readAt_effect L h buf h.pos_nn hf
  rw [a1] at d1
  cases d1
  have hp := h.pos_nn
  show shown view x' = if ((shown view x).readAt buf x.position.toNat).err = none then { shown view x with pos := x.position.toNat + buf.length } else shown view x
  by_cases he : ((shown view x).readAt buf x.position.toNat).err = none
  · rw [if_pos he]
    refine shown_moved a4 ?_
    rw [a5, if_pos he, d6 he]
    show x.position + (buf.length : Int) = _
    omega
  · rw [if_neg he]
    refine shown_still a4 ?_
    rw [a5, if_neg he]

theorem read_machine (h : Inv bpb view x) (buf : Bytes) (hf : FitsRead x buf.length) :
    ∃ x', read b x buf = .ret (x', ((shown view x).read buf).2) ∧ Inv bpb view x' ∧ Still view x x' ∧ shown view x' = ((shown view x).read buf).1 :=
  read_machine_of L (fun j be ⟨_, s, q, h⟩ => by rw [R.cache.fetch] at h; cases h) h buf hf

omit R in
theorem sync_machine_of (hno : ∀ x' z, sync b x = .ret (x', some z) → ¬ CallbackFailed b z) (h : Inv bpb view x) :
    ∃ x', sync b x = .ret (x', (shown view x).sync) ∧ Inv bpb view x' ∧ Still view x x' ∧ x'.position = x.position := by
  obtain ⟨x', e, a1, a2, a3⟩ := sync_spec L h
  have hz : (shown view x).object = [] ↔ x.st.c.total = 0 := by
    show contents view x.st = [] ↔ _
    rw [← List.length_eq_zero_iff, length_contents, Nat.mul_eq_zero]
    have := h.weak.bpb_pos
    omega
  have he : e = (shown view x).sync := by
    unfold Machine.sync
    rcases e with _ | z
    · by_cases h0 : x.st.c.total = 0
      · exfalso
        unfold sync at a1
        rcases flush_weak L x.st h.weak h.bpb with ⟨h1, h2⟩ | ⟨h1, _⟩
        · rw [h2] at a1; cases a1
        · omega
      · rw [if_neg (by rw [hz]; exact h0)]
    · rcases a3.err z rfl with ⟨_, h, rfl⟩ | ⟨_, h⟩
      · rw [if_pos (hz.2 h)]
      · exact absurd h (hno x' z a1)
  rw [he] at a1
  exact ⟨x', a1, a2, .synced a3, a3.position⟩

theorem sync_machine (h : Inv bpb view x) :
    ∃ x', sync b x = .ret (x', (shown view x).sync) ∧ Inv bpb view x' ∧ Still view x x' ∧ x'.position = x.position :=
  sync_machine_of L (fun _ _ _ => no_callback R) h

theorem truncate_machine (h : Inv bpb view x) {n : Int} (hf : FitsSize x n) :
    ∃ x', truncate b x n = .ret (x', ((shown view x).truncate n).2) ∧ Inv bpb view x' ∧ shown view x' = ((shown view x).truncate n).1 := by
  unfold Machine.truncate
  show ∃ x', _ = Outcome.ret (x', (if !Flags.write x.flags then _ else _ : Machine × Option SErr).2) ∧ _ ∧ _ = (if !Flags.write x.flags then _ else _ : Machine × Option SErr).1
  rcases truncate_spec L h hf with ⟨f1, a⟩ | ⟨f1, g1, a⟩ | ⟨f1, _, _, be, _, ⟨m, h⟩, _⟩ | ⟨f1, g1, x1, i1, r1, a⟩
  · rw [f1]; exact ⟨x, a, h, rfl⟩
  · rw [f1]
    simp only [Bool.not_true, Bool.false_eq_true, if_false]
    rw [if_pos g1]; exact ⟨x, a, h, rfl⟩
  · rw [R.resize] at h; cases h
  · rw [f1]
    simp only [Bool.not_true, Bool.false_eq_true, if_false]
    rw [if_neg (by omega)]
    simp only
    have e1 : shown view x1 = { shown view x with object := fit (shown view x).object (whole (shown view x).block n.toNat), size := n.toNat } := by
      unfold shown Stm.size' Stm.tell
      rw [r1.size, r1.position, r1.flags, r1.bpb, r1.contents, r1.total]; rfl
    rw [← e1]
    show ∃ x', _ = Outcome.ret (x', if Flags.synchronous x.flags = true then _ else _) ∧ _
    cases hs : Flags.synchronous x.flags with
    | true =>
      rw [hs] at a
      obtain ⟨x2, c1, c2, c3, c4⟩ := sync_machine L R i1
      exact ⟨x2, a.trans c1, c2, shown_still c3 c4⟩
    | false =>
      rw [hs] at a
      exact ⟨x1, a, i1, rfl⟩

omit L R in
/-- What a write at an offset can do: what the machine does, or a callback fails, when nothing, or the growth, or all was done. -/
theorem put_cases (h : Inv bpb view x) (buf : Bytes) (off : Nat) (hf : FitsSize x ((off : Int) + buf.length) ∨ (maxInt : Int) < (off : Int) + buf.length)
    {x' : Stm S} {n : Int} {e : Option SErr} (hi : Inv bpb view x') (hfl : x'.flags = x.flags)
    (hw : (n = 0 ∧ ∃ z, e = some z ∧ NotWritten b view x buf off x' z) ∨ (n = buf.length ∧ Wrote b view x buf off x' e)) :
    (((shown view x).put buf off).2 = (n, e) ∧ shown view x' = { ((shown view x).put buf off).1 with pos := x'.position.toNat }) ∨
    ∃ z, e = some z ∧ CallbackFailed b z ∧ (shown view x).canWrite = true ∧
      ((n = 0 ∧ (shown view x' = { shown view x with pos := x'.position.toNat } ∨
        (off + buf.length < 2 ^ 63 ∧ shown view x' = { (shown view x).grow (off + buf.length) with pos := x'.position.toNat }))) ∨
       (n = buf.length ∧ ((shown view x).put buf off).2 = (n, none) ∧
        shown view x' = { ((shown view x).put buf off).1 with pos := x'.position.toNat })) := by
  have hb := h.bpb
  have hbp := h.weak.bpb_pos
  have hM : (maxInt : Int) = 2 ^ 63 - 1 := by unfold maxInt; omega
  have hcl : (shown view x).object.length = x.st.c.total * x.st.c.bpb := length_contents _ _
  have hbl : x.st.c.bpb ≤ maxInt := h.bpb_le
  have hcw : Flags.write x.flags = true → ¬ (!(shown view x).canWrite) = true := by
    intro h
    show ¬ (!Flags.write x.flags) = true
    rw [h]; decide
  have hncw : Flags.write x.flags = false → (!(shown view x).canWrite) = true := by
    intro h
    show (!Flags.write x.flags) = true
    rw [h]; rfl
  have hsame : x'.st = x.st → x'.size = x.size → shown view x' = { shown view x with pos := x'.position.toNat } := by
    intro q1 q2
    unfold shown Stm.size' Stm.tell
    rw [q1, q2, hfl]
  -- the machine that was grown
  have hlast : (off + buf.length < (shown view x).object.length) ↔ lastBlk x off buf.length < x.st.c.total := by
    unfold lastBlk
    rw [hcl, Nat.div_lt_iff_lt_mul hbp]
  have hgrown : x'.size = newSize x off buf.length → x'.st.c.total = newTotal x off buf.length → x'.st.c.bpb = x.st.c.bpb →
      ∀ d : Bytes, contents view x'.st = d →
      shown view x' = { (shown view x).grow (off + buf.length) with
          object := d, pos := x'.position.toNat } := by
    intro q1 q2 q3 d hd
    unfold newSize at q1
    unfold Machine.grow
    by_cases hc : lastBlk x off buf.length < x.st.c.total
    · rw [if_neg (by omega)] at q1
      rw [if_pos (hlast.2 hc)]
      unfold shown Stm.size' Stm.tell
      rw [q1, q3, hfl, hd]
    · rw [if_pos (by omega)] at q1
      rw [if_neg (by rw [hlast]; exact hc)]
      unfold shown Stm.size' Stm.tell
      rw [q1, q3, hfl, hd]
      have : ((off : Int) + buf.length).toNat = off + buf.length := by omega
      rw [this]
  have hobj : ((shown view x).grow (off + buf.length)).object =
      contents view x.st ++ List.replicate (newTotal x off buf.length * x.st.c.bpb - x.st.c.total * x.st.c.bpb) 0 ∧
      x.st.c.total ≤ newTotal x off buf.length := by
    unfold newTotal Machine.grow
    by_cases hc : lastBlk x off buf.length < x.st.c.total
    · rw [if_neg (show ¬ x.st.c.total ≤ lastBlk x off buf.length by omega), if_pos (hlast.2 hc), Nat.sub_self]
      exact ⟨(List.append_nil _).symm, Nat.le_refl _⟩
    · rw [if_pos (show x.st.c.total ≤ lastBlk x off buf.length by omega), if_neg (by rw [hlast]; exact hc)]
      show fit (contents view x.st) (whole x.st.c.bpb (off + buf.length)) = _ ∧ _
      have hge : x.st.c.total ≤ (off + buf.length + (x.st.c.bpb - 1)) / x.st.c.bpb := by
        have : x.st.c.total ≤ lastBlk x off buf.length := by omega
        unfold lastBlk at this
        exact Nat.le_trans this (Nat.div_le_div_right (by omega))
      refine ⟨?_, hge⟩
      unfold fit whole
      rw [length_contents, List.take_of_length_le]
      rw [length_contents]
      exact Nat.mul_le_mul_right _ hge
  have hobjlen : (contents view x.st ++ List.replicate (newTotal x off buf.length * x.st.c.bpb - x.st.c.total * x.st.c.bpb) 0).length =
      newTotal x off buf.length * x.st.c.bpb := by
    rw [List.length_append, length_contents, List.length_replicate]
    have := Nat.mul_le_mul_right x.st.c.bpb hobj.2
    omega
  have hroom : ((off / (shown view x).block + ((off + buf.length) / (shown view x).block + 1)) * (shown view x).block ≤
      ((shown view x).grow (off + buf.length)).object.length) ↔
      off / x.st.c.bpb + lastBlk x off buf.length + 1 ≤ newTotal x off buf.length := by
    rw [hobj.1, hobjlen]
    show (off / x.st.c.bpb + ((off + buf.length) / x.st.c.bpb + 1)) * x.st.c.bpb ≤ _ ↔ _
    rw [Nat.mul_le_mul_right_iff hbp]
    unfold lastBlk
    omega
  have hgd : x'.size = newSize x off buf.length → x'.st.c.total = newTotal x off buf.length → x'.st.c.bpb = x.st.c.bpb →
      contents view x'.st = contents view x.st ++ List.replicate (x'.st.c.total * x.st.c.bpb - x.st.c.total * x.st.c.bpb) 0 →
      shown view x' = { (shown view x).grow (off + buf.length) with pos := x'.position.toNat } := by
    intro q1 q2 q3 q4
    have hd : contents view x'.st = ((shown view x).grow (off + buf.length)).object := by rw [q4, q2, hobj.1]
    exact hgrown q1 q2 q3 _ hd
  unfold Machine.put
  simp only
  rcases hw with ⟨rfl, z, rfl, nx⟩ | ⟨rfl, wx⟩
  · rcases nx.why with ⟨rfl, f1, q1, q2⟩ | ⟨f1, rfl, g1, q1, q2⟩ | ⟨f1, hcb⟩ | ⟨f1, g1, rfl, k1⟩
    · left; rw [if_pos (hncw f1)]; exact ⟨rfl, hsame q1 q2⟩
    · left
      rw [if_neg (hcw f1)]
      rw [if_pos (by omega)]
      exact ⟨rfl, hsame q1 q2⟩
    · refine .inr ⟨z, rfl, hcb, f1, .inl ⟨rfl, ?_⟩⟩
      rcases nx.linked with ⟨h1, h2⟩ | ⟨g1, h1, h2⟩
      · left
        have hd : contents view x'.st = contents view x.st := by rw [nx.contents, h2, Nat.sub_self]; simp
        unfold shown Stm.size' Stm.tell
        rw [h1, hfl, hd, nx.bpb]
      · right
        unfold FitsSize at g1
        exact ⟨by omega, hgd h1 h2 nx.bpb nx.contents⟩
    · left
      rw [if_neg (hcw f1)]
      unfold FitsSize at g1
      rw [if_neg (by omega), if_neg (by rw [hroom]; omega)]
      refine ⟨rfl, ?_⟩
      rcases nx.exact with h | ⟨h1, h2⟩
      · exact absurd rfl h
      · exact hgd h1 h2 nx.bpb nx.contents
  · have f1 := wx.write
    have g1 := wx.fits
    have k1 := wx.room
    rw [wx.total] at k1
    rw [if_neg (hcw f1)]
    unfold FitsSize at g1
    rw [if_neg (by omega), if_pos (hroom.2 k1)]
    have e2 : contents view x.st ++ List.replicate (x'.st.c.total * x.st.c.bpb - x.st.c.total * x.st.c.bpb) 0 =
      ((shown view x).grow (off + buf.length)).object := by
      rw [wx.total]; exact hobj.1.symm
    have := hgrown wx.size wx.total wx.bpb _ wx.contents
    rw [e2] at this
    rcases e with _ | z
    · exact .inl ⟨rfl, by rw [this]; rfl⟩
    · exact .inr ⟨z, rfl, wx.err z rfl, f1, .inr ⟨rfl, rfl, by rw [this]; rfl⟩⟩

omit L R in
theorem put_machine_of (h : Inv bpb view x) (buf : Bytes) (off : Nat) (hf : FitsSize x ((off : Int) + buf.length) ∨ (maxInt : Int) < (off : Int) + buf.length)
    {x' : Stm S} {n : Int} {e : Option SErr} (hi : Inv bpb view x') (hfl : x'.flags = x.flags) (hno : ∀ z, e = some z → ¬ CallbackFailed b z)
    (hw : (n = 0 ∧ ∃ z, e = some z ∧ NotWritten b view x buf off x' z) ∨ (n = buf.length ∧ Wrote b view x buf off x' e)) :
    ((shown view x).put buf off).2 = (n, e) ∧ shown view x' = { ((shown view x).put buf off).1 with pos := x'.position.toNat } := by
  rcases put_cases h buf off hf hi hfl hw with h | ⟨z, hz, hc, _⟩
  · exact h
  · exact absurd hc (hno z hz)

omit L in
theorem put_machine (h : Inv bpb view x) (buf : Bytes) (off : Nat) (hf : FitsSize x ((off : Int) + buf.length) ∨ (maxInt : Int) < (off : Int) + buf.length)
    {x' : Stm S} {n : Int} {e : Option SErr} (hi : Inv bpb view x') (hfl : x'.flags = x.flags)
    (hw : (n = 0 ∧ ∃ z, e = some z ∧ NotWritten b view x buf off x' z) ∨ (n = buf.length ∧ Wrote b view x buf off x' e)) :
    ((shown view x).put buf off).2 = (n, e) ∧ shown view x' = { ((shown view x).put buf off).1 with pos := x'.position.toNat } :=
  put_machine_of h buf off hf hi hfl (fun _ _ => no_callback R) hw

omit R in
theorem write_machine_of (h : Inv bpb view x) (buf : Bytes) (hno : ∀ x' n z, write b x buf = .ret (x', n, some z) → ¬ CallbackFailed b z) (hf : FitsWrite x buf.length (writeOffset x)) :
    ∃ x', write b x buf = .ret (x', ((shown view x).write buf).2) ∧ Inv bpb view x' ∧ shown view x' = ((shown view x).write buf).1 := by
  obtain ⟨x', n, e, a1, a2, a3, a4⟩ := write_effect L h buf hf
  have hwo := writeOffset_range h
  have hwe : writeOffset x = (((if (shown view x).appends then (shown view x).size else (shown view x).pos : Nat)) : Int) := by
    unfold writeOffset
    show _ = (((if Flags.append x.flags = true then x.size.toNat else x.position.toNat : Nat)) : Int)
    have := h.size_nn
    have := h.pos_nn
    split <;> omega
  have hcast : (writeOffset x).toNat = (if (shown view x).appends then (shown view x).size else (shown view x).pos) := by omega
  unfold Machine.write
  show ∃ x', _ = Outcome.ret (x', (if !Flags.write x.flags then _ else _ : Machine × Int × Option SErr).2) ∧ _ ∧ _ = (if !Flags.write x.flags then _ else _ : Machine × Int × Option SErr).1
  rcases a4 with ⟨f1, rfl, rfl, rfl⟩ | ⟨f1, p1, a4⟩
  · rw [f1]; exact ⟨_, a1, a2, rfl⟩
  · rw [f1]
    simp only [Bool.not_true, Bool.false_eq_true, if_false]
    rw [← hcast]
    have hfs : FitsSize x (((writeOffset x).toNat : Int) + buf.length) ∨ (maxInt : Int) < ((writeOffset x).toNat : Int) + buf.length := by
      rw [Int.toNat_of_nonneg hwo.1]; exact hf.2.2
    obtain ⟨q1, q2⟩ := put_machine_of h buf (writeOffset x).toNat hfs a2 a3 (fun z hz => hno x' n z (hz ▸ a1)) a4
    have hn : 0 ≤ n := by
      rcases a4 with ⟨h, _⟩ | ⟨h, _⟩ <;> omega
    have hpos : x'.position.toNat = (writeOffset x).toNat + n.toNat := by rw [p1]; omega
    rcases hp : (shown view x).put buf (writeOffset x).toNat with ⟨m', n', e'⟩
    rw [hp] at q1 q2
    simp only at q1 q2
    cases q1
    exact ⟨x', a1, a2, by rw [q2, hpos]⟩

theorem write_machine (h : Inv bpb view x) (buf : Bytes) (hf : FitsWrite x buf.length (writeOffset x)) :
    ∃ x', write b x buf = .ret (x', ((shown view x).write buf).2) ∧ Inv bpb view x' ∧ shown view x' = ((shown view x).write buf).1 :=
  write_machine_of L h buf (fun _ _ _ _ => no_callback R) hf

omit R in
theorem writeAt_machine_of (h : Inv bpb view x) (buf : Bytes) {off : Int} (hno : ∀ x' n z, writeAt b x buf off = .ret (x', n, some z) → ¬ CallbackFailed b z) (h0 : 0 ≤ off) (hf : FitsWrite x buf.length off) :
    ∃ x', writeAt b x buf off = .ret (x', ((shown view x).writeAt buf off.toNat).2) ∧ Inv bpb view x' ∧
      shown view x' = ((shown view x).writeAt buf off.toNat).1 := by
  obtain ⟨o, rfl⟩ := Int.eq_ofNat_of_zero_le h0
  unfold writeAt Machine.writeAt
  show ∃ x', _ = Outcome.ret (x', (if Flags.append x.flags = true then _ else _ : Machine × Int × Option SErr).2) ∧ _ ∧
    _ = (if Flags.append x.flags = true then _ else _ : Machine × Int × Option SErr).1
  cases ha : Flags.append x.flags with
  | true => exact ⟨x, rfl, h, rfl⟩
  | false =>
    obtain ⟨x', n, e, a1, a2, a3, p1, a4⟩ := implWriteAt_effect L h buf hf
    have hw1 : writeAt b x buf (o : Int) = .ret (x', n, e) := by
      unfold writeAt
      simp only [ha, Bool.false_eq_true, if_false]
      exact a1
    obtain ⟨q1, q2⟩ := put_machine_of h buf o hf.2.2 a2 a3 (fun z hz => hno x' n z (by rw [hw1, hz])) a4
    simp only [Bool.false_eq_true, if_false]
    refine ⟨x', ?_, a2, ?_⟩
    · rw [a1]; show _ = Outcome.ret (x', ((shown view x).put buf o).2); rw [q1]
    · show _ = ((shown view x).put buf o).1
      rw [q2, p1]
      have : ((shown view x).put buf o).1.pos = x.position.toNat := by
        have hg : ((shown view x).grow (o + buf.length)).pos = x.position.toNat := by
          unfold Machine.grow
          split <;> rfl
        unfold Machine.put
        simp only
        (repeat' split) <;> first | rfl | exact hg
      rw [← this]

theorem writeAt_machine (h : Inv bpb view x) (buf : Bytes) {off : Int} (h0 : 0 ≤ off) (hf : FitsWrite x buf.length off) :
    ∃ x', writeAt b x buf off = .ret (x', ((shown view x).writeAt buf off.toNat).2) ∧ Inv bpb view x' ∧
      shown view x' = ((shown view x).writeAt buf off.toNat).1 :=
  writeAt_machine_of L h buf (fun _ _ _ _ => no_callback R) h0 hf

end

theorem seek_machine {bpb : Nat} {view : S → Bytes} {x : Stm S} (h : Inv bpb view x) {off whence : Int} (hf : -(2 ^ 63) ≤ off ∧ off < 2 ^ 63) :
    (seek x off whence).2 = ((shown view x).seek off whence).2 ∧ shown view (seek x off whence).1 = ((shown view x).seek off whence).1 := by
  have hs := h.size_nn
  have hp := h.pos_nn
  have hpl := h.pos_lt
  have hsl := h.size_lt
  have hP : ((shown view x).pos : Int) = x.position := by show (x.position.toNat : Int) = _; omega
  have hS : ((shown view x).size : Int) = x.size := by show (x.size.toNat : Int) = _; omega
  have key : ∀ (a t : Int), (a < 0 ↔ ¬ (0 ≤ t ∧ t < 2 ^ 63)) → (0 ≤ a → a = t) →
      (if a < 0 then (x, x.position, some SErr.invalidSeek) else ({ x with position := a }, a, none)).2 =
        (if 0 ≤ t ∧ t < 2 ^ 63 then ({ shown view x with pos := t.toNat }, t, none) else (shown view x, x.position, some SErr.invalidSeek)).2 ∧
      shown view (if a < 0 then (x, x.position, some SErr.invalidSeek) else ({ x with position := a }, a, none)).1 =
        (if 0 ≤ t ∧ t < 2 ^ 63 then ({ shown view x with pos := t.toNat }, t, none) else (shown view x, x.position, some SErr.invalidSeek)).1 := by
    intro a t h1 h2
    by_cases hc : 0 ≤ t ∧ t < 2 ^ 63
    · have ha : ¬ a < 0 := by rw [h1]; exact fun h => h hc
      have := h2 (by omega)
      rw [if_pos hc, if_neg ha, this]
      exact ⟨rfl, rfl⟩
    · rw [if_neg hc, if_pos (h1.2 hc)]
      exact ⟨rfl, rfl⟩
  have wrap : ∀ base : Int, 0 ≤ base → base < 2 ^ 63 → (i64 (base + off) < 0 ↔ ¬ (0 ≤ base + off ∧ base + off < 2 ^ 63)) ∧ (0 ≤ i64 (base + off) → i64 (base + off) = base + off) := by
    intro base b1 b2
    unfold i64
    rw [Int.bmod_def]
    split <;> omega
  unfold seek Machine.seek
  rw [hP, hS]
  by_cases w0 : whence = 0
  · simp only [w0, if_true]; exact key off off (by omega) (by omega)
  · by_cases w1 : whence = 1
    · simp only [w1, if_true]
      exact key _ _ (wrap _ hp hpl).1 (wrap _ hp hpl).2
    · by_cases w2 : whence = 2
      · simp only [w2, if_true]
        exact key _ _ (wrap _ hs hsl).1 (wrap _ hs hsl).2
      · simp only [w0, w1, w2, if_false]; exact ⟨trivial, trivial⟩

section
variable {bpb : Nat} {view : S → Bytes} {b : Backend S} (L : Lawful b bpb view) (R : AllReliable b)
include L R

omit L R in
theorem pieces_cons {n : Nat} (hn : 0 < n) {d : Bytes} (h : n ≤ d.length) : Machine.pieces n d = d.take n :: Machine.pieces n (d.drop n) := by
  unfold Machine.pieces
  have hq : d.length / n = (d.length - n) / n + 1 := by
    rw [Nat.div_eq d.length n, if_pos ⟨hn, h⟩]
  have hr : d.length % n = (d.length - n) % n := by
    rw [Nat.mod_eq d.length n, if_pos ⟨hn, h⟩]
  rw [List.length_drop, hq, ← hr, List.range_succ_eq_map, List.map_cons, List.map_map, List.cons_append]
  have e1 : d.take n = (d.drop (0 * n)).take n := by simp
  rw [e1]
  congr 2
  · apply List.map_congr_left
    intro i _
    show (d.drop ((i + 1) * n)).take n = ((d.drop n).drop (i * n)).take n
    rw [List.drop_drop]
    congr 2
    rw [Nat.add_mul]; omega
  · split
    · rfl
    · rw [List.drop_drop]
      congr 2
      rw [Nat.add_mul]; omega

omit L R in
theorem pieces_short {n : Nat} {d : Bytes} (h : d.length < n) : Machine.pieces n d = if d = [] then [] else [d] := by
  unfold Machine.pieces
  rw [Nat.div_eq_of_lt h, Nat.mod_eq_of_lt h]
  simp

/-- WriteTo: full blocks, then the rest. -/
theorem writeToLoop_machine {W : Type} (k : Compression.Sink W) : ∀ (fuel : Nat) (buffer : Bytes) (x : Stm S) (w : W) (ps : List Bytes) (tot : Int),
    Inv bpb view x → Flags.read x.flags = true → buffer.length = bpb → FitsRead x bpb → 0 ≤ tot →
    tot + ((shown view x).rest.length : Int) < 2 ^ 63 →
    ((shown view x).rest.length / bpb < fuel →
      ∃ x' w', writeToLoop b (recording k) fuel buffer x (w, ps) tot = .ret (x', (w', ps ++ Machine.pieces bpb (shown view x).rest), tot + (shown view x).rest.length, none) ∧
        Inv bpb view x' ∧ shown view x' = { shown view x with pos := (shown view x).pos + (shown view x).rest.length / bpb * bpb }) ∧
    (fuel ≤ (shown view x).rest.length / bpb → writeToLoop b (recording k) fuel buffer x (w, ps) tot = .timeout) := by
  intro fuel
  induction fuel with
  | zero => intro buffer x w ps tot _ _ _ _ _ _; exact ⟨fun h => absurd h (Nat.not_lt_zero _), fun _ => rfl⟩
  | succ fuel ih =>
    intro buffer x w ps tot h hrd hbl hf ht0 ht
    have hbp : 0 < bpb := h.bpb ▸ h.weak.bpb_pos
    have hfb : FitsRead x buffer.length := by rw [hbl]; exact hf
    obtain ⟨x1, a1, a2, a3, a4⟩ := read_machine L R h buffer hfb
    have hne : buffer ≠ [] := by intro hc; rw [hc] at hbl; simp at hbl; omega
    -- what the machine reads
    have hres : (shown view x).readAt buffer (shown view x).pos = ⟨(shown view x).rest.take bpb ++ buffer.drop ((shown view x).rest.take bpb).length,
        ((shown view x).rest.take bpb).length, if ((shown view x).rest.take bpb).length < bpb then some .eof else none⟩ := by
      unfold Machine.readAt
      show (if !Flags.read x.flags then _ else _) = _
      rw [hrd]
      simp only [Bool.not_true, Bool.false_eq_true, if_false]
      rw [if_neg hne, hbl]
      rfl
    have hrr : ((shown view x).read buffer).2 = (shown view x).readAt buffer (shown view x).pos := rfl
    rw [hrr, hres] at a1
    have hmod : ((shown view x).read buffer).1 = if ((shown view x).readAt buffer (shown view x).pos).err = none then { shown view x with pos := (shown view x).pos + buffer.length } else shown view x := rfl
    rw [hmod, hres, hbl] at a4
    generalize hd : (shown view x).rest = d at *
    unfold writeToLoop
    rw [a1]
    simp only [Outcome.bind_ret]
    by_cases hfull : bpb ≤ d.length
    · -- a full block
      have htl : (d.take bpb).length = bpb := by rw [List.length_take]; omega
      simp only [htl, Nat.lt_irrefl, if_false, if_true] at a4 ⊢
      have hpos : (0 : Int) < (bpb : Int) := by omega
      rw [if_pos hpos]
      have hrest1 : (shown view x1).rest = d.drop bpb := by
        rw [a4]
        rw [← hd]
        unfold Machine.rest
        show (shown view x).file.drop ((shown view x).pos + bpb) = _
        rw [List.drop_drop]
      have hbuf : (d.take bpb ++ buffer.drop bpb).length = bpb := by
        rw [List.length_append, htl, List.length_drop, hbl]; omega
      have htake : (d.take bpb ++ buffer.drop bpb).take (bpb : Int).toNat = d.take bpb := by
        rw [Int.toNat_natCast, List.take_append_of_le_length (by omega), List.take_of_length_le (by omega)]
      have hi64 : i64 (tot + (bpb : Int)) = tot + bpb := i64_of_range (by omega) (by omega)
      have hf1 : FitsRead x1 bpb := by
        unfold FitsRead at *
        rw [a3.capacity]; exact hf
      have hq : d.length / bpb = (d.length - bpb) / bpb + 1 := by
        rw [Nat.div_eq d.length bpb, if_pos ⟨hbp, hfull⟩]
      obtain ⟨c1, c2⟩ := ih (d.take bpb ++ buffer.drop bpb) x1 (k.write w (d.take bpb)).1 (ps ++ [d.take bpb]) (tot + bpb) a2 (by rw [a3.flags]; exact hrd) hbuf hf1
        (by omega) (by rw [hrest1, List.length_drop]; omega)
      rw [hrest1, List.length_drop] at c1 c2
      rw [htake, hi64]
      refine ⟨fun hlt => ?_, fun hge => c2 (by omega)⟩
      obtain ⟨x', w', e1, e2, e3⟩ := c1 (by omega)
      refine ⟨x', w', ?_, e2, ?_⟩
      · show writeToLoop b (recording k) fuel _ x1 ((k.write w (d.take bpb)).1, ps ++ [d.take bpb]) (tot + bpb) = _
        rw [e1, pieces_cons hbp hfull, List.append_assoc]
        have : tot + (bpb : Int) + ((d.length - bpb : Nat) : Int) = tot + d.length := by omega
        rw [this]
        rfl
      · rw [e3, a4, hq, Nat.add_mul]
        have hn : (shown view x).pos + bpb + (d.length - bpb) / bpb * bpb = (shown view x).pos + ((d.length - bpb) / bpb * bpb + 1 * bpb) := by omega
        rw [← hn]
    · -- the end
      have htl : d.take bpb = d := List.take_of_length_le (by omega)
      have hlt : d.length < bpb := by omega
      simp only [htl, if_pos hlt, reduceCtorEq, if_false] at a4 ⊢
      have hq0 : d.length / bpb = 0 := Nat.div_eq_of_lt hlt
      refine ⟨fun _ => ?_, fun hge => absurd hge (by rw [hq0]; omega)⟩
      rw [pieces_short hlt]
      have hsx : shown view x1 = { shown view x with pos := (shown view x).pos + d.length / bpb * bpb } := by
        rw [a4, hq0]
        simp
      by_cases hd0 : d = []
      · rw [hd0]
        simp only [List.length_nil, Int.natCast_zero, gt_iff_lt, Int.lt_irrefl, if_false, if_true, List.append_nil, Int.add_zero]
        exact ⟨x1, w, rfl, a2, by rw [hsx, hd0]; rfl⟩
      · have hpos : (0 : Int) < (d.length : Int) := by
          have := List.length_pos_iff.2 hd0
          omega
        rw [if_pos hpos, if_neg hd0]
        have htake : (d ++ buffer.drop d.length).take (d.length : Int).toNat = d := by
          rw [Int.toNat_natCast, List.take_append_of_le_length (by omega), List.take_of_length_le (by omega)]
        have hi64 : i64 (tot + (d.length : Int)) = tot + d.length := i64_of_range (by omega) (by omega)
        rw [htake, hi64]
        exact ⟨x1, _, rfl, a2, hsx⟩

theorem readFromLoop_machine {Q : Type} (src : Source Q) (bs : Nat) : ∀ (fuel : Nat) (x : Stm S) (q : Q) (tot : Int), Inv bpb view x →
    FitsReadFrom b src bs x q →
    (readFromLoop b src bs fuel x q tot = .timeout ∧ Machine.readFrom src bs fuel (shown view x) q tot = none) ∨
    ∃ x' q' n e, readFromLoop b src bs fuel x q tot = .ret (x', q', n, e) ∧ Inv bpb view x' ∧ Machine.readFrom src bs fuel (shown view x) q tot = some (shown view x', n, e) := by
  intro fuel
  induction fuel with
  | zero => intro x q tot _ _; exact .inl ⟨rfl, rfl⟩
  | succ fuel ih =>
    intro x q tot h hf
    rcases hf with ⟨_, _, hw, next⟩
    obtain ⟨x1, a1, a2, a3⟩ := write_machine L R h _ hw
    unfold readFromLoop Machine.readFrom
    simp only
    rw [a1]
    simp only [Outcome.bind_ret]
    rcases hm : (shown view x).write (src.read q bs).2.1 with ⟨m', n, e⟩
    rw [hm] at a1 a3
    simp only at a1 a3
    rcases (src.read q bs).2.2 with _ | re
    · rcases e with _ | e
      · simp only
        rw [← a3]
        exact ih x1 _ _ a2 (next _ _ a1)
      · exact .inr ⟨_, _, _, _, rfl, a2, by rw [a3]⟩
    · cases re <;> exact .inr ⟨_, _, _, _, rfl, a2, by rw [a3]⟩

/-- One call. -/
theorem call_machine {x : Stm S} (h : Inv bpb view x) (c : Call) (hf : Fits b x c) :
    (answerCall b x c = .timeout ∧ (shown view x).call c = none) ∨
    ∃ x' a, answerCall b x c = .ret (x', a) ∧ Inv bpb view x' ∧ (shown view x).call c = some (shown view x', a) := by
  cases c with
  | read buf =>
    obtain ⟨x', a1, a2, _, a3⟩ := read_machine L R h buf hf
    exact .inr ⟨x', _, by simp only [answerCall, a1, Outcome.bind_ret, Outcome.pure_eq]; rfl, a2, by rw [a3]; rfl⟩
  | readAt buf off =>
    obtain ⟨x', a1, a2, a3, a4⟩ := readAt_machine L R h buf hf.2 hf.1
    exact .inr ⟨x', _, by simp only [answerCall, a1, Outcome.bind_ret, Outcome.pure_eq]; rfl, a2, by rw [shown_still a3 a4]; rfl⟩
  | seek off whence =>
    obtain ⟨a1, a2⟩ := seek_machine (whence := whence) h hf
    refine .inr ⟨_, _, rfl, (seek_effect h hf.1 hf.2).1, ?_⟩
    rw [a2, a1]; rfl
  | sync =>
    obtain ⟨x', a1, a2, a3, a4⟩ := sync_machine L R h
    exact .inr ⟨x', _, by simp only [answerCall, a1, Outcome.bind_ret, Outcome.pure_eq]; rfl, a2, by rw [shown_still a3 a4]; rfl⟩
  | truncate n =>
    obtain ⟨x', a1, a2, a3⟩ := truncate_machine L R h hf
    exact .inr ⟨x', _, by simp only [answerCall, a1, Outcome.bind_ret, Outcome.pure_eq]; rfl, a2, by rw [a3]; rfl⟩
  | write buf =>
    obtain ⟨x', a1, a2, a3⟩ := write_machine L R h buf hf
    exact .inr ⟨x', _, by simp only [answerCall, a1, Outcome.bind_ret, Outcome.pure_eq]; rfl, a2, by rw [a3]; rfl⟩
  | writeAt buf off =>
    obtain ⟨x', a1, a2, a3⟩ := writeAt_machine L R h buf hf.2 hf.1
    exact .inr ⟨x', _, by simp only [answerCall, a1, Outcome.bind_ret, Outcome.pure_eq]; rfl, a2, by rw [a3]; rfl⟩
  | writeTo k w fuel =>
    simp only [answerCall, Machine.call]
    unfold writeTo Machine.writeTo
    have hblk : (shown view x).block = bpb := h.bpb
    have hcr : (shown view x).canRead = Flags.read x.flags := rfl
    rw [hblk, hcr]
    rcases fuel with _ | fuel
    · left; exact ⟨rfl, rfl⟩
    rw [if_neg (by omega : ¬ fuel + 1 = 0)]
    have hbuf : (List.replicate x.st.c.bpb (0 : UInt8)).length = bpb := by rw [List.length_replicate]; exact h.bpb
    have hfb : FitsRead x bpb := by rw [← h.bpb]; exact hf
    cases hrd : Flags.read x.flags with
    | false =>
      right
      refine ⟨x, _, ?_, h, rfl⟩
      unfold writeToLoop read readAt
      rw [hrd]
      rfl
    | true =>
      simp only [Bool.not_true, Bool.false_eq_true, if_false]
      have hlen : ((shown view x).rest.length : Int) < 2 ^ 63 := by
        unfold Machine.rest
        rw [List.length_drop, file_shown, file_length h]
        have := h.size_lt
        omega
      obtain ⟨c1, c2⟩ := writeToLoop_machine L R k (fuel + 1) _ x w [] 0 h hrd hbuf hfb (Int.le_refl 0) (by omega)
      by_cases hlt : (shown view x).rest.length / bpb < fuel + 1
      · right
        obtain ⟨x', w', e1, e2, e3⟩ := c1 hlt
        rw [if_pos hlt, e1]
        refine ⟨x', _, rfl, e2, ?_⟩
        rw [e3, Int.zero_add, List.nil_append, Option.map_some]
        have hcr' : (shown view x).canRead = true := hcr.trans hrd
        show _ = some (({ shown view x with pos := (shown view x).pos + (shown view x).rest.length / bpb * bpb } : Machine), _)
        generalize shown view x = m at hblk hcr' ⊢
        rcases m with ⟨o, bl, sz, p, cr, cw, ap, sy⟩
        simp only at hblk hcr'
        subst hblk hcr'
        rfl
      · left
        rw [if_neg hlt, c2 (by omega)]
        exact ⟨rfl, rfl⟩
  | readFrom src q bs fuel =>
    simp only [answerCall, Machine.call]
    unfold readFrom
    show _ ∨ _
    have hcw : (shown view x).canWrite = Flags.write x.flags := rfl
    rw [hcw]
    cases hw : Flags.write x.flags with
    | false => exact .inr ⟨x, _, rfl, h, rfl⟩
    | true =>
      simp only [Bool.not_true, Bool.false_eq_true, if_false]
      rcases readFromLoop_machine L R src bs fuel x q 0 h hf with ⟨a, c⟩ | ⟨x', q', n, e, a, i, c⟩
      · left; rw [a, c]; exact ⟨rfl, rfl⟩
      · right; rw [a, c]; exact ⟨x', _, rfl, i, rfl⟩

/-- A whole history. -/
theorem ran_machine (cs : List Call) : ∀ {x : Stm S}, Inv bpb view x → FitsAll b x cs →
    (ran b x cs = .timeout ∧ (shown view x).run cs = none) ∨
    ∃ x' as, ran b x cs = .ret (x', as) ∧ Inv bpb view x' ∧ (shown view x).run cs = some (shown view x', as) := by
  induction cs with
  | nil => intro x h _; exact .inr ⟨x, [], rfl, h, rfl⟩
  | cons c cs ih =>
    intro x h hf
    rcases call_machine L R h c hf.1 with ⟨a, e⟩ | ⟨x1, r, a, i1, e⟩
    · left
      simp only [ran, a, Machine.run, e]
      exact ⟨rfl, rfl⟩
    · have hs : (((shown view x1).size : Nat) : Int) = x1.size' := by
        show (x1.size.toNat : Int) = x1.size
        have := i1.size_nn
        omega
      have hp : (((shown view x1).pos : Nat) : Int) = x1.tell := by
        show (x1.position.toNat : Int) = x1.position
        have := i1.pos_nn
        omega
      simp only [ran, a, Machine.run, e, Outcome.bind_ret]
      rcases ih i1 (hf.2 _ _ a) with ⟨a2, e2⟩ | ⟨x2, as, a2, i2, e2⟩
      · left; rw [a2]; simp only [Option.bind_eq_bind, Option.bind_some, e2]; exact ⟨rfl, rfl⟩
      · right
        rw [a2]
        simp only [Option.bind_eq_bind, Option.bind_some, e2, hs, hp]
        exact ⟨x2, _, rfl, i2, rfl⟩

end

end Disko.Stream.Reference

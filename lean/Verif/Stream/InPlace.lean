import Verif.Stream.MachineLemmas
import Verif.Stream.Fixed
/-! Calls that do not change the size of the object (for C153): only blocks are read, nothing is asked of the storage beyond that. -/
namespace Disko.Stream.Reference
open Disko Disko.BlockCache Disko.BlockCache.Spec Disko.Stream Disko.Stream.Spec

variable {S : Type}

/-- The call asks for no other size of the object: it only reads, or is refused, or writes before the end of the object.  (WriteTo and ReadFrom are
left out: they are sequences of Read and Write.) -/
def Machine.InPlace (m : Machine) : Call → Prop
  | .truncate n => m.canWrite = false ∨ n < 0
  | .write buf => m.canWrite = false ∨ (if m.appends then m.size else m.pos) + buf.length < m.object.length
  | .writeAt buf off => m.canWrite = false ∨ m.appends = true ∨ off.toNat + buf.length < m.object.length
  | .writeTo _ _ _ => False
  | .readFrom _ _ _ _ => False
  | _ => True

/-- Storage that can only be read. -/
def reading (b : Backend S) : Backend S where
  fetch := b.fetch
  flush s _ _ := (s, some .notSupported)
  resize s _ := (s, some .notSupported)

/-! ### The same as with storage that can only be read -/

theorem loadLoop_reading (b : Backend S) : ∀ (n i : Nat) (st : St S), loadLoop (reading b) n i st = loadLoop b n i st
  | 0, i, st => rfl
  | n + 1, i, st => by
    rw [loadLoop, loadLoop]
    simp only [loadLoop_reading b n]
    rfl

theorem getSlice_reading (b : Backend S) (st : St S) (i n : Nat) : getSlice (reading b) st i n = getSlice b st i n := by
  unfold getSlice loadBlockRange
  simp only [loadLoop_reading]

theorem flushLoop_reading (b : Backend S) : ∀ (n i : Nat) (st : St S), st.c.Clean → flushLoop (reading b) n i st = flushLoop b n i st
  | 0, i, st, _ => rfl
  | n + 1, i, st, hc => by
    rw [flushLoop, flushLoop]
    unfold bitGet
    rcases hg : st.c.dirty[i]? with _ | v
    · rfl
    · have hv : v = false := by have := hc i; rw [List.getD_eq_getElem?_getD, hg] at this; exact this
      subst hv
      exact flushLoop_reading b n (i + 1) st hc

theorem sync_reading (b : Backend S) {x : Stm S} (hc : x.st.c.Clean) : sync (reading b) x = sync b x := by
  unfold sync flush flushBlockRange
  simp only [flushLoop_reading b _ _ _ hc]

theorem readAt_reading (b : Backend S) (x : Stm S) (buf : Bytes) (off : Int) : readAt (reading b) x buf off = readAt b x buf off := by
  unfold readAt
  simp only [getSlice_reading]

theorem read_reading (b : Backend S) (x : Stm S) (buf : Bytes) : read (reading b) x buf = read b x buf := by
  unfold read
  rw [readAt_reading]

theorem writeTail_reading (b : Backend S) {x : Stm S} (hc : x.st.c.Clean) (fl : Flags.IOFlags) (buf : Bytes) (sb so lb : Nat) :
    writeTail (reading b) x fl buf sb so lb = writeTail b x fl buf sb so lb := by
  unfold writeTail
  rw [getSlice_reading]
  rcases hg : getSlice b x.st sb (u64 (lb + 1)) with ⟨st', e | w⟩ | _ | _
  · rfl
  · have hcl : st'.c.Clean :=
      (getSlice_frame (R := fun _ _ : S => True) (fun _ => trivial) (fun _ _ => trivial) b x.st.c.shape (fun _ _ _ _ => trivial) _ _ x.st rfl _ hg).clean hc
    simp only [Outcome.bind_ret]
    have hs : ∀ d, sync (reading b) { x with st := ⟨{ st'.c with data := d }, st'.s⟩ } = sync b { x with st := ⟨{ st'.c with data := d }, st'.s⟩ } :=
      fun d => sync_reading b hcl
    simp only [hs]
  · rfl
  · rfl

section
variable {bpb : Nat} {view : S → Bytes} {b : Backend S} {x : Stm S}

theorem implWriteAt_reading (h : Inv bpb view x) (hc : x.st.c.Clean) (buf : Bytes) {off : Int} (h0 : 0 ≤ off) (hf : FitsWrite x buf.length off)
    (hin : Flags.write x.flags = false ∨ off.toNat + buf.length < (shown view x).object.length) : implWriteAt (reading b) x buf off = implWriteAt b x buf off := by
  have hl : (shown view x).object.length = x.st.c.total * x.st.c.bpb := length_contents _ _
  have hlt : Flags.write x.flags = true → (off.toNat + buf.length) / x.st.c.bpb < x.st.c.total := by
    intro hw
    rcases hin with k | k
    · rw [hw] at k; cases k
    · rw [Nat.div_lt_iff_lt_mul h.weak.bpb_pos]; omega
  rcases implWriteAt_spec (b := reading b) h buf h0 hf with ⟨h1, e1⟩ | ⟨h1, h2, e1⟩ | ⟨h1, h2, ⟨h3, e1⟩ | ⟨h3, _⟩⟩
  · rcases implWriteAt_spec (b := b) h buf h0 hf with ⟨_, e2⟩ | ⟨k, _⟩ | ⟨k, _⟩
    · rw [e1, e2]
    · rw [h1] at k; cases k
    · rw [h1] at k; cases k
  · rcases implWriteAt_spec (b := b) h buf h0 hf with ⟨k, _⟩ | ⟨_, _, e2⟩ | ⟨_, k, _⟩
    · rw [h1] at k; cases k
    · rw [e1, e2]
    · exfalso
      have k' : off + buf.length + x.st.c.bpb ≤ (maxInt : Nat) := k
      omega
  · rcases implWriteAt_spec (b := b) h buf h0 hf with ⟨k, _⟩ | ⟨_, k, _⟩ | ⟨_, _, ⟨_, e2⟩ | ⟨k, _⟩⟩
    · rw [h1] at k; cases k
    · exfalso
      have k' : off + buf.length + x.st.c.bpb ≤ (maxInt : Nat) := h2
      omega
    · rw [e1, e2, writeTail_reading b hc]
    · omega
  · have := hlt h1; omega

/-- A write in place on storage that can only be read does not fail because of the storage. -/
theorem implWriteAt_quiet (L : Lawful (reading b) bpb view) (hfe : ∀ j be, ¬ FetchFails b x.st.c.total j be) (h : Inv bpb view x) (hc : x.st.c.Clean) (buf : Bytes)
    {off : Int} (h0 : 0 ≤ off) (hf : FitsWrite x buf.length off) (hin : Flags.write x.flags = false ∨ off.toNat + buf.length < (shown view x).object.length)
    {x' : Stm S} {n : Int} {z : SErr} (hr : implWriteAt (reading b) x buf off = .ret (x', n, some z)) : ¬ CallbackFailed (reading b) z := by
  have hl : (shown view x).object.length = x.st.c.total * x.st.c.bpb := length_contents _ _
  rcases implWriteAt_spec (b := reading b) h buf h0 hf with ⟨_, e1⟩ | ⟨_, _, e1⟩ | ⟨h1, h2, ⟨h3, e1⟩ | ⟨h3, _⟩⟩
  · rw [e1] at hr; cases hr; exact id
  · rw [e1] at hr; cases hr; exact id
  · rw [e1] at hr
    have hfit : off.toNat + buf.length + x.st.c.bpb ≤ maxInt := by
      have k' : off + buf.length + x.st.c.bpb ≤ (maxInt : Nat) := h2
      omega
    rcases writeTail_spec L x.flags h buf off.toNat x.st.c.bpb rfl hfit with ⟨_, e2⟩ | ⟨_, st', w, ⟨j, be, k, _⟩ | ⟨_, _, _, e2⟩⟩
    · rw [e2] at hr; cases hr; exact id
    · exact absurd k (hfe j be)
    · rw [e2] at hr
      unfold finish at hr
      split at hr
      · have hcl : (poked x st' off.toNat buf).st.c.Clean := by
          intro j
          show st'.c.dirty.getD j false = false
          rw [w.dirty]; exact hc j
        have hs := sync_clean (reading b) hcl
        rcases hq : sync (reading b) (poked x st' off.toNat buf) with ⟨x3, e3⟩ | _ | _
        · rw [hq] at hr
          simp only [Outcome.bind_ret, Outcome.pure_eq, Outcome.ret.injEq, Prod.mk.injEq] at hr
          obtain ⟨_, _, rfl⟩ := hr
          rcases (hs _ hq).2 with k | k
          · cases k
          · cases k; exact id
        · rw [hq] at hr; cases hr
        · rw [hq] at hr; cases hr
      · cases hr
  · rcases hin with k | k
    · rw [h1] at k; cases k
    · exfalso
      rw [hl, ← Nat.div_lt_iff_lt_mul h.weak.bpb_pos] at k
      omega

theorem seek_end (h : Inv bpb view x) : seek x 0 2 = ({ x with position := x.size }, x.size, none) := by
  have h1 := h.size_nn
  have h2 := h.size_lt
  unfold seek
  simp only [Int.add_zero, show ¬ ((2 : Int) = 0) by omega, show ¬ ((2 : Int) = 1) by omega, if_false, if_true]
  rw [i64_of_range (by omega) h2, if_neg (by omega)]

theorem Inv.atEnd (h : Inv bpb view x) : Inv bpb view { x with position := x.size } :=
  ⟨h.weak, h.bpb, h.bpb_le, h.size_nn, h.size_le, h.size_nn, h.size_lt⟩

theorem write_eq (h : Inv bpb view x) (b : Backend S) (buf : Bytes) (hw : Flags.write x.flags = true) :
    write b x buf = implWriteAt b { x with position := writeOffset x } buf (writeOffset x) >>= fun r => .ret ({ r.1 with position := i64 (r.1.position + r.2.1) }, r.2.1, r.2.2) := by
  unfold write writeOffset
  rw [hw]
  simp only [Bool.not_true, Bool.false_eq_true, if_false]
  cases Flags.append x.flags with
  | true => simp only [if_true, seek_end h]; rfl
  | false => simp only [Bool.false_eq_true, if_false]; rfl

/-- One call. -/
theorem call_inPlace (L : Lawful (reading b) bpb view) (hq : ∀ s i buf, (b.fetch s i buf).1 = s) (hfe : ∀ j be, ¬ FetchFails b x.st.c.total j be) (h : Inv bpb view x)
    (hc : x.st.c.Clean) (c : Call) (hf : Fits b x c) (hin : (shown view x).InPlace c) :
    ∃ x' a, answerCall b x c = .ret (x', a) ∧ Inv bpb view x' ∧ Kept (fun s => s) x x' ∧ (shown view x).call c = some (shown view x', a) := by
  have F : FixedSize (reading b) (fun s : S => s) := ⟨fun s n h => (by cases h), fun _ _ => rfl, fun s i buf => hq s i buf⟩
  cases c with
  | read buf =>
    obtain ⟨x', a1, a2, _, a3⟩ := read_machine_of L hfe h buf hf
    have k := read_kept F hc buf _ a1
    rw [read_reading] at a1
    exact ⟨x', _, by simp only [answerCall, a1, Outcome.bind_ret, Outcome.pure_eq]; rfl, a2, k, by rw [a3]; rfl⟩
  | readAt buf off =>
    obtain ⟨x', a1, a2, a3, a4⟩ := readAt_machine_of L hfe h buf hf.2 hf.1
    have k := readAt_kept F hc buf off _ a1
    rw [readAt_reading] at a1
    exact ⟨x', _, by simp only [answerCall, a1, Outcome.bind_ret, Outcome.pure_eq]; rfl, a2, k, by rw [shown_still a3 a4]; rfl⟩
  | seek off whence =>
    obtain ⟨a1, a2⟩ := seek_machine (whence := whence) h hf
    refine ⟨_, _, rfl, (seek_effect h hf.1 hf.2).1, seek_kept F hc off whence, ?_⟩
    rw [a2, a1]; rfl
  | sync =>
    obtain ⟨x', a1, a2, a3, a4⟩ := sync_machine_of L (fun x' z hz => by
      rcases (sync_clean (reading b) hc _ hz).2 with k | k
      · cases k
      · cases k; exact id) h
    have k := (sync_clean (reading b) hc _ a1).1
    simp only at k
    rw [sync_reading b hc] at a1
    exact ⟨x', _, by simp only [answerCall, a1, Outcome.bind_ret, Outcome.pure_eq]; rfl, a2, by rw [k]; exact Kept.refl hc, by rw [shown_still a3 a4]; rfl⟩
  | truncate n =>
    have hin' : Flags.write x.flags = false ∨ n < 0 := hin
    simp only [answerCall, Machine.call]
    unfold truncate Machine.truncate
    have hcw : (shown view x).canWrite = Flags.write x.flags := rfl
    rw [hcw]
    cases hw : Flags.write x.flags with
    | false => exact ⟨x, _, rfl, h, Kept.refl hc, rfl⟩
    | true =>
      rcases hin' with k | k
      · rw [hw] at k; cases k
      · simp only [Bool.not_true, Bool.false_eq_true, if_false, k, if_true]
        exact ⟨x, _, rfl, h, Kept.refl hc, rfl⟩
  | write buf =>
    have hwo := writeOffset_range h
    have hwe : (writeOffset x).toNat = (if (shown view x).appends then (shown view x).size else (shown view x).pos : Nat) := by
      unfold writeOffset
      show _ = (if Flags.append x.flags = true then x.size.toNat else x.position.toNat : Nat)
      split <;> rfl
    have hin' : Flags.write x.flags = false ∨ (writeOffset x).toNat + buf.length < (shown view x).object.length := by rw [hwe]; exact hin
    have hi : Inv bpb view { x with position := writeOffset x } := ⟨h.weak, h.bpb, h.bpb_le, h.size_nn, h.size_le, hwo.1, hwo.2⟩
    have hfi : FitsWrite { x with position := writeOffset x } buf.length (writeOffset x) := by
      have hf' : FitsWrite x buf.length (writeOffset x) := hf
      unfold FitsWrite FitsSize at hf' ⊢
      exact hf'
    have hr : write (reading b) x buf = write b x buf := by
      cases hw : Flags.write x.flags with
      | false => unfold write; simp only [hw, Bool.not_false, if_true]
      | true => rw [write_eq h _ _ hw, write_eq h _ _ hw, implWriteAt_reading hi hc buf hwo.1 hfi hin']
    obtain ⟨x', a1, a2, a3⟩ := write_machine_of L h buf (fun x' n z hz => by
      cases hw : Flags.write x.flags with
      | false => unfold write at hz; rw [hw] at hz; cases hz; exact id
      | true =>
        rw [write_eq h _ _ hw] at hz
        rcases hq' : implWriteAt (reading b) { x with position := writeOffset x } buf (writeOffset x) with ⟨x1, n1, e1⟩ | _ | _
        · rw [hq'] at hz
          simp only [Outcome.bind_ret, Outcome.ret.injEq, Prod.mk.injEq] at hz
          obtain ⟨_, _, rfl⟩ := hz
          exact implWriteAt_quiet (x := { x with position := writeOffset x }) L hfe hi hc buf hwo.1 hfi hin' hq'
        · rw [hq'] at hz; cases hz
        · rw [hq'] at hz; cases hz) hf
    have k := write_kept F hc buf _ a1
    rw [hr] at a1
    exact ⟨x', _, by simp only [answerCall, a1, Outcome.bind_ret, Outcome.pure_eq]; rfl, a2, k, by rw [a3]; rfl⟩
  | writeAt buf off =>
    have hin' : Flags.append x.flags = false → Flags.write x.flags = false ∨ off.toNat + buf.length < (shown view x).object.length := by
      intro ha
      rcases hin with k | k | k
      · exact .inl k
      · have k' : Flags.append x.flags = true := k
        rw [ha] at k'; cases k'
      · exact .inr k
    have hr : writeAt (reading b) x buf off = writeAt b x buf off := by
      unfold writeAt
      cases ha : Flags.append x.flags with
      | true => simp only [if_true]
      | false => simp only [Bool.false_eq_true, if_false]; exact implWriteAt_reading h hc buf hf.2 hf.1 (hin' ha)
    obtain ⟨x', a1, a2, a3⟩ := writeAt_machine_of L h buf (fun x' n z hz => by
      unfold writeAt at hz
      cases ha : Flags.append x.flags with
      | true => simp only [ha, if_true] at hz; cases hz; exact id
      | false => simp only [ha, Bool.false_eq_true, if_false] at hz; exact implWriteAt_quiet L hfe h hc buf hf.2 hf.1 (hin' ha) hz) hf.2 hf.1
    have k : Kept (fun s => s) x x' := by
      have a0 := a1
      unfold writeAt at a0
      cases ha : Flags.append x.flags with
      | true =>
        simp only [ha, if_true, Outcome.pure_eq, Outcome.ret.injEq, Prod.mk.injEq] at a0
        rw [← a0.1]
        exact Kept.refl hc
      | false =>
        simp only [ha, Bool.false_eq_true, if_false] at a0
        exact implWriteAt_kept F hc buf off _ a0
    rw [hr] at a1
    exact ⟨x', _, by simp only [answerCall, a1, Outcome.bind_ret, Outcome.pure_eq]; rfl, a2, k, by rw [a3]; rfl⟩
  | writeTo k w fuel => exact absurd hin id
  | readFrom src r bs fuel => exact absurd hin id

end

end Disko.Stream.Reference

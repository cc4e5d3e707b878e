import Verif.Stream.Frame
import Verif.Stream.Props6
/-! Streams over storage whose size cannot be changed: whatever is done with them, WriteBlocks is never called. -/
namespace Disko.Stream
open Disko Disko.BlockCache Disko.BlockCache.Spec Disko.Stream.Spec

variable {S : Type}

namespace Spec

/-- Storage whose size cannot be changed: Resize always fails (it may fail in any way), and neither it nor ReadBlocks changes what is stored (or whatever else
`view` may be).
Nothing is assumed of WriteBlocks. -/
structure FixedSize {V : Type} (b : Backend S) (view : S → V) : Prop where
  refuses : ∀ s n, (b.resize s n).2 ≠ none
  resize : ∀ s n, view (b.resize s n).1 = view s
  fetch : ∀ s i buf, view (b.fetch s i buf).1 = view s

/-- Any calls, of any sizes. -/
inductive Calls (b : Backend S) : Stm S → Stm S → Prop where
  | start (x : Stm S) : Calls b x x
  | call {x x1 x2 : Stm S} {c : Call} (hs : Calls b x x1) (h : stepCall b x1 c = .ret x2) : Calls b x x2

end Spec

theorem flushLoop_clean (b : Backend S) : ∀ n i (st : St S), st.c.Clean → (flushLoop b n i st).All fun r => r = (st, none)
  | 0, i, st, _ => by rw [flushLoop]; exact .ret rfl
  | n + 1, i, st, hcl => by
    rw [flushLoop]
    unfold bitGet
    rcases hg : st.c.dirty[i]? with _ | v
    · exact .panic
    · have hv : v = false := by have := hcl i; rw [List.getD_eq_getElem?_getD, hg] at this; exact this
      subst hv
      exact flushLoop_clean b n (i + 1) st hcl

/-- Sync of a stream with nothing to write does nothing; it can only complain that there are no blocks. -/
theorem sync_clean (b : Backend S) {x : Stm S} (hc : x.st.c.Clean) :
    (sync b x).All fun r => r.1 = x ∧ (r.2 = none ∨ r.2 = some (.cache .argumentOutOfRange)) := by
  unfold sync flush flushBlockRange
  refine Outcome.All.bind (P := fun r => r.1 = x.st ∧ (r.2 = .ok () ∨ r.2 = .error .argumentOutOfRange)) ?_ fun r hr => ?_
  · refine Outcome.All.bind (P := fun r => r.1 = x.st ∧ (r.2 = none ∨ r.2 = some .argumentOutOfRange)) ?_ fun r hr => ?_
    · refine (Outcome.All.any _).bind fun c hcb => ?_
      cases c with
      | some c =>
        refine .ret ⟨rfl, .inr ?_⟩
        unfold Cache.checkBounds at hcb
        rcases hm : x.st.c.getMinBlocksForSize (u64 (x.st.c.total * x.st.c.bpb)) with k | _ | _
        · rw [hm, Outcome.bind_ret] at hcb
          split at hcb
          · cases hcb; rfl
          · split at hcb
            · cases hcb; rfl
            · cases hcb
        · rw [hm] at hcb; cases hcb
        · rw [hm] at hcb; cases hcb
      | none => exact (flushLoop_clean b _ _ _ hc).imp fun r h => by rw [h]; exact ⟨rfl, .inl rfl⟩
    · rcases r with ⟨st', _ | e⟩
      · exact .ret ⟨hr.1, .inl rfl⟩
      · refine .ret ⟨hr.1, .inr ?_⟩
        have := hr.2
        simp at this
        rw [this]
  · rcases r with ⟨st', e | u⟩
    · obtain ⟨h1, h2⟩ := hr
      simp only at h1
      subst h1
      refine .ret ⟨rfl, .inr ?_⟩
      simp at h2
      rw [h2]
    · obtain ⟨h1, _⟩ := hr
      simp only at h1
      subst h1
      exact .ret ⟨rfl, .inl rfl⟩

/-- What stays the same. -/
structure Kept {V : Type} (view : S → V) (x x' : Stm S) : Prop where
  view : view x'.st.s = view x.st.s
  bpb : x'.st.c.bpb = x.st.c.bpb
  blocks : x'.st.c.total = x.st.c.total
  size : x'.size = x.size
  flags : x'.flags = x.flags
  clean : x'.st.c.Clean

theorem Kept.refl {V : Type} {view : S → V} {x : Stm S} (h : x.st.c.Clean) : Kept view x x := ⟨rfl, rfl, rfl, rfl, rfl, h⟩
theorem Kept.trans {V : Type} {view : S → V} {x y z : Stm S} (h : Kept view x y) (k : Kept view y z) : Kept view x z :=
  ⟨k.view.trans h.view, k.bpb.trans h.bpb, k.blocks.trans h.blocks, k.size.trans h.size, k.flags.trans h.flags, k.clean⟩

section
variable {V : Type} {b : Backend S} {view : S → V} (F : FixedSize b view)
include F

theorem getSlice_kept (i n : Nat) (st : St S) : (getSlice b st i n).All fun r => Loaded (fun s t => view t = view s) st r.1 :=
  getSlice_frame (R := fun s t => view t = view s) (fun _ => rfl) (fun h k => k.trans h) b st.c.shape (fun s i buf _ => F.fetch s i buf) i n st rfl

theorem readAt_kept {x : Stm S} (hc : x.st.c.Clean) (buf : Bytes) (off : Int) : (readAt b x buf off).All fun r => Kept view x r.1 := by
  unfold readAt
  have h0 := Kept.refl (view := view) hc
  refine .ite (fun _ => .ret h0) fun _ => .ite (fun _ => .ret h0) fun _ => .ite (fun _ => .ret h0) fun _ => ?_
  refine (Outcome.All.any _).bind fun p _ => (Outcome.All.any _).bind fun q _ => ?_
  refine (getSlice_kept F _ _ x.st).bind fun r hr => ?_
  have hk : Kept view x { x with st := r.1 } := ⟨hr.rel, congrArg Shape.bpb hr.shape, congrArg Shape.total hr.shape, rfl, rfl, hr.clean hc⟩
  rcases r with ⟨st', e | w⟩
  · exact .ret hk
  · exact .ite (fun _ => .ret hk) fun _ => .panic

theorem read_kept {x : Stm S} (hc : x.st.c.Clean) (buf : Bytes) : (read b x buf).All fun r => Kept view x r.1 := by
  unfold read
  refine (readAt_kept F hc buf x.position).bind fun r hr => ?_
  rcases r with ⟨x', r⟩
  simp only
  rcases r.err with _ | e
  · exact .ret ⟨hr.view, hr.bpb, hr.blocks, hr.size, hr.flags, hr.clean⟩
  · exact .ret hr

/-- Truncate never succeeds. -/
theorem truncate_kept {x : Stm S} (hc : x.st.c.Clean) (n : Int) : (truncate b x n).All fun r => Kept view x r.1 ∧ r.2 ≠ none := by
  unfold truncate
  have h0 := Kept.refl (view := view) hc
  refine .ite (fun _ => .ret ⟨h0, by simp⟩) fun _ => .ite (fun _ => .ret ⟨h0, by simp⟩) fun _ => ?_
  refine (Outcome.All.any _).bind fun nb _ => ?_
  unfold resize
  have h1 := F.refuses x.st.s nb
  have h2 := F.resize x.st.s nb
  rcases hr : b.resize x.st.s nb with ⟨s1, _ | e⟩
  · rw [hr] at h1; exact absurd rfl h1
  · rw [hr] at h2
    exact .ret ⟨⟨h2, rfl, rfl, rfl, rfl, hc⟩, by simp⟩

theorem implWriteAt_kept {x : Stm S} (hc : x.st.c.Clean) (buf : Bytes) (off : Int) : (implWriteAt b x buf off).All fun r => Kept view x r.1 := by
  unfold implWriteAt
  have h0 := Kept.refl (view := view) hc
  refine .ite (fun _ => .ret h0) fun _ => (Outcome.All.any _).bind fun p _ => (Outcome.All.any _).bind fun q _ => ?_
  refine Outcome.All.bind (P := fun r => Kept view x r.1) ?_ fun r h1 => ?_
  · exact .ite (fun _ => (truncate_kept F hc _).imp fun r h => h.1) fun _ => .ret h0
  · rcases r with ⟨x1, e1 | _⟩
    · refine (getSlice_kept F _ _ x1.st).bind fun r h2 => ?_
      have hk : Kept view x { x1 with st := r.1 } := ⟨h2.rel.trans h1.view, (congrArg Shape.bpb h2.shape).trans h1.bpb,
        (congrArg Shape.total h2.shape).trans h1.blocks, h1.size, h1.flags, h2.clean h1.clean⟩
      rcases r with ⟨st', e | w⟩
      · exact .ret hk
      · refine .ite (fun hle => ?_) fun _ => .panic
        have hk2 : ∀ d, Kept view x { x1 with st := ⟨{ st'.c with data := d }, st'.s⟩ } :=
          fun d => ⟨hk.view, hk.bpb, hk.blocks, hk.size, hk.flags, hk.clean⟩
        refine .ite (fun _ => ?_) fun _ => .ret (hk2 _)
        refine (sync_clean b (hk2 _).clean).bind fun r hr => ?_
        rcases r with ⟨x3, e⟩
        obtain ⟨hr, _⟩ := hr
        simp only at hr
        subst hr
        exact .ret (hk2 _)
    · exact .ret h1

theorem write_kept {x : Stm S} (hc : x.st.c.Clean) (buf : Bytes) : (write b x buf).All fun r => Kept view x r.1 := by
  unfold write
  refine .ite (fun _ => .ret (Kept.refl hc)) fun _ => ?_
  have hs : ∀ y : Stm S, y.st.c.Clean → Kept view y (seek y 0 2).1 := by
    intro y hy
    unfold seek
    simp only
    split <;> (try split) <;> exact ⟨rfl, rfl, rfl, rfl, rfl, hy⟩
  simp only
  have key : ∀ z : Stm S × Int × Option SErr, Kept view x z.1 → (match z with
      | (x0, _, e0) => match e0 with
        | some e => (.ret (x0, 0, some e) : Outcome (Stm S × Int × Option SErr))
        | none => (implWriteAt b x0 buf x0.position) >>= fun y => .ret ({ y.1 with position := i64 (y.1.position + y.2.1) }, y.2.1, y.2.2)).All fun (r : Stm S × Int × Option SErr) => Kept view x r.1 := by
    rintro ⟨x0, n0, _ | e⟩ hz
    · simp only at hz ⊢
      exact (implWriteAt_kept F hz.clean buf _).bind fun r h => .ret (hz.trans ⟨h.view, h.bpb, h.blocks, h.size, h.flags, h.clean⟩)
    · exact .ret hz
  refine key _ ?_
  split
  · exact hs x hc
  · exact Kept.refl hc

theorem seek_kept {x : Stm S} (hc : x.st.c.Clean) (off whence : Int) : Kept view x (seek x off whence).1 := by
  unfold seek
  simp only
  split <;> (try split) <;> exact ⟨rfl, rfl, rfl, rfl, rfl, hc⟩

theorem writeToLoop_kept {W : Type} (k : Compression.Sink W) : ∀ (fuel : Nat) (buf : Bytes) (x : Stm S) (w : W) (t : Int), x.st.c.Clean →
    (writeToLoop b k fuel buf x w t).All fun r => Kept view x r.1
  | 0, buf, x, w, t, _ => by rw [writeToLoop]; exact .timeout
  | fuel + 1, buf, x, w, t, hc => by
    rw [writeToLoop]
    refine (read_kept F hc buf).bind fun r hr => ?_
    rcases r with ⟨x', r⟩
    simp only
    split
    · exact .ret hr
    · exact .ret hr
    · exact (writeToLoop_kept k fuel _ _ _ _ hr.clean).imp fun r h => hr.trans h

theorem readFromLoop_kept {R : Type} (src : Source R) (bs : Nat) : ∀ (fuel : Nat) (x : Stm S) (r : R) (t : Int), x.st.c.Clean →
    (readFromLoop b src bs fuel x r t).All fun r => Kept view x r.1
  | 0, x, r, t, _ => by rw [readFromLoop]; exact .timeout
  | fuel + 1, x, r, t, hc => by
    rw [readFromLoop]
    simp only
    refine (write_kept F hc _).bind fun y hy => ?_
    rcases y with ⟨x', n, e⟩
    simp only at hy ⊢
    split
    · exact .ret hy
    · exact .ret hy
    · split
      · exact .ret hy
      · exact (readFromLoop_kept src bs fuel _ _ _ hy.clean).imp fun r h => hy.trans h

theorem step_kept {x : Stm S} (hc : x.st.c.Clean) (c : Call) : (stepCall b x c).All fun x' => Kept view x x' := by
  cases c with
  | read buf => exact (read_kept F hc buf).bind fun r h => .ret h
  | readAt buf off => exact (readAt_kept F hc buf off).bind fun r h => .ret h
  | seek off whence => exact .ret (seek_kept F hc off whence)
  | sync =>
    refine (sync_clean b hc).bind fun r h => .ret ?_
    rw [h.1]; exact Kept.refl hc
  | truncate n => exact (truncate_kept F hc n).bind fun r h => .ret h.1
  | write buf => exact (write_kept F hc buf).bind fun r h => .ret h
  | writeAt buf off =>
    refine Outcome.All.bind (P := fun r => Kept view x r.1) ?_ fun r h => .ret h
    unfold writeAt
    exact .ite (fun _ => .ret (Kept.refl hc)) fun _ => implWriteAt_kept F hc buf off
  | writeTo k w fuel => exact (writeToLoop_kept F k fuel _ x w 0 hc).bind fun r h => .ret h
  | readFrom src r bs fuel =>
    refine Outcome.All.bind (P := fun r => Kept view x r.1) ?_ fun r h => .ret h
    unfold readFrom
    exact .ite (fun _ => .ret (Kept.refl hc)) fun _ => readFromLoop_kept F src bs fuel x r 0 hc

theorem calls_kept {x x' : Stm S} (hc : x.st.c.Clean) (h : Calls b x x') : Kept view x x' := by
  induction h with
  | start => exact Kept.refl hc
  | call _ hs ih => exact ih.trans (step_kept F ih.clean _ _ hs)

end

theorem new_clean {bpb total : Nat} {c : Cache} (h : BlockCache.new bpb total = .ret c) : c.Clean ∧ c.total = total ∧ c.bpb = bpb := by
  unfold BlockCache.new at h
  split at h
  · cases h
    refine ⟨fun j => ?_, rfl, rfl⟩
    simp only [List.getD_eq_getElem?_getD, List.getElem?_replicate]
    split <;> rfl
  · cases h

/-- A stream that has just been opened. -/
theorem opened_kept {V : Type} {b : Backend S} {view : S → V} (F : FixedSize b view) {bpb total : Nat} {s0 : S} {x : Stm S} (h : Opened b bpb total s0 x) :
    view x.st.s = view s0 ∧ x.st.c.total = total ∧ x.st.c.bpb = bpb ∧ x.st.c.Clean := by
  obtain ⟨st, size, flags, e, ⟨c, hn, _, hr⟩, h⟩ := h
  cases hr
  obtain ⟨h1, h2, h3⟩ := new_clean hn
  unfold new at h
  split at h
  · cases h
  · simp only at h
    split at h
    · rcases ht : truncate b { size, position := 0, st := ⟨c, s0⟩, flags } 0 with ⟨x', e'⟩ | _ | _
      · rw [ht] at h
        cases h
        have := (truncate_kept F (x := { size, position := 0, st := ⟨c, s0⟩, flags }) h1 0 _ ht).1
        exact ⟨this.view, this.blocks.trans h2, this.bpb.trans h3, this.clean⟩
      · rw [ht] at h; cases h
      · rw [ht] at h; cases h
    · cases h
      exact ⟨rfl, h2, h3, h1⟩

/-- Truncate over storage of fixed size. -/
theorem truncate_refused {b : Backend S} {bpb : Nat} {view : S → Bytes} (L : Lawful b bpb view) (F : FixedSize b view) {x : Stm S}
    (h : Inv bpb view x) {n : Int} (hw : Flags.write x.flags = true) (hn : 0 ≤ n) (hf : FitsSize x n) :
    ∃ s' be, truncate b x n = .ret ({ x with st := ⟨x.st.c, s'⟩ }, some (.cache (.resizeFailed be))) ∧
      Inv bpb view { x with st := ⟨x.st.c, s'⟩ } ∧ contents view ⟨x.st.c, s'⟩ = contents view x.st := by
  unfold truncate
  rw [hw]
  simp only [Bool.not_true, Bool.false_eq_true, if_false]
  rw [if_neg (show ¬ n < 0 by omega)]
  obtain ⟨m, rfl⟩ := Int.eq_ofNat_of_zero_le hn
  have hf' : (m : Int) + x.st.c.bpb ≤ (maxInt : Nat) := hf
  rw [toUint_nat (by unfold maxInt at *; omega), minBlocks_eq h.weak.bpb_pos h.bpb_le (by omega)]
  simp only [Outcome.bind_ret]
  have hcap : (m + (x.st.c.bpb - 1)) / x.st.c.bpb * x.st.c.bpb ≤ maxInt := by
    have := Nat.div_mul_le_self (m + (x.st.c.bpb - 1)) x.st.c.bpb
    omega
  rcases resize_weak L x.st h.weak h.bpb _ hcap with
    ⟨be, s', r1, r2, r3, r4, r5⟩ | ⟨st', r1, _⟩
  · rw [r3]
    exact ⟨s', be, rfl, ⟨r4, h.bpb, h.bpb_le, h.size_nn, h.size_le, h.pos_nn, h.pos_lt⟩, r5⟩
  · exact absurd r1 (F.refuses _ _)

/-- A write over storage of fixed size from which blocks can be read. -/
theorem implWriteAt_fixed {b : Backend S} {bpb total : Nat} {view : S → Bytes} (L : Lawful b bpb view) (F : FixedSize b view)
    (hfetch : ∀ s i buf, i < total → (b.fetch s i buf).2.2 = none) {x : Stm S} (h : Inv bpb view x) (hc : x.st.c.Clean)
    (ht : x.st.c.total = total) (hw : Flags.write x.flags = true) (buf : Bytes) (off : Nat) (hf : FitsWrite x buf.length off) :
    ∃ x' n e, implWriteAt b x buf off = .ret (x', n, e) ∧ Inv bpb view x' ∧
      ((off / bpb + (off + buf.length) / bpb + 1 ≤ total ∧ n = buf.length ∧ e = none ∧
          contents view x'.st = splice (contents view x.st) off buf) ∨
        (¬ off / bpb + (off + buf.length) / bpb + 1 ≤ total ∧ n = 0 ∧ e ≠ none ∧ contents view x'.st = contents view x.st)) := by
  have hb := h.bpb
  have hpos : 0 < bpb := by rw [← hb]; exact h.weak.bpb_pos
  rcases implWriteAt_spec (b := b) h buf (off := (off : Int)) (by omega) hf with ⟨a1, _⟩ | ⟨_, a2, a3⟩ | ⟨_, a2, a3⟩
  · rw [hw] at a1; cases a1
  · refine ⟨_, _, _, a3, h, .inr ⟨?_, rfl, by simp, rfl⟩⟩
    intro hle
    have h1 := h.weak.cap
    rw [hb, ht] at h1
    have h2 : off + buf.length < total * bpb := by
      rw [← Nat.div_lt_iff_lt_mul hpos]
      generalize off / bpb = p at hle
      generalize (off + buf.length) / bpb = q at hle ⊢
      omega
    omega
  · simp only [Int.toNat_natCast] at a3
    rw [hb, ht] at a3
    rcases a3 with ⟨l1, l2⟩ | ⟨l1, l2⟩
    · rw [l2]
      have hfit : off + buf.length + bpb ≤ maxInt := by
        have : (off : Int) + buf.length + x.st.c.bpb ≤ maxInt := a2
        rw [hb] at this; omega
      rcases writeTail_spec L x.flags h buf off bpb hb hfit with ⟨w1, w2⟩ | ⟨w1, st', w2, w3⟩
      · rw [ht] at w1
        exact ⟨_, _, _, w2, h, .inr ⟨w1, rfl, by simp, rfl⟩⟩
      · rw [ht] at w1
        rcases w3 with ⟨j, be, ⟨hj, s, bf, hq⟩, _⟩ | ⟨w4, w5, _, w7⟩
        · rw [hfetch s j bf (by omega)] at hq; cases hq
        · rw [w7]
          unfold finish
          by_cases hsy : Flags.synchronous x.flags = true
          · rw [if_pos hsy]
            obtain ⟨x3, e3, s1, s2, s3⟩ := sync_spec L w4
            have hcl : (poked x st' off buf).st.c.Clean := by
              intro j
              show st'.c.dirty.getD j false = false
              rw [w2.dirty]; exact hc j
            obtain ⟨k1, k2⟩ := sync_clean b hcl _ s1
            simp only at k1 k2
            have he : e3 = none := by
              rcases k2 with k2 | k2
              · exact k2
              · rcases s3.err _ k2 with ⟨_, q2, _⟩ | ⟨_, q⟩
                · have : st'.c.total = 0 := q2
                  rw [w2.total, ht] at this
                  exact absurd w1 (by rw [this]; exact Nat.not_succ_le_zero _)
                · exact absurd q (by simp [CallbackFailed])
            rw [s1]
            subst he
            refine ⟨_, _, _, rfl, s2, .inl ⟨w1, rfl, rfl, ?_⟩⟩
            rw [k1]; exact w5
          · rw [if_neg hsy]
            exact ⟨_, _, _, rfl, w4, .inl ⟨w1, rfl, rfl, w5⟩⟩
    · rw [l2]
      have ha : FitsSize x ((off : Int) + buf.length) := a2
      obtain ⟨s', be, t1, t2, t3⟩ := truncate_refused L F h hw (by omega) ha
      rw [t1]
      exact ⟨_, _, _, rfl, t2, .inr ⟨fun hle => absurd l1 (Nat.not_le.2 (Nat.lt_of_lt_of_le (Nat.lt_succ_of_le (Nat.le_add_left _ _)) hle)), rfl, by simp, t3⟩⟩

end Disko.Stream

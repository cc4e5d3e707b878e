import Verif.Stream.Run
/-! Two streams with the same visible state give the same answers for ever (for C124). -/
namespace Disko.Stream
open Disko Disko.BlockCache Disko.BlockCache.Spec Disko.Stream.Spec

variable {S T : Type}

namespace Spec

/-- What a call returns; for WriteTo also what the writer was given. -/
inductive Answer where
  | read (r : ReadRes)
  | moved (n : Int) (e : Option SErr)
  | did (e : Option SErr)
  | wrote (n : Int) (e : Option SErr)
  | copied (chunks : List Bytes) (n : Int) (e : Option SErr)
deriving DecidableEq

/-- The stream after a call, and what the call returns. -/
def answerCall (b : Backend S) (x : Stm S) : Call → Outcome (Stm S × Answer)
  | .read buf => do let (x', r) ← Stream.read b x buf; return (x', .read r)
  | .readAt buf off => do let (x', r) ← Stream.readAt b x buf off; return (x', .read r)
  | .seek off whence => .ret ((Stream.seek x off whence).1, .moved (Stream.seek x off whence).2.1 (Stream.seek x off whence).2.2)
  | .sync => do let (x', e) ← Stream.sync b x; return (x', .did e)
  | .truncate n => do let (x', e) ← Stream.truncate b x n; return (x', .did e)
  | .write buf => do let (x', n, e) ← Stream.write b x buf; return (x', .wrote n e)
  | .writeAt buf off => do let (x', n, e) ← Stream.writeAt b x buf off; return (x', .wrote n e)
  | .writeTo k w fuel => do
    let (x', w', n, e) ← Stream.writeTo b (recording k) fuel x (w, []); return (x', .copied w'.2 n e)
  | .readFrom src r blockSize fuel => do
    let (x', _, n, e) ← Stream.readFrom b src blockSize fuel x r; return (x', .wrote n e)

/-- The answers of one call after the other, each with Size and Tell after it. -/
def answers (b : Backend S) : Stm S → List Call → Outcome (List (Answer × Int × Int))
  | _, [] => .ret []
  | x, c :: cs => do
    let (x', a) ← answerCall b x c
    let as ← answers b x' cs
    return (a, x'.size', x'.tell) :: as

/-- All calls of a history fit. -/
def FitsAll (b : Backend S) : Stm S → List Call → Prop
  | _, [] => True
  | x, c :: cs => Fits b x c ∧ ∀ x' a, answerCall b x c = .ret (x', a) → FitsAll b x' cs

end Spec

/-- Two streams whose files look the same. -/
structure Twin (bpb : Nat) (view : S → Bytes) (view' : T → Bytes) (x : Stm S) (y : Stm T) : Prop where
  left : Inv bpb view x
  right : Inv bpb view' y
  size : y.size = x.size
  position : y.position = x.position
  flags : y.flags = x.flags
  contents : contents view' y.st = contents view x.st

namespace Twin
variable {bpb : Nat} {view : S → Bytes} {view' : T → Bytes} {x : Stm S} {y : Stm T}

theorem bpb_eq (t : Twin bpb view view' x y) : y.st.c.bpb = x.st.c.bpb := t.right.bpb.trans t.left.bpb.symm

theorem total (t : Twin bpb view view' x y) : y.st.c.total = x.st.c.total := by
  have h := congrArg List.length t.contents
  rw [length_contents, length_contents, t.bpb_eq] at h
  exact Nat.eq_of_mul_eq_mul_right t.left.weak.bpb_pos h

theorem capacity (t : Twin bpb view view' x y) : Spec.capacity y = Spec.capacity x := by
  show y.st.c.total * y.st.c.bpb = x.st.c.total * x.st.c.bpb
  rw [t.total, t.bpb_eq]

theorem file (t : Twin bpb view view' x y) : Spec.file view' y = Spec.file view x := by
  unfold Spec.file
  rw [t.contents, t.size]

theorem fitsWrite (t : Twin bpb view view' x y) {len : Nat} {off : Int} (h : FitsWrite x len off) : FitsWrite y len off := by
  unfold FitsWrite FitsSize at *
  rw [t.capacity, t.bpb_eq]; exact h

theorem fitsRead (t : Twin bpb view view' x y) {len : Nat} (h : FitsRead x len) : FitsRead y len := by
  unfold FitsRead at *
  rw [t.capacity]; exact h

theorem writeOffset (t : Twin bpb view view' x y) : Spec.writeOffset y = Spec.writeOffset x := by
  unfold Spec.writeOffset
  rw [t.flags, t.size, t.position]

theorem move (t : Twin bpb view view' x y) {p : Int} (h0 : 0 ≤ p) (h1 : p < 2 ^ 63) :
    Twin bpb view view' { x with position := p } { y with position := p } :=
  ⟨t.left.pos h0 h1, t.right.pos h0 h1, t.size, rfl, t.flags, t.contents⟩

/-- After calls that change nothing visible. -/
theorem still (t : Twin bpb view view' x y) {x' : Stm S} {y' : Stm T} (hx : Inv bpb view x') (hy : Inv bpb view' y') (sx : Still view x x') (sy : Still view' y y')
    (hp : y'.position = x'.position) : Twin bpb view view' x' y' :=
  ⟨hx, hy, by rw [sy.size, sx.size, t.size], hp, by rw [sy.flags, sx.flags, t.flags], by rw [sy.contents, sx.contents, t.contents]⟩

end Twin

section
variable {bpb : Nat} {view : S → Bytes} {view' : T → Bytes} {x : Stm S} {y : Stm T} {b : Backend S} {b' : Backend T}
  (L : Lawful b bpb view) (L' : Lawful b' bpb view') (R : AllReliable b) (R' : AllReliable b')
include R in
theorem no_callback {e : SErr} : ¬ CallbackFailed b e := by
  intro h
  unfold CallbackFailed at h
  split at h
  · obtain ⟨s, buf, hq⟩ := h; rw [R.cache.fetch] at hq; cases hq
  · obtain ⟨s, buf, hq⟩ := h; rw [R.cache.flush] at hq; cases hq
  · obtain ⟨s, n, hq⟩ := h; rw [R.resize] at hq; cases hq
  · exact h

include L L' R R'

theorem readAt_twin (t : Twin bpb view view' x y) (buf : Bytes) {off : Int} (h0 : 0 ≤ off) (hf : FitsRead x buf.length) :
    ∃ x' y' r, readAt b x buf off = .ret (x', r) ∧ readAt b' y buf off = .ret (y', r) ∧ Twin bpb view view' x' y' ∧ x'.position = x.position := by
  obtain ⟨x', r, a1, a2, a3, a4, _⟩ := readAt_effect L t.left buf h0 hf
  obtain ⟨y', r', c1, c2, c3, c4, _⟩ := readAt_effect L' t.right buf h0 (t.fitsRead hf)
  have hr : r' = r := by
    have s1 := readAt_spec L t.left buf h0 hf
    have s2 := readAt_spec L' t.right buf h0 (t.fitsRead hf)
    have nf : ∀ {j : Nat} {be : BErr}, ¬ FetchFails b x.st.c.total j be := fun ⟨_, s, q, h⟩ => by rw [R.cache.fetch] at h; cases h
    have nf' : ∀ {j : Nat} {be : BErr}, ¬ FetchFails b' y.st.c.total j be := fun ⟨_, s, q, h⟩ => by rw [R'.cache.fetch] at h; cases h
    have hav : avail y buf.length off = avail x buf.length off := by unfold avail; rw [t.size]
    rw [t.flags, t.size, t.file, hav] at s2
    rw [a1] at s1
    rw [c1] at s2
    simp only [Outcome.ret.injEq, Prod.mk.injEq] at s1 s2
    rcases s1 with ⟨f1, _, rfl⟩ | ⟨f1, g1, _, rfl⟩ | ⟨f1, g1, k1, _, rfl⟩ | ⟨f1, g1, k1, _, _, ⟨_, rfl⟩ | ⟨_, _, h, _⟩⟩
    · rcases s2 with ⟨f2, _, rfl⟩ | ⟨f2, _⟩ | ⟨f2, _⟩ | ⟨f2, _⟩
      · rfl
      all_goals rw [f1] at f2; cases f2
    · rcases s2 with ⟨f2, _, rfl⟩ | ⟨f2, g2, _, rfl⟩ | ⟨f2, g2, k2, _, rfl⟩ | ⟨f2, g2, k2, _⟩
      · rw [f1] at f2; cases f2
      · rfl
      · exact absurd g1 g2
      · exact absurd g1 g2
    · rcases s2 with ⟨f2, _, rfl⟩ | ⟨f2, g2, _, rfl⟩ | ⟨f2, g2, k2, _, rfl⟩ | ⟨f2, g2, k2, _⟩
      · rw [f1] at f2; cases f2
      · exact absurd g2 g1
      · rfl
      · omega
    · rcases s2 with ⟨f2, _, rfl⟩ | ⟨f2, g2, _, rfl⟩ | ⟨f2, g2, k2, _, rfl⟩ | ⟨f2, g2, k2, _, _, ⟨_, rfl⟩ | ⟨_, _, h, _⟩⟩
      · rw [f1] at f2; cases f2
      · exact absurd g2 g1
      · omega
      · rfl
      · exact absurd h nf'
    · exact absurd h nf
  subst hr
  exact ⟨x', y', r', a1, c1, t.still a2 c2 a3 c3 (by rw [c4, a4, t.position]), a4⟩

theorem read_twin (t : Twin bpb view view' x y) (buf : Bytes) (hf : FitsRead x buf.length) :
    ∃ x' y' r, read b x buf = .ret (x', r) ∧ read b' y buf = .ret (y', r) ∧ Twin bpb view view' x' y' := by
  obtain ⟨x1, x', r, a1, a2, a3, a4, a5⟩ := read_effect L t.left buf hf
  obtain ⟨y1, y', r', c1, c2, c3, c4, c5⟩ := read_effect L' t.right buf (t.fitsRead hf)
  obtain ⟨x2, y2, q, e1, e2, e3, _⟩ := readAt_twin L L' R R' t buf t.left.pos_nn hf
  rw [t.position] at c1
  rw [a1] at e1
  rw [c1] at e2
  cases e1
  cases e2
  refine ⟨x', y', r, a2, c2, t.still a3 c3 a4 c4 ?_⟩
  rw [a5, c5, t.position]

theorem sync_twin (t : Twin bpb view view' x y) :
    ∃ x' y' e, sync b x = .ret (x', e) ∧ sync b' y = .ret (y', e) ∧ Twin bpb view view' x' y' := by
  obtain ⟨x', e, a1, a2, a3⟩ := sync_spec L t.left
  obtain ⟨y', e', c1, c2, c3⟩ := sync_spec L' t.right
  have key : ∀ {U : Type} {B : Backend U} {v : U → Bytes} {u u' : Stm U} {e : Option SErr}, Lawful B bpb v → Inv bpb v u → AllReliable B → Synced B v u u' e → sync B u = .ret (u', e) →
      e = if u.st.c.total = 0 then some (.cache .argumentOutOfRange) else none := by
    intro U B v u u' e LB hi Q s hs
    rcases e with _ | z
    · by_cases h0 : u.st.c.total = 0
      · exfalso
        unfold sync at hs
        rcases flush_weak LB u.st hi.weak hi.bpb with ⟨h1, h2⟩ | ⟨h1, _⟩
        · rw [h2] at hs; cases hs
        · omega
      · rw [if_neg h0]
    · rcases s.err z rfl with ⟨_, h, rfl⟩ | ⟨_, h⟩
      · rw [if_pos h]
      · exact absurd h (no_callback Q)
  have he : e' = e := by rw [key L' t.right R' c3 c1, key L t.left R a3 a1, t.total]
  subst he
  exact ⟨x', y', e', a1, c1, t.still a2 c2 (.synced a3) (.synced c3) (by rw [c3.position, a3.position, t.position])⟩

theorem truncate_twin (t : Twin bpb view view' x y) {n : Int} (hf : FitsSize x n) :
    ∃ x' y' e, truncate b x n = .ret (x', e) ∧ truncate b' y n = .ret (y', e) ∧ Twin bpb view view' x' y' := by
  have hf' : FitsSize y n := by unfold FitsSize at *; rw [t.bpb_eq]; exact hf
  have s2 := truncate_spec L' t.right hf'
  rw [t.flags] at s2
  rcases truncate_spec L t.left hf with ⟨f1, a⟩ | ⟨f1, g1, a⟩ | ⟨f1, _, _, be, _, ⟨m, h⟩, _⟩ | ⟨f1, g1, x1, i1, r1, a⟩
  · rcases s2 with ⟨_, c⟩ | ⟨f2, _⟩ | ⟨f2, _⟩ | ⟨f2, _⟩
    · exact ⟨x, y, _, a, c, t⟩
    all_goals rw [f1] at f2; cases f2
  · rcases s2 with ⟨f2, _⟩ | ⟨_, _, c⟩ | ⟨_, g2, _⟩ | ⟨_, g2, _⟩
    · rw [f1] at f2; cases f2
    · exact ⟨x, y, _, a, c, t⟩
    all_goals omega
  · rw [R.resize] at h; cases h
  · rcases s2 with ⟨f2, _⟩ | ⟨_, g2, _⟩ | ⟨_, _, _, be, _, ⟨m, h⟩, _⟩ | ⟨_, _, y1, i2, r2, c⟩
    · rw [f1] at f2; cases f2
    · omega
    · rw [R'.resize] at h; cases h
    · have t1 : Twin bpb view view' x1 y1 := by
        refine ⟨i1, i2, by rw [r1.size, r2.size], by rw [r1.position, r2.position, t.position], by rw [r1.flags, r2.flags, t.flags], ?_⟩
        rw [r1.contents, r2.contents, r1.total, r2.total, t.bpb_eq, t.contents]
      cases hs : Flags.synchronous x.flags with
      | true =>
        rw [hs] at a c
        obtain ⟨x2, y2, e, e1, e2, e3⟩ := sync_twin L L' R R' t1
        exact ⟨x2, y2, e, a.trans e1, c.trans e2, e3⟩
      | false =>
        rw [hs] at a c
        exact ⟨x1, y1, none, a, c, t1⟩

omit L L' in
/-- Both writes end the same way. -/
theorem wrote_twin (t : Twin bpb view view' x y) (buf : Bytes) (off : Nat) {x' : Stm S} {y' : Stm T} {n n' : Int} {e e' : Option SErr}
    (hx : (n = 0 ∧ ∃ z, e = some z ∧ NotWritten b view x buf off x' z) ∨ (n = buf.length ∧ Wrote b view x buf off x' e))
    (hy : (n' = 0 ∧ ∃ z, e' = some z ∧ NotWritten b' view' y buf off y' z) ∨ (n' = buf.length ∧ Wrote b' view' y buf off y' e')) :
    n' = n ∧ e' = e ∧ y'.size = x'.size ∧ contents view' y'.st = contents view x'.st := by
  have ebpb := t.bpb_eq
  have etot := t.total
  have elast : lastBlk y off buf.length = lastBlk x off buf.length := by unfold lastBlk; rw [ebpb]
  have enew : newTotal y off buf.length = newTotal x off buf.length := by unfold newTotal; rw [elast, ebpb, etot]
  have esize : newSize y off buf.length = newSize x off buf.length := by unfold newSize; rw [elast, etot, t.size]
  have esz : FitsSize y ((off : Int) + buf.length) ↔ FitsSize x ((off : Int) + buf.length) := by unfold FitsSize; rw [ebpb]
  have nz : ∀ {U : Type} {u u' : Stm U} {v : U → Bytes}, u'.st = u.st → contents v u'.st = contents v u.st := fun h => by rw [h]
  rcases hx with ⟨rfl, z, rfl, nx⟩ | ⟨rfl, wx⟩
  · rcases hy with ⟨rfl, z', rfl, ny⟩ | ⟨rfl, wy⟩
    · rcases nx.why with ⟨rfl, f1, q1, q2⟩ | ⟨f1, rfl, g1, q1, q2⟩ | ⟨_, h⟩ | ⟨f1, g1, rfl, k1⟩
      · rcases ny.why with ⟨rfl, f2, p1, p2⟩ | ⟨f2, _⟩ | ⟨f2, _⟩ | ⟨f2, _⟩
        · exact ⟨rfl, rfl, by rw [p2, q2, t.size], by rw [p1, q1, t.contents]⟩
        all_goals rw [t.flags, f1] at f2; cases f2
      · rcases ny.why with ⟨rfl, f2, p1, p2⟩ | ⟨f2, rfl, g2, p1, p2⟩ | ⟨_, h⟩ | ⟨f2, g2, _⟩
        · rw [t.flags, f1] at f2; cases f2
        · exact ⟨rfl, rfl, by rw [p2, q2, t.size], by rw [p1, q1, t.contents]⟩
        · exact absurd h (no_callback R')
        · unfold FitsSize at g2; omega
      · exact absurd h (no_callback R)
      · rcases ny.why with ⟨rfl, f2, p1, p2⟩ | ⟨f2, rfl, g2, p1, p2⟩ | ⟨_, h⟩ | ⟨f2, g2, rfl, k2⟩
        · rw [t.flags, f1] at f2; cases f2
        · unfold FitsSize at g1; omega
        · exact absurd h (no_callback R')
        · rcases nx.exact with h | ⟨h1, h2⟩
          · exact absurd rfl h
          · rcases ny.exact with h | ⟨h3, h4⟩
            · exact absurd rfl h
            · exact ⟨rfl, rfl, by rw [h1, h3, esize], by rw [nx.contents, ny.contents, h2, h4, enew, ebpb, etot, t.contents]⟩
    · exfalso
      rcases nx.why with ⟨_, f1, _⟩ | ⟨_, _, g1, _⟩ | ⟨_, h⟩ | ⟨_, _, _, k1⟩
      · have := wy.write; rw [t.flags, f1] at this; cases this
      · have := wy.fits; unfold FitsSize at this; omega
      · exact no_callback R h
      · have h1 := wy.room; have h2 := wy.total; rw [enew] at h2; rw [h2, ebpb, elast] at h1; omega
  · rcases hy with ⟨rfl, z', rfl, ny⟩ | ⟨rfl, wy⟩
    · exfalso
      rcases ny.why with ⟨_, f1, _⟩ | ⟨_, _, g1, _⟩ | ⟨_, h⟩ | ⟨_, _, _, k1⟩
      · have := wx.write; rw [← t.flags, f1] at this; cases this
      · have := wx.fits; unfold FitsSize at this; omega
      · exact no_callback R' h
      · have h1 := wx.room; have h2 := wx.total; rw [h2] at h1; rw [enew, ebpb, elast] at k1; omega
    · have e1 : e = none := by
        rcases e with _ | z
        · rfl
        · exact absurd (wx.err z rfl) (no_callback R)
      have e2 : e' = none := by
        rcases e' with _ | z
        · rfl
        · exact absurd (wy.err z rfl) (no_callback R')
      exact ⟨rfl, e2.trans e1.symm, by rw [wx.size, wy.size, esize], by rw [wx.contents, wy.contents, wx.total, wy.total, enew, ebpb, etot, t.contents]⟩

theorem write_twin (t : Twin bpb view view' x y) (buf : Bytes) (hf : FitsWrite x buf.length (writeOffset x)) :
    ∃ x' y' n e, write b x buf = .ret (x', n, e) ∧ write b' y buf = .ret (y', n, e) ∧ Twin bpb view view' x' y' := by
  obtain ⟨x', n, e, a1, a2, a3, a4⟩ := write_effect L t.left buf hf
  obtain ⟨y', n', e', c1, c2, c3, c4⟩ := write_effect L' t.right buf (by rw [t.writeOffset]; exact t.fitsWrite hf)
  rw [t.flags, t.writeOffset] at c4
  rcases a4 with ⟨f1, rfl, rfl, rfl⟩ | ⟨f1, p1, a4⟩
  · rcases c4 with ⟨_, rfl, rfl, rfl⟩ | ⟨f2, _⟩
    · exact ⟨_, _, _, _, a1, c1, t⟩
    · rw [f1] at f2; cases f2
  · rcases c4 with ⟨f2, _⟩ | ⟨_, p2, c4⟩
    · rw [f1] at f2; cases f2
    · obtain ⟨rfl, rfl, h3, h4⟩ := wrote_twin R R' t buf _ a4 c4
      exact ⟨_, _, _, _, a1, c1, a2, c2, h3, by rw [p1, p2], by rw [a3, c3, t.flags], h4⟩

theorem writeAt_twin (t : Twin bpb view view' x y) (buf : Bytes) {off : Int} (h0 : 0 ≤ off) (hf : FitsWrite x buf.length off) :
    ∃ x' y' n e, writeAt b x buf off = .ret (x', n, e) ∧ writeAt b' y buf off = .ret (y', n, e) ∧ Twin bpb view view' x' y' := by
  obtain ⟨o, rfl⟩ := Int.eq_ofNat_of_zero_le h0
  unfold writeAt
  rw [t.flags]
  cases ha : Flags.append x.flags with
  | true =>
    simp only [if_true]
    exact ⟨x, y, 0, _, rfl, rfl, t⟩
  | false =>
    obtain ⟨x', n, e, a1, a2, a3, p1, a4⟩ := implWriteAt_effect L t.left buf hf
    obtain ⟨y', n', e', c1, c2, c3, p2, c4⟩ := implWriteAt_effect L' t.right buf (t.fitsWrite hf)
    obtain ⟨rfl, rfl, h3, h4⟩ := wrote_twin R R' t buf o a4 c4
    simp only [Bool.false_eq_true, if_false]
    exact ⟨_, _, _, _, a1, c1, a2, c2, h3, by rw [p1, p2, t.position], by rw [a3, c3, t.flags], h4⟩

omit L L' R R' in
theorem seek_twin (t : Twin bpb view view' x y) {off whence : Int} (h : -(2 ^ 63) ≤ off ∧ off < 2 ^ 63) :
    (seek y off whence).2 = (seek x off whence).2 ∧ Twin bpb view view' (seek x off whence).1 (seek y off whence).1 := by
  obtain ⟨a1, a2⟩ := seek_effect (whence := whence) t.left h.1 h.2
  obtain ⟨c1, c2⟩ := seek_effect (whence := whence) t.right h.1 h.2
  have : (seek y off whence).2 = (seek x off whence).2 ∧ (seek y off whence).1.position = (seek x off whence).1.position := by
    have hp := t.position
    have hs := t.size
    clear a1 a2 c1 c2 t h
    rcases x with ⟨sz, p, st, fl⟩
    rcases y with ⟨sz', p', st', fl'⟩
    simp only at hp hs
    subst hp hs
    unfold seek
    simp only
    generalize (if whence = 0 then some off else if whence = 1 then some (i64 (p' + off)) else if whence = 2 then some (i64 (sz' + off)) else none) = a
    cases a with
    | none => exact ⟨rfl, rfl⟩
    | some a =>
      by_cases h : a < 0
      · simp only [if_pos h, and_self]
      · simp only [if_neg h, and_self]
  exact ⟨this.1, t.still a1 c1 a2 c2 this.2⟩

theorem writeToLoop_twin {W : Type} (k : Compression.Sink W) : ∀ (fuel : Nat) (buffer : Bytes) {x : Stm S} {y : Stm T} (w : W) (tot : Int), Twin bpb view view' x y →
    FitsRead x buffer.length →
    (writeToLoop b k fuel buffer x w tot = .timeout ∧ writeToLoop b' k fuel buffer y w tot = .timeout) ∨
    ∃ x' y' a, writeToLoop b k fuel buffer x w tot = .ret (x', a) ∧ writeToLoop b' k fuel buffer y w tot = .ret (y', a) ∧ Twin bpb view view' x' y'
  | 0, buffer, x, y, w, tot, _, _ => .inl ⟨rfl, rfl⟩
  | fuel + 1, buffer, x, y, w, tot, t, hf => by
    obtain ⟨x1, y1, r, a, c, t1⟩ := read_twin L L' R R' t buffer hf
    obtain ⟨x0, x2, r2, d1, d2, d3, d4, d5⟩ := read_effect L t.left buffer hf
    rw [a] at d2
    cases d2
    have hlen : r.buf.length = buffer.length := by
      have := readAt_spec L t.left buffer t.left.pos_nn hf
      rw [d1] at this
      simp only [Outcome.ret.injEq, Prod.mk.injEq] at this
      rcases this with ⟨_, _, h⟩ | ⟨_, _, _, h⟩ | ⟨_, _, _, _, h⟩ | ⟨_, _, _, _, _, ⟨_, h⟩ | ⟨_, _, _, _, h⟩⟩
      all_goals rw [h]
      exact goCopy_length _ _
    unfold writeToLoop
    rw [a, c]
    simp only [Outcome.bind_ret]
    rcases r.err with _ | e
    · have hf1 : FitsRead x1 r.buf.length := by
        unfold FitsRead at *
        rw [hlen, d4.capacity]; exact hf
      exact writeToLoop_twin k fuel r.buf _ _ t1 hf1
    · right
      cases e <;> exact ⟨_, _, _, rfl, rfl, t1⟩

theorem readFromLoop_twin {Q : Type} (src : Source Q) (blockSize : Nat) : ∀ (fuel : Nat) {x : Stm S} {y : Stm T} (q : Q) (tot : Int), Twin bpb view view' x y →
    FitsReadFrom b src blockSize x q →
    (readFromLoop b src blockSize fuel x q tot = .timeout ∧ readFromLoop b' src blockSize fuel y q tot = .timeout) ∨
    ∃ x' y' a, readFromLoop b src blockSize fuel x q tot = .ret (x', a) ∧ readFromLoop b' src blockSize fuel y q tot = .ret (y', a) ∧ Twin bpb view view' x' y'
  | 0, x, y, q, tot, _, _ => .inl ⟨rfl, rfl⟩
  | fuel + 1, x, y, q, tot, t, hf => by
    rcases hf with ⟨_, _, hw, next⟩
    obtain ⟨x1, y1, n, e, a, c, t1⟩ := write_twin L L' R R' t _ hw
    unfold readFromLoop
    simp only
    rw [a, c]
    simp only [Outcome.bind_ret]
    rcases (src.read q blockSize).2.2 with _ | re
    · rcases e with _ | e
      · exact readFromLoop_twin src blockSize fuel _ _ t1 (next _ _ a)
      · exact .inr ⟨_, _, _, rfl, rfl, t1⟩
    · cases re <;> exact .inr ⟨_, _, _, rfl, rfl, t1⟩

/-- One call. -/
theorem answer_twin (t : Twin bpb view view' x y) (c : Call) (hf : Fits b x c) :
    (answerCall b x c = .timeout ∧ answerCall b' y c = .timeout) ∨
    ∃ x' y' a, answerCall b x c = .ret (x', a) ∧ answerCall b' y c = .ret (y', a) ∧ Twin bpb view view' x' y' := by
  cases c with
  | read buf =>
    obtain ⟨x', y', r, a, c, t'⟩ := read_twin L L' R R' t buf hf
    exact .inr ⟨x', y', .read r, by simp [answerCall, a], by simp [answerCall, c], t'⟩
  | readAt buf off =>
    obtain ⟨x', y', r, a, c, t', _⟩ := readAt_twin L L' R R' t buf hf.2 hf.1
    exact .inr ⟨x', y', .read r, by simp [answerCall, a], by simp [answerCall, c], t'⟩
  | seek off whence =>
    obtain ⟨h1, h2⟩ := seek_twin (whence := whence) t hf
    refine .inr ⟨_, _, _, rfl, ?_, h2⟩
    simp only [answerCall]
    rw [h1]
  | sync =>
    obtain ⟨x', y', e, a, c, t'⟩ := sync_twin L L' R R' t
    exact .inr ⟨x', y', .did e, by simp [answerCall, a], by simp [answerCall, c], t'⟩
  | truncate n =>
    obtain ⟨x', y', e, a, c, t'⟩ := truncate_twin L L' R R' t hf
    exact .inr ⟨x', y', .did e, by simp [answerCall, a], by simp [answerCall, c], t'⟩
  | write buf =>
    obtain ⟨x', y', n, e, a, c, t'⟩ := write_twin L L' R R' t buf hf
    exact .inr ⟨x', y', .wrote n e, by simp [answerCall, a], by simp [answerCall, c], t'⟩
  | writeAt buf off =>
    obtain ⟨x', y', n, e, a, c, t'⟩ := writeAt_twin L L' R R' t buf hf.2 hf.1
    exact .inr ⟨x', y', .wrote n e, by simp [answerCall, a], by simp [answerCall, c], t'⟩
  | writeTo k w fuel =>
    have hbuf : FitsRead x (List.replicate x.st.c.bpb (0 : UInt8)).length := by rw [List.length_replicate]; exact hf
    simp only [answerCall]
    unfold writeTo
    rw [t.bpb_eq]
    rcases writeToLoop_twin L L' R R' (recording k) fuel _ (w, []) 0 t hbuf with ⟨a, c⟩ | ⟨x', y', ⟨w', n, e⟩, a, c, t'⟩
    · left; rw [a, c]; exact ⟨rfl, rfl⟩
    · right; rw [a, c]; exact ⟨x', y', _, rfl, rfl, t'⟩
  | readFrom src q blockSize fuel =>
    simp only [answerCall]
    unfold readFrom
    rw [t.flags]
    cases hw : Flags.write x.flags with
    | false => exact .inr ⟨x, y, _, rfl, rfl, t⟩
    | true =>
      simp only [Bool.not_true, Bool.false_eq_true, if_false]
      rcases readFromLoop_twin L L' R R' src blockSize fuel q 0 t hf with ⟨a, c⟩ | ⟨x', y', ⟨w', n, e⟩, a, c, t'⟩
      · left; rw [a, c]; exact ⟨rfl, rfl⟩
      · right; rw [a, c]; exact ⟨x', y', _, rfl, rfl, t'⟩

/-- A whole history. -/
theorem answers_twin (cs : List Call) : ∀ {x : Stm S} {y : Stm T}, Twin bpb view view' x y → FitsAll b x cs → answers b' y cs = answers b x cs := by
  induction cs with
  | nil => intro x y _ _; rfl
  | cons c cs ih =>
    intro x y t hf
    rcases answer_twin L L' R R' t c hf.1 with ⟨a, c⟩ | ⟨x', y', r, a, c, t'⟩
    · simp only [answers, a, c, Outcome.bind_timeout]
    · simp only [answers, a, c, Outcome.bind_ret]
      rw [ih t' (hf.2 _ _ a)]
      simp only [Stm.size', Stm.tell, t'.size, t'.position]

end

end Disko.Stream

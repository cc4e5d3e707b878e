import Verif.BlockCache.Props7
import Verif.BlockCache.Props4
import Verif.Stream.Props15
/-! C160: on an open stream, too, no more calls fail because of the storage than the storage fails. -/
namespace Disko.Stream
open Disko Disko.BlockCache Disko.BlockCache.Spec Disko.Stream.Spec

variable {S : Type}

namespace Spec

/-- A program that makes any calls, in any order, leads from the first stream to the second; `k` of its calls failed because of the storage. -/
inductive Suffers (b : Backend S) : Stm S → Nat → Stm S → Prop where
  | start (x) : Suffers b x 0 x
  | fine {x k x1 x2 a} (c : Call) : Suffers b x k x1 → answerCall b x1 c = .ret (x2, a) → Suffers b x k x2
  | failed {x k x1 x2 a z} (c : Call) : Suffers b x k x1 → answerCall b x1 c = .ret (x2, a) → Reference.error? a = some z → CallbackFailed b z → Suffers b x (k + 1) x2

/-- Read, ReadAt, Seek and Sync (also Close). -/
def Tame : Call → Prop
  | .read _ | .readAt _ _ | .seek _ _ | .sync => True
  | _ => False

end Spec

/-! ### Preliminaries (not claims) -/

/-- The cache's error behind an error of the stream. -/
def cacheErr : Option SErr → Option BlockCache.Err
  | some (.cache e) => some e
  | _ => none

section
variable {b : Backend S} {p : S → Nat} (F : FailsAtMost b p)
include F

theorem resize_spent (R : ResizesFailAtMost b p) (st : St S) (n : Nat) : (BlockCache.resize b st n).All fun r => Spent (p st.s) (p r.1.s) (errOf r.2) := by
  unfold BlockCache.resize
  have h1 := R.resize st.s n
  have h2 := R.resize_fail st.s n
  rcases hfe : b.resize st.s n with ⟨s1, _ | e⟩
  · rw [hfe] at h1
    exact .ite (fun _ => (Outcome.All.any _).bind fun c _ => .ret (.none h1)) fun _ => .panic
  · rw [hfe] at h2
    exact .ret (.some (h2 (by simp)))

theorem sync_spent (x : Stm S) : (sync b x).All fun r => Spent (p x.st.s) (p r.1.st.s) (cacheErr r.2) := by
  unfold sync
  refine (flush_spent F x.st).bind fun r hr => ?_
  rcases r with ⟨st', _ | _⟩ <;> exact .ret hr

theorem readAt_spent (x : Stm S) (buf : Bytes) (off : Int) : (readAt b x buf off).All fun r => Spent (p x.st.s) (p r.1.st.s) (cacheErr r.2.err) := by
  have h0 : Spent (p x.st.s) (p x.st.s) none := .none (Nat.le_refl _)
  unfold readAt
  refine .ite (fun _ => .ret h0) fun _ => .ite (fun _ => .ret h0) fun _ => .ite (fun _ => .ret h0) fun _ => ?_
  refine (Outcome.All.any _).bind fun q _ => (Outcome.All.any _).bind fun q2 _ => ?_
  refine (getSlice_spent F x.st _ _).bind fun r hr => ?_
  rcases r with ⟨st', e | w⟩
  · exact .ret hr
  · refine .ite (fun _ => .ret ?_) fun _ => .panic
    have he : ∀ q : Prop, [Decidable q] → cacheErr (if q then some SErr.eof else none) = none := fun q _ => by split <;> rfl
    simp only [he]
    exact hr

theorem read_spent (x : Stm S) (buf : Bytes) : (read b x buf).All fun r => Spent (p x.st.s) (p r.1.st.s) (cacheErr r.2.err) := by
  unfold read
  refine (readAt_spent F x buf x.position).bind fun r hr => ?_
  rcases r with ⟨x', r⟩
  simp only at hr ⊢
  rcases he : r.err with _ | e
  · rw [he] at hr; exact .ret (by rw [he]; exact hr)
  · rw [he] at hr; exact .ret (by rw [he]; exact hr)

section
variable (R : ResizesFailAtMost b p)
include R

theorem truncate_spent (x : Stm S) (n : Int) : (truncate b x n).All fun r => Spent (p x.st.s) (p r.1.st.s) (cacheErr r.2) := by
  have h0 : Spent (p x.st.s) (p x.st.s) none := .none (Nat.le_refl _)
  unfold truncate
  refine .ite (fun _ => .ret h0) fun _ => .ite (fun _ => .ret h0) fun _ => ?_
  refine (Outcome.All.any _).bind fun nb _ => (resize_spent F R x.st nb).bind fun r h1 => ?_
  rcases r with ⟨st', _ | _⟩
  · exact .ret h1
  · exact .ite (fun _ => (sync_spent F _).imp fun r h2 => .after h1.1 h2) fun _ => .ret h1

theorem implWriteAt_spent (x : Stm S) (buf : Bytes) (off : Int) :
    (implWriteAt b x buf off).All fun r => Spent (p x.st.s) (p r.1.st.s) (cacheErr r.2.2) := by
  have h0 : Spent (p x.st.s) (p x.st.s) none := .none (Nat.le_refl _)
  unfold implWriteAt
  refine .ite (fun _ => .ret h0) fun _ => (Outcome.All.any _).bind fun q _ => (Outcome.All.any _).bind fun q2 _ => ?_
  refine Outcome.All.bind (P := fun r => Spent (p x.st.s) (p r.1.st.s) (cacheErr r.2)) ?_ fun r h1 => ?_
  · exact .ite (fun _ => truncate_spent F R x _) fun _ => .ret h0
  · rcases r with ⟨x1, _ | e1⟩
    · refine (getSlice_spent F x1.st _ _).bind fun r h2 => ?_
      rcases r with ⟨st', e | w⟩
      · exact .ret (.after h1.1 h2)
      · refine .ite (fun _ => .ite (fun _ => ?_) fun _ => .ret (.after h1.1 h2)) fun _ => .panic
        refine (sync_spent F _).bind fun r h3 => ?_
        exact .ret (.after (Nat.le_trans h2.1 h1.1) h3)
    · exact .ret h1

theorem write_spent (x : Stm S) (buf : Bytes) : (write b x buf).All fun r => Spent (p x.st.s) (p r.1.st.s) (cacheErr r.2.2) := by
  unfold write
  have h0 : Spent (p x.st.s) (p x.st.s) none := .none (Nat.le_refl _)
  refine .ite (fun _ => .ret h0) fun _ => ?_
  have hs : (seek x 0 2).1.st = x.st ∧ ((seek x 0 2).2.2 = none ∨ (seek x 0 2).2.2 = some .invalidSeek) := by
    unfold seek
    simp only
    split
    · exact ⟨rfl, .inr rfl⟩
    · split
      · exact ⟨rfl, .inr rfl⟩
      · exact ⟨rfl, .inl rfl⟩
  simp only
  have key : ∀ z : Stm S × Int × Option SErr, z.1.st = x.st → (z.2.2 = none ∨ z.2.2 = some .invalidSeek) → (match z with
      | (x0, _, e0) => match e0 with
        | some e => (.ret (x0, 0, some e) : Outcome (Stm S × Int × Option SErr))
        | none => (implWriteAt b x0 buf x0.position) >>= fun y => .ret ({ y.1 with position := i64 (y.1.position + y.2.1) }, y.2.1, y.2.2)).All
          fun (r : Stm S × Int × Option SErr) => Spent (p x.st.s) (p r.1.st.s) (cacheErr r.2.2) := by
    rintro ⟨x0, n0, _ | e⟩ hz he
    · simp only at hz ⊢
      rw [← hz]
      exact (implWriteAt_spent F R x0 buf _).bind fun r h => .ret h
    · simp only at hz he ⊢
      rw [← hz]
      rcases he with he | he
      · cases he
      · cases he; exact .ret (.none (Nat.le_refl _))
  refine key _ ?_ ?_
  · split
    · exact hs.1
    · rfl
  · split
    · exact hs.2
    · exact .inl rfl

omit R in
theorem writeToLoop_spent {W : Type} (k : Compression.Sink W) : ∀ (fuel : Nat) (buf : Bytes) (x : Stm S) (w : W) (t : Int),
    (writeToLoop b k fuel buf x w t).All fun r => Spent (p x.st.s) (p r.1.st.s) (cacheErr r.2.2.2)
  | 0, _, _, _, _ => by rw [writeToLoop]; intro r h; cases h
  | fuel + 1, buf, x, w, t => by
    rw [writeToLoop]
    refine (read_spent F x buf).bind fun r hr => ?_
    rcases r with ⟨x', rbuf, rn, re⟩
    simp only at hr ⊢
    rcases re with _ | e
    · exact (writeToLoop_spent k fuel _ x' _ _).imp fun r h => .after hr.1 h
    · cases e <;> exact .ret hr

theorem readFromLoop_spent {T : Type} (src : Source T) (bs : Nat) : ∀ (fuel : Nat) (x : Stm S) (r : T) (t : Int),
    (readFromLoop b src bs fuel x r t).All fun r => Spent (p x.st.s) (p r.1.st.s) (cacheErr r.2.2.2)
  | 0, _, _, _ => by rw [readFromLoop]; intro r h; cases h
  | fuel + 1, x, r, t => by
    rw [readFromLoop]
    rcases hs : src.read r bs with ⟨r', chunk, re⟩
    simp only
    refine (write_spent F R x chunk).bind fun y hy => ?_
    rcases y with ⟨x', n, we⟩
    simp only at hy ⊢
    rcases re with _ | e
    · rcases we with _ | e
      · exact (readFromLoop_spent src bs fuel x' r' _).imp fun r h => .after hy.1 h
      · exact .ret hy
    · cases e
      · exact .ret (.none hy.1)
      · exact .ret (.none hy.1)

theorem answerCall_spent (x : Stm S) (c : Call) : (answerCall b x c).All fun r => Spent (p x.st.s) (p r.1.st.s) (cacheErr (Reference.error? r.2)) := by
  cases c with
  | read buf => exact (read_spent F x buf).bind fun r h => .ret h
  | readAt buf off => exact (readAt_spent F x buf off).bind fun r h => .ret h
  | seek off wh =>
    refine .ret ?_
    have : (seek x off wh).1.st = x.st ∧ cacheErr (seek x off wh).2.2 = none := by
      unfold seek
      simp only
      split
      · exact ⟨rfl, rfl⟩
      · split <;> exact ⟨rfl, rfl⟩
    simp only [Reference.error?]
    rw [this.1, this.2]
    exact .none (Nat.le_refl _)
  | sync => exact (sync_spent F x).bind fun r h => .ret h
  | truncate n => exact (truncate_spent F R x n).bind fun r h => .ret h
  | write buf => exact (write_spent F R x buf).bind fun r h => .ret h
  | writeAt buf off =>
    refine Outcome.All.bind (P := fun r => Spent (p x.st.s) (p r.1.st.s) (cacheErr r.2.2)) ?_ fun r h => .ret h
    unfold writeAt
    exact .ite (fun _ => .ret (.none (Nat.le_refl _))) fun _ => implWriteAt_spent F R x buf off
  | writeTo k w fuel => exact (writeToLoop_spent F _ fuel _ x _ 0).bind fun r h => .ret h
  | readFrom src r bs fuel =>
    refine Outcome.All.bind (P := fun r => Spent (p x.st.s) (p r.1.st.s) (cacheErr r.2.2.2)) ?_ fun r h => .ret h
    unfold readFrom
    exact .ite (fun _ => .ret (.none (Nat.le_refl _))) fun _ => readFromLoop_spent F R src bs fuel x r 0

end
end

theorem blamed {b : Backend S} {o : Option SErr} {z : SErr} (h : o = some z) (hz : CallbackFailed b z) :
    ∃ e, cacheErr o = some e ∧ e ≠ .argumentOutOfRange := by
  subst h
  cases z with
  | cache e =>
    refine ⟨e, rfl, ?_⟩
    rintro rfl
    exact hz
  | _ => exact hz.elim

theorem sync_total (b : Backend S) (x : Stm S) : (sync b x).All fun r => r.1.st.c.total = x.st.c.total := by
  unfold sync flush flushBlockRange
  refine Outcome.All.bind (P := fun r => r.1.c.total = x.st.c.total) ?_ fun r hr => ?_
  · refine Outcome.All.bind (P := fun r => r.1.c.total = x.st.c.total) ?_ fun r hr => ?_
    · refine (Outcome.All.any _).bind fun c _ => ?_
      cases c with
      | some c => exact .ret rfl
      | none => exact flushLoop_total b _ _ x.st
    · rcases r with ⟨st', _ | e⟩ <;> exact .ret hr
  · rcases r with ⟨st', _ | _⟩ <;> exact .ret hr

/-- These calls do not change the number of blocks. -/
theorem tame_total (b : Backend S) (x : Stm S) {c : Call} (hc : Tame c) : (answerCall b x c).All fun r => r.1.st.c.total = x.st.c.total := by
  cases c with
  | read buf =>
    exact (read_frame (R := fun _ _ : S => True) (fun _ => trivial) (fun _ _ => trivial) b x (fun _ _ _ _ => trivial) buf).bind
      fun r h => .ret (congrArg Shape.total h.shape)
  | readAt buf off =>
    exact (readAt_frame (R := fun _ _ : S => True) (fun _ => trivial) (fun _ _ => trivial) b x (fun _ _ _ _ => trivial) buf off).bind
      fun r h => .ret (congrArg Shape.total h.shape)
  | seek off wh =>
    refine .ret ?_
    unfold seek
    simp only
    split
    · rfl
    · split <;> rfl
  | sync => exact (sync_total b x).bind fun r h => .ret h
  | _ => exact hc.elim

/-- Nor do they call the resize callback. -/
theorem tame_spent {b : Backend S} {p : S → Nat} (F : FailsAtMost b p) (x : Stm S) {c : Call} (hc : Tame c) :
    (answerCall b x c).All fun r => Spent (p x.st.s) (p r.1.st.s) (cacheErr (Reference.error? r.2)) := by
  cases c with
  | read buf => exact (read_spent F x buf).bind fun r h => .ret h
  | readAt buf off => exact (readAt_spent F x buf off).bind fun r h => .ret h
  | seek off wh =>
    refine .ret ?_
    have : (seek x off wh).1.st = x.st ∧ cacheErr (seek x off wh).2.2 = none := by
      unfold seek
      simp only
      split
      · exact ⟨rfl, rfl⟩
      · split <;> exact ⟨rfl, rfl⟩
    simp only [Reference.error?]
    rw [this.1, this.2]
    exact .none (Nat.le_refl _)
  | sync => exact (sync_spent F x).bind fun r h => .ret h
  | _ => exact hc.elim

theorem tame_fits {b : Backend S} {x y : Stm S} {c : Call} (hc : Tame c) (ht : y.st.c.total = x.st.c.total) (hb : y.st.c.bpb = x.st.c.bpb) (h : Fits b x c) :
    Fits b y c := by
  cases c with
  | read buf => simp only [Fits, FitsRead, capacity, Cache.totalBlocks] at h ⊢; rw [ht, hb]; exact h
  | readAt buf off => simp only [Fits, FitsRead, capacity, Cache.totalBlocks] at h ⊢; rw [ht, hb]; exact h
  | seek off wh => exact h
  | sync => trivial
  | _ => exact hc.elim

theorem tame_single {c : Call} (hc : Tame c) : Reference.Single c := by
  cases c <;> first | trivial | exact hc.elim

theorem tame_run {bpb : Nat} {view : S → Bytes} {b : Backend S} (L : Lawful b bpb view) {p : S → Nat} (F : FailsAtMost b p) : ∀ (cs : List Call), (∀ c ∈ cs, Tame c) →
    ∀ (m : Nat) (x : Stm S), p x.st.s ≤ m → Inv bpb view x → (∀ c ∈ cs, Fits b x c) → ∃ x' as, Reference.Retried b Reference.NothingSeen x cs x' as
  | [], _, _, x, _, _, _ => ⟨x, [], .nil x⟩
  | c :: cs, ht, m, x, hm, h, hf => by
    have htc := ht c (by simp)
    obtain ⟨x1, a, a1, i1, _⟩ := Reference.attempt L h c (tame_single htc) (hf c (by simp))
    have hsp := tame_spent F x htc _ a1
    have htt := tame_total b x htc _ a1
    simp only at hsp htt
    have hbb : x1.st.c.bpb = x.st.c.bpb := i1.bpb.trans h.bpb.symm
    have hf1 : ∀ d ∈ c :: cs, Fits b x1 d := fun d hd => tame_fits (ht d hd) htt hbb (hf d hd)
    by_cases he : ∃ e, Reference.error? a = some e ∧ CallbackFailed b e
    · obtain ⟨e, he1, he2⟩ := he
      obtain ⟨e', g1, g2⟩ := blamed he1 he2
      have hlt := hsp.2 e' g1 g2
      match m, hm with
      | 0, hm => omega
      | m + 1, hm =>
        obtain ⟨x', as, hx⟩ := tame_run L F (c :: cs) ht m x1 (by omega) i1 hf1
        refine ⟨x', as, .again (tame_single htc) (hf c (by simp)) a1 he1 he2 ?_ hx⟩
        cases c <;> first | trivial | exact htc.elim
    · obtain ⟨x', as, hx⟩ := tame_run L F cs (fun d hd => ht d (by simp [hd])) (p x1.st.s) x1 (Nat.le_refl _) i1 (fun d hd => hf1 d (by simp [hd]))
      exact ⟨x', _, .done (tame_single htc) (hf c (by simp)) a1 (fun e h1 h2 => he ⟨e, h1, h2⟩) hx⟩
  termination_by cs _ m => (cs.length, m)

/-! ### C160 -/

/-- **C160**: whatever calls are made on a stream, in whatever order, at most as many of them fail because of the storage as the storage has
failures left; more exactly, each of them uses up at least one. -/
theorem C160_failures {b : Backend S} {patience : S → Nat} (F : FailsAtMost b patience) (R : ResizesFailAtMost b patience) {x x' : Stm S} {k : Nat}
    (h : Suffers b x k x') : k + patience x'.st.s ≤ patience x.st.s := by
  induction h with
  | start => omega
  | fine c _ hc ih =>
    have := (answerCall_spent F R _ c _ hc).1
    simp only at this
    omega
  | failed c _ hc he hz ih =>
    obtain ⟨e, h1, h2⟩ := blamed he hz
    have := (answerCall_spent F R _ c _ hc).2 e h1 h2
    simp only at this
    omega

/-- **C160**: and so a program of Reads, ReadAts, Seeks and Syncs that repeats every call that failed because of the storage ends, and its calls answer as on
the reference machine of C148, which knows no storage. (For how often calls fail in it, see C160_failures; with Write or Truncate, C158.) -/
theorem C160_gets_through {b : Backend S} {bpb total : Nat} {view : S → Bytes} {s0 : S} (H : StreamSetup b bpb total view s0) {patience : S → Nat}
    (F : FailsAtMost b patience) {x : Stm S} (hr : Reachable b bpb total s0 x) {cs : List Call} (ht : ∀ c ∈ cs, Tame c) (hf : ∀ c ∈ cs, Fits b x c) :
    ∃ x' as, Reference.Retried b Reference.NothingSeen x cs x' as ∧ (Reference.shown view x).run cs = some (Reference.shown view x', as) := by
  obtain ⟨x', as, h⟩ := tame_run H.cache.lawful F cs ht _ x (Nat.le_refl _) (reachable_inv H hr) hf
  exact ⟨x', as, h, Reference.C158_retry_partial H hr h⟩

namespace Spec

/-- Close, called until it returns nil: the stream before, how many calls failed, the stream after. -/
inductive Closing (b : Backend S) : Stm S → Nat → Stm S → Prop where
  | closed {x x'} : sync b x = .ret (x', none) → Closing b x 0 x'
  | again {x x1 x' e n} : sync b x = .ret (x1, some e) → Closing b x1 n x' → Closing b x (n + 1) x'

end Spec

theorem closing_run {bpb : Nat} {view : S → Bytes} {b : Backend S} (L : Lawful b bpb view) {p : S → Nat} (F : FailsAtMost b p) : ∀ (m : Nat) (x : Stm S),
    p x.st.s ≤ m → Inv bpb view x → 0 < x.st.c.total →
    ∃ n x', Closing b x n x' ∧ n + p x'.st.s ≤ p x.st.s ∧ file view x' = file view x ∧ x'.st.c.total = x.st.c.total ∧
      ∀ j, j < x.st.c.total → isDirty x'.st.c j = false := by
  intro m
  induction m with
  | zero =>
    intro x hm h ht
    obtain ⟨x1, e, a1, i1, s1⟩ := sync_spec L h
    have hsp := sync_spent F x _ a1
    cases e with
    | none => exact ⟨0, x1, .closed a1, by have := hsp.1; simp only at this; omega, by unfold file; rw [s1.contents, s1.size], s1.total, s1.clean rfl⟩
    | some y =>
      rcases s1.err y rfl with ⟨_, h0, _⟩ | ⟨_, hc⟩
      · omega
      · obtain ⟨e', g1, g2⟩ := blamed (o := some y) rfl hc
        have := hsp.2 e' g1 g2
        simp only at this
        omega
  | succ m ih =>
    intro x hm h ht
    obtain ⟨x1, e, a1, i1, s1⟩ := sync_spec L h
    have hsp := sync_spent F x _ a1
    cases e with
    | none => exact ⟨0, x1, .closed a1, by have := hsp.1; simp only at this; omega, by unfold file; rw [s1.contents, s1.size], s1.total, s1.clean rfl⟩
    | some y =>
      rcases s1.err y rfl with ⟨_, h0, _⟩ | ⟨_, hc⟩
      · omega
      · obtain ⟨e', g1, g2⟩ := blamed (o := some y) rfl hc
        have hlt := hsp.2 e' g1 g2
        simp only at hlt
        obtain ⟨n, x', q1, q2, q3, q4, q5⟩ := ih x1 (by omega) i1 (by rw [s1.total]; exact ht)
        refine ⟨n + 1, x', .again a1 q1, by omega, ?_, q4.trans s1.total, fun j hj => q5 j (by rw [s1.total]; exact hj)⟩
        rw [q3]; unfold file; rw [s1.contents, s1.size]

/-- **C160**: Close, repeated until it returns nil, returns nil after at most as many failures as the storage has, whatever the stream was used for before (the
object has a block: see C34); the file is what it was, and no modified block is left to be stored. -/
theorem C160_close {b : Backend S} {bpb total : Nat} {view : S → Bytes} {s0 : S} (H : StreamSetup b bpb total view s0) {patience : S → Nat}
    (F : FailsAtMost b patience) {x : Stm S} (hr : Reachable b bpb total s0 x) (hb : 0 < x.st.c.totalBlocks) :
    ∃ n x', Closing b x n x' ∧ n ≤ patience x.st.s ∧ file view x' = file view x ∧ ∀ j, j < x'.st.c.totalBlocks → isDirty x'.st.c j = false := by
  obtain ⟨n, x', q1, q2, q3, q4, q5⟩ := closing_run H.cache.lawful F _ x (Nat.le_refl _) (reachable_inv H hr) hb
  exact ⟨n, x', q1, by omega, q3, fun j hj => q5 j (by rw [← q4]; exact hj)⟩

/-! Non-vacuity: storage with a script of faults. -/

theorem moody_fails {bpb : Nat} : FailsAtMost (Reference.moody bpb) faultsLeft ∧ ResizesFailAtMost (Reference.moody bpb) faultsLeft := by
  have h : ∀ l : List Bool, (l.tail.filter (fun x => x)).length + (if l.headD false = true then 1 else 0) = (l.filter (fun x => x)).length := by
    intro l
    cases l with
    | nil => rfl
    | cons x l => cases x <;> simp
  refine ⟨⟨?_, ?_, ?_, ?_⟩, ?_, ?_⟩ <;> intro s <;> intros <;> (try rename_i hne; revert hne) <;> have := h s.2 <;> unfold faultsLeft <;> simp only [Reference.moody] <;> split <;> rename_i hh
  all_goals first | (rw [if_pos hh] at this; simp only; omega) | (rw [if_neg hh] at this; simp only; omega) | (intro hc; exact absurd rfl hc) |
    (intro _; rw [if_pos hh] at this; simp only; omega)

/-- Three faults on the way of four calls. -/
example : ∃ x' as, Reference.Retried (Reference.moody 2) Reference.NothingSeen (Reference.moodyStream 6 Flags.O_RDWR [true, false, true, true])
    [.read [0, 0, 0], .seek 0 0, .readAt [0, 0] 3, .sync] x' as :=
  (C160_gets_through (Reference.moodySetup _) moody_fails.1 (Reference.moodyReachable 6 Flags.O_RDWR _ (by omega) (by decide +kernel))
    (by simp [Tame]) (by simp only [List.mem_cons, List.not_mem_nil, or_false, forall_eq_or_imp, forall_eq, Fits]; decide +kernel)).imp
    fun _ h => h.imp fun _ h => h.1

/-- Two failed Reads: two of the three failures are used up. -/
example : Suffers (Reference.moody 2) (Reference.moodyStream 6 Flags.O_RDWR [true, true, false, true]) 2
    (Reference.tried (Reference.tried (Reference.moodyStream 6 Flags.O_RDWR [true, true, false, true]) (.read [0])).1 (.read [0])).1 := by
  refine .failed (z := .cache (.fetchFailed 0 (.other 5))) (.read [0]) (.failed (z := .cache (.fetchFailed 0 (.other 5))) (.read [0]) (.start _)
    (x2 := (Reference.tried (Reference.moodyStream 6 Flags.O_RDWR [true, true, false, true]) (.read [0])).1)
    (a := (Reference.tried (Reference.moodyStream 6 Flags.O_RDWR [true, true, false, true]) (.read [0])).2) (by decide +kernel) (by decide +kernel) (Reference.fetch_moody 0))
    (a := (Reference.tried (Reference.tried (Reference.moodyStream 6 Flags.O_RDWR [true, true, false, true]) (.read [0])).1 (.read [0])).2)
    (by decide +kernel) (by decide +kernel) (Reference.fetch_moody 0)

/-- The Flush of a grown object fails, and the next one does not. -/
example : ∃ n x', Closing (Reference.moody 2) (Reference.tried (Reference.moodyStream 6 Flags.O_RDWR [false, true]) (.truncate 7)).1 n x' ∧ n ≤ 1 ∧
    sync (Reference.moody 2) (Reference.tried (Reference.moodyStream 6 Flags.O_RDWR [false, true]) (.truncate 7)).1 ≠ .ret (x', none) := by
  refine ⟨1, (Reference.tried (Reference.tried (Reference.tried (Reference.moodyStream 6 Flags.O_RDWR [false, true]) (.truncate 7)).1 .sync).1 .sync).1,
    .again (x1 := (Reference.tried (Reference.tried (Reference.moodyStream 6 Flags.O_RDWR [false, true]) (.truncate 7)).1 .sync).1)
      (e := .cache (.flushFailed 3 (.other 6))) (by decide +kernel) (.closed (by decide +kernel)), Nat.le_refl _, by decide +kernel⟩

end Disko.Stream

import Verif.Stream.Model
/-! Storages that cannot be told apart give streams that cannot be told apart (for C127). -/
namespace Disko
open BlockCache

/-- Both calls return related results, or both panic, or both run out of time. -/
inductive Outcome.Rel {α β : Type} (P : α → β → Prop) : Outcome α → Outcome β → Prop where
  | ret {a : α} {b : β} (h : P a b) : Rel P (.ret a) (.ret b)
  | panic : Rel P .panic .panic
  | timeout : Rel P .timeout .timeout

namespace Outcome.Rel
variable {α β γ δ : Type} {P : α → β → Prop} {Q : γ → δ → Prop}

theorem bind {m : Outcome α} {m' : Outcome β} {f : α → Outcome γ} {f' : β → Outcome δ} (h : Rel P m m') (hf : ∀ a b, P a b → Rel Q (f a) (f' b)) :
    Rel Q (m >>= f) (m' >>= f') := by
  cases h with
  | ret h => exact hf _ _ h
  | panic => exact .panic
  | timeout => exact .timeout

theorem same (m : Outcome α) : Rel (fun a b => a = b) m m := by cases m <;> constructor; rfl

theorem bindSame {m : Outcome α} {f : α → Outcome γ} {f' : α → Outcome δ} (hf : ∀ a, Rel Q (f a) (f' a)) : Rel Q (m >>= f) (m >>= f') :=
  (same m).bind fun a b e => by subst e; exact hf a

theorem ite {c : Prop} [Decidable c] {m k : Outcome α} {m' k' : Outcome β} (h : c → Rel P m m') (hk : ¬ c → Rel P k k') :
    Rel P (if c then m else k) (if c then m' else k') := by
  split
  · exact h ‹_›
  · exact hk ‹_›

end Outcome.Rel

/-- Storages `E` relates cannot be told apart by using them. -/
structure Alike {S T : Type} (b : Backend S) (b' : Backend T) (E : S → T → Prop) : Prop where
  fetch : ∀ s t i buf, E s t → (b'.fetch t i buf).2 = (b.fetch s i buf).2 ∧ E (b.fetch s i buf).1 (b'.fetch t i buf).1
  flush : ∀ s t i buf, E s t → (b'.flush t i buf).2 = (b.flush s i buf).2 ∧ E (b.flush s i buf).1 (b'.flush t i buf).1
  resize : ∀ s t n, E s t → (b'.resize t n).2 = (b.resize s n).2 ∧ E (b.resize s n).1 (b'.resize t n).1

namespace Alike
variable {S T : Type} {b : Backend S} {b' : Backend T} {E : S → T → Prop} (A : Alike b b' E)

/-- The same cache on storages that cannot be told apart. -/
def StRel (E : S → T → Prop) (x : St S) (y : St T) : Prop := y.c = x.c ∧ E x.s y.s
/-- The same result as well. -/
def ResRel {α : Type} (E : S → T → Prop) (r : St S × α) (r' : St T × α) : Prop := StRel E r.1 r'.1 ∧ r'.2 = r.2
include A

theorem loadLoop : ∀ (n i : Nat) (x : St S) (y : St T), StRel E x y → (BlockCache.loadLoop b n i x).Rel (ResRel E) (BlockCache.loadLoop b' n i y)
  | 0, i, x, y, h => .ret ⟨h, rfl⟩
  | n + 1, i, ⟨c, s⟩, ⟨c', t⟩, ⟨hc, hs⟩ => by
    simp only at hc hs
    subst hc
    rw [BlockCache.loadLoop, BlockCache.loadLoop]
    refine .bindSame fun v => .ite (fun _ => loadLoop n _ _ _ ⟨rfl, hs⟩) fun _ => .ite (fun _ => ?_) fun _ => .panic
    obtain ⟨h1, h2⟩ := A.fetch s t i (slice c'.data (u64 (i * c'.bpb)) (u64 (u64 (i * c'.bpb) + c'.bpb) - u64 (i * c'.bpb))) hs
    rcases e1 : b.fetch s i (slice c'.data (u64 (i * c'.bpb)) (u64 (u64 (i * c'.bpb) + c'.bpb) - u64 (i * c'.bpb))) with ⟨s1, buf1, er1⟩
    rcases e2 : b'.fetch t i (slice c'.data (u64 (i * c'.bpb)) (u64 (u64 (i * c'.bpb) + c'.bpb) - u64 (i * c'.bpb))) with ⟨t1, buf2, er2⟩
    rw [e1, e2] at h1 h2
    simp only [Prod.mk.injEq] at h1 h2
    obtain ⟨rfl, rfl⟩ := h1
    simp only [e1, e2]
    rcases er2 with _ | e
    · exact .bindSame fun l => .bindSame fun m => loadLoop n _ _ _ ⟨rfl, h2⟩
    · exact .ret ⟨⟨rfl, h2⟩, rfl⟩

theorem loadBlockRange (i n : Nat) {x : St S} {y : St T} (h : StRel E x y) : (BlockCache.loadBlockRange b x i n).Rel (ResRel E) (BlockCache.loadBlockRange b' y i n) := by
  unfold BlockCache.loadBlockRange
  rw [h.1]
  refine .bindSame fun o => ?_
  rcases o with _ | e
  · exact A.loadLoop _ _ _ _ h
  · exact .ret ⟨h, rfl⟩

theorem getSlice (i n : Nat) {x : St S} {y : St T} (h : StRel E x y) : (BlockCache.getSlice b x i n).Rel (ResRel E) (BlockCache.getSlice b' y i n) := by
  unfold BlockCache.getSlice
  refine (A.loadBlockRange i n h).bind fun r r' hr => ?_
  rcases r with ⟨x1, e⟩
  rcases r' with ⟨y1, e'⟩
  obtain ⟨h1, h2⟩ := hr
  simp only at h1 h2
  subst h2
  rcases e' with _ | e
  · simp only [h1.1]
    exact .ite (fun _ => .ret ⟨h1, rfl⟩) fun _ => .panic
  · exact .ret ⟨h1, rfl⟩

theorem flushLoop : ∀ (n i : Nat) (x : St S) (y : St T), StRel E x y → (BlockCache.flushLoop b n i x).Rel (ResRel E) (BlockCache.flushLoop b' n i y)
  | 0, i, x, y, h => .ret ⟨h, rfl⟩
  | n + 1, i, x, y, h => by
    rw [BlockCache.flushLoop, BlockCache.flushLoop, h.1]
    refine .bindSame fun v => .ite (fun _ => flushLoop n _ _ _ h) fun _ => (A.getSlice i 1 h).bind fun r r' hr => ?_
    rcases r with ⟨⟨c, s⟩, o⟩
    rcases r' with ⟨⟨c', t⟩, o'⟩
    obtain ⟨⟨h1, h2⟩, h3⟩ := hr
    simp only at h1 h2 h3
    subst h1 h3
    rcases o' with e | w
    · exact .ret ⟨⟨rfl, h2⟩, rfl⟩
    · obtain ⟨k1, k2⟩ := A.flush s t i (c'.peek w) h2
      rcases e1 : b.flush s i (c'.peek w) with ⟨s1, er1⟩
      rcases e2 : b'.flush t i (c'.peek w) with ⟨t1, er2⟩
      rw [e1, e2] at k1 k2
      simp only at k1 k2 ⊢
      subst k1
      rw [e1, e2]
      rcases er2 with _ | e
      · exact .bindSame fun l => flushLoop n _ _ _ ⟨rfl, k2⟩
      · exact .ret ⟨⟨rfl, k2⟩, rfl⟩

theorem flush' {x : St S} {y : St T} (h : StRel E x y) : (BlockCache.flush b x).Rel (ResRel E) (BlockCache.flush b' y) := by
  unfold BlockCache.flush BlockCache.flushBlockRange
  rw [h.1]
  refine Outcome.Rel.bind (P := ResRel E) (.bindSame fun o => ?_) fun r r' hr => ?_
  · rcases o with _ | e
    · exact A.flushLoop _ _ _ _ h
    · exact .ret ⟨h, rfl⟩
  · rcases r with ⟨x1, e⟩
    rcases r' with ⟨y1, e'⟩
    obtain ⟨h1, h2⟩ := hr
    simp only at h1 h2
    subst h2
    rcases e' with _ | e <;> exact .ret ⟨h1, rfl⟩

theorem resize' (n : Nat) {x : St S} {y : St T} (h : StRel E x y) : (BlockCache.resize b x n).Rel (ResRel E) (BlockCache.resize b' y n) := by
  rcases x with ⟨c, s⟩
  rcases y with ⟨c', t⟩
  obtain ⟨h1, h2⟩ := h
  simp only at h1 h2
  subst h1
  unfold BlockCache.resize
  obtain ⟨k1, k2⟩ := A.resize s t n h2
  rcases e1 : b.resize s n with ⟨s1, er1⟩
  rcases e2 : b'.resize t n with ⟨t1, er2⟩
  rw [e1, e2] at k1 k2
  simp only at k1 k2 ⊢
  subst k1
  rcases er2 with _ | e
  · exact .ite (fun _ => .bindSame fun c2 => .ret ⟨⟨rfl, k2⟩, rfl⟩) fun _ => .panic
  · exact .ret ⟨⟨rfl, k2⟩, rfl⟩

end Alike

namespace Stream
variable {S T : Type} {b : Backend S} {b' : Backend T} {E : S → T → Prop}

/-- The same stream on storages that cannot be told apart. -/
structure StmRel (E : S → T → Prop) (x : Stm S) (y : Stm T) : Prop where
  size : y.size = x.size
  position : y.position = x.position
  flags : y.flags = x.flags
  st : Alike.StRel E x.st y.st

/-- With the same answer. -/
def OutRel {α : Type} (E : S → T → Prop) (r : Stm S × α) (r' : Stm T × α) : Prop := StmRel E r.1 r'.1 ∧ r'.2 = r.2

end Stream

namespace Alike
open Disko.Stream
variable {S T : Type} {b : Backend S} {b' : Backend T} {E : S → T → Prop} (A : Alike b b' E)
include A

theorem readAt (buf : Bytes) (off : Int) {x : Stm S} {y : Stm T} (h : StmRel E x y) : (Stream.readAt b x buf off).Rel (OutRel E) (Stream.readAt b' y buf off) := by
  unfold Stream.readAt Stream.convertLinearAddr
  rw [h.flags, h.size, h.st.1]
  refine .ite (fun _ => .ret ⟨h, rfl⟩) fun _ => .ite (fun _ => .ret ⟨h, rfl⟩) fun _ => .ite (fun _ => .ret ⟨h, rfl⟩) fun _ => ?_
  refine .bindSame fun p => .bindSame fun q => (A.getSlice _ _ h.st).bind fun r r' hr => ?_
  rcases r with ⟨x1, o⟩
  rcases r' with ⟨y1, o'⟩
  obtain ⟨h1, h2⟩ := hr
  simp only at h1 h2
  subst h2
  rcases o' with e | w
  · exact .ret ⟨⟨(by first | rfl | exact h.size), (by first | rfl | exact h.position), (by first | rfl | exact h.flags), h1⟩, rfl⟩
  · simp only [h1.1]
    exact .ite (fun _ => .ret ⟨⟨(by first | rfl | exact h.size), (by first | rfl | exact h.position), (by first | rfl | exact h.flags), h1⟩, rfl⟩) fun _ => .panic

theorem read (buf : Bytes) {x : Stm S} {y : Stm T} (h : StmRel E x y) : (Stream.read b x buf).Rel (OutRel E) (Stream.read b' y buf) := by
  unfold Stream.read
  rw [h.position]
  refine (A.readAt buf _ h).bind fun r r' hr => ?_
  rcases r with ⟨x1, o⟩
  rcases r' with ⟨y1, o'⟩
  obtain ⟨h1, h2⟩ := hr
  simp only at h1 h2
  subst h2
  simp only
  rcases o'.err with _ | e
  · exact .ret ⟨⟨h1.size, by simp only [h1.position], h1.flags, h1.st⟩, rfl⟩
  · exact .ret ⟨h1, rfl⟩

omit A in
theorem seek (off wh : Int) {x : Stm S} {y : Stm T} (h : StmRel E x y) : OutRel E (Stream.seek x off wh) (Stream.seek y off wh) := by
  unfold Stream.seek
  rw [h.position, h.size]
  simp only
  split
  · exact ⟨h, rfl⟩
  · split
    · exact ⟨h, rfl⟩
    · exact ⟨⟨(by first | rfl | exact h.size), rfl, (by first | rfl | exact h.flags), h.st⟩, rfl⟩

theorem sync {x : Stm S} {y : Stm T} (h : StmRel E x y) : (Stream.sync b x).Rel (OutRel E) (Stream.sync b' y) := by
  unfold Stream.sync
  refine (A.flush' h.st).bind fun r r' hr => ?_
  rcases r with ⟨x1, o⟩
  rcases r' with ⟨y1, o'⟩
  obtain ⟨h1, h2⟩ := hr
  simp only at h1 h2
  subst h2
  rcases o' with e | w <;> exact .ret ⟨⟨(by first | rfl | exact h.size), (by first | rfl | exact h.position), (by first | rfl | exact h.flags), h1⟩, rfl⟩

theorem truncate (n : Int) {x : Stm S} {y : Stm T} (h : StmRel E x y) : (Stream.truncate b x n).Rel (OutRel E) (Stream.truncate b' y n) := by
  unfold Stream.truncate
  rw [h.flags, h.st.1]
  refine .ite (fun _ => .ret ⟨h, rfl⟩) fun _ => .ite (fun _ => .ret ⟨h, rfl⟩) fun _ => .bindSame fun k => (A.resize' k h.st).bind fun r r' hr => ?_
  rcases r with ⟨x1, o⟩
  rcases r' with ⟨y1, o'⟩
  obtain ⟨h1, h2⟩ := hr
  simp only at h1 h2
  subst h2
  rcases o' with e | w
  · exact .ret ⟨⟨(by first | rfl | exact h.size), (by first | rfl | exact h.position), (by first | rfl | exact h.flags), h1⟩, rfl⟩
  · exact .ite (fun _ => A.sync ⟨rfl, (by first | rfl | exact h.position), (by first | rfl | exact h.flags), h1⟩) fun _ => .ret ⟨⟨rfl, (by first | rfl | exact h.position), (by first | rfl | exact h.flags), h1⟩, rfl⟩

theorem implWriteAt (buf : Bytes) (off : Int) {x : Stm S} {y : Stm T} (h : StmRel E x y) :
    (Stream.implWriteAt b x buf off).Rel (OutRel E) (Stream.implWriteAt b' y buf off) := by
  unfold Stream.implWriteAt Stream.convertLinearAddr
  rw [h.flags, h.st.1]
  refine .ite (fun _ => .ret ⟨h, rfl⟩) fun _ => .bindSame fun p => .bindSame fun q => ?_
  refine Outcome.Rel.bind (P := OutRel E) (.ite (fun _ => A.truncate _ h) fun _ => .ret ⟨h, rfl⟩) fun r r' hr => ?_
  rcases r with ⟨x1, o⟩
  rcases r' with ⟨y1, o'⟩
  obtain ⟨h1, h2⟩ := hr
  simp only at h1 h2
  subst h2
  rcases o' with _ | e
  · simp only
    refine (A.getSlice _ _ h1.st).bind fun r r' hr => ?_
    rcases r with ⟨x2, o⟩
    rcases r' with ⟨y2, o'⟩
    obtain ⟨k1, k2⟩ := hr
    simp only at k1 k2
    subst k2
    rcases o' with e | w
    · exact .ret ⟨⟨(by first | rfl | exact h1.size), (by first | rfl | exact h1.position), (by first | rfl | exact h1.flags), k1⟩, rfl⟩
    · simp only [k1.1]
      refine .ite (fun _ => .ite (fun _ => ?_) fun _ => ?_) fun _ => .panic
      · have hx : ∀ c, StmRel E { x1 with st := ⟨c, x2.s⟩ } { y1 with st := ⟨c, y2.s⟩ } := fun c => ⟨h1.size, h1.position, h1.flags, ⟨rfl, k1.2⟩⟩
        refine (A.sync (hx _)).bind fun r r' hr => ?_
        rcases r with ⟨x3, o⟩
        rcases r' with ⟨y3, o'⟩
        obtain ⟨l1, l2⟩ := hr
        simp only at l1 l2
        subst l2
        exact .ret ⟨l1, rfl⟩
      · exact .ret ⟨⟨(by first | rfl | exact h1.size), (by first | rfl | exact h1.position), (by first | rfl | exact h1.flags), ⟨rfl, k1.2⟩⟩, rfl⟩
  · exact .ret ⟨h1, rfl⟩

theorem writeAt (buf : Bytes) (off : Int) {x : Stm S} {y : Stm T} (h : StmRel E x y) :
    (Stream.writeAt b x buf off).Rel (OutRel E) (Stream.writeAt b' y buf off) := by
  unfold Stream.writeAt
  rw [h.flags]
  exact .ite (fun _ => .ret ⟨h, rfl⟩) fun _ => A.implWriteAt _ _ h

theorem write (buf : Bytes) {x : Stm S} {y : Stm T} (h : StmRel E x y) : (Stream.write b x buf).Rel (OutRel E) (Stream.write b' y buf) := by
  unfold Stream.write
  rw [h.flags]
  refine .ite (fun _ => .ret ⟨h, rfl⟩) fun _ => ?_
  have key : OutRel E (if Flags.append x.flags = true then Stream.seek x 0 2 else (x, 0, none)) (if Flags.append x.flags = true then Stream.seek y 0 2 else (y, 0, none)) := by
    split
    · exact seek 0 2 h
    · exact ⟨h, rfl⟩
  generalize (if Flags.append x.flags = true then Stream.seek x 0 2 else (x, 0, none)) = r at key ⊢
  generalize (if Flags.append x.flags = true then Stream.seek y 0 2 else (y, 0, none)) = r' at key ⊢
  rcases r with ⟨x0, n, e⟩
  rcases r' with ⟨y0, n', e'⟩
  obtain ⟨h1, h2⟩ := key
  simp only [Prod.mk.injEq] at h1 h2
  obtain ⟨rfl, rfl⟩ := h2
  rcases e' with _ | e
  · simp only [h1.position]
    refine (A.implWriteAt _ _ h1).bind fun r r' hr => ?_
    rcases r with ⟨x3, o⟩
    rcases r' with ⟨y3, o'⟩
    obtain ⟨l1, l2⟩ := hr
    simp only at l1 l2
    subst l2
    exact .ret ⟨⟨l1.size, by simp only [l1.position], l1.flags, l1.st⟩, rfl⟩
  · exact .ret ⟨h1, rfl⟩

end Alike
end Disko

import Verif.Stream.Lemmas
import Verif.Base.Lists
/-! What the calls of a stream can do to the storage, given what the callbacks can do: nothing is
assumed about the storage or the geometry. -/
namespace Disko

/-- If the call returns, what it returns satisfies `P`. -/
def Outcome.All {α : Type} (P : α → Prop) (o : Outcome α) : Prop := ∀ a, o = .ret a → P a

namespace Outcome.All
variable {α β : Type} {P : α → Prop} {Q : β → Prop}

theorem ret {a : α} (h : P a) : All P (.ret a) := by intro b e; cases e; exact h
theorem pure {a : α} (h : P a) : All P (Pure.pure a) := ret h
theorem panic : All P .panic := by intro b e; cases e
theorem timeout : All P .timeout := by intro b e; cases e
theorem bind {m : Outcome α} {f : α → Outcome β} (h : All P m) (hf : ∀ a, P a → All Q (f a)) : All Q (m >>= f) := by
  intro b e
  rcases m with a | _ | _
  · exact hf a (h a rfl) b e
  · cases e
  · cases e
theorem any (m : Outcome α) : All (fun a => m = .ret a) m := fun _ h => h
theorem ite {c : Prop} [Decidable c] {m k : Outcome α} (h : c → All P m) (hk : ¬ c → All P k) : All P (if c then m else k) := by
  split
  · exact h ‹_›
  · exact hk ‹_›
theorem imp {P' : α → Prop} {m : Outcome α} (h : All P m) (hi : ∀ a, P a → P' a) : All P' m := fun a e => hi a (h a e)
end Outcome.All

namespace BlockCache
open Disko

variable {S : Type}

/-- The sizes of a cache's parts. -/
structure Shape where
  bpb : Nat
  total : Nat
  loaded : Nat
  data : Nat
deriving DecidableEq

/-- The shape of a cache. -/
def Cache.shape (c : Cache) : Shape := ⟨c.bpb, c.total, c.loaded.length, c.data.length⟩

/-- The checks a fetch has passed: the block has a bit, and its bytes are within the memory. -/
def Shape.Fetchable (sh : Shape) (i len : Nat) : Prop :=
  i < sh.loaded ∧ u64 (i * sh.bpb) ≤ u64 (u64 (i * sh.bpb) + sh.bpb) ∧ u64 (u64 (i * sh.bpb) + sh.bpb) ≤ sh.data ∧
    len = u64 (u64 (i * sh.bpb) + sh.bpb) - u64 (i * sh.bpb)

/-- No block is dirty. -/
def Cache.Clean (c : Cache) : Prop := ∀ j, c.dirty.getD j false = false

/-- What a call that only fetches does. -/
structure Loaded (R : S → S → Prop) (st st' : St S) : Prop where
  rel : R st.s st'.s
  shape : st'.c.shape = st.c.shape
  clean : st.c.Clean → st'.c.Clean

section
variable {R : S → S → Prop} (hrefl : ∀ s, R s s) (htrans : ∀ {a b c}, R a b → R b c → R a c) (b : Backend S)
include hrefl htrans

omit htrans in
theorem Loaded.refl (st : St S) : Loaded R st st := ⟨hrefl _, rfl, id⟩

omit hrefl in
theorem Loaded.trans {a b c : St S} (h : Loaded R a b) (k : Loaded R b c) : Loaded R a c :=
  ⟨htrans h.rel k.rel, k.shape.trans h.shape, fun x => k.clean (h.clean x)⟩

section
variable (sh : Shape) (hf : ∀ s i buf, sh.Fetchable i buf.length → R s (b.fetch s i buf).1)
include hf

theorem loadLoop_frame : ∀ (n i : Nat) (st : St S), st.c.shape = sh → (loadLoop b n i st).All fun r => Loaded R st r.1
  | 0, i, st, _ => by rw [loadLoop]; exact .ret (Loaded.refl hrefl st)
  | n + 1, i, st, hsh => by
    rw [loadLoop]
    refine (Outcome.All.any (bitGet st.c.loaded i)).bind fun l hl => ?_
    refine .ite (fun _ => loadLoop_frame n (i + 1) st hsh) fun _ => ?_
    refine .ite (fun hb => ?_) fun _ => .panic
    have hi : i < st.c.loaded.length := by
      unfold bitGet at hl
      split at hl
      · rename_i v hv
        exact (List.getElem?_eq_some_iff.mp hv).1
      · cases hl
    have hlen : (slice st.c.data (u64 (i * st.c.bpb)) (u64 (u64 (i * st.c.bpb) + st.c.bpb) - u64 (i * st.c.bpb))).length =
        u64 (u64 (i * st.c.bpb) + st.c.bpb) - u64 (i * st.c.bpb) := by
      unfold slice
      rw [List.length_take, List.length_drop]
      omega
    have hR := hf st.s i (slice st.c.data (u64 (i * st.c.bpb)) (u64 (u64 (i * st.c.bpb) + st.c.bpb) - u64 (i * st.c.bpb))) (by
      rw [← hsh]
      exact ⟨hi, hb.1, hb.2, hlen⟩)
    have hdl : ∀ buf', (splice st.c.data (u64 (i * st.c.bpb)) (goCopy (slice st.c.data (u64 (i * st.c.bpb)) (u64 (u64 (i * st.c.bpb) + st.c.bpb) - u64 (i * st.c.bpb))) buf')).length =
        st.c.data.length := by
      intro buf'
      unfold splice
      rw [List.length_append, List.length_append, goCopy_length, hlen, List.length_take, List.length_drop]
      omega
    simp only
    rcases hfe : b.fetch st.s i (slice st.c.data (u64 (i * st.c.bpb)) (u64 (u64 (i * st.c.bpb) + st.c.bpb) - u64 (i * st.c.bpb))) with ⟨s1, buf1, e1⟩
    rw [hfe] at hR
    cases e1 with
    | some e1 => exact .ret ⟨hR, by unfold Cache.shape; rw [hdl], id⟩
    | none =>
      simp only
      refine (Outcome.All.any (bitSet st.c.loaded i true)).bind fun l' hl' => (Outcome.All.any (bitSet st.c.dirty i false)).bind fun d' hd' => ?_
      have h1 : l'.length = st.c.loaded.length := by
        rw [bitSet_eq hi] at hl'
        cases hl'
        rw [List.length_set]
      have hst : Loaded R st ⟨{ st.c with data := splice st.c.data (u64 (i * st.c.bpb)) (goCopy (slice st.c.data (u64 (i * st.c.bpb)) (u64 (u64 (i * st.c.bpb) + st.c.bpb) - u64 (i * st.c.bpb))) buf1), loaded := l', dirty := d' }, s1⟩ := by
        refine ⟨hR, by unfold Cache.shape; simp only [hdl, h1], fun hc j => ?_⟩
        unfold bitSet at hd'
        split at hd'
        · rename_i hlt
          cases hd'
          show (st.c.dirty.set i false).getD j false = false
          rw [getD_set _ _ _ _ hlt]
          split
          · rfl
          · exact hc j
        · cases hd'
      exact (loadLoop_frame n (i + 1) _ (hst.shape.trans hsh)).imp fun r hr => Loaded.trans (R := R) htrans hst hr

theorem loadBlockRange_frame (i n : Nat) (st : St S) (hsh : st.c.shape = sh) : (loadBlockRange b st i n).All fun r => Loaded R st r.1 := by
  unfold loadBlockRange
  refine (Outcome.All.any _).bind fun c _ => ?_
  cases c with
  | some c => exact .ret (Loaded.refl hrefl st)
  | none => exact loadLoop_frame hrefl htrans b sh hf _ _ st hsh

theorem getSlice_frame (i n : Nat) (st : St S) (hsh : st.c.shape = sh) : (getSlice b st i n).All fun r => Loaded R st r.1 := by
  unfold getSlice
  refine (loadBlockRange_frame hrefl htrans b sh hf i n st hsh).bind fun r hr => ?_
  rcases r with ⟨st', _ | e⟩
  · exact .ite (fun _ => .ret hr) fun _ => .panic
  · exact .ret hr

end

section
variable (hf : ∀ s i buf, R s (b.fetch s i buf).1) (hw : ∀ s i buf, R s (b.flush s i buf).1)
include hf hw

theorem flushLoop_frame : ∀ (n i : Nat) (st : St S), (flushLoop b n i st).All fun r => R st.s r.1.s
  | 0, i, st => by rw [flushLoop]; exact .ret (hrefl _)
  | n + 1, i, st => by
    rw [flushLoop]
    refine (Outcome.All.any _).bind fun d _ => .ite (fun _ => flushLoop_frame n (i + 1) st) fun _ => ?_
    refine (getSlice_frame hrefl htrans b st.c.shape (fun s i buf _ => hf s i buf) i 1 st rfl).bind fun r hr => ?_
    rcases r with ⟨st', e | w⟩
    · exact .ret hr.rel
    · simp only
      have h2 := hw st'.s i (st'.c.peek w)
      rcases hfe : b.flush st'.s i (st'.c.peek w) with ⟨s1, _ | e⟩
      · rw [hfe] at h2
        refine (Outcome.All.any _).bind fun d' _ => (flushLoop_frame n (i + 1) _).imp fun r2 hr2 => htrans (htrans hr.rel h2) hr2
      · rw [hfe] at h2
        exact .ret (htrans hr.rel h2)

theorem flush_frame (st : St S) : (flush b st).All fun r => R st.s r.1.s := by
  unfold flush flushBlockRange
  refine Outcome.All.bind (P := fun r => R st.s r.1.s) ?_ fun r hr => ?_
  · refine (Outcome.All.any _).bind fun c _ => ?_
    cases c with
    | some c => exact .ret (hrefl _)
    | none => exact flushLoop_frame hrefl htrans b hf hw _ _ st
  · rcases r with ⟨st', _ | e⟩ <;> exact .ret hr

end

omit hrefl htrans in
theorem resize_frame (n : Nat) (st : St S) (hr : R st.s (b.resize st.s n).1) : (resize b st n).All fun r => R st.s r.1.s := by
  unfold resize
  rcases hfe : b.resize st.s n with ⟨s1, _ | e⟩
  · rw [hfe] at hr
    exact .ite (fun _ => (Outcome.All.any _).bind fun c _ => .ret hr) fun _ => .panic
  · rw [hfe] at hr
    exact .ret hr

end
end BlockCache

namespace Stream
open BlockCache

variable {S : Type} {R : S → S → Prop} (hrefl : ∀ s, R s s) (htrans : ∀ {a b c}, R a b → R b c → R a c) (b : Backend S)
include hrefl htrans

theorem readAt_frame (x : Stm S) (hf : ∀ s i buf, x.st.c.shape.Fetchable i buf.length → R s (b.fetch s i buf).1) (buf : Bytes) (off : Int) :
    (readAt b x buf off).All fun r => Loaded R x.st r.1.st := by
  have h0 := Loaded.refl hrefl (R := R) x.st
  unfold readAt
  refine .ite (fun _ => .ret h0) fun _ => .ite (fun _ => .ret h0) fun _ => .ite (fun _ => .ret h0) fun _ => ?_
  refine (Outcome.All.any _).bind fun p _ => (Outcome.All.any _).bind fun q _ => ?_
  refine (getSlice_frame hrefl htrans b x.st.c.shape hf _ _ x.st rfl).bind fun r hr => ?_
  rcases r with ⟨st', e | w⟩
  · exact .ret hr
  · exact .ite (fun _ => .ret hr) fun _ => .panic

theorem read_frame (x : Stm S) (hf : ∀ s i buf, x.st.c.shape.Fetchable i buf.length → R s (b.fetch s i buf).1) (buf : Bytes) :
    (read b x buf).All fun r => Loaded R x.st r.1.st := by
  unfold read
  refine (readAt_frame hrefl htrans b x hf buf x.position).bind fun r hr => ?_
  rcases r with ⟨x', r⟩
  simp only
  rcases r.err with _ | e <;> exact .ret hr

section
variable (hf : ∀ s i buf, R s (b.fetch s i buf).1) (hw : ∀ s i buf, R s (b.flush s i buf).1)
include hf hw

theorem sync_frame (x : Stm S) : (sync b x).All fun r => R x.st.s r.1.st.s := by
  unfold sync
  refine (flush_frame hrefl htrans b hf hw x.st).bind fun r hr => ?_
  rcases r with ⟨st', _ | _⟩ <;> exact .ret hr

theorem truncate_frame (hr : ∀ s n, R s (b.resize s n).1) (x : Stm S) (n : Int) : (truncate b x n).All fun r => R x.st.s r.1.st.s := by
  unfold truncate
  refine .ite (fun _ => .ret (hrefl _)) fun _ => .ite (fun _ => .ret (hrefl _)) fun _ => ?_
  refine (Outcome.All.any _).bind fun nb _ => (resize_frame b nb x.st (hr _ _)).bind fun r h1 => ?_
  rcases r with ⟨st', _ | _⟩
  · exact .ret h1
  · exact .ite (fun _ => (sync_frame hrefl htrans b hf hw _).imp fun r h2 => htrans h1 h2) fun _ => .ret h1

theorem implWriteAt_frame (hr : ∀ s n, R s (b.resize s n).1) (x : Stm S) (buf : Bytes) (off : Int) :
    (implWriteAt b x buf off).All fun r => R x.st.s r.1.st.s := by
  unfold implWriteAt
  refine .ite (fun _ => .ret (hrefl _)) fun _ => (Outcome.All.any _).bind fun p _ => (Outcome.All.any _).bind fun q _ => ?_
  refine Outcome.All.bind (P := fun r => R x.st.s r.1.st.s) ?_ fun r h1 => ?_
  · exact .ite (fun _ => truncate_frame hrefl htrans b hf hw hr x _) fun _ => .ret (hrefl _)
  · rcases r with ⟨x1, e1 | _⟩
    · refine (getSlice_frame hrefl htrans b x1.st.c.shape (fun s i buf _ => hf s i buf) _ _ x1.st rfl).bind fun r h2 => ?_
      rcases r with ⟨st', e | w⟩
      · exact .ret (htrans h1 h2.rel)
      · refine .ite (fun _ => .ite (fun _ => ?_) fun _ => .ret (htrans h1 h2.rel)) fun _ => .panic
        refine (sync_frame hrefl htrans b hf hw _).bind fun r h3 => ?_
        exact .ret (htrans (htrans h1 h2.rel) h3)
    · exact .ret h1

theorem write_frame (hr : ∀ s n, R s (b.resize s n).1) (x : Stm S) (buf : Bytes) : (write b x buf).All fun r => R x.st.s r.1.st.s := by
  unfold write
  refine .ite (fun _ => .ret (hrefl _)) fun _ => ?_
  have hs : ∀ y : Stm S, (seek y 0 2).1.st = y.st := by
    intro y
    unfold seek
    simp only
    split <;> (try split) <;> rfl
  simp only
  have key : ∀ z : Stm S × Int × Option SErr, z.1.st = x.st → (match z with
      | (x0, _, e0) => match e0 with
        | some e => (.ret (x0, 0, some e) : Outcome (Stm S × Int × Option SErr))
        | none => (implWriteAt b x0 buf x0.position) >>= fun y => .ret ({ y.1 with position := i64 (y.1.position + y.2.1) }, y.2.1, y.2.2)).All fun (r : Stm S × Int × Option SErr) => R x.st.s r.1.st.s := by
    rintro ⟨x0, n0, _ | e⟩ hz
    · simp only at hz ⊢
      rw [← hz]
      exact (implWriteAt_frame hrefl htrans b hf hw hr x0 buf _).bind fun r h => .ret h
    · simp only at hz ⊢
      rw [← hz]
      exact .ret (hrefl _)
  refine key _ ?_
  split
  · exact hs x
  · rfl

end

omit hrefl htrans in
/-- Resizing to no blocks. -/
theorem resize_zero_frame (st : St S) (hr : R st.s (b.resize st.s 0).1) :
    (BlockCache.resize b st 0).All fun r => R st.s r.1.s ∧ (∀ u, r.2 = .ok u → r.1.c.total = 0) := by
  unfold BlockCache.resize
  rcases hfe : b.resize st.s 0 with ⟨s1, _ | e⟩
  · rw [hfe] at hr
    exact .ite (fun _ => (Outcome.All.any _).bind fun c _ => .ret ⟨hr, fun _ _ => rfl⟩) fun _ => .panic
  · rw [hfe] at hr
    exact .ret ⟨hr, fun _ h => by cases h⟩

omit hrefl htrans in
theorem sync_none (x : Stm S) (h : x.st.c.total = 0) : (sync b x).All fun r => r.1.st = x.st := by
  unfold sync flush flushBlockRange
  refine Outcome.All.bind (P := fun r => r.1 = x.st) ?_ fun r hr => ?_
  · refine Outcome.All.bind (P := fun r => r.1 = x.st) ?_ fun r hr => ?_
    · refine (Outcome.All.any _).bind fun c hc => ?_
      cases c with
      | some c => exact .ret rfl
      | none =>
        exfalso
        unfold Cache.checkBounds at hc
        rcases hm : x.st.c.getMinBlocksForSize (u64 (x.st.c.total * x.st.c.bpb)) with k | _ | _
        · rw [hm, Outcome.bind_ret, h] at hc
          simp only [ge_iff_le, Nat.le_refl, if_true, Outcome.pure_eq] at hc
          cases hc
        · rw [hm] at hc; cases hc
        · rw [hm] at hc; cases hc
    · rcases r with ⟨st', _ | e⟩ <;> exact .ret hr
  · rcases r with ⟨st', _ | e⟩ <;> exact .ret hr

omit htrans in
/-- Truncating to nothing only resizes, to no blocks. -/
theorem truncate_zero_frame (hr : ∀ s, R s (b.resize s 0).1) (x : Stm S) : (truncate b x 0).All fun r => R x.st.s r.1.st.s := by
  unfold truncate
  refine .ite (fun _ => .ret (hrefl _)) fun _ => .ite (fun _ => .ret (hrefl _)) fun _ => ?_
  refine (Outcome.All.any _).bind fun nb hnb => ?_
  have h0 : nb = 0 := by
    unfold Cache.getMinBlocksForSize at hnb
    split at hnb
    · cases hnb
    · rename_i hb
      cases hnb
      rw [show toUint 0 = 0 from rfl, Nat.zero_add]
      refine Nat.div_eq_of_lt (Nat.lt_of_le_of_lt (Nat.mod_le _ _) ?_)
      omega
  subst h0
  refine (resize_zero_frame b x.st (hr _)).bind fun r h1 => ?_
  rcases r with ⟨st', e | u⟩
  · exact .ret h1.1
  · refine .ite (fun _ => (sync_none b _ (h1.2 u rfl)).imp fun r h2 => ?_) fun _ => .ret h1.1
    rw [h2]; exact h1.1

omit htrans in
/-- Opening does nothing but truncate, if asked to. -/
theorem new_frame (size : Int) (st : St S) (flags : Flags.IOFlags) (hr : Flags.truncate flags = true → ∀ s, R s (b.resize s 0).1) :
    (new b size st flags).All fun r => ∀ x, r.1 = some x → R st.s x.st.s := by
  unfold new
  refine .ite (fun _ => .ret fun x h => by cases h) fun _ => .ite (fun ht => ?_) fun _ => .ret fun x h => by cases h; exact hrefl _
  exact (truncate_zero_frame hrefl b (hr ht) _).bind fun r hr => .ret fun x h => by cases h; exact hr

end Stream
end Disko

import Verif.Stream.Frame
/-! Every block that is flushed is one block long. -/
namespace Disko
namespace BlockCache
variable {S : Type} {R : S → S → Prop} (hrefl : ∀ s, R s s) (htrans : ∀ {a b c}, R a b → R b c → R a c) (b : Backend S)
  (bpb : Nat) (hb : bpb < 2 ^ 64) (hf : ∀ s i buf, R s (b.fetch s i buf).1) (hw : ∀ s i buf, buf.length = bpb → R s (b.flush s i buf).1)
include hrefl htrans

theorem getSlice_len (hf : ∀ s i buf, R s (b.fetch s i buf).1) (hb : bpb < 2 ^ 64) (i : Nat) (st : St S) (hs : st.c.bpb = bpb) :
    (getSlice b st i 1).All fun r => R st.s r.1.s ∧ r.1.c.bpb = bpb ∧ ∀ w, r.2 = .ok w → (r.1.c.peek w).length = bpb := by
  unfold getSlice
  refine (loadBlockRange_frame hrefl htrans b st.c.shape (fun s i buf _ => hf s i buf) i 1 st rfl).bind fun r hr => ?_
  have hsh : r.1.c.bpb = bpb := by
    have := congrArg Shape.bpb hr.shape
    exact this.trans hs
  rcases r with ⟨st', _ | e⟩
  · refine .ite (fun hbd => .ret ⟨hr.rel, hsh, fun w hw => ?_⟩) fun _ => .panic
    simp only at hw
    cases hw
    simp only at hsh
    unfold Cache.peek slice
    simp only
    rw [List.length_take, List.length_drop]
    rw [hsh] at hbd ⊢
    rw [Nat.one_mul] at hbd ⊢
    have h1 : u64 bpb = bpb := Nat.mod_eq_of_lt hb
    rw [h1] at hbd ⊢
    have h2 : u64 (i * bpb) < 2 ^ 64 := Nat.mod_lt _ (by decide)
    have h3 : u64 (u64 (i * bpb) + bpb) = u64 (i * bpb) + bpb := by
      unfold u64 at hbd h2 ⊢
      omega
    omega
  · exact .ret ⟨hr.rel, hsh, fun w hw => by cases hw⟩

section
include hb hf hw

theorem flushLoop_len : ∀ (n i : Nat) (st : St S), st.c.bpb = bpb → (flushLoop b n i st).All fun r => R st.s r.1.s ∧ r.1.c.bpb = bpb
  | 0, i, st, hs => by rw [flushLoop]; exact .ret ⟨hrefl _, hs⟩
  | n + 1, i, st, hs => by
    rw [flushLoop]
    refine (Outcome.All.any _).bind fun d _ => .ite (fun _ => flushLoop_len n (i + 1) st hs) fun _ => ?_
    refine (getSlice_len hrefl htrans b bpb hf hb i st hs).bind fun r hr => ?_
    rcases r with ⟨st', e | w⟩
    · exact .ret ⟨hr.1, hr.2.1⟩
    · simp only
      have h2 := hw st'.s i (st'.c.peek w) (hr.2.2 w rfl)
      rcases hfe : b.flush st'.s i (st'.c.peek w) with ⟨s1, _ | e⟩
      · rw [hfe] at h2
        refine (Outcome.All.any _).bind fun d' _ => (flushLoop_len n (i + 1) ⟨{ st'.c with dirty := d' }, s1⟩ hr.2.1).imp fun r2 hr2 => ⟨htrans (htrans hr.1 h2) hr2.1, hr2.2⟩
      · rw [hfe] at h2
        exact .ret ⟨htrans hr.1 h2, hr.2.1⟩

theorem flush_len (st : St S) (hs : st.c.bpb = bpb) : (flush b st).All fun r => R st.s r.1.s ∧ r.1.c.bpb = bpb := by
  unfold flush flushBlockRange
  refine Outcome.All.bind (P := fun r => R st.s r.1.s ∧ r.1.c.bpb = bpb) ?_ fun r hr => ?_
  · refine (Outcome.All.any _).bind fun c _ => ?_
    cases c with
    | some c => exact .ret ⟨hrefl _, hs⟩
    | none => exact flushLoop_len hrefl htrans b bpb hb hf hw _ _ st hs
  · rcases r with ⟨st', _ | e⟩ <;> exact .ret hr

end

omit hrefl htrans in
theorem markLoop_bpb : ∀ (n i : Nat) (c : Cache), (markLoop n i c).All fun r => r.bpb = c.bpb
  | 0, i, c => by rw [markLoop]; exact .ret rfl
  | n + 1, i, c => by
    rw [markLoop]
    exact (Outcome.All.any _).bind fun _ _ => (Outcome.All.any _).bind fun _ _ => (markLoop_bpb n (i + 1) _).imp fun _ h => h

omit hrefl htrans in
theorem resize_len (n : Nat) (st : St S) (hs : st.c.bpb = bpb) (hr : R st.s (b.resize st.s n).1) : (resize b st n).All fun r => R st.s r.1.s ∧ r.1.c.bpb = bpb := by
  unfold resize
  rcases hfe : b.resize st.s n with ⟨s1, _ | e⟩
  · rw [hfe] at hr
    exact .ite (fun _ => (markLoop_bpb _ _ _).bind fun c hc => .ret ⟨hr, hc.trans hs⟩) fun _ => .panic
  · rw [hfe] at hr
    exact .ret ⟨hr, hs⟩

end BlockCache

namespace Stream
open BlockCache
variable {S : Type} {R : S → S → Prop} (hrefl : ∀ s, R s s) (htrans : ∀ {a b c}, R a b → R b c → R a c) (b : Backend S)
  (bpb : Nat) (hb : bpb < 2 ^ 64) (hf : ∀ s i buf, R s (b.fetch s i buf).1) (hw : ∀ s i buf, buf.length = bpb → R s (b.flush s i buf).1)
include hrefl htrans hb hf hw

theorem sync_len (x : Stm S) (hs : x.st.c.bpb = bpb) : (sync b x).All fun r => R x.st.s r.1.st.s ∧ r.1.st.c.bpb = bpb := by
  unfold sync
  refine (flush_len hrefl htrans b bpb hb hf hw x.st hs).bind fun r hr => ?_
  rcases r with ⟨st', _ | _⟩ <;> exact .ret hr

theorem truncate_len (hr : ∀ s n, R s (b.resize s n).1) (x : Stm S) (hs : x.st.c.bpb = bpb) (n : Int) :
    (truncate b x n).All fun r => R x.st.s r.1.st.s ∧ r.1.st.c.bpb = bpb := by
  unfold truncate
  refine .ite (fun _ => .ret ⟨hrefl _, hs⟩) fun _ => .ite (fun _ => .ret ⟨hrefl _, hs⟩) fun _ => ?_
  refine (Outcome.All.any _).bind fun nb _ => (resize_len b bpb nb x.st hs (hr _ _)).bind fun r h1 => ?_
  rcases r with ⟨st', _ | _⟩
  · exact .ret h1
  · exact .ite (fun _ => (sync_len hrefl htrans b bpb hb hf hw _ h1.2).imp fun r h2 => ⟨htrans h1.1 h2.1, h2.2⟩) fun _ => .ret h1

theorem implWriteAt_len (hr : ∀ s n, R s (b.resize s n).1) (x : Stm S) (hs : x.st.c.bpb = bpb) (buf : Bytes) (off : Int) :
    (implWriteAt b x buf off).All fun r => R x.st.s r.1.st.s ∧ r.1.st.c.bpb = bpb := by
  unfold implWriteAt
  refine .ite (fun _ => .ret ⟨hrefl _, hs⟩) fun _ => (Outcome.All.any _).bind fun p _ => (Outcome.All.any _).bind fun q _ => ?_
  refine Outcome.All.bind (P := fun r => R x.st.s r.1.st.s ∧ r.1.st.c.bpb = bpb) ?_ fun r h1 => ?_
  · exact .ite (fun _ => truncate_len hrefl htrans b bpb hb hf hw hr x hs _) fun _ => .ret ⟨hrefl _, hs⟩
  · rcases r with ⟨x1, e1 | _⟩
    · refine (getSlice_frame hrefl htrans b x1.st.c.shape (fun s i buf _ => hf s i buf) _ _ x1.st rfl).bind fun r h2 => ?_
      have hsh : r.1.c.bpb = bpb := (congrArg Shape.bpb h2.shape).trans h1.2
      rcases r with ⟨st', e | w⟩
      · exact .ret ⟨htrans h1.1 h2.rel, hsh⟩
      · refine .ite (fun _ => .ite (fun _ => ?_) fun _ => .ret ⟨htrans h1.1 h2.rel, hsh⟩) fun _ => .panic
        refine (sync_len hrefl htrans b bpb hb hf hw _ ?_).bind fun r h3 => ?_
        · exact hsh
        · exact .ret ⟨htrans (htrans h1.1 h2.rel) h3.1, h3.2⟩
    · exact .ret h1

theorem write_len (hr : ∀ s n, R s (b.resize s n).1) (x : Stm S) (hx : x.st.c.bpb = bpb) (buf : Bytes) : (write b x buf).All fun r => R x.st.s r.1.st.s ∧ r.1.st.c.bpb = bpb := by
  unfold write
  refine .ite (fun _ => .ret ⟨hrefl _, hx⟩) fun _ => ?_
  have hs : ∀ y : Stm S, (seek y 0 2).1.st = y.st := by
    intro y
    unfold seek
    simp only
    split <;> (try split) <;> rfl
  simp only
  have key : ∀ z : Stm S × Int × Option SErr, z.1.st = x.st → (match z with
      | (x0, _, e0) => match e0 with
        | some e => (.ret (x0, 0, some e) : Outcome (Stm S × Int × Option SErr))
        | none => (implWriteAt b x0 buf x0.position) >>= fun y => .ret ({ y.1 with position := i64 (y.1.position + y.2.1) }, y.2.1, y.2.2)).All
          fun (r : Stm S × Int × Option SErr) => R x.st.s r.1.st.s ∧ r.1.st.c.bpb = bpb := by
    rintro ⟨x0, n0, _ | e⟩ hz
    · simp only at hz ⊢
      rw [← hz]
      exact (implWriteAt_len hrefl htrans b bpb hb hf hw hr x0 (by rw [hz]; exact hx) buf _).bind fun r h => .ret h
    · simp only at hz ⊢
      rw [← hz]
      exact .ret ⟨hrefl _, by rw [hz]; exact hx⟩
  refine key _ ?_
  split
  · exact hs x
  · rfl

theorem new_len (hr : ∀ s n, R s (b.resize s n).1) (size : Int) (st : St S) (hs : st.c.bpb = bpb) (flags : Flags.IOFlags) :
    (new b size st flags).All fun r => ∀ x, r.1 = some x → R st.s x.st.s ∧ x.st.c.bpb = bpb := by
  unfold new
  refine .ite (fun _ => .ret fun x h => by cases h) fun _ => .ite (fun ht => ?_) fun _ => .ret fun x h => by cases h; exact ⟨hrefl _, hs⟩
  exact (truncate_len hrefl htrans b bpb hb hf hw hr ⟨size, 0, st, flags⟩ hs 0).bind fun r hr => .ret fun x h => by cases h; exact hr

theorem read_len (x : Stm S) (hs : x.st.c.bpb = bpb) (buf : Bytes) : (read b x buf).All fun r => R x.st.s r.1.st.s ∧ r.1.st.c.bpb = bpb :=
  (read_frame hrefl htrans b x (fun s i buf _ => hf s i buf) buf).imp fun _ h => ⟨h.rel, (congrArg Shape.bpb h.shape).trans hs⟩

end Stream
end Disko

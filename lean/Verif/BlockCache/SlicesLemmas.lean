import Verif.BlockCache.SlicesSpec
import Verif.Stream.Weak
/-
Lemmas for C138: the cache's operations in states whose memory was changed through slices.
-/
namespace Disko.BlockCache
open Disko Disko.BlockCache.Spec

variable {S : Type}

/-- Blocks that are neither marked nor in `U` agree with the storage. -/
def Clean (view : S → Bytes) (U : Nat → Bool) (st : St S) : Prop :=
  ∀ k, k < st.c.total * st.c.bpb → U (k / st.c.bpb) = false → isDirty st.c (k / st.c.bpb) = false →
    byteAt view st k = (view st.s).getD k 0

theorem byteAt_of_contents {view : S → Bytes} {st st' : St S} (ht : st'.c.total = st.c.total)
    (hb : st'.c.bpb = st.c.bpb) {k : Nat} (hk : k < st.c.total * st.c.bpb)
    (h : (contents view st')[k]? = (contents view st)[k]?) : byteAt view st' k = byteAt view st k := by
  rw [getElem?_contents, getElem?_contents, ht, hb, if_pos hk, if_pos hk] at h
  exact Option.some.inj h

theorem WLoads.clean {view : S → Bytes} {U : Nat → Bool} {st st' : St S} (h : WLoads view st st')
    (hc : Clean view U st) : Clean view U st' := by
  intro k hk hu hd
  rw [h.total, h.bpb] at hk
  rw [h.bpb] at hu hd
  rw [byteAt_of_contents h.total h.bpb hk (by rw [h.contents_eq]), h.view_eq]
  apply hc k hk hu
  rw [isDirty, ← h.dirty]; exact hd

theorem WLoads.trans {view : S → Bytes} {a b c : St S} (h : WLoads view a b) (h' : WLoads view b c) :
    WLoads view a c :=
  ⟨h'.weak, h'.bpb.trans h.bpb, h'.total.trans h.total, h'.dirty.trans h.dirty,
    fun i hi => h'.mono i (h.mono i hi), h'.view_eq.trans h.view_eq, h'.contents_eq.trans h.contents_eq⟩

theorem checkBounds_weak {view : S → Bytes} {st : St S} (h : Weak view st) (start : Nat) {size : Nat}
    (hs : size ≤ maxInt) : st.c.checkBounds start size =
      .ret (if InRange st.c start size then none else some .argumentOutOfRange) :=
  checkBounds_eq h.wf start hs

/-- GetSlice is loading followed by slicing. -/
theorem loadBlockRange_of_getSlice {b : Backend S} {st st' : St S} {start count : Nat}
    {r : Except Err Window} (h : getSlice b st start count = .ret (st', r)) :
    loadBlockRange b st start count = .ret (st', match r with | .ok _ => none | .error e => some e) := by
  unfold getSlice at h
  rcases hl : loadBlockRange b st start count with ⟨s1, _ | e⟩ | _ | _
  · rw [hl] at h
    simp only [Outcome.bind_ret] at h
    split at h
    · simp only [Outcome.pure_eq, Outcome.ret.injEq, Prod.mk.injEq] at h
      obtain ⟨rfl, rfl⟩ := h; rfl
    · simp at h
  · rw [hl] at h
    simp only [Outcome.bind_ret, Outcome.pure_eq, Outcome.ret.injEq, Prod.mk.injEq] at h
    obtain ⟨rfl, rfl⟩ := h; rfl
  · rw [hl] at h; simp [Outcome.bind_panic] at h
  · rw [hl] at h; simp [Outcome.bind_timeout] at h

theorem peek_weak {view : S → Bytes} {st : St S} (h : Weak view st) {start count : Nat}
    (hr : start + count ≤ st.c.total)
    (hl : ∀ j, start ≤ j → j < start + count → isLoaded st.c j = true) :
    slice st.c.data (start * st.c.bpb) (count * st.c.bpb) =
      slice (contents view st) (start * st.c.bpb) (count * st.c.bpb) :=
  peek_loaded h.wf hr hl

theorem readAt_weak {b : Backend S} {bpb : Nat} {view : S → Bytes} (L : Lawful b bpb view)
    (st : St S) (h : Weak view st) (hb : st.c.bpb = bpb) (buf : Bytes) (start : Nat)
    (hc : buf.length ≤ maxInt) :
    (¬ InRange st.c start buf.length ∧
      readAt b st buf start = .ret (st, .error .argumentOutOfRange)) ∨
    (InRange st.c start buf.length ∧ ∃ st', WLoads view st st' ∧
      ((∃ n, readAt b st buf start = .ret (st', .ok
        (slice (contents view st) (start * st.c.bpb) buf.length, n))) ∨
       ∃ j be, readAt b st buf start = .ret (st', .error (.fetchFailed j be)) ∧ FetchFails b st.c.total j be)) := by
  unfold readAt
  rw [checkBounds_weak h start hc]
  by_cases hr : InRange st.c start buf.length
  · right
    refine ⟨hr, ?_⟩
    rw [if_pos hr]
    simp only [Outcome.bind_ret]
    rw [minBlocks_eq h.bpb_pos (bpb_le (st := ghost st) h.wf hr.1) hc]
    simp only [Outcome.bind_ret]
    obtain ⟨f1, f2, f3⟩ := ceil_facts h.bpb_pos hr
    have hcap := h.cap
    have hir := ceil_inRange h.bpb_pos hr
    generalize (buf.length + (st.c.bpb - 1)) / st.c.bpb = n at *
    rcases getSlice_weak L st h hb start n (by omega) with
      ⟨h1, _⟩ | ⟨h1, st1, hld, ⟨h2, h3, h4⟩ | ⟨j, be, h2, hj⟩⟩
    · exact absurd hir h1
    · rw [loadBlockRange_of_getSlice h2]
      simp only [Outcome.bind_ret]
      have hb1 : st1.c.bpb = bpb := hld.bpb.trans hb
      rcases getSlice_weak L st1 hld.weak hb1 start n (by rw [hld.bpb]; omega) with
        ⟨g1, _⟩ | ⟨_, st2, hld2, ⟨g2, g3, g4⟩ | ⟨j, be, g2, gj⟩⟩
      · exact absurd (by unfold InRange; rw [hld.bpb, hld.total]; exact hir) g1
      · refine ⟨st2, hld.trans hld2,
          .inl ⟨(slice (contents view st) (start * st.c.bpb) (n * st.c.bpb)).length, ?_⟩⟩
        rw [g2]
        simp only [Outcome.bind_ret, Outcome.pure_eq]
        rw [hld.bpb] at g4 ⊢
        rw [g4, hld.contents_eq]
        have : goCopy buf (slice (contents view st) (start * st.c.bpb) (n * st.c.bpb)) =
            slice (contents view st) (start * st.c.bpb) buf.length := by
          have hlen : (slice (contents view st) (start * st.c.bpb) (n * st.c.bpb)).length = n * st.c.bpb :=
            length_slice_of_le (by rw [length_contents]; omega)
          apply slice_eq_of_getElem? (by simp)
          intro k hk
          rw [getElem?_goCopy, if_pos (by omega), getElem?_slice, if_pos (by omega)]
        rw [this]
      · refine ⟨st2, hld.trans hld2, .inr ⟨j, be, ?_, by rw [hld.total] at gj; exact gj⟩⟩
        rw [g2]; rfl
    · rw [loadBlockRange_of_getSlice h2]
      exact ⟨st1, hld, .inr ⟨j, be, rfl, hj⟩⟩
  · left
    refine ⟨hr, ?_⟩
    rw [if_neg hr]; rfl

/-- What happens to the scheduling when loaded blocks are changed and marked. -/
structure Marks (view : S → Bytes) (U : Nat → Bool) (start count off : Nat) (v : Bytes) (st st' : St S) :
    Prop where
  weak : Weak view st'
  bpb : st'.c.bpb = st.c.bpb
  total : st'.c.total = st.c.total
  mono : ∀ i, isLoaded st.c i = true → isLoaded st'.c i = true
  view_eq : view st'.s = view st.s
  contents_eq : contents view st' = splice (contents view st) off v
  clean : Clean view (fun j => U j && !(decide (start ≤ j) && decide (j < start + count))) st'

theorem byteAt_splice_out {view : S → Bytes} {st st' : St S} (ht : st'.c.total = st.c.total)
    (hb : st'.c.bpb = st.c.bpb) {k off : Nat} {v : Bytes} (hk : k < st.c.total * st.c.bpb)
    (hv : off + v.length ≤ st.c.total * st.c.bpb)
    (h : contents view st' = splice (contents view st) off v) (ho : k < off ∨ off + v.length ≤ k) :
    byteAt view st' k = byteAt view st k := by
  apply byteAt_of_contents ht hb hk
  rw [h, getElem?_splice (by rw [length_contents]; omega)]
  rcases ho with ho | ho
  · rw [if_pos ho]
  · by_cases hko : k < off
    · rw [if_pos hko]
    · rw [if_neg hko, if_neg (by omega)]

theorem mark_weak {view : S → Bytes} {U : Nat → Bool} {st : St S} (h : Weak view st)
    (hcl : Clean view U st) {start count off : Nat} {v : Bytes}
    (hr : start + count ≤ st.c.total) (h1 : start * st.c.bpb ≤ off)
    (h2 : off + v.length ≤ start * st.c.bpb + count * st.c.bpb)
    (hl : ∀ j, start ≤ j → j < start + count → isLoaded st.c j = true) :
    ∃ c', markLoop count start { st.c with data := splice st.c.data off v } = .ret c' ∧
      Marks view U start count off v st ⟨c', st.s⟩ := by
  have hle : start * st.c.bpb + count * st.c.bpb ≤ st.c.total * st.c.bpb := by
    rw [← Nat.add_mul]; exact Nat.mul_le_mul_right _ hr
  have hbl : st.c.total ≤ bitmapLen st.c.total := le_bitmapLen _
  obtain ⟨c', e1, e2, e3, e4, e5, e6, e7, e8⟩ := markLoop_spec count start
    { st.c with data := splice st.c.data off v }
    (by simp only [h.loaded_len]; omega) (by simp only [h.dirty_len]; omega)
  obtain ⟨p1, p2⟩ := poke_weak h hr h1 h2 hl
  have hlo : ∀ j, isLoaded c' j = isLoaded st.c j := by
    intro j; rw [e7]; split
    · rename_i hh; exact (hl j hh.1 hh.2).symm
    · rfl
  have hcon : contents view ⟨c', st.s⟩ = splice (contents view st) off v := by
    rw [← p2]
    refine contents_congr e3 e2 (fun k hk => ?_)
    unfold byteAt
    rw [show isLoaded c' (k / c'.bpb) = isLoaded st.c (k / st.c.bpb) by rw [hlo, e2], e4]
  refine ⟨c', e1, ⟨⟨?_, ?_, ?_, ?_, ?_, ?_, ?_⟩, e2, e3, ?_, rfl, hcon, ?_⟩⟩
  · show 0 < c'.bpb; rw [e2]; exact h.bpb_pos
  · show c'.total * c'.bpb ≤ _; rw [e2, e3]; exact h.cap
  · show c'.data.length = c'.total * c'.bpb; rw [e2, e3, e4]; exact p1.data_len
  · show c'.loaded.length = bitmapLen c'.total; rw [e5, e3]; exact h.loaded_len
  · show c'.dirty.length = bitmapLen c'.total; rw [e6, e3]; exact h.dirty_len
  · intro i hi hd
    show isLoaded c' i = true
    have hi' : i < st.c.total := by rw [← e3]; exact hi
    have hd' : isDirty c' i = true := hd
    rw [hlo]
    rw [e8] at hd'
    split at hd'
    · rename_i hh; exact hl i hh.1 hh.2
    · exact h.dirty_loaded i hi' hd'
  · show c'.total * c'.bpb ≤ _; rw [e2, e3]; exact h.store
  · intro i hi
    show isLoaded c' i = true
    rw [hlo]; exact hi
  · intro k hk hu hd
    have hk' : k < st.c.total * st.c.bpb := by
      have : k < c'.total * c'.bpb := hk
      rw [e2, e3] at this; exact this
    have hd' : isDirty c' (k / st.c.bpb) = false := by
      have : isDirty c' (k / c'.bpb) = false := hd
      rw [e2] at this; exact this
    have hu' : (U (k / st.c.bpb) && !(decide (start ≤ k / st.c.bpb) && decide (k / st.c.bpb < start + count))) = false := by
      have : (U (k / c'.bpb) && !(decide (start ≤ k / c'.bpb) && decide (k / c'.bpb < start + count))) = false := hu
      rw [e2] at this; exact this
    rw [e8] at hd'
    by_cases hin : start ≤ k / st.c.bpb ∧ k / st.c.bpb < start + count
    · rw [if_pos hin] at hd'; cases hd'
    · rw [if_neg hin] at hd'
      have hnd : (decide (start ≤ k / st.c.bpb) && decide (k / st.c.bpb < start + count)) = false := by
        rw [← Bool.decide_and]; exact decide_eq_false hin
      rw [hnd, Bool.not_false, Bool.and_true] at hu'
      rw [byteAt_splice_out (st := st) e3 e2 hk' (by omega) hcon ?_]
      · exact hcl k hk' hu' hd'
      · rcases Nat.lt_or_ge k off with ho | ho
        · exact .inl ho
        · right
          apply Nat.le_of_not_lt
          intro hlt
          apply hin
          constructor
          · rw [Nat.le_div_iff_mul_le h.bpb_pos]; omega
          · rw [Nat.div_lt_iff_lt_mul h.bpb_pos, Nat.add_mul]; omega

/-- Changing loaded blocks without marking them. -/
theorem poke_clean {view : S → Bytes} {U : Nat → Bool} {st : St S} (h : Weak view st)
    (hcl : Clean view U st) {start count off : Nat} {v : Bytes}
    (hr : start + count ≤ st.c.total) (h1 : start * st.c.bpb ≤ off)
    (h2 : off + v.length ≤ start * st.c.bpb + count * st.c.bpb)
    (hl : ∀ j, start ≤ j → j < start + count → isLoaded st.c j = true) :
    Clean view (fun j => U j || (decide (off < j * st.c.bpb + st.c.bpb) && decide (j * st.c.bpb < off + v.length)))
      ⟨{ st.c with data := splice st.c.data off v }, st.s⟩ := by
  have hle : start * st.c.bpb + count * st.c.bpb ≤ st.c.total * st.c.bpb := by
    rw [← Nat.add_mul]; exact Nat.mul_le_mul_right _ hr
  obtain ⟨p1, p2⟩ := poke_weak h hr h1 h2 hl
  intro k hk hu hd
  simp only at hk hu hd ⊢
  rw [Bool.or_eq_false_iff] at hu
  refine (byteAt_splice_out (st := st) (st' := ⟨{ st.c with data := splice st.c.data off v }, st.s⟩) rfl rfl hk (Nat.le_trans h2 hle) p2 ?_).trans (hcl k hk hu.1 hd)
  · rcases Nat.lt_or_ge k off with ho | ho
    · exact .inl ho
    · right
      apply Nat.le_of_not_lt
      intro hlt
      have m1 := Nat.div_mul_le_self k st.c.bpb
      have m2 := Nat.lt_div_mul_add (a := k) h.bpb_pos
      have := hu.2
      rw [Bool.and_eq_false_iff] at this
      rcases this with this | this
      · rw [decide_eq_false_iff_not] at this; omega
      · rw [decide_eq_false_iff_not] at this; omega

theorem writeAt_weak {b : Backend S} {bpb : Nat} {view : S → Bytes} (L : Lawful b bpb view)
    {U : Nat → Bool} (st : St S) (h : Weak view st) (hcl : Clean view U st) (hb : st.c.bpb = bpb)
    (buf : Bytes) (start : Nat) (hc : buf.length ≤ maxInt) :
    (¬ InRange st.c start buf.length ∧
      writeAt b st buf start = .ret (st, .error .argumentOutOfRange)) ∨
    (InRange st.c start buf.length ∧ ∃ st',
      ((WLoads view st st' ∧ ∃ j be, writeAt b st buf start = .ret (st', .error (.fetchFailed j be)) ∧
        FetchFails b st.c.total j be) ∨
       (writeAt b st buf start = .ret (st', .ok buf.length) ∧
        ∃ st1 n, WLoads view st st1 ∧ n = (buf.length + (st.c.bpb - 1)) / st.c.bpb ∧
          Marks view U start n (start * st.c.bpb) buf st1 st'))) := by
  unfold writeAt
  rw [checkBounds_weak h start hc]
  by_cases hr : InRange st.c start buf.length
  · right
    refine ⟨hr, ?_⟩
    rw [if_pos hr]
    simp only [Outcome.bind_ret]
    rw [minBlocks_eq h.bpb_pos (bpb_le (st := ghost st) h.wf hr.1) hc]
    simp only [Outcome.bind_ret]
    obtain ⟨f1, f2, f3⟩ := ceil_facts h.bpb_pos hr
    have hcap := h.cap
    have hir := ceil_inRange h.bpb_pos hr
    generalize (buf.length + (st.c.bpb - 1)) / st.c.bpb = n at *
    rcases getSlice_weak L st h hb start n (by omega) with
      ⟨h1, _⟩ | ⟨h1, st1, hld, ⟨h2, h3, h4⟩ | ⟨j, be, h2, hj⟩⟩
    · exact absurd hir h1
    · rw [h2]
      simp only [Outcome.bind_ret, Cache.peek]
      rw [splice_goCopy_slice (by rw [hld.weak.data_len, hld.bpb, hld.total]; omega) f2]
      obtain ⟨c', e1, M⟩ := mark_weak hld.weak (hld.clean hcl) (start := start) (count := n)
        (off := start * st.c.bpb) (v := buf) (by rw [hld.total]; omega) (by rw [hld.bpb]; omega)
        (by rw [hld.bpb]; omega) h3
      rw [e1]
      exact ⟨_, .inr ⟨rfl, st1, n, hld, rfl, M⟩⟩
    · rw [h2]
      exact ⟨st1, .inl ⟨hld, j, be, rfl, hj⟩⟩
  · left
    refine ⟨hr, ?_⟩
    rw [if_neg hr]; rfl

theorem markBlockRangeDirty_weak {view : S → Bytes} {U : Nat → Bool} (st : St S) (h : Weak view st)
    (hcl : Clean view U st) (start count : Nat) (hc : count * st.c.bpb ≤ maxInt)
    (hl : ∀ j, start ≤ j → j < start + count → j < st.c.total → isLoaded st.c j = true) :
    (¬ InRange st.c start (count * st.c.bpb) ∧
      markBlockRangeDirty st start count = .ret (st, .error .argumentOutOfRange)) ∨
    (InRange st.c start (count * st.c.bpb) ∧ ∃ st', markBlockRangeDirty st start count = .ret (st', .ok ()) ∧
      Marks view U start count (start * st.c.bpb) [] st st') := by
  unfold markBlockRangeDirty
  rw [u64_of_lt (by unfold maxInt at *; omega), checkBounds_weak h start hc]
  by_cases hr : InRange st.c start (count * st.c.bpb)
  · right
    refine ⟨hr, ?_⟩
    obtain ⟨r1, r2⟩ := (inRange_blocks h.bpb_pos).1 hr
    rw [if_pos hr]
    simp only [Outcome.bind_ret]
    obtain ⟨c', e1, M⟩ := mark_weak h hcl (start := start) (count := count)
      (off := start * st.c.bpb) (v := []) r2 (by omega) (by simp) (fun j a1 a2 => hl j a1 a2 (by omega))
    rw [splice_nil] at e1
    rw [e1]
    exact ⟨_, rfl, M⟩
  · left
    refine ⟨hr, ?_⟩
    rw [if_neg hr]; rfl

/-- Loading everything. -/
theorem loadAll_weak {b : Backend S} {bpb : Nat} {view : S → Bytes} (L : Lawful b bpb view)
    (st : St S) (h : Weak view st) (hb : st.c.bpb = bpb) :
    (st.c.total * st.c.bpb = 0 ∧ loadAll b st = .ret (st, .error .argumentOutOfRange)) ∨
    (∃ st', WLoads view st st' ∧
      ((loadAll b st = .ret (st', .ok ()) ∧ ∀ j, j < st.c.total → isLoaded st'.c j = true) ∨
       (∃ j be, loadAll b st = .ret (st', .error (.fetchFailed j be)) ∧ FetchFails b st.c.total j be))) := by
  unfold loadAll
  rcases getSlice_weak L st h hb 0 st.c.total h.cap with
    ⟨h1, h2⟩ | ⟨h1, st1, hld, ⟨h2, h3, h4⟩ | ⟨j, be, h2, hj⟩⟩
  · left
    rw [loadBlockRange_of_getSlice h2]
    refine ⟨?_, rfl⟩
    rcases Nat.eq_zero_or_pos st.c.total with h0 | h0
    · rw [h0, Nat.zero_mul]
    · exact absurd ⟨h0, by omega⟩ h1
  · right
    rw [loadBlockRange_of_getSlice h2]
    exact ⟨st1, hld, .inl ⟨rfl, fun j hj => h3 j (by omega) (by omega)⟩⟩
  · right
    rw [loadBlockRange_of_getSlice h2]
    exact ⟨st1, hld, .inr ⟨j, be, rfl, hj⟩⟩

theorem data_weak {b : Backend S} {bpb : Nat} {view : S → Bytes} (L : Lawful b bpb view)
    (st : St S) (h : Weak view st) (hb : st.c.bpb = bpb) :
    (st.c.total * st.c.bpb = 0 ∧ data b st = .ret (st, .error .argumentOutOfRange)) ∨
    (∃ st', WLoads view st st' ∧
      ((data b st = .ret (st', .ok ⟨0, st.c.total * st.c.bpb⟩) ∧
        (∀ j, j < st.c.total → isLoaded st'.c j = true) ∧
        st'.c.peek ⟨0, st.c.total * st.c.bpb⟩ = contents view st) ∨
       (∃ j be, data b st = .ret (st', .error (.fetchFailed j be)) ∧ FetchFails b st.c.total j be))) := by
  unfold data
  rcases loadAll_weak L st h hb with ⟨h1, h2⟩ | ⟨st1, hld, ⟨h2, h3⟩ | ⟨j, be, h2, hj⟩⟩
  · rw [h2]; exact .inl ⟨h1, rfl⟩
  · rw [h2]
    refine .inr ⟨st1, hld, .inl ⟨?_, h3, ?_⟩⟩
    · simp only [Outcome.bind_ret, Outcome.pure_eq]
      rw [hld.weak.data_len, hld.total, hld.bpb]
    · have hp := peek_weak hld.weak (start := 0) (count := st.c.total) (by rw [hld.total]; omega)
        (fun j _ hj => h3 j (by omega))
      rw [Nat.zero_mul, hld.bpb, hld.contents_eq] at hp
      have := slice_all (contents view st)
      rw [length_contents] at this
      exact hp.trans this
  · rw [h2]; exact .inr ⟨st1, hld, .inr ⟨j, be, rfl, hj⟩⟩

/-- What an ordinary operation does. -/
structure WStep (b : Backend S) (view : S → Bytes) (U : Nat → Bool) (st : St S) (op : Op) (st' : St S)
    (r : Result) : Prop where
  weak : Weak view st'
  bpb : st'.c.bpb = st.c.bpb
  conforms : Conforms st.c.bpb op r (contents view st) (contents view st')
  total : reallocates op r = false → st'.c.total = st.c.total
  just : ∀ x, r.err? = some x → Justified b st.c.bpb (st.c.total * st.c.bpb) op x
  loaded : ∀ j, (j < st.c.total → isLoaded st.c j = true) → j < st'.c.total → isLoaded st'.c j = true
  clean : Clean view (fun j => U j && !scheduled st.c.bpb st.c.total op r j) st'

theorem WLoads.wstep {b : Backend S} {view : S → Bytes} {U : Nat → Bool} {st st' : St S}
    (h : WLoads view st st') (hcl : Clean view U st) {op : Op} {r : Result}
    (hc : Conforms st.c.bpb op r (contents view st) (contents view st))
    (he : ∀ x, r.err? = some x → Justified b st.c.bpb (st.c.total * st.c.bpb) op x)
    (hs : ∀ j, scheduled st.c.bpb st.c.total op r j = false) : WStep b view U st op st' r := by
  refine ⟨h.weak, h.bpb, by rw [h.contents_eq]; exact hc, fun _ => h.total, he, ?_, ?_⟩
  · intro j h1 h2
    rw [h.total] at h2
    exact h.mono j (h1 h2)
  · have : (fun j => U j && !scheduled st.c.bpb st.c.total op r j) = U := by
      funext j; rw [hs]; simp
    rw [this]; exact h.clean hcl

theorem Marks.wstep {b : Backend S} {view : S → Bytes} {U : Nat → Bool} {st st1 st' : St S}
    {start count off : Nat} {v : Bytes} (M : Marks view U start count off v st1 st')
    (h : WLoads view st st1) {op : Op} {r : Result} (hr : reallocates op r = false)
    (hc : Conforms st.c.bpb op r (contents view st) (splice (contents view st) off v))
    (he : r.err? = none)
    (hs : ∀ j, scheduled st.c.bpb st.c.total op r j = (decide (start ≤ j) && decide (j < start + count))) :
    WStep b view U st op st' r := by
  refine ⟨M.weak, M.bpb.trans h.bpb, by rw [M.contents_eq, h.contents_eq]; exact hc,
    fun _ => M.total.trans h.total, (by rw [he]; intro x hx; cases hx), ?_, ?_⟩
  · intro j h1 h2
    rw [M.total, h.total] at h2
    exact M.mono j (h.mono j (h1 h2))
  · have : (fun j => U j && !scheduled st.c.bpb st.c.total op r j) =
        fun j => U j && !(decide (start ≤ j) && decide (j < start + count)) := by
      funext j; rw [hs]
    rw [this]; exact M.clean

theorem edit_mark {view : S → Bytes} {U : Nat → Bool} {st : St S} (h : Weak view st)
    (hcl : Clean view U st) {start count at_ : Nat} {v : Bytes}
    (hr : InRange st.c start (count * st.c.bpb)) (hc : count * st.c.bpb ≤ maxInt)
    (hv : at_ + v.length ≤ count * st.c.bpb)
    (hl : ∀ j, start ≤ j → j < start + count → isLoaded st.c j = true) :
    ∃ c', markBlockRangeDirty ⟨st.c.poke ⟨start * st.c.bpb, count * st.c.bpb⟩ at_ v, st.s⟩ start count =
        .ret (⟨c', st.s⟩, .ok ()) ∧
      Marks view U start count (start * st.c.bpb + at_) v st ⟨c', st.s⟩ := by
  obtain ⟨i1, i2⟩ := (inRange_blocks h.bpb_pos).1 hr
  obtain ⟨c', e1, M⟩ := mark_weak h hcl (start := start) (count := count) (off := start * st.c.bpb + at_)
    (v := v) i2 (by omega) (by omega) hl
  refine ⟨c', ?_, M⟩
  unfold markBlockRangeDirty
  have hw := (poke_weak h (start := start) (count := count) (off := start * st.c.bpb + at_) (v := v)
    i2 (by omega) (by omega) hl).1
  have hcb : (st.c.poke ⟨start * st.c.bpb, count * st.c.bpb⟩ at_ v).checkBounds start (count * st.c.bpb) =
      .ret none := by
    have := checkBounds_weak hw start (size := count * st.c.bpb) hc
    refine Eq.trans this ?_
    exact congrArg Outcome.ret (if_pos hr)
  simp only [show (st.c.poke ⟨start * st.c.bpb, count * st.c.bpb⟩ at_ v).bpb = st.c.bpb from rfl]
  rw [u64_of_lt (n := count * st.c.bpb) (by unfold maxInt at *; omega), hcb]
  simp only [Outcome.bind_ret, Cache.poke]
  rw [e1]
  rfl

/-- Every valid operation returns, and does what it should. -/
theorem step_weak {b : Backend S} {bpb : Nat} {view : S → Bytes} (L : Lawful b bpb view)
    {U : Nat → Bool} (st : St S) (h : Weak view st) (hcl : Clean view U st) (hb : st.c.bpb = bpb)
    (op : Op) (hv : Valid bpb op) :
    ∃ st' r, step b st op = .ret (st', r) ∧ WStep b view U st op st' r := by
  subst hb
  have hcancel : ∀ {j be}, FetchFails b st.c.total j be → FetchFails b (st.c.total * st.c.bpb / st.c.bpb) j be := by
    intro j be hf
    rwa [Nat.mul_div_cancel _ h.bpb_pos]
  have notIn : ∀ {start size : Nat}, ¬ InRange st.c start size →
      ¬ (start * st.c.bpb < st.c.total * st.c.bpb ∧ start * st.c.bpb + size ≤ st.c.total * st.c.bpb) :=
    fun hr => not_inRange (st := ghost st) h.wf hr
  cases op with
  | read buf start =>
    simp only [step]
    rcases readAt_weak L st h rfl buf start hv with ⟨h1, h2⟩ | ⟨h1, st', hl, ⟨n, h2⟩ | ⟨j, be, h2, hf⟩⟩
    · rw [h2]
      exact ⟨st, _, rfl, (WLoads.refl h).wstep hcl rfl (one_err rfl (notIn h1)) (fun _ => rfl)⟩
    · rw [h2]
      exact ⟨st', _, rfl, hl.wstep hcl ⟨by rw [length_contents]; exact h1.2, rfl, rfl⟩ (no_err rfl) (fun _ => rfl)⟩
    · rw [h2]; exact ⟨st', _, rfl, hl.wstep hcl rfl (one_err rfl (hcancel hf)) (fun _ => rfl)⟩
  | write buf start =>
    simp only [step]
    rcases writeAt_weak L st h hcl rfl buf start hv with
      ⟨h1, h2⟩ | ⟨h1, st', ⟨hl, j, be, h2, hf⟩ | ⟨h2, st1, n, hl, hn, M⟩⟩
    · rw [h2]
      exact ⟨st, _, rfl, (WLoads.refl h).wstep hcl rfl (one_err rfl (notIn h1)) (fun _ => rfl)⟩
    · rw [h2]; exact ⟨st', _, rfl, hl.wstep hcl rfl (one_err rfl (hcancel hf)) (fun _ => rfl)⟩
    · rw [h2]
      refine ⟨st', _, rfl, M.wstep hl rfl ⟨by rw [length_contents]; exact h1.2, rfl, rfl⟩ rfl ?_⟩
      intro j
      show (decide (start * st.c.bpb < j * st.c.bpb + st.c.bpb) &&
        decide (j * st.c.bpb < start * st.c.bpb + buf.length)) = _
      rw [nextPending_write h.bpb_pos, hn, Bool.decide_and]
  | resize n =>
    simp only [step]
    rcases resize_weak L st h rfl n hv with ⟨be, s', h0, hvw, h2, hw, hce⟩ | ⟨st', h0, h2, hs, hw, hbp, ht, hd, hl, hce⟩
    · rw [h2]
      refine ⟨_, _, rfl, ⟨hw, rfl, hce, fun _ => rfl, one_err rfl ⟨n, rfl, st.s, by rw [h0]⟩, ?_, ?_⟩⟩
      · intro j h1 h2; exact h1 h2
      · intro k hk hu hd
        simp only [scheduled, Bool.not_false, Bool.and_true] at hu
        simp only at hk hd
        refine (byteAt_of_contents (st := st) (st' := ⟨st.c, s'⟩) rfl rfl hk (by rw [hce])).trans ?_
        rw [hcl k hk hu hd]
        rw [hvw]
    · rw [h2]
      refine ⟨_, _, rfl, ⟨hw, hbp, hce, (by intro hh; cases hh), no_err rfl, ?_, ?_⟩⟩
      · intro j h1 h2
        rw [ht] at h2
        rw [hl j h2]
        split
        · rfl
        · exact h1 (by omega)
      · intro k hk hu hdk
        rw [ht, hbp] at hk
        rw [hbp] at hu hdk
        have hkn : k / st.c.bpb < n := by rw [Nat.div_lt_iff_lt_mul h.bpb_pos]; exact hk
        rw [hd _ hkn] at hdk
        by_cases hjt : st.c.total ≤ k / st.c.bpb
        · rw [if_pos hjt] at hdk; cases hdk
        · rw [if_neg hjt] at hdk
          have hkt : k < st.c.total * st.c.bpb := by
            rw [← Nat.div_lt_iff_lt_mul h.bpb_pos]; omega
          have hu' : U (k / st.c.bpb) = false := by
            simp only [scheduled, decide_eq_false hjt, Bool.not_false, Bool.and_true] at hu
            exact hu
          have hby : byteAt view st' k = byteAt view st k := by
            have : (contents view st')[k]? = _ := congrArg (fun l => l[k]?) hce
            rw [List.getElem?_append_left (by rw [List.length_take, length_contents]; omega),
              List.getElem?_take, if_pos hk, getElem?_contents, getElem?_contents, ht, hbp, if_pos hk,
              if_pos hkt] at this
            exact Option.some.inj this
          rw [hby, hcl k hkt hu' hdk, hs]
          apply getD_eq_of
          have hro := (L.resize_ok st.s n hv h0).2 k hk (by have := h.store; omega)
          exact hro.symm
  | flush =>
    simp only [step]
    rcases flush_weak L st h rfl with ⟨h1, h2⟩ | ⟨_, st', e, m, F, h2⟩
    · rw [h2]
      refine ⟨st, _, rfl, (WLoads.refl h).wstep hcl rfl (one_err rfl ?_) (fun _ => rfl)⟩
      show st.c.total * st.c.bpb = 0
      rw [h1, Nat.zero_mul]
    · rw [h2]
      refine ⟨_, _, rfl, ⟨F.weak, F.bpb, ?_, fun _ => F.total, ?_, ?_, ?_⟩⟩
      · show contents view st' = contents view st
        exact F.contents_eq h
      · cases e with
        | none => exact no_err rfl
        | some x =>
          obtain ⟨f1, f2, be, f3, f4⟩ := F.fail x rfl
          refine one_err rfl ?_
          rw [f3]
          rw [Nat.zero_add] at f4 ⊢
          exact ⟨rfl, by rw [Nat.mul_div_cancel _ h.bpb_pos]; exact f1, f4⟩
      · intro j h1 h2
        rw [F.total] at h2
        rw [isLoaded, F.loaded]; exact h1 h2
      · intro k hk hu hdk
        rw [F.total, F.bpb] at hk
        rw [F.bpb] at hu hdk
        simp only [scheduled, Bool.not_false, Bool.and_true] at hu
        have hkb : k / st.c.bpb < st.c.total := by rw [Nat.div_lt_iff_lt_mul h.bpb_pos]; exact hk
        rw [byteAt_of_contents F.total F.bpb hk (by rw [F.contents_eq h])]
        rw [F.dirty, Nat.zero_add] at hdk
        have hst : e = none ∨ k / st.c.bpb ≠ 0 + m := by
          cases e with
          | none => exact .inl rfl
          | some x =>
            right
            intro hh
            obtain ⟨f1, f2, _⟩ := F.fail x rfl
            rw [← hh] at f2
            rw [f2, hh, Nat.zero_add] at hdk
            simp at hdk
        have hstored := F.stored k hst
        rw [Nat.zero_add] at hstored
        cases hdi : isDirty st.c (k / st.c.bpb) with
        | false =>
          rw [hdi] at hstored
          rw [hcl k hk hu hdi]
          apply getD_eq_of
          rw [hstored, if_neg (by simp)]
        | true =>
          rw [hdi] at hstored hdk
          have hkm : k / st.c.bpb < m := by
            apply Nat.lt_of_not_le
            intro hh
            rw [decide_eq_false (by omega : ¬ k / st.c.bpb < m)] at hdk
            simp at hdk
          rw [if_pos ⟨Nat.zero_le _, hkm, rfl⟩] at hstored
          unfold byteAt
          rw [if_pos (h.dirty_loaded _ hkb hdi)]
          exact (getD_eq_of hstored).symm
  | loadAll =>
    simp only [step]
    rcases loadAll_weak L st h rfl with ⟨h1, h2⟩ | ⟨st1, hld, ⟨h2, _⟩ | ⟨j, be, h2, hj⟩⟩
    · rw [h2]; exact ⟨_, _, rfl, (WLoads.refl h).wstep hcl rfl (one_err rfl h1) (fun _ => rfl)⟩
    · rw [h2]; exact ⟨_, _, rfl, hld.wstep hcl rfl (no_err rfl) (fun _ => rfl)⟩
    · rw [h2]; exact ⟨_, _, rfl, hld.wstep hcl rfl (one_err rfl (hcancel hj)) (fun _ => rfl)⟩
  | data =>
    simp only [step]
    rcases data_weak L st h rfl with ⟨h1, h2⟩ | ⟨st1, hld, ⟨h2, _, h4⟩ | ⟨j, be, h2, hj⟩⟩
    · rw [h2]; exact ⟨_, _, rfl, (WLoads.refl h).wstep hcl rfl (one_err rfl h1) (fun _ => rfl)⟩
    · rw [h2]; exact ⟨_, _, rfl, hld.wstep hcl ⟨h4, rfl⟩ (no_err rfl) (fun _ => rfl)⟩
    · rw [h2]; exact ⟨_, _, rfl, hld.wstep hcl rfl (one_err rfl (hcancel hj)) (fun _ => rfl)⟩
  | getSlice start count =>
    simp only [step]
    rcases getSlice_weak L st h rfl start count hv with
      ⟨h1, h2⟩ | ⟨h1, st1, hld, ⟨h2, h3, h4⟩ | ⟨j, be, h2, hj⟩⟩
    · rw [h2]
      exact ⟨_, _, rfl, (WLoads.refl h).wstep hcl rfl (one_err rfl (notIn h1)) (fun _ => rfl)⟩
    · rw [h2]
      exact ⟨_, _, rfl, hld.wstep hcl ⟨by rw [length_contents]; exact h1.2, h4, rfl⟩ (no_err rfl) (fun _ => rfl)⟩
    · rw [h2]; exact ⟨_, _, rfl, hld.wstep hcl rfl (one_err rfl (hcancel hj)) (fun _ => rfl)⟩
  | edit start count at_ v =>
    simp only [step]
    obtain ⟨hv1, hv2⟩ := hv
    rcases getSlice_weak L st h rfl start count hv1 with
      ⟨h1, h2⟩ | ⟨h1, st1, hld, ⟨h2, h3, h4⟩ | ⟨j, be, h2, hj⟩⟩
    · rw [h2]
      exact ⟨_, _, rfl, (WLoads.refl h).wstep hcl rfl (one_err rfl (notIn h1)) (fun _ => rfl)⟩
    · rw [h2]
      simp only [Outcome.bind_ret]
      obtain ⟨i1, i2⟩ := (inRange_blocks h.bpb_pos).1 h1
      have hr1 : start + count ≤ st1.c.total := by rw [hld.total]; exact i2
      obtain ⟨c', e1, M⟩ := edit_mark hld.weak (hld.clean hcl) (start := start) (count := count) (at_ := at_) (v := v)
        (by unfold InRange; rw [hld.bpb, hld.total]; exact h1) (by rw [hld.bpb]; exact hv1)
        (by rw [hld.bpb]; exact hv2) h3
      rw [hld.bpb] at e1 M
      rw [e1]
      exact ⟨_, _, rfl, M.wstep hld rfl ⟨by rw [length_contents]; exact h1.2, rfl⟩ rfl (fun _ => rfl)⟩
    · rw [h2]; exact ⟨_, _, rfl, hld.wstep hcl rfl (one_err rfl (hcancel hj)) (fun _ => rfl)⟩

/-! ### Sessions -/

/-- The world and the reference agree. -/
structure SInv (view : S → Bytes) (w : World S) (R : Ref) : Prop where
  weak : Weak view w.st
  now : R.now = contents view w.st
  oldlen : R.old.length = w.old.length
  arrlen : ∀ e, (R.old.getD e []).length = (w.old.getD e []).length
  views : R.views = w.slices.map (fun h => ⟨h.arr, h.start, h.count⟩)
  win : ∀ h ∈ w.slices, h.arr ≤ w.old.length ∧
    h.win = ⟨h.start * w.st.c.bpb, h.count * w.st.c.bpb⟩ ∧ (h.start + h.count) * w.st.c.bpb ≤ maxInt
  live : ∀ h ∈ w.slices, h.arr = w.old.length → h.start + h.count ≤ w.st.c.total
  loaded : ∀ h ∈ w.slices, ∀ j, h.start ≤ j → j < h.start + h.count → j < w.st.c.total →
    isLoaded w.st.c j = true
  fits : ∀ h ∈ w.slices, h.arr < w.old.length →
    (h.start + h.count) * w.st.c.bpb ≤ (w.old.getD h.arr []).length
  agree : ∀ h ∈ w.slices, h.arr < w.old.length → ∀ k, h.start * w.st.c.bpb ≤ k →
    k < (h.start + h.count) * w.st.c.bpb → (R.old.getD h.arr [])[k]? = (w.old.getD h.arr [])[k]?
  clean : Clean view R.unmarked w.st

theorem slice_congr_of {d e : Bytes} {off len : Nat} (h : ∀ k, off ≤ k → k < off + len → d[k]? = e[k]?) :
    slice d off len = slice e off len := by
  apply List.ext_getElem?
  intro k
  rw [getElem?_slice, getElem?_slice]
  split
  · exact h _ (by omega) (by omega)
  · rfl

/-- What a kept slice shows. -/
theorem SInv.shows {view : S → Bytes} {w : World S} {R : Ref} (I : SInv view w R) {h : Held}
    (hh : h ∈ w.slices) : w.peek h = R.shows w.st.c.bpb ⟨h.arr, h.start, h.count⟩ := by
  obtain ⟨w1, w2, w3⟩ := I.win h hh
  unfold World.peek Ref.shows
  simp only [I.oldlen, w2]
  split
  · rename_i hlt
    refine (slice_congr_of fun k h1 h2 => I.agree h hh hlt k h1 ?_).symm
    rw [Nat.add_mul]; exact h2
  · rename_i hlt
    have he : h.arr = w.old.length := by omega
    rw [I.now]
    exact peek_weak I.weak (I.live h hh he)
      (fun j h1 h2 => I.loaded h hh j h1 h2 (by have := I.live h hh he; omega))

/-- The cache moved on, with the same array. -/
theorem SInv.same {view : S → Bytes} {w : World S} {R : Ref} (I : SInv view w R) {st' : St S} {U : Nat → Bool}
    (h1 : Weak view st') (hb : st'.c.bpb = w.st.c.bpb) (ht : st'.c.total = w.st.c.total)
    (hl : ∀ j, isLoaded w.st.c j = true → j < w.st.c.total → isLoaded st'.c j = true) (hcl : Clean view U st') :
    SInv view { w with st := st' } { R with now := contents view st', unmarked := U } := by
  refine ⟨h1, rfl, I.oldlen, I.arrlen, I.views, ?_, ?_, ?_, ?_, ?_, hcl⟩
  · intro h hh; simp only [hb]; exact I.win h hh
  · intro h hh he; simp only [ht]; exact I.live h hh he
  · intro h hh j a1 a2 a3
    simp only [ht] at a3 ⊢
    exact hl j (I.loaded h hh j a1 a2 a3) a3
  · intro h hh he; simp only [hb]; exact I.fits h hh he
  · intro h hh he; simp only [hb]; exact I.agree h hh he

theorem SInv.base {b : Backend S} {view : S → Bytes} {w : World S} {R : Ref} (I : SInv view w R)
    {op : Op} {st' : St S} {r : Result} (W : WStep b view R.unmarked w.st op st' r) :
    ∃ R', SConforms b w.st.c.bpb (.base op) (.base r) R R' ∧
      SInv view { w with st := st', old := if reallocates op r then w.old ++ [w.st.c.data] else w.old } R' := by
  have hlen : R.now.length = w.st.c.total * w.st.c.bpb := by rw [I.now, length_contents]
  have htot : R.now.length / w.st.c.bpb = w.st.c.total := by
    rw [hlen, Nat.mul_div_cancel _ I.weak.bpb_pos]
  refine ⟨⟨contents view st', if reallocates op r then R.old ++ [R.now] else R.old, R.views,
    fun j => R.unmarked j && !scheduled w.st.c.bpb w.st.c.total op r j⟩, ⟨?_, ?_, rfl, ?_, ?_⟩, ?_⟩
  · rw [I.now]; exact W.conforms
  · rw [hlen]; exact W.just
  · unfold reallocates
    cases op <;> try rfl
    rcases r with _ | _ | ⟨_ | _⟩ | _ <;> rfl
  · rw [htot]
  · cases hre : reallocates op r with
    | false =>
      simp only [Bool.false_eq_true, if_false]
      exact I.same W.weak W.bpb (W.total hre) (fun j h1 h2 => W.loaded j (fun _ => h1) (by rw [W.total hre]; exact h2)) W.clean
    | true =>
      simp only [if_true]
      have g1 : ∀ (l : List Bytes) (x : Bytes) (e : Nat), e < l.length → (l ++ [x]).getD e [] = l.getD e [] := by
        intro l x e he
        rw [List.getD_eq_getElem?_getD, List.getD_eq_getElem?_getD, List.getElem?_append_left he]
      have g2 : ∀ (l : List Bytes) (x : Bytes), (l ++ [x]).getD l.length [] = x := by
        intro l x
        rw [List.getD_eq_getElem?_getD, List.getElem?_append_right (by omega)]; simp
      refine ⟨W.weak, rfl, by simp [I.oldlen], ?_, I.views, ?_, ?_, ?_, ?_, ?_, W.clean⟩
      · intro e
        simp only
        rcases Nat.lt_trichotomy e w.old.length with he | he | he
        · rw [g1 _ _ _ he, g1 _ _ _ (by rw [I.oldlen]; exact he)]; exact I.arrlen e
        · subst he
          rw [g2, ← I.oldlen, g2, hlen, I.weak.data_len]
        · rw [List.getD_eq_getElem?_getD, List.getD_eq_getElem?_getD,
            List.getElem?_eq_none (by simp [I.oldlen]; omega), List.getElem?_eq_none (by simp; omega)]
          
      · intro h hh
        obtain ⟨a1, a2, a3⟩ := I.win h hh
        simp only [W.bpb, List.length_append, List.length_singleton]
        exact ⟨by omega, a2, a3⟩
      · intro h hh he
        simp only [List.length_append, List.length_singleton] at he
        have := (I.win h hh).1; omega
      · intro h hh j a1 a2 a3
        exact W.loaded j (fun hj => I.loaded h hh j a1 a2 hj) a3
      · intro h hh he
        simp only [List.length_append, List.length_singleton, W.bpb] at he ⊢
        rcases Nat.lt_or_ge h.arr w.old.length with hlt | hge
        · rw [g1 _ _ _ hlt]; exact I.fits h hh hlt
        · have : h.arr = w.old.length := by omega
          rw [this, g2, I.weak.data_len]
          exact Nat.mul_le_mul_right _ (I.live h hh this)
      · intro h hh he k k1 k2
        simp only [List.length_append, List.length_singleton, W.bpb] at he k1 k2 ⊢
        rcases Nat.lt_or_ge h.arr w.old.length with hlt | hge
        · rw [g1 _ _ _ hlt, g1 _ _ _ (by rw [I.oldlen]; exact hlt)]; exact I.agree h hh hlt k k1 k2
        · have hea : h.arr = w.old.length := by omega
          rw [hea, g2, ← I.oldlen, g2, I.now, getElem?_contents]
          have hli := I.live h hh hea
          have hkt : k < w.st.c.total * w.st.c.bpb := Nat.lt_of_lt_of_le k2 (Nat.mul_le_mul_right _ hli)
          rw [if_pos hkt]
          unfold byteAt
          rw [if_pos (I.loaded h hh (k / w.st.c.bpb) (by rw [Nat.le_div_iff_mul_le I.weak.bpb_pos]; exact k1)
            (by rw [Nat.div_lt_iff_lt_mul I.weak.bpb_pos]; exact k2)
            (by rw [Nat.div_lt_iff_lt_mul I.weak.bpb_pos]; exact hkt))]
          rw [List.getD_eq_getElem?_getD, List.getElem?_eq_getElem (by rw [I.weak.data_len]; exact hkt)]
          rfl

/-- A new slice of the current array. -/
theorem SInv.keep {view : S → Bytes} {w : World S} {R : Ref} (I : SInv view w R) {st' : St S}
    (hld : WLoads view w.st st') {start count : Nat} (hr : start + count ≤ w.st.c.total)
    (hl : ∀ j, start ≤ j → j < start + count → isLoaded st'.c j = true) :
    SInv view { w with st := st', slices := w.slices ++
        [⟨w.old.length, ⟨start * w.st.c.bpb, count * w.st.c.bpb⟩, start, count⟩] }
      { R with views := R.views ++ [⟨R.old.length, start, count⟩] } := by
  have hnow : R.now = contents view st' := by rw [hld.contents_eq]; exact I.now
  have I' := I.same hld.weak hld.bpb hld.total (fun j h1 _ => hld.mono j h1) (hld.clean I.clean)
  rw [← hnow] at I'
  refine ⟨I'.weak, I'.now, I'.oldlen, I'.arrlen, ?_, ?_, ?_, ?_, ?_, ?_, I'.clean⟩
  · simp [I.views, I.oldlen]
  · intro h hh
    rcases List.mem_append.1 hh with hh | hh
    · exact I'.win h hh
    · rw [List.mem_singleton] at hh
      subst hh
      refine ⟨Nat.le_refl _, by simp only [hld.bpb], ?_⟩
      simp only [hld.bpb]
      exact Nat.le_trans (Nat.mul_le_mul_right _ hr) I.weak.cap
  · intro h hh he
    rcases List.mem_append.1 hh with hh | hh
    · exact I'.live h hh he
    · rw [List.mem_singleton] at hh
      subst hh
      simp only [hld.total]; exact hr
  · intro h hh j a1 a2 a3
    rcases List.mem_append.1 hh with hh | hh
    · exact I'.loaded h hh j a1 a2 a3
    · rw [List.mem_singleton] at hh
      subst hh
      exact hl j a1 a2
  · intro h hh he
    rcases List.mem_append.1 hh with hh | hh
    · exact I'.fits h hh he
    · rw [List.mem_singleton] at hh
      subst hh
      simp at he
  · intro h hh he
    rcases List.mem_append.1 hh with hh | hh
    · exact I'.agree h hh he
    · rw [List.mem_singleton] at hh
      subst hh
      simp at he

theorem getD_set_list (l : List Bytes) (i e : Nat) (x : Bytes) (h : i < l.length) :
    (l.set i x).getD e [] = if e = i then x else l.getD e [] := by
  rw [List.getD_eq_getElem?_getD, List.getD_eq_getElem?_getD, List.getElem?_set]
  by_cases hij : i = e
  · subst hij; simp [h]
  · simp [hij, Ne.symm hij]

/-- Writing through a kept slice. -/
theorem SInv.put {view : S → Bytes} {w : World S} {R : Ref} (I : SInv view w R) {h : Held}
    (hh : h ∈ w.slices) (at_ : Nat) (v : Bytes) :
    SInv view (w.poke h at_ v) (R.write w.st.c.bpb ⟨h.arr, h.start, h.count⟩ at_ v) := by
  obtain ⟨w1, w2, w3⟩ := I.win h hh
  unfold World.poke Ref.write
  simp only [w2, I.oldlen]
  have hv' : (v.take (h.count * w.st.c.bpb - at_)).length ≤ h.count * w.st.c.bpb - at_ := by
    rw [List.length_take]; omega
  have hnil : h.count * w.st.c.bpb < at_ → v.take (h.count * w.st.c.bpb - at_) = [] := by
    intro hlt
    rw [show h.count * w.st.c.bpb - at_ = 0 by omega, List.take_zero]
  generalize v.take (h.count * w.st.c.bpb - at_) = v' at *
  by_cases hlt : h.arr < w.old.length
  · rw [if_pos hlt, if_pos hlt]
    have hf := I.fits h hh hlt
    rw [Nat.add_mul] at hf
    have hal := I.arrlen h.arr
    have hlt' : h.arr < R.old.length := by rw [I.oldlen]; exact hlt
    -- both splices act alike
    have hsp : ∀ d : Bytes, d.length = (w.old.getD h.arr []).length → ∀ k,
        (splice d (h.start * w.st.c.bpb + at_) v')[k]? =
          if h.start * w.st.c.bpb + at_ ≤ k ∧ k < h.start * w.st.c.bpb + at_ + v'.length then
            v'[k - (h.start * w.st.c.bpb + at_)]? else d[k]? := by
      intro d hd k
      by_cases hle : at_ ≤ h.count * w.st.c.bpb
      · rw [getElem?_splice (by omega)]
        by_cases k1 : k < h.start * w.st.c.bpb + at_
        · rw [if_pos k1, if_neg (by omega)]
        · by_cases k2 : k < h.start * w.st.c.bpb + at_ + v'.length
          · rw [if_neg k1, if_pos k2, if_pos ⟨by omega, k2⟩]
          · rw [if_neg k1, if_neg k2, if_neg (by omega)]
      · rw [hnil (by omega), splice_nil, if_neg (by simp)]
    have hlen : ∀ d : Bytes, d.length = (w.old.getD h.arr []).length →
        (splice d (h.start * w.st.c.bpb + at_) v').length = d.length := by
      intro d hd
      by_cases hle : at_ ≤ h.count * w.st.c.bpb
      · exact length_splice (by omega)
      · rw [hnil (by omega), splice_nil]
    refine ⟨I.weak, I.now, by simp [I.oldlen], ?_, I.views, ?_, ?_, I.loaded, ?_, ?_, I.clean⟩
    · intro e
      simp only
      rw [getD_set_list _ _ _ _ hlt, getD_set_list _ _ _ _ hlt']
      split
      · rw [hlen _ hal, hlen _ rfl]; exact hal
      · exact I.arrlen e
    · intro h' hh'; simpa using I.win h' hh'
    · intro h' hh' he; exact I.live h' hh' (by simpa using he)
    · intro h' hh' he
      simp only [List.length_set] at he ⊢
      rw [getD_set_list _ _ _ _ hlt]
      split
      · rename_i hs; rw [hlen _ rfl, ← hs]; exact I.fits h' hh' he
      · exact I.fits h' hh' he
    · intro h' hh' he k k1 k2
      simp only [List.length_set] at he k1 k2 ⊢
      rw [getD_set_list _ _ _ _ hlt, getD_set_list _ _ _ _ hlt']
      split
      · rename_i hs
        rw [hsp _ hal, hsp _ rfl]
        split
        · rfl
        · rw [← hs]; exact I.agree h' hh' he k k1 k2
      · exact I.agree h' hh' he k k1 k2
  · rw [if_neg hlt, if_neg hlt]
    have hea : h.arr = w.old.length := by omega
    have hli := I.live h hh hea
    have hlo : ∀ j, h.start ≤ j → j < h.start + h.count → isLoaded w.st.c j = true :=
      fun j h1 h2 => I.loaded h hh j h1 h2 (by omega)
    simp only [Cache.poke]
    by_cases hle : at_ ≤ h.count * w.st.c.bpb
    · obtain ⟨p1, p2⟩ := poke_weak I.weak (start := h.start) (count := h.count)
        (off := h.start * w.st.c.bpb + at_) (v := v') hli (by omega) (by omega) hlo
      have hcl := poke_clean I.weak I.clean (start := h.start) (count := h.count)
        (off := h.start * w.st.c.bpb + at_) (v := v') hli (by omega) (by omega) hlo
      have := I.same p1 rfl rfl (fun j hj _ => hj) hcl
      rw [p2, ← I.now] at this
      exact this
    · have hn := hnil (by omega)
      rw [hn]
      have hcl : Clean view (fun j => R.unmarked j ||
          (decide (h.start * w.st.c.bpb + at_ < j * w.st.c.bpb + w.st.c.bpb) &&
            decide (j * w.st.c.bpb < h.start * w.st.c.bpb + at_ + ([] : Bytes).length))) w.st := by
        intro k hk hu hd
        rw [Bool.or_eq_false_iff] at hu
        exact I.clean k hk hu.1 hd
      have := I.same I.weak rfl rfl (fun j hj _ => hj) hcl
      rw [← I.now] at this
      simp only [splice_nil]
      exact this

/-- One step of a session. -/
theorem sstep_spec {b : Backend S} {bpb : Nat} {view : S → Bytes} (L : Lawful b bpb view)
    {w : World S} {R : Ref} (I : SInv view w R) (hb : w.st.c.bpb = bpb) (op : SOp) (hv : SValid bpb op) :
    ∃ w' r R', sstep b w op = .ret (w', r) ∧ SConforms b bpb op r R R' ∧ SInv view w' R' ∧
      w'.st.c.bpb = bpb := by
  have hlen : R.now.length = w.st.c.total * w.st.c.bpb := by rw [I.now, length_contents]
  have hcancel : ∀ {j be}, FetchFails b w.st.c.total j be → FetchFails b (R.now.length / bpb) j be := by
    intro j be hf
    rwa [hlen, hb, Nat.mul_div_cancel _ (by rw [← hb]; exact I.weak.bpb_pos)]
  have loads : ∀ {st'}, WLoads view w.st st' → SInv view { w with st := st' } R := by
    intro st' hld
    have I' := I.same hld.weak hld.bpb hld.total (fun j h1 _ => hld.mono j h1) (hld.clean I.clean)
    rw [hld.contents_eq, ← I.now] at I'
    exact I'
  have vw : ∀ k : Nat, R.views[k]? = (w.slices[k]?).map (fun h : Held => (⟨h.arr, h.start, h.count⟩ : View)) := by
    intro k; rw [I.views, List.getElem?_map]
  cases op with
  | base op =>
    obtain ⟨st', r, h1, W⟩ := step_weak L w.st I.weak I.clean hb op hv
    obtain ⟨R', c1, I'⟩ := I.base W
    refine ⟨_, _, R', by simp only [sstep, h1]; rfl, by rw [← hb]; exact c1, I', ?_⟩
    exact W.bpb.trans hb
  | keep start count =>
    simp only [sstep]
    rcases getSlice_weak L w.st I.weak hb start count (by rw [hb]; exact hv) with
      ⟨h1, h2⟩ | ⟨h1, st1, hld, ⟨h2, h3, h4⟩ | ⟨j, be, h2, hj⟩⟩
    · rw [h2]
      refine ⟨_, _, R, rfl, ⟨?_, rfl⟩, I, hb⟩
      have := not_inRange (st := ghost w.st) I.weak.wf h1
      show ¬ (start * bpb < R.now.length ∧ start * bpb + count * bpb ≤ R.now.length)
      rw [hlen, ← hb]; exact this
    · rw [h2]
      obtain ⟨i1, i2⟩ := (inRange_blocks I.weak.bpb_pos).1 h1
      refine ⟨_, _, _, rfl, ⟨?_, rfl⟩, I.keep hld i2 h3, hld.bpb.trans hb⟩
      rw [hlen, ← hb]; exact h1.2
    · rw [h2]
      exact ⟨_, _, R, rfl, ⟨hcancel hj, rfl⟩, loads hld, hld.bpb.trans hb⟩
  | keepAll =>
    simp only [sstep]
    rcases data_weak L w.st I.weak hb with ⟨h1, h2⟩ | ⟨st1, hld, ⟨h2, h3, _⟩ | ⟨j, be, h2, hj⟩⟩
    · rw [h2]
      exact ⟨_, _, R, rfl, ⟨hlen.trans h1, rfl⟩, I, hb⟩
    · rw [h2]
      have hk := I.keep hld (start := 0) (count := w.st.c.total) (by omega) (fun j _ hj => h3 j (by omega))
      have ht : R.now.length / bpb = w.st.c.total := by
        rw [hlen, hb, Nat.mul_div_cancel _ (by rw [← hb]; exact I.weak.bpb_pos)]
      refine ⟨_, _, _, rfl, (rfl : _ = _), ?_, hld.bpb.trans hb⟩
      rw [ht]
      simp only [Cache.totalBlocks, hld.total]
      rw [Nat.zero_mul] at hk
      exact hk
    · rw [h2]
      exact ⟨_, _, R, rfl, ⟨hcancel hj, rfl⟩, loads hld, hld.bpb.trans hb⟩
  | look k =>
    simp only [sstep]
    have hvk := vw k
    cases hk : w.slices[k]? with
    | none => rw [hk] at hvk; exact ⟨_, _, R, rfl, ⟨hvk, rfl⟩, I, hb⟩
    | some h =>
      rw [hk] at hvk
      refine ⟨_, _, R, rfl, ⟨⟨_, hvk, ?_⟩, rfl⟩, I, hb⟩
      rw [I.shows (List.mem_of_getElem? hk), hb]
  | put k at_ v =>
    simp only [sstep]
    have hvk := vw k
    cases hk : w.slices[k]? with
    | none =>
      rw [hk] at hvk
      refine ⟨_, _, R, rfl, ?_, I, hb⟩
      simp only [SConforms]
      rw [hvk]; rfl
    | some h =>
      rw [hk] at hvk
      refine ⟨_, _, R.write bpb ⟨h.arr, h.start, h.count⟩ at_ v, rfl, ?_, ?_, ?_⟩
      · simp only [SConforms]
        rw [hvk]; rfl
      · rw [← hb]; exact I.put (List.mem_of_getElem? hk) at_ v
      · unfold World.poke
        simp only
        split <;> exact hb
  | mark k from_ n =>
    simp only [sstep]
    have hvk := vw k
    cases hk : w.slices[k]? with
    | none =>
      rw [hk] at hvk
      refine ⟨_, _, R, rfl, ⟨rfl, ?_⟩, I, hb⟩
      intro h hh; rw [hvk] at hh; cases hh
    | some h =>
      rw [hk] at hvk
      have hm := List.mem_of_getElem? hk
      simp only
      by_cases hfn : from_ + n ≤ h.count
      · rw [if_pos hfn]
        obtain ⟨a1, a2, a3⟩ := I.win h hm
        have hnb : n * w.st.c.bpb ≤ maxInt :=
          Nat.le_trans (Nat.mul_le_mul_right _ (by omega)) a3
        rcases markBlockRangeDirty_weak w.st I.weak I.clean (h.start + from_) n hnb
          (fun j h1 h2 h3 => I.loaded h hm j (by omega) (by omega) h3) with ⟨h1, h2⟩ | ⟨h1, st', h2, M⟩
        · rw [h2]
          refine ⟨_, _, R, rfl, ⟨rfl, rfl, _, hvk, ?_⟩, I, hb⟩
          have := not_inRange (st := ghost w.st) I.weak.wf h1
          simp only
          rw [hlen, ← hb, Nat.add_mul (h.start + from_)]
          exact this
        · rw [h2]
          have hi := ((inRange_blocks I.weak.bpb_pos).1 h1).2
          refine ⟨_, _, _, rfl, ⟨_, hvk, hfn, ?_, rfl⟩, ?_, M.bpb.trans hb⟩
          · simp only
            rw [hlen, hb]
            exact Nat.mul_le_mul_right _ hi
          · have := I.same M.weak M.bpb M.total (fun j hj _ => M.mono j hj) M.clean
            rw [M.contents_eq, splice_nil, ← I.now] at this
            exact this
      · rw [if_neg hfn]
        refine ⟨_, _, R, rfl, ⟨rfl, ?_⟩, I, hb⟩
        intro h' hh'
        rw [hvk] at hh'
        cases hh'
        simp only; omega

theorem srun_spec {b : Backend S} {bpb : Nat} {view : S → Bytes} (L : Lawful b bpb view)
    (ops : List SOp) (w : World S) (R : Ref) (I : SInv view w R) (hb : w.st.c.bpb = bpb)
    (hv : ∀ op ∈ ops, SValid bpb op) :
    ∃ w' rs R', srun b w ops = .ret (w', rs) ∧ SConformsAll b bpb ops rs R R' ∧ SInv view w' R' ∧
      w'.st.c.bpb = bpb := by
  induction ops generalizing w R with
  | nil => exact ⟨w, [], R, rfl, rfl, I, hb⟩
  | cons op ops ih =>
    obtain ⟨w1, r, R1, s1, c1, I1, b1⟩ := sstep_spec L I hb op (hv op (by simp))
    obtain ⟨w2, rs, R2, s2, c2, I2, b2⟩ := ih w1 R1 I1 b1 (fun o ho => hv o (by simp [ho]))
    refine ⟨w2, r :: rs, R2, ?_, ⟨R1, c1, c2⟩, I2, b2⟩
    simp only [srun, s1, Outcome.bind_ret, s2]
    rfl

end Disko.BlockCache

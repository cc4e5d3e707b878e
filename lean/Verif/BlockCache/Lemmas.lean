import Verif.Base.Lists
import Verif.BlockCache.Spec
/-! Helper lemmas for the block cache. -/
namespace Disko.BlockCache
open Disko Disko.BlockCache.Spec

variable {S : Type}

/-! ### Bitmaps -/

theorem le_bitmapLen (n : Nat) : n ≤ bitmapLen n := by unfold bitmapLen; omega

theorem bitGet_eq {m : List Bool} {i : Nat} (h : i < m.length) :
    bitGet m i = .ret (m.getD i false) := by
  simp [bitGet, List.getElem?_eq_getElem h, List.getD_eq_getElem?_getD]

theorem bitSet_eq {m : List Bool} {i : Nat} {v : Bool} (h : i < m.length) :
    bitSet m i v = .ret (m.set i v) := by simp [bitSet, h]

theorem getD_set (m : List Bool) (i j : Nat) (v : Bool) (h : i < m.length) :
    (m.set i v).getD j false = if j = i then v else m.getD j false := by
  rw [List.getD_eq_getElem?_getD, List.getD_eq_getElem?_getD, List.getElem?_set]
  by_cases hij : i = j
  · subst hij; simp [h]
  · simp [hij, Ne.symm hij]

theorem set_same {m : List Bool} {i : Nat} (h : m.getD i false = false) : m.set i false = m := by
  apply List.ext_getElem?
  intro k
  rw [List.getElem?_set]
  by_cases hk : i = k
  · subst hk
    by_cases hl : i < m.length
    · rw [List.getD_eq_getElem?_getD, List.getElem?_eq_getElem hl] at h
      simp [hl] at h ⊢; exact h
    · simp [hl]
  · simp [hk]

/-! ### Contents -/

theorem getElem?_contents (view : S → Bytes) (st : St S) (k : Nat) :
    (contents view st)[k]? =
      if k < st.c.total * st.c.bpb then some (byteAt view st k) else none := by
  unfold contents
  rw [List.getElem?_map]
  by_cases h : k < st.c.total * st.c.bpb
  · simp [h]
  · simp [h]

theorem length_contents (view : S → Bytes) (st : St S) :
    (contents view st).length = st.c.total * st.c.bpb := by simp [contents]

theorem contents_congr {view : S → Bytes} {st st' : St S} (h1 : st'.c.total = st.c.total)
    (h2 : st'.c.bpb = st.c.bpb)
    (h : ∀ k, k < st.c.total * st.c.bpb → byteAt view st' k = byteAt view st k) :
    contents view st' = contents view st := by
  apply List.ext_getElem?
  intro k
  rw [getElem?_contents, getElem?_contents, h1, h2]
  split
  · rw [h k (by assumption)]
  · rfl

theorem getD_eq_of {d e : Bytes} {k : Nat} (h : d[k]? = e[k]?) : d.getD k 0 = e.getD k 0 := by
  rw [List.getD_eq_getElem?_getD, List.getD_eq_getElem?_getD, h]

/-! ### Bounds -/

theorem minBlocks_eq {c : Cache} (hb : 0 < c.bpb) (hs : c.bpb ≤ maxInt) {size : Nat} (h : size ≤ maxInt) :
    c.getMinBlocksForSize size = .ret ((size + (c.bpb - 1)) / c.bpb) := by
  unfold Cache.getMinBlocksForSize
  rw [if_neg (by omega), u64_of_lt]
  unfold maxInt at *; omega

theorem ceil_le_iff {a n t : Nat} (hn : 0 < n) : (a + (n - 1)) / n ≤ t ↔ a ≤ t * n := by
  rw [← Nat.lt_succ_iff, Nat.div_lt_iff_lt_mul hn, Nat.succ_mul]; omega

theorem ceil_mul {t n : Nat} (hn : 0 < n) : (t * n + (n - 1)) / n = t := by
  rw [Nat.div_eq_iff hn]; omega

/-- In range, as the documentation means it. -/
def InRange (c : Cache) (start size : Nat) : Prop :=
  start < c.total ∧ start * c.bpb + size ≤ c.total * c.bpb

instance (c : Cache) (start size : Nat) : Decidable (InRange c start size) := by
  unfold InRange; infer_instance

theorem ceil_add_iff {a n t i : Nat} (hn : 0 < n) (hi : i < t) :
    i + (a + (n - 1)) / n ≤ t ↔ i * n + a ≤ t * n := by
  have h1 : i + (a + (n - 1)) / n ≤ t ↔ (a + (n - 1)) / n ≤ t - i := by omega
  rw [h1, ceil_le_iff hn, Nat.sub_mul]
  have := block_end_le (n := n) hi
  omega

theorem checkBounds_eq {view : S → Bytes} {st : St S} (h : WF view st) (start : Nat) {size : Nat}
    (hs : size ≤ maxInt) :
    st.c.checkBounds start size =
      .ret (if InRange st.c start size then none else some .argumentOutOfRange) := by
  unfold Cache.checkBounds
  by_cases h1 : start ≥ st.c.total
  · have hb : st.c.bpb ≠ 0 := by have := h.bpb_pos; omega
    rw [if_neg (by unfold InRange; omega)]
    unfold Cache.getMinBlocksForSize
    simp [h1, hb]
  · have hst : start < st.c.total := by omega
    have hbig : st.c.bpb ≤ maxInt := by
      have := block_end_le (n := st.c.bpb) hst
      have := h.cap; omega
    rw [minBlocks_eq h.bpb_pos hbig hs]
    simp only [Outcome.bind_ret, if_neg h1]
    have htot : st.c.total ≤ maxInt :=
      Nat.le_trans (Nat.le_mul_of_pos_right _ h.bpb_pos) h.cap
    have hdiv : (size + (st.c.bpb - 1)) / st.c.bpb ≤ maxInt := by
      rw [ceil_le_iff h.bpb_pos]
      exact Nat.le_trans hs (Nat.le_mul_of_pos_right _ h.bpb_pos)
    rw [u64_of_lt (by unfold maxInt at *; omega)]
    have := ceil_add_iff (a := size) h.bpb_pos hst
    by_cases hr : InRange st.c start size
    · rw [if_neg (by have := hr.2; omega), if_pos hr]; rfl
    · rw [if_pos (by
        unfold InRange at hr
        have : ¬ (start * st.c.bpb + size ≤ st.c.total * st.c.bpb) := fun hh => hr ⟨hst, hh⟩
        omega), if_neg hr]; rfl

/-! ### Loading -/

/-- `log` records the callback invocations of `b`. -/
structure Logs (b : Backend S) (log : S → List Event) : Prop where
  fetch : ∀ s i buf, log (b.fetch s i buf).1 =
    log s ++ [.fetch i buf.length (b.fetch s i buf).2.2.isNone]
  flush : ∀ s i buf, log (b.flush s i buf).1 = log s ++ [.flush i buf (b.flush s i buf).2.isNone]
  resize : ∀ s n, log (b.resize s n).1 = log s ++ [.resize n (b.resize s n).2.isNone]

theorem logs_logged (b : Backend S) : Logs (logged b) (fun s => s.2) :=
  ⟨fun _ _ _ => rfl, fun _ _ _ => rfl, fun _ _ => rfl⟩

theorem lawful_logged {b : Backend S} {bpb : Nat} {view : S → Bytes} (L : Lawful b bpb view) :
    Lawful (logged b) bpb (fun s => view s.1) :=
  ⟨fun s => L.fetch_view s.1, fun s => L.fetch_ok s.1, fun s => L.flush_ok s.1,
    fun s => L.flush_fail s.1, fun s => L.resize_ok s.1, fun s => L.resize_fail s.1⟩

theorem fetchedOk_append (a c : List Event) : fetchedOk (a ++ c) = fetchedOk a ++ fetchedOk c := by
  induction a with
  | nil => rfl
  | cons e es ih =>
    rcases e with ⟨j, l, ok⟩ | ⟨j, v, ok⟩ | ⟨n, ok⟩ <;> try (simp [fetchedOk, ih]; done)
    cases ok <;> simp [fetchedOk, ih]

theorem flushedOk_append (a c : List Event) : flushedOk (a ++ c) = flushedOk a ++ flushedOk c := by
  induction a with
  | nil => rfl
  | cons e es ih =>
    rcases e with ⟨j, l, ok⟩ | ⟨j, v, ok⟩ | ⟨n, ok⟩ <;> try (simp [flushedOk, ih]; done)
    cases ok <;> simp [flushedOk, ih]

/-- Callback invocations while loading. -/
structure FetchTrace (st st' : St S) (evs : List Event) : Prop where
  fetch : ∀ e ∈ evs, ∃ j ok, e = .fetch j st.c.bpb ok ∧ j < st.c.total ∧ isLoaded st.c j = false
  nodup : (fetchedOk evs).Nodup
  loads : ∀ j ∈ fetchedOk evs, j < st.c.total ∧ isLoaded st.c j = false ∧ isLoaded st'.c j = true

theorem FetchTrace.nil (st st' : St S) : FetchTrace st st' [] :=
  ⟨by simp, by simp [fetchedOk], by simp [fetchedOk]⟩

/-- Effect of loading blocks: nothing a reader could notice. -/
structure Loads (b : Backend S) (view : S → Bytes) (st st' : St S) : Prop where
  wf : WF view st'
  bpb : st'.c.bpb = st.c.bpb
  total : st'.c.total = st.c.total
  dirty : st'.c.dirty = st.c.dirty
  mono : ∀ i, isLoaded st.c i = true → isLoaded st'.c i = true
  view_eq : view st'.s = view st.s
  contents_eq : contents view st' = contents view st
  trace : ∀ log, Logs b log → ∃ evs, log st'.s = log st.s ++ evs ∧ FetchTrace st st' evs

theorem Loads.refl {b : Backend S} {view : S → Bytes} {st : St S} (h : WF view st) :
    Loads b view st st :=
  ⟨h, rfl, rfl, rfl, fun _ h => h, rfl, rfl, fun _ _ => ⟨[], by simp, .nil _ _⟩⟩

theorem Loads.trans {k : Backend S} {view : S → Bytes} {a b c : St S} (h : Loads k view a b)
    (h' : Loads k view b c) : Loads k view a c := by
  refine ⟨h'.wf, h'.bpb.trans h.bpb, h'.total.trans h.total, h'.dirty.trans h.dirty,
    fun i hi => h'.mono i (h.mono i hi), h'.view_eq.trans h.view_eq,
    h'.contents_eq.trans h.contents_eq, ?_⟩
  intro log hl
  obtain ⟨e1, h1, t1⟩ := h.trace log hl
  obtain ⟨e2, h2, t2⟩ := h'.trace log hl
  have unl : ∀ j, isLoaded b.c j = false → isLoaded a.c j = false := by
    intro j hj
    cases hja : isLoaded a.c j
    · rfl
    · rw [h.mono j hja] at hj; simp at hj
  refine ⟨e1 ++ e2, by rw [h2, h1, List.append_assoc], ?_, ?_, ?_⟩
  · intro e he
    rcases List.mem_append.1 he with he | he
    · exact t1.fetch e he
    · obtain ⟨j, ok, x, y, z⟩ := t2.fetch e he
      exact ⟨j, ok, by rw [x, h.bpb], by rw [← h.total]; exact y, unl j z⟩
  · rw [fetchedOk_append, List.nodup_append]
    refine ⟨t1.nodup, t2.nodup, ?_⟩
    intro x hx y hy hxy
    subst hxy
    have := (t1.loads x hx).2.2
    rw [(t2.loads x hy).2.1] at this; simp at this
  · intro j hj
    rw [fetchedOk_append] at hj
    rcases List.mem_append.1 hj with hj | hj
    · exact ⟨(t1.loads j hj).1, (t1.loads j hj).2.1, h'.mono _ (t1.loads j hj).2.2⟩
    · exact ⟨by rw [← h.total]; exact (t2.loads j hj).1, unl j (t2.loads j hj).2.1, (t2.loads j hj).2.2⟩

/-- The `clean` clause after a change that leaves dirty bits and bytes alone. -/
theorem clean_of {view : S → Bytes} {st st' : St S} (h : WF view st) (h1 : st'.c.total = st.c.total)
    (h2 : st'.c.bpb = st.c.bpb) (h3 : st'.c.dirty = st.c.dirty) (h4 : view st'.s = view st.s)
    (h5 : ∀ k, k < st.c.total * st.c.bpb → byteAt view st' k = byteAt view st k) :
    ∀ k, k < st'.c.total * st'.c.bpb → isDirty st'.c (k / st'.c.bpb) = false →
    byteAt view st' k = (view st'.s).getD k 0 := by
  intro k hk hd
  rw [h1, h2] at hk
  rw [h5 k hk, h4]
  rw [h2] at hd
  exact h.clean k hk (by simpa [isDirty, h3] using hd)

theorem loadLoop_spec {b : Backend S} {bpb : Nat} {view : S → Bytes} (L : Lawful b bpb view)
    (n i : Nat) (st : St S) (h : WF view st) (hb : st.c.bpb = bpb) (hi : i + n ≤ st.c.total) :
    ∃ st' e, loadLoop b n i st = .ret (st', e) ∧ Loads b view st st' ∧
      (e = none → ∀ j, i ≤ j → j < i + n → isLoaded st'.c j = true) ∧
      (∀ x, e = some x → ∃ j be, x = .fetchFailed j be ∧ FetchFails b st.c.total j be) := by
  induction n generalizing i st with
  | zero => exact ⟨st, none, rfl, Loads.refl h, by intro _ j; omega, by simp⟩
  | succ n ih =>
    have hbp := h.bpb_pos
    have hlen : i < st.c.loaded.length := by
      rw [h.loaded_len]; have := le_bitmapLen st.c.total; omega
    have hdlen : i < st.c.dirty.length := by
      rw [h.dirty_len]; have := le_bitmapLen st.c.total; omega
    unfold loadLoop
    rw [bitGet_eq hlen]
    simp only [Outcome.bind_ret]
    by_cases hl : st.c.loaded.getD i false = true
    · rw [if_pos hl]
      obtain ⟨st', e, h1, h2, h3, h4⟩ := ih (i + 1) st h hb (by omega)
      refine ⟨st', e, h1, h2, ?_, ?_⟩
      · intro he j hj1 hj2
        by_cases hji : j = i
        · subst hji; exact h2.mono _ hl
        · exact h3 he j (by omega) (by omega)
      · intro x hx
        obtain ⟨j, be, a, b'⟩ := h4 x hx
        exact ⟨j, be, a, b'⟩
    · rw [if_neg hl]
      have hend := block_end_le (n := st.c.bpb) (i := i) (total := st.c.total) (by omega)
      have hcap := h.cap
      rw [u64_of_lt (n := i * st.c.bpb) (by unfold maxInt at *; omega)]
      rw [u64_of_lt (n := i * st.c.bpb + st.c.bpb) (by unfold maxInt at *; omega)]
      rw [if_pos (by rw [h.data_len]; omega)]
      have hw : i * st.c.bpb + st.c.bpb - i * st.c.bpb = st.c.bpb := by omega
      rw [hw]
      have hblen : (slice st.c.data (i * st.c.bpb) st.c.bpb).length = st.c.bpb :=
        length_slice_of_le (by rw [h.data_len]; exact hend)
      have hdirty : st.c.dirty.getD i false = false := by
        cases hd : st.c.dirty.getD i false
        · rfl
        · exact absurd (h.dirty_loaded i (by omega) hd) hl
      have fv := L.fetch_view st.s i (slice st.c.data (i * st.c.bpb) st.c.bpb)
      have fo := L.fetch_ok st.s i (slice st.c.data (i * st.c.bpb) st.c.bpb)
        (by rw [← hb]; have := h.store; omega) (by rw [hblen, hb])
      rcases hf : b.fetch st.s i (slice st.c.data (i * st.c.bpb) st.c.bpb) with ⟨s', buf', e⟩
      rw [hf] at fv fo
      simp only at fv fo
      have hclen : (goCopy (slice st.c.data (i * st.c.bpb) st.c.bpb) buf').length = st.c.bpb := by
        rw [goCopy_length, hblen]
      have hsplen : (splice st.c.data (i * st.c.bpb)
          (goCopy (slice st.c.data (i * st.c.bpb) st.c.bpb) buf')).length = st.c.data.length :=
        length_splice (by rw [hclen, h.data_len]; exact hend)
      -- bytes outside block i keep their value
      have hout : ∀ k, k / st.c.bpb ≠ i →
          (splice st.c.data (i * st.c.bpb)
            (goCopy (slice st.c.data (i * st.c.bpb) st.c.bpb) buf'))[k]? = st.c.data[k]? := by
        intro k hk
        rw [getElem?_splice (by rw [h.data_len]; omega), hclen]
        have := mt (div_eq_block (k := k) (i := i) hbp).2 hk
        by_cases h1 : k < i * st.c.bpb
        · rw [if_pos h1]
        · rw [if_neg h1, if_neg (by omega)]
      cases e with
      | some e =>
        have hby : ∀ k, k < st.c.total * st.c.bpb → byteAt view ⟨{ st.c with
              data := splice st.c.data (i * st.c.bpb) (goCopy (slice st.c.data (i * st.c.bpb) st.c.bpb) buf') }, s'⟩ k =
            byteAt view st k := by
          intro k hk
          unfold byteAt
          simp only [isLoaded]
          by_cases hki : k / st.c.bpb = i
          · rw [hki, if_neg hl, if_neg hl, fv]
          · rw [getD_eq_of (hout k hki), fv]
        refine ⟨_, _, rfl, ?_, by simp, ?_⟩
        · refine ⟨⟨hbp, h.cap, ?_, h.loaded_len, h.dirty_len, h.dirty_loaded, ?_, ?_⟩, rfl, rfl, rfl,
            fun _ hh => hh, fv, ?_, ?_⟩
          · rw [hsplen]; exact h.data_len
          · show _ ≤ (view s').length
            rw [fv]; exact h.store
          · exact clean_of h rfl rfl rfl fv hby
          · exact contents_congr (st := st) (by rfl) (by rfl) hby
          · intro log hlog
            have := hlog.fetch st.s i (slice st.c.data (i * st.c.bpb) st.c.bpb)
            rw [hf, hblen] at this
            refine ⟨_, this, ?_, ?_, ?_⟩
            · intro e' he'
              simp only [List.mem_singleton] at he'
              exact ⟨i, _, he', by omega, by simpa using hl⟩
            · simp [fetchedOk]
            · simp [fetchedOk]
        · intro x hx
          simp at hx
          exact ⟨i, e, hx.symm, by omega, st.s, _, by rw [hf]⟩
      | none =>
        have fo' := fo rfl
        simp only [bitSet_eq hlen, bitSet_eq hdlen, Outcome.bind_ret, set_same hdirty]
        have hbuf : goCopy (slice st.c.data (i * st.c.bpb) st.c.bpb) buf' =
            slice (view st.s) (i * st.c.bpb) st.c.bpb := by
          rw [fo', ← hb]
          exact goCopy_eq_of_length (by
            rw [hblen, length_slice_of_le]; have := h.store; omega)
        rw [hbuf] at hsplen hout hclen ⊢
        have hld : Loads b view st ⟨{ st.c with
            loaded := st.c.loaded.set i true,
            data := splice st.c.data (i * st.c.bpb) (slice (view st.s) (i * st.c.bpb) st.c.bpb) }, s'⟩ := by
          have hby : ∀ k, k < st.c.total * st.c.bpb → byteAt view ⟨{ st.c with
              loaded := st.c.loaded.set i true,
              data := splice st.c.data (i * st.c.bpb)
                (slice (view st.s) (i * st.c.bpb) st.c.bpb) }, s'⟩ k = byteAt view st k := by
            intro k hk
            unfold byteAt
            simp only [isLoaded]
            rw [getD_set _ _ _ _ hlen]
            by_cases hki : k / st.c.bpb = i
            · rw [if_pos hki, if_pos rfl, hki, if_neg hl]
              apply getD_eq_of
              have := (div_eq_block hbp).1 hki
              rw [getElem?_splice (by rw [h.data_len]; omega), hclen, if_neg (by omega),
                if_pos (by omega), getElem?_slice, if_pos (by omega)]
              congr 1; omega
            · rw [if_neg hki, getD_eq_of (hout k hki), fv]
          refine ⟨⟨hbp, h.cap, ?_, ?_, h.dirty_len, ?_, ?_, clean_of h rfl rfl rfl fv hby⟩, rfl, rfl,
            rfl, ?_, fv, contents_congr (st := st) (by rfl) (by rfl) hby, ?_⟩
          · rw [hsplen]; exact h.data_len
          · simp only [List.length_set]; exact h.loaded_len
          · intro j hj hd
            simp only [isLoaded]
            rw [getD_set _ _ _ _ hlen]
            split
            · rfl
            · exact h.dirty_loaded j hj hd
          · show _ ≤ (view s').length
            rw [fv]; exact h.store
          · intro j hj
            simp only [isLoaded] at hj ⊢
            rw [getD_set _ _ _ _ hlen]
            split
            · rfl
            · exact hj
          · intro log hlog
            have := hlog.fetch st.s i (slice st.c.data (i * st.c.bpb) st.c.bpb)
            rw [hf, hblen] at this
            refine ⟨_, this, ?_, ?_, ?_⟩
            · intro e' he'
              simp only [List.mem_singleton] at he'
              exact ⟨i, _, he', by omega, by simpa using hl⟩
            · simp [fetchedOk]
            · intro j hj
              simp [fetchedOk] at hj
              subst hj
              refine ⟨by omega, by simpa using hl, ?_⟩
              simp only [isLoaded]
              rw [getD_set _ _ _ _ hlen, if_pos rfl]
        obtain ⟨st', e', h1, h2, h3, h4⟩ := ih (i + 1) _ hld.wf (by exact hb) (by
          show i + 1 + n ≤ st.c.total; omega)
        refine ⟨st', e', h1, hld.trans h2, ?_, ?_⟩
        · intro he j hj1 hj2
          by_cases hji : j = i
          · subst hji
            apply h2.mono
            simp only [isLoaded]
            rw [getD_set _ _ _ _ hlen, if_pos rfl]
          · exact h3 he j (by omega) (by omega)
        · intro x hx
          obtain ⟨j, be, a, b'⟩ := h4 x hx
          exact ⟨j, be, a, b'⟩

theorem inRange_blocks {c : Cache} (hb : 0 < c.bpb) {start count : Nat} :
    InRange c start (count * c.bpb) ↔ start < c.total ∧ start + count ≤ c.total := by
  unfold InRange
  rw [← Nat.add_mul, Nat.mul_le_mul_right_iff hb]

theorem loadBlockRange_spec {b : Backend S} {bpb : Nat} {view : S → Bytes} (L : Lawful b bpb view)
    (st : St S) (h : WF view st) (hb : st.c.bpb = bpb) (start count : Nat)
    (hc : count * st.c.bpb ≤ maxInt) :
    (¬ InRange st.c start (count * st.c.bpb) ∧
      loadBlockRange b st start count = .ret (st, some .argumentOutOfRange)) ∨
    (InRange st.c start (count * st.c.bpb) ∧
      ∃ st' e, loadBlockRange b st start count = .ret (st', e) ∧ Loads b view st st' ∧
      (e = none → ∀ j, start ≤ j → j < start + count → isLoaded st'.c j = true) ∧
      (∀ x, e = some x → ∃ j be, x = .fetchFailed j be ∧ FetchFails b st.c.total j be)) := by
  unfold loadBlockRange
  rw [u64_of_lt (by unfold maxInt at *; omega), checkBounds_eq h start hc]
  by_cases hr : InRange st.c start (count * st.c.bpb)
  · right
    refine ⟨hr, ?_⟩
    rw [if_pos hr]
    obtain ⟨h1, h2⟩ := (inRange_blocks h.bpb_pos).1 hr
    have htot : st.c.total ≤ maxInt :=
      Nat.le_trans (Nat.le_mul_of_pos_right _ h.bpb_pos) h.cap
    simp only [Outcome.bind_ret]
    rw [u64_of_lt (by unfold maxInt at *; omega)]
    have e : start + count - start = count := by omega
    rw [e]
    exact loadLoop_spec L count start st h hb h2
  · left; refine ⟨hr, ?_⟩
    rw [if_neg hr]; rfl

/-- The bytes of a loaded range are in memory. -/
theorem peek_loaded {view : S → Bytes} {st : St S} (h : WF view st) {start count : Nat}
    (hr : start + count ≤ st.c.total)
    (hl : ∀ j, start ≤ j → j < start + count → isLoaded st.c j = true) :
    slice st.c.data (start * st.c.bpb) (count * st.c.bpb) =
      slice (contents view st) (start * st.c.bpb) (count * st.c.bpb) := by
  have hle : start * st.c.bpb + count * st.c.bpb ≤ st.c.total * st.c.bpb := by
    rw [← Nat.add_mul]; exact Nat.mul_le_mul_right _ hr
  apply List.ext_getElem?
  intro k
  rw [getElem?_slice, getElem?_slice]
  by_cases hk : k < count * st.c.bpb
  · rw [if_pos hk, if_pos hk, getElem?_contents, if_pos (by omega)]
    unfold byteAt
    have h1 : start ≤ (start * st.c.bpb + k) / st.c.bpb := by
      rw [Nat.le_div_iff_mul_le h.bpb_pos]; omega
    have h2 : (start * st.c.bpb + k) / st.c.bpb < start + count := by
      rw [Nat.div_lt_iff_lt_mul h.bpb_pos, Nat.add_mul]; omega
    rw [if_pos (hl _ h1 h2), List.getD_eq_getElem?_getD,
      List.getElem?_eq_getElem (by rw [h.data_len]; omega)]; rfl
  · rw [if_neg hk, if_neg hk]

theorem getSlice_spec {b : Backend S} {bpb : Nat} {view : S → Bytes} (L : Lawful b bpb view)
    (st : St S) (h : WF view st) (hb : st.c.bpb = bpb) (start count : Nat)
    (hc : count * st.c.bpb ≤ maxInt) :
    (¬ InRange st.c start (count * st.c.bpb) ∧
      getSlice b st start count = .ret (st, .error .argumentOutOfRange)) ∨
    (InRange st.c start (count * st.c.bpb) ∧ ∃ st', Loads b view st st' ∧
      ((getSlice b st start count = .ret (st', .ok ⟨start * st.c.bpb, count * st.c.bpb⟩) ∧
        (∀ j, start ≤ j → j < start + count → isLoaded st'.c j = true) ∧
        st'.c.peek ⟨start * st.c.bpb, count * st.c.bpb⟩ =
          slice (contents view st) (start * st.c.bpb) (count * st.c.bpb)) ∨
       (∃ j be, getSlice b st start count = .ret (st', .error (.fetchFailed j be)) ∧
         FetchFails b st.c.total j be))) := by
  unfold getSlice
  rcases loadBlockRange_spec L st h hb start count hc with ⟨h1, h2⟩ | ⟨h1, st', e, h2, h3, h4, h5⟩
  · left; refine ⟨h1, ?_⟩; rw [h2]; rfl
  · right; refine ⟨h1, st', h3, ?_⟩
    rw [h2]
    simp only [Outcome.bind_ret]
    cases e with
    | some x =>
      right
      obtain ⟨j, be, hx, hj⟩ := h5 x rfl
      exact ⟨j, be, by rw [hx]; rfl, hj⟩
    | none =>
      left
      have hir := (inRange_blocks h.bpb_pos).1 h1
      have hcap := h.cap
      have hle := h1.2
      simp only [h3.bpb]
      rw [u64_of_lt (n := start * st.c.bpb) (by unfold maxInt at *; omega),
        u64_of_lt (n := count * st.c.bpb) (by unfold maxInt at *; omega),
        u64_of_lt (n := start * st.c.bpb + count * st.c.bpb) (by unfold maxInt at *; omega)]
      rw [if_pos (by rw [h3.wf.data_len, h3.bpb, h3.total]; omega)]
      refine ⟨?_, h4 rfl, ?_⟩
      · have : start * st.c.bpb + count * st.c.bpb - start * st.c.bpb = count * st.c.bpb := by omega
        rw [this]; rfl
      · have := peek_loaded h3.wf (start := start) (count := count) (by rw [h3.total]; omega) (h4 rfl)
        rw [h3.bpb, h3.contents_eq] at this
        exact this

/-! ### Marking -/

theorem markLoop_spec (n i : Nat) (c : Cache) (h1 : i + n ≤ c.loaded.length)
    (h2 : i + n ≤ c.dirty.length) :
    ∃ c', markLoop n i c = .ret c' ∧ c'.bpb = c.bpb ∧ c'.total = c.total ∧ c'.data = c.data ∧
      c'.loaded.length = c.loaded.length ∧ c'.dirty.length = c.dirty.length ∧
      (∀ j, isLoaded c' j = if i ≤ j ∧ j < i + n then true else isLoaded c j) ∧
      (∀ j, isDirty c' j = if i ≤ j ∧ j < i + n then true else isDirty c j) := by
  induction n generalizing i c with
  | zero =>
    refine ⟨c, rfl, rfl, rfl, rfl, rfl, rfl, ?_, ?_⟩ <;> intro j <;> rw [if_neg (by omega)]
  | succ n ih =>
    unfold markLoop
    rw [bitSet_eq (by omega), bitSet_eq (by omega)]
    simp only [Outcome.bind_ret]
    obtain ⟨c', e1, e2, e3, e4, e5, e6, e7, e8⟩ := ih (i + 1)
      { c with loaded := c.loaded.set i true, dirty := c.dirty.set i true }
      (by simp; omega) (by simp; omega)
    refine ⟨c', e1, e2, e3, e4, by rw [e5]; simp, by rw [e6]; simp, ?_, ?_⟩
    · intro j; rw [e7]; simp only [isLoaded]
      rw [getD_set _ _ _ _ (by omega)]
      by_cases hj : i = j
      · subst hj; simp
      · by_cases hj2 : i + 1 ≤ j ∧ j < i + 1 + n
        · rw [if_pos hj2, if_pos (by omega)]
        · rw [if_neg hj2, if_neg (fun h => hj h.symm), if_neg (by omega)]
    · intro j; rw [e8]; simp only [isDirty]
      rw [getD_set _ _ _ _ (by omega)]
      by_cases hj : i = j
      · subst hj; simp
      · by_cases hj2 : i + 1 ≤ j ∧ j < i + 1 + n
        · rw [if_pos hj2, if_pos (by omega)]
        · rw [if_neg hj2, if_neg (fun h => hj h.symm), if_neg (by omega)]

end Disko.BlockCache

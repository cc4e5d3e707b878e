import Verif.BlockCache.Lemmas
/-! The effect of each block cache operation. -/
namespace Disko.BlockCache
open Disko Disko.BlockCache.Spec

variable {S : Type}

/-- A callback invocation that respects the callback contract for a cache of `total` blocks. -/
def EventOK (bpb total : Nat) (op : Op) : Event → Prop
  | .fetch j len _ => j < total ∧ len = bpb
  | .flush j buf _ => j < total ∧ buf.length = bpb
  | .resize n _ => op = .resize n

structure StepTrace (st : St S) (op : Op) (r : Result) (st' : St S) (evs : List Event) : Prop where
  ok : ∀ e ∈ evs, EventOK st.c.bpb st.c.total op e
  nodup : (fetchedOk evs).Nodup
  unloaded : ∀ j len ok, Event.fetch j len ok ∈ evs → isLoaded st.c j = false
  loads : ∀ j ∈ fetchedOk evs, j < st.c.total ∧ isLoaded st.c j = false ∧
    (j < st'.c.total → isLoaded st'.c j = true)
  pending : ∀ j, j < st'.c.total → isDirty st'.c j =
    nextPending st.c.bpb st.c.total op r evs (isDirty st.c) j

structure StepOK (b : Backend S) (view : S → Bytes) (st : St S) (op : Op) (st' : St S) (r : Result) :
    Prop where
  wf : WF view st'
  bpb : st'.c.bpb = st.c.bpb
  conf : Conforms st.c.bpb op r (contents view st) (contents view st')
  total : st'.c.total = nextTotal st.c.total op r
  errs : ∀ x, r.err? = some x → Justified b st.c.bpb (st.c.total * st.c.bpb) op x
  stuck : ∀ j, (j < st.c.total → isLoaded st.c j = true) → j < st'.c.total → isLoaded st'.c j = true
  trace : ∀ log, Logs b log → ∃ evs, log st'.s = log st.s ++ evs ∧ StepTrace st op r st' evs

theorem FetchTrace.step {st st1 st' : St S} {evs : List Event} (h : FetchTrace st st1 evs)
    {op : Op} {r : Result} (hl : ∀ j, isLoaded st1.c j = true → isLoaded st'.c j = true)
    (hp : ∀ j, j < st'.c.total → isDirty st'.c j =
      nextPending st.c.bpb st.c.total op r evs (isDirty st.c) j) :
    StepTrace st op r st' evs := by
  refine ⟨?_, h.nodup, ?_, ?_, hp⟩
  · intro e he
    obtain ⟨j, ok, h1, h2, _⟩ := h.fetch e he
    subst h1; exact ⟨h2, rfl⟩
  · intro j len ok he
    obtain ⟨j', ok', h1, _, h3⟩ := h.fetch _ he
    simp at h1; rw [h1.1]; exact h3
  · intro j hj
    obtain ⟨h1, h2, h3⟩ := h.loads j hj
    exact ⟨h1, h2, fun _ => hl j h3⟩

theorem FetchTrace.no_flush {st st1 : St S} {evs : List Event} (h : FetchTrace st st1 evs) :
    flushedOk evs = [] := by
  have : ∀ es : List Event, (∀ e ∈ es, ∃ j l ok, e = Event.fetch j l ok) → flushedOk es = [] := by
    intro es
    induction es with
    | nil => intro _; rfl
    | cons e es ih =>
      intro hh
      obtain ⟨j, l, ok, he⟩ := hh e (by simp)
      subst he
      simp only [flushedOk]
      exact ih (fun e he => hh e (by simp [he]))
  apply this
  intro e he
  obtain ⟨j, ok, h1, _⟩ := h.fetch e he
  exact ⟨j, _, ok, h1⟩

/-- An operation that only loads blocks. -/
theorem Loads.stepOK {b : Backend S} {view : S → Bytes} {st st' : St S} (h : Loads b view st st')
    {op : Op} {r : Result} (hc : Conforms st.c.bpb op r (contents view st) (contents view st))
    (ht : nextTotal st.c.total op r = st.c.total)
    (he : ∀ x, r.err? = some x → Justified b st.c.bpb (st.c.total * st.c.bpb) op x)
    (hp : ∀ evs p j, flushedOk evs = [] → nextPending st.c.bpb st.c.total op r evs p j = p j) :
    StepOK b view st op st' r := by
  refine ⟨h.wf, h.bpb, by rw [h.contents_eq]; exact hc, by rw [ht, h.total], he, ?_, ?_⟩
  · intro j h1 h2
    exact h.mono j (h1 (by rw [← h.total]; exact h2))
  · intro log hl
    obtain ⟨evs, h1, h2⟩ := h.trace log hl
    refine ⟨evs, h1, h2.step (fun _ hh => hh) ?_⟩
    intro j _
    rw [hp _ _ _ h2.no_flush]
    simp only [isDirty, h.dirty]

theorem not_inRange {view : S → Bytes} {st : St S} (h : WF view st) {start size : Nat}
    (hr : ¬ InRange st.c start size) :
    ¬ (start * st.c.bpb < st.c.total * st.c.bpb ∧ start * st.c.bpb + size ≤ st.c.total * st.c.bpb) := by
  intro hh
  exact hr ⟨(Nat.mul_lt_mul_right h.bpb_pos).1 hh.1, hh.2⟩

theorem splice_goCopy_slice {d buf : Bytes} {off w : Nat} (h : off + w ≤ d.length)
    (hb : buf.length ≤ w) : splice d off (goCopy (slice d off w) buf) = splice d off buf := by
  have hlen : (slice d off w).length = w := length_slice_of_le h
  apply List.ext_getElem?
  intro k
  rw [getElem?_splice (by omega), getElem?_splice (by omega), goCopy_length, hlen, getElem?_goCopy,
    hlen, getElem?_slice]
  by_cases h1 : k < off
  · rw [if_pos h1, if_pos h1]
  · rw [if_neg h1, if_neg h1]
    by_cases h2 : k < off + buf.length
    · rw [if_pos (by omega), if_pos h2, if_pos (by omega)]
    · rw [if_neg h2]
      by_cases h3 : k < off + w
      · rw [if_pos h3, if_neg (by omega), if_pos (by omega)]
        congr 1; omega
      · rw [if_neg h3]

/-- Writing into loaded blocks and marking them. -/
theorem poke_spec {view : S → Bytes} {st : St S} (h : WF view st) {start count off : Nat} {v : Bytes}
    (hr : start + count ≤ st.c.total) (h1 : start * st.c.bpb ≤ off)
    (h2 : off + v.length ≤ start * st.c.bpb + count * st.c.bpb)
    (hl : ∀ j, start ≤ j → j < start + count → isLoaded st.c j = true) (c' : Cache)
    (hb : c'.bpb = st.c.bpb) (ht : c'.total = st.c.total) (hd : c'.data = splice st.c.data off v)
    (hll : c'.loaded.length = st.c.loaded.length) (hdl : c'.dirty.length = st.c.dirty.length)
    (hlo : ∀ j, isLoaded c' j = if start ≤ j ∧ j < start + count then true else isLoaded st.c j)
    (hdi : ∀ j, isDirty c' j = if start ≤ j ∧ j < start + count then true else isDirty st.c j) :
    WF view ⟨c', st.s⟩ ∧ contents view ⟨c', st.s⟩ = splice (contents view st) off v := by
  have hle : start * st.c.bpb + count * st.c.bpb ≤ st.c.total * st.c.bpb := by
    rw [← Nat.add_mul]; exact Nat.mul_le_mul_right _ hr
  have hlo' : ∀ j, isLoaded c' j = isLoaded st.c j := by
    intro j; rw [hlo]; split
    · rename_i hh; exact (hl j hh.1 hh.2).symm
    · rfl
  have hsl : (splice st.c.data off v).length = st.c.data.length :=
    length_splice (by rw [h.data_len]; omega)
  have hblk : ∀ k, off ≤ k → k < off + v.length →
      start ≤ k / st.c.bpb ∧ k / st.c.bpb < start + count := by
    intro k hk1 hk2
    constructor
    · rw [Nat.le_div_iff_mul_le h.bpb_pos]; omega
    · rw [Nat.div_lt_iff_lt_mul h.bpb_pos, Nat.add_mul]; omega
  -- bytes
  have hby : ∀ k, k < st.c.total * st.c.bpb → byteAt view ⟨c', st.s⟩ k =
      if off ≤ k ∧ k < off + v.length then v.getD (k - off) 0 else byteAt view st k := by
    intro k hk
    unfold byteAt
    simp only [hb, hlo', hd]
    by_cases hin : off ≤ k ∧ k < off + v.length
    · rw [if_pos hin, if_pos (hl _ (hblk k hin.1 hin.2).1 (hblk k hin.1 hin.2).2)]
      rw [List.getD_eq_getElem?_getD, List.getD_eq_getElem?_getD,
        getElem?_splice (by rw [h.data_len]; omega), if_neg (by omega), if_pos (by omega)]
    · rw [if_neg hin]
      have : (splice st.c.data off v)[k]? = st.c.data[k]? := by
        rw [getElem?_splice (by rw [h.data_len]; omega)]
        by_cases hko : k < off
        · rw [if_pos hko]
        · rw [if_neg hko, if_neg (by omega)]
      rw [getD_eq_of this]
  constructor
  · refine ⟨by rw [hb]; exact h.bpb_pos, by rw [hb, ht]; exact h.cap, by
      rw [hb, ht, hd, hsl]; exact h.data_len, by rw [hll, ht]; exact h.loaded_len, by
      rw [hdl, ht]; exact h.dirty_len, ?_, by rw [hb, ht]; exact h.store, ?_⟩
    · intro j hj hdj
      rw [hlo]
      rw [hdi] at hdj
      split
      · rfl
      · rename_i hh; rw [if_neg hh] at hdj; exact h.dirty_loaded j (by rw [← ht]; exact hj) hdj
    · intro k hk hdk
      simp only [hb, ht] at hk hdk
      rw [hdi] at hdk
      by_cases hin : start ≤ k / st.c.bpb ∧ k / st.c.bpb < start + count
      · rw [if_pos hin] at hdk; simp at hdk
      · rw [if_neg hin] at hdk
        rw [hby k hk, if_neg (fun hh => hin (hblk k hh.1 hh.2))]
        exact h.clean k hk hdk
  · apply List.ext_getElem?
    intro k
    rw [getElem?_splice (by rw [length_contents]; omega), getElem?_contents, getElem?_contents]
    simp only [hb, ht]
    by_cases hk : k < st.c.total * st.c.bpb
    · rw [if_pos hk, if_pos hk, hby k hk]
      by_cases hko : k < off
      · rw [if_pos hko, if_neg (by omega)]
      · rw [if_neg hko]
        by_cases hkv : k < off + v.length
        · rw [if_pos hkv, if_pos ⟨by omega, hkv⟩, List.getD_eq_getElem?_getD,
            List.getElem?_eq_getElem (by omega)]; rfl
        · rw [if_neg hkv, if_neg (by omega)]
    · rw [if_neg hk, if_neg hk, if_neg (by omega), if_neg (by omega)]

theorem bpb_le {view : S → Bytes} {st : St S} (h : WF view st) {start : Nat} (hs : start < st.c.total) :
    st.c.bpb ≤ maxInt := by
  have := block_end_le (n := st.c.bpb) hs
  have := h.cap; omega

/-- Range facts for a buffer. -/
theorem ceil_facts {c : Cache} (hb : 0 < c.bpb) {start size : Nat} (hr : InRange c start size) :
    start + (size + (c.bpb - 1)) / c.bpb ≤ c.total ∧
    size ≤ (size + (c.bpb - 1)) / c.bpb * c.bpb ∧
    start * c.bpb + (size + (c.bpb - 1)) / c.bpb * c.bpb ≤ c.total * c.bpb := by
  have h1 := (ceil_add_iff (a := size) hb hr.1).2 hr.2
  refine ⟨h1, (ceil_le_iff hb).1 (Nat.le_refl _), ?_⟩
  rw [← Nat.add_mul]; exact Nat.mul_le_mul_right _ h1

theorem ceil_inRange {c : Cache} (hb : 0 < c.bpb) {start size : Nat} (hr : InRange c start size) :
    InRange c start ((size + (c.bpb - 1)) / c.bpb * c.bpb) :=
  ⟨hr.1, (ceil_facts hb hr).2.2⟩

theorem loadLoop_loaded (b : Backend S) (n i : Nat) (st : St S)
    (h : ∀ j, i ≤ j → j < i + n → st.c.loaded[j]? = some true) : loadLoop b n i st = .ret (st, none) := by
  induction n generalizing i with
  | zero => rfl
  | succ n ih =>
    unfold loadLoop bitGet
    rw [h i (by omega) (by omega)]
    simp only [Outcome.bind_ret, if_true]
    exact ih (i + 1) (fun j h1 h2 => h j (by omega) (by omega))

theorem loaded_getElem? {view : S → Bytes} {st : St S} (h : WF view st) {j : Nat}
    (hj : j < st.c.total) (hl : isLoaded st.c j = true) : st.c.loaded[j]? = some true := by
  have hlen : j < st.c.loaded.length := by
    rw [h.loaded_len]; have := le_bitmapLen st.c.total; omega
  simp only [isLoaded, List.getD_eq_getElem?_getD, List.getElem?_eq_getElem hlen] at hl
  rw [List.getElem?_eq_getElem hlen]; simpa using hl

/-- GetSlice on loaded blocks touches nothing. -/
theorem getSlice_loaded {b : Backend S} {view : S → Bytes}
    {st : St S} (h : WF view st) {start count : Nat}
    (hr : InRange st.c start (count * st.c.bpb))
    (hl : ∀ j, start ≤ j → j < start + count → isLoaded st.c j = true) :
    getSlice b st start count = .ret (st, .ok ⟨start * st.c.bpb, count * st.c.bpb⟩) := by
  have hcap := h.cap
  have hle := hr.2
  have hb := (inRange_blocks h.bpb_pos).1 hr
  have htot : st.c.total ≤ maxInt :=
    Nat.le_trans (Nat.le_mul_of_pos_right _ h.bpb_pos) h.cap
  unfold getSlice loadBlockRange
  rw [u64_of_lt (n := count * st.c.bpb) (by unfold maxInt at *; omega),
    checkBounds_eq h start (by omega), if_pos hr]
  simp only [Outcome.bind_ret]
  rw [u64_of_lt (n := start + count) (by unfold maxInt at *; omega),
    loadLoop_loaded]
  · simp only [Outcome.bind_ret]
    rw [u64_of_lt (n := start * st.c.bpb) (by unfold maxInt at *; omega),
        u64_of_lt (n := count * st.c.bpb) (by unfold maxInt at *; omega),
        u64_of_lt (n := start * st.c.bpb + count * st.c.bpb) (by unfold maxInt at *; omega)]
    rw [if_pos (by rw [h.data_len]; omega)]
    have : start * st.c.bpb + count * st.c.bpb - start * st.c.bpb = count * st.c.bpb := by omega
    rw [this]; rfl
  · intro j h1 h2
    exact loaded_getElem? h (by omega) (hl j h1 (by omega))

theorem readAt_spec {b : Backend S} {bpb : Nat} {view : S → Bytes} (L : Lawful b bpb view)
    (st : St S) (h : WF view st) (hb : st.c.bpb = bpb) (buf : Bytes) (start : Nat)
    (hc : buf.length ≤ maxInt) :
    (¬ InRange st.c start buf.length ∧
      readAt b st buf start = .ret (st, .error .argumentOutOfRange)) ∨
    (InRange st.c start buf.length ∧ ∃ st', Loads b view st st' ∧
      (readAt b st buf start = .ret (st', .ok
        (slice (contents view st) (start * st.c.bpb) buf.length,
         (buf.length + (st.c.bpb - 1)) / st.c.bpb * st.c.bpb)) ∨
       ∃ j be, readAt b st buf start = .ret (st', .error (.fetchFailed j be)) ∧ FetchFails b st.c.total j be)) := by
  unfold readAt
  rw [checkBounds_eq h start hc]
  by_cases hr : InRange st.c start buf.length
  · right
    refine ⟨hr, ?_⟩
    rw [if_pos hr]
    simp only [Outcome.bind_ret]
    rw [minBlocks_eq h.bpb_pos (bpb_le h hr.1) hc]
    simp only [Outcome.bind_ret]
    obtain ⟨f1, f2, f3⟩ := ceil_facts h.bpb_pos hr
    have hcap := h.cap
    have hir := ceil_inRange h.bpb_pos hr
    generalize (buf.length + (st.c.bpb - 1)) / st.c.bpb = n at *
    rcases loadBlockRange_spec L st h hb start n (by omega) with ⟨h1, h2⟩ | ⟨h1, st', e, h2, h3, h4, h5⟩
    · exact absurd hir h1
    · refine ⟨st', h3, ?_⟩
      rw [h2]
      simp only [Outcome.bind_ret]
      cases e with
      | some x =>
        right
        obtain ⟨j, be, hx, hj⟩ := h5 x rfl
        exact ⟨j, be, by rw [hx]; rfl, hj⟩
      | none =>
        left
        simp only
        rw [getSlice_loaded h3.wf (by
          unfold InRange; rw [h3.bpb, h3.total]; exact hir) (h4 rfl)]
        simp only [Outcome.bind_ret, Outcome.pure_eq, Cache.peek]
        rw [h3.bpb]
        have hp := peek_loaded h3.wf (start := start) (count := n) (by rw [h3.total]; omega) (h4 rfl)
        rw [h3.bpb, h3.contents_eq] at hp
        rw [hp]
        have hlen : (slice (contents view st) (start * st.c.bpb) (n * st.c.bpb)).length = n * st.c.bpb :=
          length_slice_of_le (by rw [length_contents]; omega)
        rw [hlen]
        have : goCopy buf (slice (contents view st) (start * st.c.bpb) (n * st.c.bpb)) =
            slice (contents view st) (start * st.c.bpb) buf.length := by
          apply slice_eq_of_getElem? (by simp)
          intro k hk
          rw [getElem?_goCopy, if_pos (by omega), getElem?_slice, if_pos (by omega)]
        rw [this]
  · left
    refine ⟨hr, ?_⟩
    rw [if_neg hr]; rfl

theorem nextPending_write {bpb start len j : Nat} (hb : 0 < bpb) :
    (decide (start * bpb < j * bpb + bpb) && decide (j * bpb < start * bpb + len)) =
    decide (start ≤ j ∧ j < start + (len + (bpb - 1)) / bpb) := by
  rw [Bool.eq_iff_iff]
  simp only [Bool.and_eq_true, decide_eq_true_eq]
  have e1 : j * bpb + bpb = (j + 1) * bpb := by rw [Nat.succ_mul]
  rw [e1, Nat.mul_lt_mul_right hb]
  constructor
  · rintro ⟨h1, h2⟩
    refine ⟨by omega, ?_⟩
    have hlt : ¬ (len + (bpb - 1)) / bpb ≤ j - start := by
      rw [ceil_le_iff hb, Nat.sub_mul]
      have := Nat.mul_le_mul_right bpb (show start ≤ j by omega)
      omega
    omega
  · rintro ⟨h1, h2⟩
    refine ⟨by omega, ?_⟩
    have hlt : ¬ (len + (bpb - 1)) / bpb ≤ j - start := by omega
    rw [ceil_le_iff hb, Nat.sub_mul] at hlt
    have := Nat.mul_le_mul_right bpb h1
    omega

theorem writeAt_spec {b : Backend S} {bpb : Nat} {view : S → Bytes} (L : Lawful b bpb view)
    (st : St S) (h : WF view st) (hb : st.c.bpb = bpb) (buf : Bytes) (start : Nat)
    (hc : buf.length ≤ maxInt) :
    (¬ InRange st.c start buf.length ∧
      writeAt b st buf start = .ret (st, .error .argumentOutOfRange)) ∨
    (InRange st.c start buf.length ∧ ∃ st',
      ((Loads b view st st' ∧ ∃ j be, writeAt b st buf start = .ret (st', .error (.fetchFailed j be)) ∧
        FetchFails b st.c.total j be) ∨
       (writeAt b st buf start = .ret (st', .ok buf.length) ∧
        StepOK b view st (.write buf start) st' (.write (.ok buf.length))))) := by
  unfold writeAt
  rw [checkBounds_eq h start hc]
  by_cases hr : InRange st.c start buf.length
  · right
    refine ⟨hr, ?_⟩
    rw [if_pos hr]
    simp only [Outcome.bind_ret]
    rw [minBlocks_eq h.bpb_pos (bpb_le h hr.1) hc]
    simp only [Outcome.bind_ret]
    obtain ⟨f1, f2, f3⟩ := ceil_facts h.bpb_pos hr
    have hcap := h.cap
    have hir := ceil_inRange h.bpb_pos hr
    have hnp := fun j => nextPending_write (start := start) (len := buf.length) (j := j) h.bpb_pos
    generalize (buf.length + (st.c.bpb - 1)) / st.c.bpb = n at *
    rcases getSlice_spec L st h hb start n (by omega) with
      ⟨h1, _⟩ | ⟨h1, st1, hld, ⟨h2, h3, h4⟩ | ⟨j, be, h2, hj⟩⟩
    · exact absurd hir h1
    · rw [h2]
      simp only [Outcome.bind_ret, Cache.peek]
      rw [splice_goCopy_slice (by rw [hld.wf.data_len, hld.bpb, hld.total]; omega) f2]
      have hbl : st.c.total ≤ bitmapLen st.c.total := le_bitmapLen _
      obtain ⟨c', e1, e2, e3, e4, e5, e6, e7, e8⟩ := markLoop_spec n start
        { st1.c with data := splice st1.c.data (start * st.c.bpb) buf }
        (by simp only [hld.wf.loaded_len, hld.total]; omega)
        (by simp only [hld.wf.dirty_len, hld.total]; omega)
      rw [e1]
      refine ⟨⟨c', st1.s⟩, Or.inr ⟨rfl, ?_⟩⟩
      obtain ⟨w1, w2⟩ := poke_spec hld.wf (start := start) (count := n) (off := start * st.c.bpb) (v := buf)
        (by rw [hld.total]; omega) (by rw [hld.bpb]; omega) (by rw [hld.bpb]; omega) h3 c'
        e2 e3 e4 e5 e6 e7 e8
      have hlo : ∀ j, isLoaded st1.c j = true → isLoaded c' j = true := by
        intro j hj; rw [e7]; split
        · rfl
        · exact hj
      refine ⟨w1, e2.trans hld.bpb, ?_, e3.trans hld.total, by simp [Result.err?], ?_, ?_⟩
      · refine ⟨by rw [length_contents]; exact hr.2, rfl, ?_⟩
        rw [w2, hld.contents_eq]
      · intro j h1 h2
        apply hlo
        apply hld.mono
        apply h1
        have := e3.trans hld.total
        simp only at h2 this
        omega
      · intro log hlog
        obtain ⟨evs, t1, t2⟩ := hld.trace log hlog
        refine ⟨evs, t1, t2.step hlo ?_⟩
        intro j _
        simp only [nextPending, hnp]
        rw [e8]
        simp only [isDirty, hld.dirty]
        by_cases hin : start ≤ j ∧ j < start + n
        · simp [hin]
        · rw [if_neg hin, decide_eq_false hin, Bool.or_false]
    · rw [h2]
      exact ⟨st1, Or.inl ⟨hld, j, be, rfl, hj⟩⟩
  · left
    refine ⟨hr, ?_⟩
    rw [if_neg hr]; rfl

theorem edit_spec {b : Backend S} {bpb : Nat} {view : S → Bytes} (L : Lawful b bpb view)
    (st : St S) (h : WF view st) (hb : st.c.bpb = bpb) (start count at_ : Nat) (v : Bytes)
    (hc : count * st.c.bpb ≤ maxInt) (hv : at_ + v.length ≤ count * st.c.bpb) :
    ∃ st' r, step b st (.edit start count at_ v) = .ret (st', .unit r) ∧
      StepOK b view st (.edit start count at_ v) st' (.unit r) := by
  simp only [step]
  rcases getSlice_spec L st h hb start count hc with
    ⟨h1, h2⟩ | ⟨h1, st1, hld, ⟨h2, h3, h4⟩ | ⟨j, be, h2, hj⟩⟩
  · rw [h2]
    exact ⟨st, _, rfl, (Loads.refl h).stepOK rfl rfl (by
      simp only [Result.err?, Option.some.injEq, forall_eq']
      exact not_inRange h h1) (fun _ _ _ _ => rfl)⟩
  · rw [h2]
    simp only [Outcome.bind_ret]
    have hcap := h.cap
    have hle := h1.2
    have hib := (inRange_blocks h.bpb_pos).1 h1
    unfold markBlockRangeDirty
    simp only [Cache.poke, hld.bpb]
    rw [u64_of_lt (n := count * st.c.bpb) (by unfold maxInt at *; omega)]
    have hbd := checkBounds_eq hld.wf start hc
    have hbd' : ∀ d, Cache.checkBounds ⟨st.c.bpb, st1.c.total, st1.c.loaded, st1.c.dirty, d⟩
        start (count * st.c.bpb) = .ret none := by
      intro d
      have : InRange st1.c start (count * st.c.bpb) := by
        unfold InRange; rw [hld.bpb, hld.total]; exact h1
      rw [if_pos this] at hbd
      rw [← hbd]
      unfold Cache.checkBounds Cache.getMinBlocksForSize
      simp only [hld.bpb]
    rw [hbd']
    simp only [Outcome.bind_ret]
    have hbl : st.c.total ≤ bitmapLen st.c.total := le_bitmapLen _
    obtain ⟨c', e1, e2, e3, e4, e5, e6, e7, e8⟩ := markLoop_spec count start
      ⟨st.c.bpb, st1.c.total, st1.c.loaded, st1.c.dirty,
        splice st1.c.data (start * st.c.bpb + at_) v⟩
      (by simp only [hld.wf.loaded_len, hld.total]; omega)
      (by simp only [hld.wf.dirty_len, hld.total]; omega)
    rw [e1]
    refine ⟨⟨c', st1.s⟩, _, rfl, ?_⟩
    obtain ⟨w1, w2⟩ := poke_spec hld.wf (start := start) (count := count)
      (off := start * st.c.bpb + at_) (v := v)
      (by rw [hld.total]; omega) (by rw [hld.bpb]; omega) (by rw [hld.bpb]; omega) h3 c'
      (e2.trans hld.bpb.symm) e3 e4 e5 e6 e7 e8
    have hlo : ∀ j, isLoaded st1.c j = true → isLoaded c' j = true := by
      intro j hj; rw [e7]; split
      · rfl
      · exact hj
    refine ⟨w1, e2, ?_, e3.trans hld.total, by simp [Result.err?], ?_, ?_⟩
    · refine ⟨by rw [length_contents]; exact hle, ?_⟩
      rw [w2, hld.contents_eq]
    · intro j h1 h2
      apply hlo
      apply hld.mono
      apply h1
      have := e3.trans hld.total
      simp only at h2 this
      omega
    · intro log hlog
      obtain ⟨evs, t1, t2⟩ := hld.trace log hlog
      refine ⟨evs, t1, t2.step hlo ?_⟩
      intro j _
      simp only [nextPending]
      rw [e8]
      simp only [isDirty, hld.dirty]
      by_cases hin : start ≤ j ∧ j < start + count
      · simp [hin]
      · rw [if_neg hin]
        have : (decide (start ≤ j) && decide (j < start + count)) = false := by
          rw [← Bool.decide_and]; exact decide_eq_false hin
        rw [this, Bool.or_false]
  · rw [h2]
    exact ⟨st1, _, rfl, hld.stepOK rfl rfl (by
      simp only [Result.err?, Option.some.injEq, forall_eq']
      show FetchFails b (st.c.total * st.c.bpb / st.c.bpb) j be
      rwa [Nat.mul_div_cancel _ h.bpb_pos]) (fun _ _ _ _ => rfl)⟩

/-! ### Resize -/

theorem getD_bitCopy {newLen : Nat} {old : List Bool} {j : Nat} (hj : j < newLen) :
    (bitCopy newLen old).getD j false = old.getD j false := by
  unfold bitCopy
  rw [List.getD_eq_getElem?_getD, List.getD_eq_getElem?_getD, List.getElem?_append, List.length_take,
    List.getElem?_take]
  by_cases h : j < min newLen old.length
  · rw [if_pos h, if_pos hj]
  · rw [if_neg h, List.getElem?_replicate]
    rw [List.getElem?_eq_none (l := old) (by omega)]
    split <;> rfl

theorem length_bitCopy (newLen : Nat) (old : List Bool) : (bitCopy newLen old).length = newLen := by
  simp [bitCopy]; omega

theorem resize_spec {b : Backend S} {bpb : Nat} {view : S → Bytes} (L : Lawful b bpb view)
    (st : St S) (h : WF view st) (hb : st.c.bpb = bpb) (n : Nat) (hn : n * st.c.bpb ≤ maxInt) :
    (∃ be s', b.resize st.s n = (s', some be) ∧
      resize b st n = .ret (⟨st.c, s'⟩, .error (.resizeFailed be)) ∧
      StepOK b view st (.resize n) ⟨st.c, s'⟩ (.unit (.error (.resizeFailed be)))) ∨
    (∃ st', (b.resize st.s n).2 = none ∧ resize b st n = .ret (st', .ok ()) ∧ st'.s = (b.resize st.s n).1 ∧
      StepOK b view st (.resize n) st' (.unit (.ok ()))) := by
  unfold resize
  have hrf := L.resize_fail st.s n
  have hro := L.resize_ok st.s n (by rw [← hb]; exact hn)
  rcases hres : b.resize st.s n with ⟨s', e⟩
  rw [hres] at hrf hro
  simp only at hrf hro
  cases e with
  | some e =>
    left
    refine ⟨e, s', rfl, rfl, ?_⟩
    have hv := hrf (by simp)
    have hby : ∀ k, byteAt view ⟨st.c, s'⟩ k = byteAt view st k := by
      intro k; unfold byteAt; simp only [hv]
    refine ⟨⟨h.bpb_pos, h.cap, h.data_len, h.loaded_len, h.dirty_len, h.dirty_loaded, by
      simp only [hv]; exact h.store, ?_⟩, rfl, ?_, rfl, ?_, fun j h1 h2 => h1 h2, ?_⟩
    · intro k hk hd
      rw [hby, hv]; exact h.clean k hk hd
    · exact contents_congr (st := st) (by rfl) (by rfl) (fun k _ => hby k)
    · simp only [Result.err?, Option.some.injEq, forall_eq']
      exact ⟨n, rfl, st.s, by rw [hres]⟩
    · intro log hlog
      have := hlog.resize st.s n
      rw [hres] at this
      refine ⟨_, this, ?_, ?_, ?_, ?_, ?_⟩
      · simp [EventOK]
      · simp [fetchedOk]
      · simp
      · simp [fetchedOk]
      · intro j _; rfl
  | none =>
    right
    obtain ⟨hvl, hvk⟩ := hro rfl
    have htot : n ≤ maxInt := Nat.le_trans (Nat.le_mul_of_pos_right _ h.bpb_pos) hn
    simp only
    rw [u64_of_lt (by unfold maxInt at *; omega), if_pos ⟨htot, hn⟩]
    have hbl : n ≤ bitmapLen n := le_bitmapLen _
    have hbl2 : st.c.total ≤ bitmapLen st.c.total := le_bitmapLen _
    have hmark : ∃ c2, markLoop (n - st.c.total) st.c.total
        { st.c with
          data := goCopy (List.replicate (n * st.c.bpb) 0) st.c.data
          dirty := bitCopy (bitmapLen n) st.c.dirty
          loaded := bitCopy (bitmapLen n) st.c.loaded } = .ret c2 ∧
        c2.bpb = st.c.bpb ∧ c2.data = goCopy (List.replicate (n * st.c.bpb) 0) st.c.data ∧
        c2.loaded.length = bitmapLen n ∧ c2.dirty.length = bitmapLen n ∧
        (∀ j, j < n → isLoaded c2 j = if st.c.total ≤ j then true else isLoaded st.c j) ∧
        (∀ j, j < n → isDirty c2 j = if st.c.total ≤ j then true else isDirty st.c j) := by
      by_cases hgrow : st.c.total ≤ n
      · obtain ⟨c', e1, e2, e3, e4, e5, e6, e7, e8⟩ := markLoop_spec (n - st.c.total) st.c.total
          { st.c with
            data := goCopy (List.replicate (n * st.c.bpb) 0) st.c.data
            dirty := bitCopy (bitmapLen n) st.c.dirty
            loaded := bitCopy (bitmapLen n) st.c.loaded }
          (by simp only [length_bitCopy]; omega) (by simp only [length_bitCopy]; omega)
        refine ⟨c', e1, e2, e4, by rw [e5, length_bitCopy], by rw [e6, length_bitCopy], ?_, ?_⟩
        · intro j hj
          rw [e7]
          by_cases hjt : st.c.total ≤ j
          · rw [if_pos (by omega), if_pos hjt]
          · rw [if_neg (by omega), if_neg hjt]
            exact getD_bitCopy (by omega)
        · intro j hj
          rw [e8]
          by_cases hjt : st.c.total ≤ j
          · rw [if_pos (by omega), if_pos hjt]
          · rw [if_neg (by omega), if_neg hjt]
            exact getD_bitCopy (by omega)
      · have e0 : n - st.c.total = 0 := by omega
        rw [e0]
        refine ⟨_, rfl, rfl, rfl, length_bitCopy _ _, length_bitCopy _ _, ?_, ?_⟩
        · intro j hj; rw [if_neg (by omega)]; exact getD_bitCopy (by omega)
        · intro j hj; rw [if_neg (by omega)]; exact getD_bitCopy (by omega)
    obtain ⟨c2, m1, m2, m3, m4, m5, m6, m7⟩ := hmark
    rw [m1]
    refine ⟨_, by first | rw [hres] | trivial, rfl, by simp, ?_⟩
    have hblk : ∀ k, k < n * st.c.bpb → k / st.c.bpb < n := by
      intro k hk; rw [Nat.div_lt_iff_lt_mul h.bpb_pos]; exact hk
    have hdl : (goCopy (List.replicate (n * st.c.bpb) 0) st.c.data).length = n * st.c.bpb := by simp
    have hby : ∀ k, k < n * st.c.bpb → byteAt view ⟨{ c2 with total := n }, s'⟩ k =
        if k < st.c.total * st.c.bpb then byteAt view st k else 0 := by
      intro k hk
      unfold byteAt
      have hkl := m6 (k / st.c.bpb) (hblk k hk)
      simp only [isLoaded, m2] at hkl ⊢
      rw [hkl, m3]
      by_cases hkt : k < st.c.total * st.c.bpb
      · have : k / st.c.bpb < st.c.total := by rw [Nat.div_lt_iff_lt_mul h.bpb_pos]; exact hkt
        rw [if_neg (show ¬ st.c.total ≤ k / st.c.bpb by omega), if_pos hkt]
        have hkv := hvk k (by rw [← hb]; exact hk) (by have := h.store; omega)
        rw [getD_eq_of hkv]
        have : (goCopy (List.replicate (n * st.c.bpb) 0) st.c.data)[k]? = st.c.data[k]? := by
          rw [getElem?_goCopy, if_pos (by rw [h.data_len, List.length_replicate]; omega)]
        rw [getD_eq_of this]
      · have : st.c.total ≤ k / st.c.bpb := by rw [Nat.le_div_iff_mul_le h.bpb_pos]; omega
        rw [if_pos this, if_neg hkt]
        simp only [if_true]
        rw [List.getD_eq_getElem?_getD, getElem?_goCopy, if_neg (by rw [h.data_len]; omega),
          List.getElem?_replicate, if_pos hk]; rfl
    refine ⟨⟨by simp only [m2]; exact h.bpb_pos, by simp only [m2]; exact hn, by
        simp only [m2, m3, hdl], m4, m5, ?_, by simp only [m2, hb]; exact hvl, ?_⟩, m2, ?_, rfl, by simp [Result.err?], ?_, ?_⟩
    · intro j hj hd
      have h6 := m6 j hj
      have h7 := m7 j hj
      simp only [isLoaded, isDirty] at h6 h7 hd ⊢
      rw [h6]
      rw [h7] at hd
      by_cases hjt : st.c.total ≤ j
      · rw [if_pos hjt]
      · rw [if_neg hjt] at hd ⊢
        exact h.dirty_loaded j (by omega) hd
    · intro k hk hd
      simp only [m2] at hk hd
      rw [hby k hk]
      have h7 := m7 _ (hblk k hk)
      simp only [isDirty] at h7 hd
      rw [h7] at hd
      by_cases hjt : st.c.total ≤ k / st.c.bpb
      · rw [if_pos hjt] at hd; simp at hd
      · rw [if_neg hjt] at hd
        have hkt : k < st.c.total * st.c.bpb := by
          rw [← Nat.div_lt_iff_lt_mul h.bpb_pos]; omega
        rw [if_pos hkt, h.clean k hkt hd]
        exact (getD_eq_of (hvk k (by rw [← hb]; exact hk) (by have := h.store; omega))).symm
    · show contents _ _ = _
      apply List.ext_getElem?
      intro k
      rw [getElem?_contents, List.getElem?_append, List.length_take, length_contents,
        List.getElem?_take, getElem?_contents, List.getElem?_replicate]
      have hby' := hby
      simp only [m2] at hby' ⊢
      by_cases hk : k < n * st.c.bpb
      · rw [if_pos hk, hby' k hk]
        by_cases hkt : k < st.c.total * st.c.bpb
        · rw [if_pos hkt, if_pos (by omega), if_pos hk, if_pos hkt]
        · rw [if_neg hkt, if_neg (by omega), if_pos (by omega)]
      · rw [if_neg hk]
        by_cases hkt : k < st.c.total * st.c.bpb
        · rw [if_neg (by omega), if_neg (by omega)]
        · rw [if_neg (by omega), if_neg (by omega)]
    · intro j h1 h2
      have h6 := m6 j h2
      simp only [isLoaded] at h6 h1 ⊢
      rw [h6]
      by_cases hjt : st.c.total ≤ j
      · rw [if_pos hjt]
      · rw [if_neg hjt]; exact h1 (by omega)
    · intro log hlog
      have := hlog.resize st.s n
      rw [hres] at this
      refine ⟨_, this, ?_, ?_, ?_, ?_, ?_⟩
      · simp [EventOK]
      · simp [fetchedOk]
      · simp
      · simp [fetchedOk]
      · intro j hj
        have h7 := m7 j hj
        simp only [isDirty, nextPending] at h7 ⊢
        rw [h7]
        by_cases hjt : st.c.total ≤ j
        · simp [hjt]
        · simp [hjt]

end Disko.BlockCache

import Verif.BlockCache.Steps
/-! Flush, and whole histories. -/
namespace Disko.BlockCache
open Disko Disko.BlockCache.Spec

variable {S : Type}

/-- The callback invocations of a flush of the blocks `[i, i+m)`. -/
def flushEvents (c : Cache) (i m : Nat) : List Event :=
  ((List.range' i m).filter (isDirty c)).map
    (fun j => .flush j (slice c.data (j * c.bpb) c.bpb) true)

theorem slice_loaded_block {view : S → Bytes} {st : St S} (h : WF view st) {j : Nat}
    (hj : j < st.c.total) (hl : isLoaded st.c j = true) :
    slice st.c.data (j * st.c.bpb) st.c.bpb = slice (contents view st) (j * st.c.bpb) st.c.bpb := by
  have := peek_loaded h (start := j) (count := 1) (by omega) (by
    intro i h1 h2
    have : i = j := by omega
    rw [this]; exact hl)
  rwa [Nat.one_mul] at this

/-- An optional error as a result. -/
def ofErr : Option Err → Except Err Unit
  | none => .ok ()
  | some x => .error x

/-- Result of a flush loop over `[i, i+n)` that stopped after `m` blocks. -/
structure Flushes (b : Backend S) (view : S → Bytes) (i n : Nat) (st st' : St S) (e : Option Err)
    (m : Nat) : Prop where
  wf : WF view st'
  bpb : st'.c.bpb = st.c.bpb
  total : st'.c.total = st.c.total
  loaded : st'.c.loaded = st.c.loaded
  data : st'.c.data = st.c.data
  dirty : ∀ j, isDirty st'.c j = (isDirty st.c j && !(decide (i ≤ j) && decide (j < i + m)))
  vlen : (view st'.s).length = (view st.s).length
  stored : ∀ k, (e = none ∨ k / st.c.bpb ≠ i + m) → (view st'.s)[k]? =
    if i ≤ k / st.c.bpb ∧ k / st.c.bpb < i + m ∧ isDirty st.c (k / st.c.bpb) = true
    then st.c.data[k]? else (view st.s)[k]?
  ok : e = none → m = n
  fail : ∀ x, e = some x → m < n ∧ isDirty st.c (i + m) = true ∧ ∃ be, x = .flushFailed (i + m) be ∧
    ∃ s buf, (b.flush s (i + m) buf).2 = some be ∧ buf.length = st.c.bpb ∧ (view s).length = (view st.s).length
  trace : ∀ log, Logs b log → log st'.s = log st.s ++ flushEvents st.c i m ++
    (if e.isSome then [.flush (i + m) (slice st.c.data ((i + m) * st.c.bpb) st.c.bpb) false] else [])

theorem flushLoop_spec {b : Backend S} {bpb : Nat} {view : S → Bytes} (L : Lawful b bpb view)
    (n i : Nat) (st : St S) (h : WF view st) (hb : st.c.bpb = bpb) (hi : i + n ≤ st.c.total) :
    ∃ st' e m, flushLoop b n i st = .ret (st', e) ∧ Flushes b view i n st st' e m := by
  induction n generalizing i st with
  | zero =>
    refine ⟨st, none, 0, rfl, h, rfl, rfl, rfl, rfl, ?_, rfl, ?_, by simp, by simp, ?_⟩
    · intro j
      have : (decide (i ≤ j) && decide (j < i + 0)) = false := by
        rw [← Bool.decide_and]; exact decide_eq_false (by omega)
      rw [this]; simp
    · intro k _; rw [if_neg (by omega)]
    · intro log _; simp [flushEvents]
  | succ n ih =>
    have hbp := h.bpb_pos
    have hdlen : i < st.c.dirty.length := by
      rw [h.dirty_len]; have := le_bitmapLen st.c.total; omega
    unfold flushLoop
    rw [bitGet_eq hdlen]
    simp only [Outcome.bind_ret]
    have hend := block_end_le (n := st.c.bpb) (i := i) (total := st.c.total) (by omega)
    cases hd : st.c.dirty.getD i false with
    | false =>
      simp only [Bool.not_false, if_true]
      obtain ⟨st', e, m, h1, F⟩ := ih (i + 1) st h hb (by omega)
      refine ⟨st', e, m + 1, h1, F.wf, F.bpb, F.total, F.loaded, F.data, ?_, F.vlen, ?_, ?_, ?_, ?_⟩
      · intro j
        rw [F.dirty]
        by_cases hji : j = i
        · subst hji; simp only [isDirty, hd]; simp
        · congr 2
          rw [Bool.eq_iff_iff]; simp; omega
      · intro k hk
        rw [F.stored k (hk.imp (fun h => h) (fun h => by omega))]
        by_cases hki : k / st.c.bpb = i
        · rw [hki]
          simp only [isDirty, hd]; simp
        · by_cases hin : i ≤ k / st.c.bpb ∧ k / st.c.bpb < i + (m + 1) ∧ isDirty st.c (k / st.c.bpb) = true
          · rw [if_pos hin, if_pos ⟨by omega, by omega, hin.2.2⟩]
          · rw [if_neg hin, if_neg (fun hh => hin ⟨by omega, by omega, hh.2.2⟩)]
      · intro he; rw [F.ok he]
      · intro x hx
        obtain ⟨f1, f2, f3⟩ := F.fail x hx
        have : i + (m + 1) = i + 1 + m := by omega
        rw [this]; exact ⟨by omega, f2, f3⟩
      · intro log hl
        rw [F.trace log hl]
        have : i + (m + 1) = i + 1 + m := by omega
        rw [this]
        congr 2
        unfold flushEvents
        rw [List.range'_succ, List.filter_cons]
        simp only [isDirty, hd]; simp
    | true =>
      have hlo : isLoaded st.c i = true := h.dirty_loaded i (by omega) hd
      simp only [Bool.not_true, Bool.false_eq_true, if_false]
      rw [getSlice_loaded h (start := i) (count := 1)
        ((inRange_blocks hbp).2 ⟨by omega, by omega⟩)
        (by intro j h1 h2; have : j = i := by omega
            rw [this]; exact hlo)]
      simp only [Outcome.bind_ret, Cache.peek, Nat.one_mul]
      have hsl : (slice st.c.data (i * st.c.bpb) st.c.bpb).length = st.c.bpb :=
        length_slice_of_le (by rw [h.data_len]; exact hend)
      have hfo := L.flush_ok st.s i (slice st.c.data (i * st.c.bpb) st.c.bpb)
        (by rw [← hb]; have := h.store; omega) (by rw [hsl, hb])
      have hff := L.flush_fail st.s i (slice st.c.data (i * st.c.bpb) st.c.bpb)
        (by rw [← hb]; have := h.store; omega) (by rw [hsl, hb])
      rcases hfl : b.flush st.s i (slice st.c.data (i * st.c.bpb) st.c.bpb) with ⟨s', e⟩
      rw [hfl] at hfo hff
      simp only at hfo hff
      cases e with
      | some e =>
        obtain ⟨v1, v2⟩ := hff (by simp)
        rw [← hb] at v2
        refine ⟨_, _, 0, rfl, ?_, rfl, rfl, rfl, rfl, ?_, v1, ?_, by simp, ?_, ?_⟩
        · refine ⟨hbp, h.cap, h.data_len, h.loaded_len, h.dirty_len, h.dirty_loaded, by
            simp only [v1]; exact h.store, ?_⟩
          intro k hk hdk
          simp only at hk hdk
          have hki : k / st.c.bpb ≠ i := by
            intro hh; rw [hh] at hdk; simp only [isDirty, hd] at hdk; simp at hdk
          have hc := h.clean k hk hdk
          unfold byteAt at hc ⊢
          simp only
          rw [getD_eq_of (v2 k hki)]
          exact hc
        · intro j
          have : (decide (i ≤ j) && decide (j < i + 0)) = false := by
            rw [← Bool.decide_and]; exact decide_eq_false (by omega)
          rw [this]; simp
        · intro k hk
          rw [if_neg (by omega)]
          rcases hk with hk | hk
          · simp at hk
          · exact v2 k hk
        · intro x hx
          simp at hx
          exact ⟨by omega, hd, e, hx.symm, st.s, _, by rw [Nat.add_zero, hfl], hsl, rfl⟩
        · intro log hl
          have := hl.flush st.s i (slice st.c.data (i * st.c.bpb) st.c.bpb)
          rw [hfl] at this
          simp only [this]
          simp [flushEvents]
      | none =>
        have hv := hfo rfl
        rw [← hb] at hv
        simp only [bitSet_eq hdlen, Outcome.bind_ret]
        have hvk : ∀ k, (view s')[k]? = if k / st.c.bpb = i then st.c.data[k]? else (view st.s)[k]? := by
          intro k
          rw [hv, getElem?_splice (by have := h.store; omega), hsl]
          by_cases hki : k / st.c.bpb = i
          · have := (div_eq_block hbp).1 hki
            rw [if_pos hki, if_neg (by omega), if_pos (by omega), getElem?_slice, if_pos (by omega)]
            congr 1; omega
          · have := mt (div_eq_block (k := k) (i := i) hbp).2 hki
            rw [if_neg hki]
            by_cases hk : k < i * st.c.bpb
            · rw [if_pos hk]
            · rw [if_neg hk, if_neg (by omega)]
        have hvl : (view s').length = (view st.s).length := by
          rw [hv]; exact length_splice (by rw [hsl]; have := h.store; omega)
        have hdset : ∀ j, (st.c.dirty.set i false).getD j false =
            if j = i then false else st.c.dirty.getD j false := fun j => getD_set _ _ _ _ hdlen
        have hw : WF view ⟨{ st.c with dirty := st.c.dirty.set i false }, s'⟩ := by
          refine ⟨hbp, h.cap, h.data_len, h.loaded_len, by
            simp only [List.length_set]; exact h.dirty_len, ?_, by
            simp only [hvl]; exact h.store, ?_⟩
          · intro j hj hdj
            simp only [isDirty, hdset] at hdj
            by_cases hji : j = i
            · rw [if_pos hji] at hdj; simp at hdj
            · rw [if_neg hji] at hdj; exact h.dirty_loaded j hj hdj
          · intro k hk hdk
            simp only [isDirty, hdset] at hdk hk
            unfold byteAt
            simp only
            by_cases hki : k / st.c.bpb = i
            · rw [hki, if_pos hlo]
              apply getD_eq_of
              rw [hvk, if_pos hki]
            · rw [if_neg hki] at hdk
              have hc := h.clean k hk hdk
              unfold byteAt at hc
              have := hvk k
              rw [if_neg hki] at this
              rw [getD_eq_of this]
              exact hc
        obtain ⟨st', e', m, h1, F⟩ := ih (i + 1) _ hw (by exact hb) (by show i + 1 + n ≤ st.c.total; omega)
        refine ⟨st', e', m + 1, h1, F.wf, F.bpb, F.total, F.loaded, F.data, ?_, F.vlen.trans hvl, ?_,
          ?_, ?_, ?_⟩
        · intro j
          rw [F.dirty]
          simp only [isDirty, hdset]
          by_cases hji : j = i
          · subst hji; simp
          · rw [if_neg hji]
            congr 2
            rw [Bool.eq_iff_iff]; simp; omega
        · intro k hk
          rw [F.stored k (hk.imp (fun h => h) (fun h => by simp only; omega))]
          simp only [isDirty, hdset]
          rw [hvk]
          by_cases hki : k / st.c.bpb = i
          · rw [hki, if_neg (by simp), if_pos rfl, if_pos ⟨by omega, by omega, hd⟩]
          · rw [if_neg hki, if_neg hki]
            by_cases hin : i ≤ k / st.c.bpb ∧ k / st.c.bpb < i + (m + 1) ∧
                st.c.dirty.getD (k / st.c.bpb) false = true
            · rw [if_pos hin, if_pos ⟨by omega, by omega, hin.2.2⟩]
            · rw [if_neg hin, if_neg (fun hh => hin ⟨by omega, by omega, hh.2.2⟩)]
        · intro he; rw [F.ok he]
        · intro x hx
          obtain ⟨f1, f2, be, f3, s1, buf, f4, f5, f6⟩ := F.fail x hx
          have : i + (m + 1) = i + 1 + m := by omega
          rw [this]
          refine ⟨by omega, ?_, be, f3, s1, buf, f4, f5, f6.trans hvl⟩
          simp only [isDirty, hdset] at f2 ⊢
          rw [if_neg (by omega)] at f2; exact f2
        · intro log hl
          rw [F.trace log hl]
          have := hl.flush st.s i (slice st.c.data (i * st.c.bpb) st.c.bpb)
          rw [hfl] at this
          simp only [Option.isNone_none] at this
          have hm : i + (m + 1) = i + 1 + m := by omega
          rw [hm]
          simp only [this]
          have hfe : flushEvents st.c i (m + 1) = .flush i (slice st.c.data (i * st.c.bpb) st.c.bpb) true ::
              flushEvents { st.c with dirty := st.c.dirty.set i false } (i + 1) m := by
            unfold flushEvents
            rw [List.range'_succ, List.filter_cons, if_pos (show isDirty st.c i = true from hd), List.map_cons]
            congr 2
            apply List.filter_congr
            intro j hj
            have := (List.mem_range'_1.1 hj).1
            simp only [isDirty, hdset]
            rw [if_neg (by omega)]
          rw [hfe]
          simp

theorem flush_spec {b : Backend S} {bpb : Nat} {view : S → Bytes} (L : Lawful b bpb view)
    (st : St S) (h : WF view st) (hb : st.c.bpb = bpb) :
    (st.c.total = 0 ∧ flush b st = .ret (st, .error .argumentOutOfRange)) ∨
    (0 < st.c.total ∧ ∃ st' e m, Flushes b view 0 st.c.total st st' e m ∧
      flush b st = .ret (st', ofErr e)) := by
  unfold flush flushBlockRange
  have hcap := h.cap
  rw [u64_of_lt (by unfold maxInt at *; omega), checkBounds_eq h 0 hcap]
  have htot : st.c.total ≤ maxInt :=
    Nat.le_trans (Nat.le_mul_of_pos_right _ h.bpb_pos) h.cap
  by_cases ht : st.c.total = 0
  · left
    refine ⟨ht, ?_⟩
    rw [if_neg (by unfold InRange; omega)]; rfl
  · right
    refine ⟨by omega, ?_⟩
    rw [if_pos (show InRange st.c 0 (st.c.total * st.c.bpb) by unfold InRange; omega)]
    simp only [Outcome.bind_ret]
    rw [u64_of_lt (by unfold maxInt at *; omega)]
    have e0 : 0 + st.c.total - 0 = st.c.total := by omega
    rw [e0]
    obtain ⟨st', e, m, h1, F⟩ := flushLoop_spec L st.c.total 0 st h hb (by omega)
    rw [h1]
    refine ⟨st', e, m, F, ?_⟩
    cases e <;> rfl

theorem Flushes.byteAt_eq {b : Backend S} {view : S → Bytes} {n m : Nat} {st st' : St S} {e : Option Err}
    (h : WF view st) (F : Flushes b view 0 n st st' e m) {k : Nat}
    (hk : k < st.c.total * st.c.bpb) : byteAt view st' k = byteAt view st k := by
  unfold byteAt
  simp only [isLoaded, F.bpb, F.loaded, F.data]
  by_cases hl : st.c.loaded.getD (k / st.c.bpb) false = true
  · rw [if_pos hl, if_pos hl]
  · rw [if_neg hl, if_neg hl]
    have hkb : k / st.c.bpb < st.c.total := by rw [Nat.div_lt_iff_lt_mul h.bpb_pos]; exact hk
    have hnd : ¬ isDirty st.c (k / st.c.bpb) = true := fun hd => hl (h.dirty_loaded _ hkb hd)
    apply getD_eq_of
    rw [F.stored k ?_, if_neg (fun hh => hnd hh.2.2)]
    cases e with
    | none => left; rfl
    | some x =>
      right
      obtain ⟨_, f2, _⟩ := F.fail x rfl
      intro hh; rw [Nat.zero_add] at hh f2; rw [hh] at hnd; exact hnd f2

theorem Flushes.contents_eq {b : Backend S} {view : S → Bytes} {n m : Nat} {st st' : St S} {e : Option Err}
    (h : WF view st) (F : Flushes b view 0 n st st' e m) :
    contents view st' = contents view st :=
  contents_congr F.total F.bpb (fun _ hk => F.byteAt_eq h hk)

theorem flushedOk_flushEvents (c : Cache) (i m : Nat) :
    flushedOk (flushEvents c i m) = (List.range' i m).filter (isDirty c) := by
  unfold flushEvents
  induction (List.range' i m).filter (isDirty c) with
  | nil => rfl
  | cons a l ih => simp [flushedOk, ih]

theorem fetchedOk_flushEvents (c : Cache) (i m : Nat) : fetchedOk (flushEvents c i m) = [] := by
  unfold flushEvents
  induction (List.range' i m).filter (isDirty c) with
  | nil => rfl
  | cons a l ih => simp [fetchedOk, ih]

theorem Flushes.stepOK {b : Backend S} {view : S → Bytes} {m : Nat} {st st' : St S} {e : Option Err}
    (h : WF view st) (F : Flushes b view 0 st.c.total st st' e m) :
    StepOK b view st .flush st' (.unit (ofErr e)) := by
  refine ⟨F.wf, F.bpb, ?_, ?_, ?_, ?_, ?_⟩
  · show contents view st' = contents view st
    exact F.contents_eq h
  · rw [F.total]; rfl
  · cases e with
    | none => simp [Result.err?, ofErr]
    | some x =>
      obtain ⟨hm, _, be, rfl, s1, buf, hf, _⟩ := F.fail x rfl
      simp only [Result.err?, ofErr, Option.some.injEq, forall_eq']
      exact ⟨rfl, by rw [Nat.mul_div_cancel _ h.bpb_pos]; omega, s1, buf, hf⟩
  · intro j h1 h2
    simp only [isLoaded, F.loaded]
    exact h1 (by rw [← F.total]; exact h2)
  · intro log hl
    have ht := F.trace log hl
    rw [List.append_assoc] at ht
    have hm : m ≤ st.c.total := by
      cases e with
      | none => rw [F.ok rfl]; exact Nat.le_refl _
      | some x => exact Nat.le_of_lt (F.fail x rfl).1
    have hflushed : flushedOk (flushEvents st.c 0 m ++ (if e.isSome = true then
        [Event.flush (0 + m) (slice st.c.data ((0 + m) * st.c.bpb) st.c.bpb) false] else [])) =
        (List.range' 0 m).filter (isDirty st.c) := by
      rw [flushedOk_append, flushedOk_flushEvents]
      split <;> simp [flushedOk]
    have hfetched : fetchedOk (flushEvents st.c 0 m ++ (if e.isSome = true then
        [Event.flush (0 + m) (slice st.c.data ((0 + m) * st.c.bpb) st.c.bpb) false] else [])) = [] := by
      rw [fetchedOk_append, fetchedOk_flushEvents]
      split <;> simp [fetchedOk]
    have hmem : ∀ x ∈ (flushEvents st.c 0 m ++ (if e.isSome = true then
        [Event.flush (0 + m) (slice st.c.data ((0 + m) * st.c.bpb) st.c.bpb) false] else [])),
        ∃ j ok, j < st.c.total ∧ x = .flush j (slice st.c.data (j * st.c.bpb) st.c.bpb) ok := by
      intro x hx
      rcases List.mem_append.1 hx with hx | hx
      · unfold flushEvents at hx
        simp only [List.mem_map, List.mem_filter] at hx
        obtain ⟨j, ⟨hj, _⟩, rfl⟩ := hx
        exact ⟨j, true, by have := (List.mem_range'_1.1 hj).2; omega, rfl⟩
      · cases e with
        | none => simp at hx
        | some y =>
          simp at hx
          exact ⟨m, false, (F.fail y rfl).1, hx⟩
    refine ⟨_, ht, ?_, ?_, ?_, ?_, ?_⟩
    · intro x hx
      obtain ⟨j, ok, hj, rfl⟩ := hmem x hx
      refine ⟨hj, length_slice_of_le ?_⟩
      rw [h.data_len]; exact block_end_le hj
    · rw [hfetched]; simp
    · intro j len ok hx
      obtain ⟨j', ok', _, hx'⟩ := hmem _ hx
      simp at hx'
    · rw [hfetched]; simp
    · intro j hj
      rw [F.dirty]
      simp only [nextPending]
      rw [hflushed]
      cases hd : isDirty st.c j
      · simp
      · simp only [Bool.true_and]
        congr 1
        rw [Bool.eq_iff_iff]
        simp only [List.contains_iff_mem, List.mem_filter, List.mem_range'_1, hd]
        simp

theorem no_err {b : Backend S} {bpb size : Nat} {op : Op} {r : Result} (h : r.err? = none) :
    ∀ x, r.err? = some x → Justified b bpb size op x := by
  intro x hx; rw [h] at hx; simp at hx

theorem one_err {b : Backend S} {bpb size : Nat} {op : Op} {r : Result} {y : Err} (h : r.err? = some y)
    (hy : Justified b bpb size op y) : ∀ x, r.err? = some x → Justified b bpb size op x := by
  intro x hx; rw [h] at hx; simp at hx; rw [← hx]; exact hy

/-- Every valid operation returns, and does what it should. -/
theorem step_spec {b : Backend S} {bpb : Nat} {view : S → Bytes} (L : Lawful b bpb view)
    (st : St S) (h : WF view st) (hb : st.c.bpb = bpb) (op : Op) (hv : Valid bpb op) :
    ∃ st' r, step b st op = .ret (st', r) ∧ StepOK b view st op st' r := by
  subst hb
  have hcancel : ∀ {j be}, FetchFails b st.c.total j be → FetchFails b (st.c.total * st.c.bpb / st.c.bpb) j be := by
    intro j be hf
    rwa [Nat.mul_div_cancel _ h.bpb_pos]
  have hall : ∀ st' r, loadBlockRange b st 0 st.c.total = .ret (st', r) →
      ¬ InRange st.c 0 (st.c.total * st.c.bpb) → st.c.total * st.c.bpb = 0 := by
    intro _ _ _ h1
    rcases Nat.eq_zero_or_pos st.c.total with h0 | h0
    · rw [h0, Nat.zero_mul]
    · exact absurd ⟨h0, by omega⟩ h1
  cases op with
  | read buf start =>
    simp only [step]
    rcases readAt_spec L st h rfl buf start hv with ⟨h1, h2⟩ | ⟨h1, st', hl, h2 | ⟨j, be, h2, hf⟩⟩
    · rw [h2]
      exact ⟨st, _, rfl, (Loads.refl h).stepOK rfl rfl (one_err rfl (not_inRange h h1)) (fun _ _ _ _ => rfl)⟩
    · rw [h2]
      exact ⟨st', _, rfl, hl.stepOK ⟨by rw [length_contents]; exact h1.2, rfl, rfl⟩ rfl (no_err rfl)
        (fun _ _ _ _ => rfl)⟩
    · rw [h2]; exact ⟨st', _, rfl, hl.stepOK rfl rfl (one_err rfl (hcancel hf)) (fun _ _ _ _ => rfl)⟩
  | write buf start =>
    simp only [step]
    rcases writeAt_spec L st h rfl buf start hv with ⟨h1, h2⟩ | ⟨h1, st', ⟨hl, j, be, h2, hf⟩ | ⟨h2, h3⟩⟩
    · rw [h2]
      exact ⟨st, _, rfl, (Loads.refl h).stepOK rfl rfl (one_err rfl (not_inRange h h1)) (fun _ _ _ _ => rfl)⟩
    · rw [h2]; exact ⟨st', _, rfl, hl.stepOK rfl rfl (one_err rfl (hcancel hf)) (fun _ _ _ _ => rfl)⟩
    · rw [h2]; exact ⟨st', _, rfl, h3⟩
  | resize n =>
    simp only [step]
    rcases resize_spec L st h rfl n hv with ⟨be, s', _, h2, h3⟩ | ⟨st', _, h2, _, h3⟩
    · rw [h2]; exact ⟨_, _, rfl, h3⟩
    · rw [h2]; exact ⟨_, _, rfl, h3⟩
  | flush =>
    simp only [step]
    rcases flush_spec L st h rfl with ⟨h1, h2⟩ | ⟨_, st', e, m, F, h2⟩
    · rw [h2]
      refine ⟨st, _, rfl, (Loads.refl h).stepOK rfl rfl (one_err rfl ?_) ?_⟩
      · show st.c.total * st.c.bpb = 0
        rw [h1, Nat.zero_mul]
      · intro evs p j he
        simp [nextPending, he]
    · rw [h2]; exact ⟨_, _, rfl, F.stepOK h⟩
  | loadAll =>
    simp only [step, loadAll]
    rcases loadBlockRange_spec L st h rfl 0 st.c.total h.cap with ⟨h1, h2⟩ | ⟨_, st', e, h2, hl, _, h5⟩
    · have h0 := hall _ _ h2 h1
      rw [h2]; exact ⟨_, _, rfl, (Loads.refl h).stepOK rfl rfl (one_err rfl h0) (fun _ _ _ _ => rfl)⟩
    · rw [h2]
      cases e with
      | none => exact ⟨_, _, rfl, hl.stepOK rfl rfl (no_err rfl) (fun _ _ _ _ => rfl)⟩
      | some x =>
        obtain ⟨j, be, rfl, hf⟩ := h5 x rfl
        exact ⟨_, _, rfl, hl.stepOK rfl rfl (one_err rfl (hcancel hf)) (fun _ _ _ _ => rfl)⟩
  | data =>
    simp only [step, data, loadAll]
    rcases loadBlockRange_spec L st h rfl 0 st.c.total h.cap with ⟨h1, h2⟩ | ⟨_, st', e, h2, hl, h4, h5⟩
    · have h0 := hall _ _ h2 h1
      rw [h2]; exact ⟨_, _, rfl, (Loads.refl h).stepOK rfl rfl (one_err rfl h0) (fun _ _ _ _ => rfl)⟩
    · rw [h2]
      cases e with
      | some x =>
        obtain ⟨j, be, rfl, hf⟩ := h5 x rfl
        exact ⟨_, _, rfl, hl.stepOK rfl rfl (one_err rfl (hcancel hf)) (fun _ _ _ _ => rfl)⟩
      | none =>
        refine ⟨_, _, rfl, hl.stepOK ?_ rfl (no_err rfl) (fun _ _ _ _ => rfl)⟩
        refine ⟨?_, rfl⟩
        have hp := peek_loaded hl.wf (start := 0) (count := st.c.total) (by rw [hl.total]; omega) (h4 rfl)
        simp only [Nat.zero_mul, hl.bpb, hl.contents_eq] at hp
        simp only [Cache.peek]
        rw [hl.wf.data_len, hl.total, hl.bpb, hp]
        have := slice_all (contents view st)
        rwa [length_contents] at this
  | getSlice start count =>
    simp only [step]
    rcases getSlice_spec L st h rfl start count hv with
      ⟨h1, h2⟩ | ⟨h1, st1, hld, ⟨h2, h3, h4⟩ | ⟨j, be, h2, hj⟩⟩
    · rw [h2]
      exact ⟨_, _, rfl, (Loads.refl h).stepOK rfl rfl (one_err rfl (not_inRange h h1)) (fun _ _ _ _ => rfl)⟩
    · rw [h2]
      refine ⟨_, _, rfl, hld.stepOK ?_ rfl (no_err rfl) (fun _ _ _ _ => rfl)⟩
      exact ⟨by rw [length_contents]; exact h1.2, h4, rfl⟩
    · rw [h2]; exact ⟨_, _, rfl, hld.stepOK rfl rfl (one_err rfl (hcancel hj)) (fun _ _ _ _ => rfl)⟩
  | edit start count at_ v =>
    obtain ⟨st', r, h1, h2⟩ := edit_spec L st h rfl start count at_ v hv.1 hv.2
    exact ⟨st', _, h1, h2⟩

/-- Histories. -/
theorem runOps_spec {b : Backend S} {bpb : Nat} {view : S → Bytes} (L : Lawful b bpb view)
    (ops : List Op) (st : St S) (h : WF view st) (hb : st.c.bpb = bpb) (hv : ∀ op ∈ ops, Valid bpb op) :
    ∃ st' rs, runOps b st ops = .ret (st', rs) ∧ WF view st' ∧ st'.c.bpb = bpb ∧
      ConformsAll bpb ops rs (contents view st) (contents view st') ∧
      (∀ j, (j < st.c.total → isLoaded st.c j = true) → j < st'.c.total → isLoaded st'.c j = true) := by
  induction ops generalizing st with
  | nil => exact ⟨st, [], rfl, h, hb, rfl, fun j h1 h2 => h1 h2⟩
  | cons op ops ih =>
    obtain ⟨st1, r, h1, s1⟩ := step_spec L st h hb op (hv op (by simp))
    obtain ⟨st2, rs, h2, w2, b2, c2, k2⟩ := ih st1 s1.wf (s1.bpb.trans hb) (fun o ho => hv o (by simp [ho]))
    refine ⟨st2, r :: rs, ?_, w2, b2, ⟨_, ?_, c2⟩, ?_⟩
    · unfold runOps; rw [h1]; simp only [Outcome.bind_ret]; rw [h2]; rfl
    · rw [← hb]; exact s1.conf
    · intro j hj; exact k2 j (s1.stuck j hj)

/-- A fresh cache. -/
theorem new_spec {bpb total : Nat} (hb : 0 < bpb) (hcap : total * bpb ≤ maxInt) (view : S → Bytes) (s : S)
    (hs : total * bpb ≤ (view s).length) :
    ∃ c, new bpb total = .ret c ∧ WF view ⟨c, s⟩ ∧ c.bpb = bpb ∧ c.total = total ∧
      (∀ j, isLoaded c j = false) ∧ (∀ j, isDirty c j = false) ∧
      contents view ⟨c, s⟩ = (view s).take (total * bpb) := by
  unfold new
  rw [Nat.mul_comm bpb total, u64_of_lt (by unfold maxInt at *; omega)]
  have htot : total ≤ maxInt := Nat.le_trans (Nat.le_mul_of_pos_right _ hb) hcap
  rw [if_pos ⟨htot, hcap⟩]
  have hf : ∀ n j, (List.replicate n false).getD j false = false := by
    intro n j; rw [List.getD_eq_getElem?_getD, List.getElem?_replicate]; split <;> rfl
  refine ⟨_, rfl, ⟨hb, hcap, by simp, by simp, by simp, ?_, hs, ?_⟩, rfl, rfl, ?_, ?_, ?_⟩
  · intro i _ hd; simp only [isDirty, hf] at hd; simp at hd
  · intro k hk _; unfold byteAt; simp only [isLoaded, hf]; simp
  · intro j; simp only [isLoaded, hf]
  · intro j; simp only [isDirty, hf]
  · apply List.ext_getElem?
    intro k
    rw [getElem?_contents, List.getElem?_take]
    simp only
    by_cases hk : k < total * bpb
    · rw [if_pos hk, if_pos hk]
      unfold byteAt
      simp only [isLoaded, hf]
      rw [if_neg (by simp), List.getD_eq_getElem?_getD, List.getElem?_eq_getElem (by omega)]; rfl
    · rw [if_neg hk, if_neg hk]

end Disko.BlockCache

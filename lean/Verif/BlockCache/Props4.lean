import Verif.BlockCache.Props2
/-!
C142: resizing a wrapped stream.
-/
namespace Disko.BlockCache
open Disko Disko.BlockCache.Spec

variable {S : Type}

theorem resize_off {n bpb : Nat} (hb : 0 < bpb) (hn : n * bpb ≤ maxInt) : i64 (i64 n * i64 bpb) = (n * bpb : Nat) := by
  unfold maxInt at hn
  have h1 : n ≤ n * bpb := Nat.le_mul_of_pos_right n hb
  rcases Nat.eq_zero_or_pos n with rfl | hnp
  · rw [i64_of_range (z := ((0 : Nat) : Int)) (by omega) (by omega)]; simp [i64]
  · have h2 : bpb ≤ n * bpb := Nat.le_mul_of_pos_left bpb hnp
    rw [i64_of_range (z := (n : Int)) (by omega) (by omega), i64_of_range (z := (bpb : Int)) (by omega) (by omega),
      i64_of_range (by omega) (by rw [← Int.natCast_mul]; omega), Int.natCast_mul]

theorem wrap_resize {r : RWS S} {bpb total n : Nat} {s : S} (hb : 0 < bpb) (hn : n * bpb ≤ maxInt) {t : S → Int → S × Option Nat}
    (ht : r.truncate = some t) : (wrapRWS r bpb total true).resize s n = ((t s (n * bpb : Nat)).1, (t s (n * bpb : Nat)).2.map .other) := by
  simp only [wrapRWS, ht, if_true]
  rw [resize_off hb hn]
  rcases t s (n * bpb : Nat) with ⟨s', _ | e⟩ <;> rfl

/-- **C142**: Resize of a cache made by WrapStream is refused, with no effect on the cache or the stream, if the caller of WrapStream forbade
resizing (ErrNotPermitted), or allowed it and the stream has no Truncate (ErrNotSupported). -/
theorem C142_refused (r : RWS S) (bpb total n : Nat) (st : St S) :
    resize (wrapRWS r bpb total false) st n = .ret (st, .error (.resizeFailed .notPermitted)) ∧
    (r.truncate = none → resize (wrapRWS r bpb total true) st n = .ret (st, .error (.resizeFailed .notSupported))) := by
  refine ⟨rfl, fun h => ?_⟩
  simp only [resize, wrapRWS, h]
  rfl

/-- **C142**: otherwise Resize calls the stream's Truncate once, with the new size in bytes. If that fails its error is returned and cache and
bytes are as before; if not, the cache has the new number of blocks and the stream is the truncated one (cut off, or extended with nulls). -/
theorem C142_resized {r : RWS S} {bytes : S → Bytes} {pos : S → Nat} (hl : StreamLaw r bytes pos) (hfull : FullReads r bytes pos) (hplain : PlainWrites r)
    {bpb total : Nat} {s0 : S} (hb : 0 < bpb) (hcap : total * bpb ≤ maxInt) (hs : total * bpb ≤ (bytes s0).length)
    {ops : List Op} {st : St S} {rs : List Result} (ha : After (wrapRWS r bpb total true) bpb total s0 ops st rs)
    {t : S → Int → S × Option Nat} (ht : r.truncate = some t) {n : Nat} (hn : n * bpb ≤ maxInt) :
    (∀ e, (t st.s (n * bpb : Nat)).2 = some e →
      resize (wrapRWS r bpb total true) st n = .ret (⟨st.c, (t st.s (n * bpb : Nat)).1⟩, .error (.resizeFailed (.other e))) ∧
      bytes (t st.s (n * bpb : Nat)).1 = bytes st.s) ∧
    ((t st.s (n * bpb : Nat)).2 = none → ∃ st', resize (wrapRWS r bpb total true) st n = .ret (st', .ok ()) ∧
      st'.c.totalBlocks = n ∧ st'.s = (t st.s (n * bpb : Nat)).1 ∧
      bytes st'.s = (bytes st.s).take (n * bpb) ++ List.replicate (n * bpb - (bytes st.s).length) 0) := by
  have H : Setup (wrapRWS r bpb total true) bpb total bytes s0 := ⟨wrapRWS_lawful hl hfull hplain hb hcap true, hb, hcap, hs⟩
  obtain ⟨w, hbp, _⟩ := after_spec H ha
  have hres := wrap_resize (total := total) (s := st.s) hb hn ht
  rcases resize_spec H.lawful st w hbp n (by rw [hbp]; exact hn) with ⟨be, s', h1, h2, _⟩ | ⟨st', h1, h2, h3, h4⟩
  · rw [hres] at h1
    refine ⟨fun e he => ?_, fun he => ?_⟩
    · rw [he] at h1
      cases h1
      exact ⟨h2, hl.truncate_fail t ht _ _ (by rw [he]; simp)⟩
    · rw [he] at h1
      simp at h1
  · rw [hres] at h1 h3
    refine ⟨fun e he => ?_, fun he => ?_⟩
    · rw [he] at h1
      simp at h1
    · refine ⟨st', h2, ?_, h3, ?_⟩
      · have h5 := h2
        unfold resize at h5
        rw [hres, he] at h5
        simp only [Option.map_none] at h5
        split at h5
        · generalize hm : markLoop (n - st.c.total) st.c.total _ = m at h5
          rcases m with c2 | _ | _
          · simp only [Outcome.bind_ret] at h5
            cases h5; rfl
          · simp at h5
          · simp at h5
        · simp at h5
      · rw [h3]
        exact hl.truncate_ok t ht _ _ he

/-- Non-vacuity: a stream that can be truncated, and one whose Truncate fails. -/
example : ∃ st rs, After (wrapRWS (tape none) 2 2 true) 2 2 ⟨[1, 2, 3, 4, 5], 0, [true]⟩ [.write [9] 1, .resize 3] st rs ∧
    (∃ t, (tape none).truncate = some t ∧ (t st.s (1 * 2 : Nat)).2 = none) ∧ 1 * 2 ≤ maxInt :=
  ⟨_, _, ⟨_, rfl, by simp [Valid, maxInt], rfl⟩, ⟨_, rfl, by decide +kernel⟩, by decide⟩

/-! #### Only Resize changes the number of blocks -/

theorem markLoop_total : ∀ (n i : Nat) (c : Cache), (markLoop n i c).All fun r => r.total = c.total
  | 0, i, c => by rw [markLoop]; exact .ret rfl
  | n + 1, i, c => by
    rw [markLoop]
    exact (Outcome.All.any _).bind fun _ _ => (Outcome.All.any _).bind fun _ _ => (markLoop_total n (i + 1) _).imp fun _ h => h

section
variable (b : Backend S)

theorem load_total (st : St S) (i n : Nat) : (loadBlockRange b st i n).All fun r => r.1.c.total = st.c.total :=
  (loadBlockRange_frame (R := fun _ _ : S => True) (fun _ => trivial) (fun _ _ => trivial) b st.c.shape (fun _ _ _ _ => trivial) i n st rfl).imp
    fun _ h => congrArg Shape.total h.shape

theorem getSlice_total (st : St S) (i n : Nat) : (getSlice b st i n).All fun r => r.1.c.total = st.c.total :=
  (getSlice_frame (R := fun _ _ : S => True) (fun _ => trivial) (fun _ _ => trivial) b st.c.shape (fun _ _ _ _ => trivial) i n st rfl).imp
    fun _ h => congrArg Shape.total h.shape

theorem flushLoop_total : ∀ (n i : Nat) (st : St S), (flushLoop b n i st).All fun r => r.1.c.total = st.c.total
  | 0, i, st => by rw [flushLoop]; exact .ret rfl
  | n + 1, i, st => by
    rw [flushLoop]
    refine (Outcome.All.any _).bind fun d _ => .ite (fun _ => flushLoop_total n (i + 1) st) fun _ => ?_
    refine (getSlice_total b st i 1).bind fun r hr => ?_
    rcases r with ⟨st', e | w⟩
    · exact .ret hr
    · simp only
      rcases hfe : b.flush st'.s i (st'.c.peek w) with ⟨s1, _ | e⟩
      · exact (Outcome.All.any _).bind fun d' _ => (flushLoop_total n (i + 1) ⟨{ st'.c with dirty := d' }, s1⟩).imp fun r2 hr2 => hr2.trans hr
      · exact .ret hr

theorem step_total (st : St S) (op : Op) (hr : ∀ s n, (b.resize s n).2 ≠ none) : (step b st op).All fun r => r.1.c.total = st.c.total := by
  have hall : (loadAll b st).All fun r => r.1.c.total = st.c.total := by
    unfold loadAll
    refine (load_total b st _ _).bind fun r h => ?_
    rcases r with ⟨st', _ | e⟩ <;> exact .ret h
  cases op with
  | read buf start =>
    refine Outcome.All.bind (P := fun r => r.1.c.total = st.c.total) ?_ fun r h => .ret h
    unfold readAt
    refine (Outcome.All.any _).bind fun c _ => ?_
    cases c with
    | some c => exact .ret rfl
    | none =>
      refine (Outcome.All.any _).bind fun n _ => (load_total b st _ _).bind fun r h => ?_
      rcases r with ⟨st', _ | e⟩
      · refine (getSlice_total b st' _ _).bind fun r h2 => ?_
        rcases r with ⟨st'', e | w⟩ <;> exact .ret (h2.trans h)
      · exact .ret h
  | write buf start =>
    refine Outcome.All.bind (P := fun r => r.1.c.total = st.c.total) ?_ fun r h => .ret h
    unfold writeAt
    refine (Outcome.All.any _).bind fun c _ => ?_
    cases c with
    | some c => exact .ret rfl
    | none =>
      refine (Outcome.All.any _).bind fun n _ => (getSlice_total b st _ _).bind fun r h => ?_
      rcases r with ⟨st', e | w⟩
      · exact .ret h
      · exact (markLoop_total _ _ _).bind fun c hc => .ret (hc.trans h)
  | resize n =>
    refine Outcome.All.bind (P := fun r => r.1.c.total = st.c.total) ?_ fun r h => .ret h
    unfold resize
    have := hr st.s n
    rcases hfe : b.resize st.s n with ⟨s1, _ | e⟩
    · rw [hfe] at this; exact absurd rfl this
    · exact .ret rfl
  | flush =>
    refine Outcome.All.bind (P := fun r => r.1.c.total = st.c.total) ?_ fun r h => .ret h
    unfold flush flushBlockRange
    refine Outcome.All.bind (P := fun r => r.1.c.total = st.c.total) ?_ fun r hr => ?_
    · refine (Outcome.All.any _).bind fun c _ => ?_
      cases c with
      | some c => exact .ret rfl
      | none => exact flushLoop_total b _ _ st
    · rcases r with ⟨st', _ | e⟩ <;> exact .ret hr
  | loadAll => exact hall.bind fun r h => .ret h
  | data =>
    refine Outcome.All.bind (P := fun r => r.1.c.total = st.c.total) ?_ fun r h => .ret h
    unfold data
    refine hall.bind fun r h => ?_
    rcases r with ⟨st', e | _⟩ <;> exact .ret h
  | getSlice start count => exact (getSlice_total b st _ _).bind fun r h => .ret h
  | edit start count at_ v =>
    refine (getSlice_total b st _ _).bind fun r h => ?_
    rcases r with ⟨st', e | w⟩
    · exact .ret h
    · refine Outcome.All.bind (P := fun r => r.1.c.total = st.c.total) ?_ fun r h => .ret h
      unfold markBlockRangeDirty
      refine (Outcome.All.any _).bind fun c _ => ?_
      cases c with
      | some c => exact .ret h
      | none => exact (markLoop_total _ _ _).bind fun c hc => .ret (hc.trans h)

theorem runOps_total (hr : ∀ s n, (b.resize s n).2 ≠ none) : ∀ (ops : List Op) (st : St S), (runOps b st ops).All fun r => r.1.c.total = st.c.total
  | [], _ => .ret rfl
  | op :: ops, st => (step_total b st op hr).bind fun r h => (runOps_total hr ops r.1).bind fun _ h2 => .ret (h2.trans h)
end

/-- **C142**: where resizing is forbidden, no history of operations changes the length of the stream, nor its bytes after the cached blocks,
nor the number of blocks, whatever the stream's methods deliver and however they fail. -/
theorem C142_forbidden {r : RWS S} {bytes : S → Bytes} {pos : S → Nat} (hl : StreamLaw r bytes pos)
    {bpb total : Nat} {s0 : S} (hb : 0 < bpb) (hb64 : bpb < 2 ^ 64) (hcap : total * bpb ≤ maxInt) (hs : total * bpb ≤ (bytes s0).length)
    {ops : List Op} {st : St S} {rs : List Result} (ha : After (wrapRWS r bpb total false) bpb total s0 ops st rs) :
    st.c.totalBlocks = total ∧ (bytes st.s).length = (bytes s0).length ∧ (bytes st.s).drop (total * bpb) = (bytes s0).drop (total * bpb) := by
  obtain ⟨c, hn, _, hr⟩ := ha
  obtain ⟨c', hn', w', hb', ht', _⟩ := new_spec hb hcap bytes s0 hs
  rw [hn] at hn'
  cases hn'
  refine ⟨(runOps_total (wrapRWS r bpb total false) (fun _ _ => by simp [wrapRWS]) ops _ _ hr).trans ht', ?_⟩
  have hseek := fun s i => seekToBlock_spec hl (total := total) hb hcap s i
  have := (runOps_frame (R := fun a b : S => total * bpb ≤ (bytes a).length → (bytes b).length = (bytes a).length ∧ (bytes b).drop (total * bpb) = (bytes a).drop (total * bpb))
    (fun s _ => ⟨rfl, rfl⟩) (fun h1 h2 h => ⟨(h2 (by rw [(h1 h).1]; exact h)).1.trans (h1 h).1, (h2 (by rw [(h1 h).1]; exact h)).2.trans (h1 h).2⟩)
    (wrapRWS r bpb total false) bpb hb64 (fun s i buf _ => by
      have hk := hseek s i
      have : bytes ((wrapRWS r bpb total false).fetch s i buf).1 = bytes s := by
        simp only [wrapRWS]
        rcases h : seekToBlock r s i total bpb with ⟨s', _ | e⟩
        · rw [h] at hk
          exact (hl.read_bytes s' buf.length).trans hk.1
        · rw [h] at hk
          exact hk.1
      rw [this]; exact ⟨rfl, rfl⟩)
    (fun s n _ => ⟨rfl, rfl⟩) (fun s i buf hlen hs => by
      have hk := hseek s i
      simp only [wrapRWS]
      rcases h : seekToBlock r s i total bpb with ⟨s', _ | e⟩
      · rw [h] at hk
        simp only at hk ⊢
        obtain ⟨hlt, hpos⟩ := hk.2 trivial
        have hend : i * bpb + bpb ≤ total * bpb := by
          rw [← Nat.succ_mul]; exact Nat.mul_le_mul_right _ hlt
        have hle := hl.write_le s' buf
        have htl : (buf.take (r.write s' buf).2.1).length = (r.write s' buf).2.1 := by rw [List.length_take]; omega
        have hin : i * bpb + (buf.take (r.write s' buf).2.1).length ≤ (bytes s).length := by omega
        rw [hl.write_bytes, hk.1, hpos, writeInto_inside hin]
        refine ⟨length_splice hin, List.ext_getElem? fun k => ?_⟩
        rw [List.getElem?_drop, List.getElem?_drop, getElem?_splice (by omega), if_neg (by omega), if_neg (by omega)]
      · rw [h] at hk
        simp only at hk ⊢
        rw [hk.1]; exact ⟨rfl, rfl⟩) ops _ hb' _ hr).1
  exact this hs

/-- Non-vacuity: short reads, a failing Write, a refused Resize; the stream keeps its 5 bytes. -/
example : ∃ st rs, After (wrapRWS (tape (some 1)) 2 2 false) 2 2 ⟨[1, 2, 3, 4, 5], 0, [false, true]⟩ [.write [9] 1, .flush, .resize 3, .flush] st rs ∧
    st.s.bytes = [1, 2, 9, 0, 5] :=
  ⟨_, _, ⟨_, rfl, by simp [Valid, maxInt], rfl⟩, by decide +kernel⟩

/-! #### The two models of WrapStream -/

/-- An os.File on which nothing fails, as a stream: contents and position (Go library). -/
def fileRWS (canTruncate : Bool) : RWS (Bytes × Nat) where
  read s n :=
    let d := slice s.1 s.2 n
    ((s.1, s.2 + d.length), d, if n ≠ 0 ∧ d = [] then some .eof else none)
  write s b := ((writeInto s.1 s.2 b, s.2 + b.length), b.length, none)
  seekStart s o := if o < 0 then (s, 0, some 9) else ((s.1, o.toNat), o, none)
  seekEnd s o := if s.1.length + o < 0 then (s, 0, some 9) else ((s.1, (s.1.length + o).toNat), s.1.length + o, none)
  truncate := if canTruncate then some fun s n =>
      if n < 0 then (s, some 9) else ((s.1.take n.toNat ++ List.replicate (n.toNat - s.1.length) 0, s.2), none)
    else none

theorem file_seek (ct : Bool) {bpb total i : Nat} (hb : 0 < bpb) (hcap : total * bpb ≤ maxInt) (f : Bytes) (p : Nat) :
    seekToBlock (fileRWS ct) (f, p) i total bpb = if i < total then ((f, i * bpb), none) else ((f, p), some .argumentOutOfRange) := by
  unfold seekToBlock
  by_cases hi : i < total
  · rw [if_neg (by omega), if_pos hi]
    simp only
    rw [block_exact hi hb hcap]
    simp only [fileRWS]
    rw [if_neg (by omega), Int.toNat_natCast]
  · rw [if_pos (by omega), if_neg hi]

theorem file_resize (ct : Bool) {bpb total n : Nat} (hb : 0 < bpb) (hn : n * bpb ≤ maxInt) (f : Bytes) (p : Nat) :
    (wrapRWS (fileRWS ct) bpb total true).resize (f, p) n =
      if ct then ((f.take (n * bpb) ++ List.replicate (n * bpb - f.length) 0, p), none) else ((f, p), some .notSupported) := by
  cases ct
  · rfl
  · rw [wrap_resize (r := fileRWS true) (S := Bytes × Nat) hb hn rfl]
    generalize n * bpb = m
    rw [if_neg (by omega), Int.toNat_natCast]
    rfl

/-- **C142** and C21: over a file on which nothing fails, the callbacks of WrapStream are those of the simpler model `wrapStream` (which keeps
no position): the same results, and the same bytes of the file afterwards. -/
theorem C142_file (ct ar : Bool) {bpb total : Nat} (hb : 0 < bpb) (hcap : total * bpb ≤ maxInt) (f : Bytes) (p : Nat) :
    (∀ i buf, (((wrapRWS (fileRWS ct) bpb total ar).fetch (f, p) i buf).2 = ((wrapStream bpb total ar).fetch ⟨f, ct⟩ i buf).2 ∧
      ((wrapRWS (fileRWS ct) bpb total ar).fetch (f, p) i buf).1.1 = ((wrapStream bpb total ar).fetch ⟨f, ct⟩ i buf).1.bytes)) ∧
    (∀ i buf, buf.length = bpb →
      (((wrapRWS (fileRWS ct) bpb total ar).flush (f, p) i buf).2 = ((wrapStream bpb total ar).flush ⟨f, ct⟩ i buf).2 ∧
      ((wrapRWS (fileRWS ct) bpb total ar).flush (f, p) i buf).1.1 = ((wrapStream bpb total ar).flush ⟨f, ct⟩ i buf).1.bytes)) ∧
    (∀ n, n * bpb ≤ maxInt →
      (((wrapRWS (fileRWS ct) bpb total ar).resize (f, p) n).2 = ((wrapStream bpb total ar).resize ⟨f, ct⟩ n).2 ∧
      ((wrapRWS (fileRWS ct) bpb total ar).resize (f, p) n).1.1 = ((wrapStream bpb total ar).resize ⟨f, ct⟩ n).1.bytes)) := by
  have hseek := fun i => file_seek ct (i := i) hb hcap f p
  refine ⟨fun i buf => ?_, fun i buf hlen => ?_, fun n hn => ?_⟩
  · simp only [wrapRWS, wrapStream, hseek]
    by_cases hi : i < total
    · rw [if_pos hi, if_neg (by omega)]
      refine ⟨?_, rfl⟩
      simp only [fileRWS]
      split <;> rfl
    · rw [if_neg hi, if_pos (by omega)]
      exact ⟨rfl, rfl⟩
  · simp only [wrapRWS, wrapStream, hseek]
    by_cases hi : i < total
    · rw [if_pos hi, if_neg (by omega)]
      refine ⟨rfl, ?_⟩
      simp only [fileRWS, writeInto, Stream.writeAt]
      rw [if_neg (by intro h; rw [h] at hlen; simp at hlen; omega)]
      congr 1
      rw [List.drop_append]
      simp
      omega
    · rw [if_neg hi, if_pos (by omega)]
      exact ⟨rfl, rfl⟩
  · cases ar
    · exact ⟨rfl, rfl⟩
    · rw [file_resize ct hb hn]
      cases ct <;> exact ⟨rfl, rfl⟩

end Disko.BlockCache

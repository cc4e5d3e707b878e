import Verif.BlockCache.Props
import Verif.BlockCache.Wrap
import Verif.Stream.FrameLen
/-! C113-C115: caches over arbitrary streams and over slices. -/
namespace Disko.BlockCache
open Disko Disko.BlockCache.Spec

namespace Spec

/-- Writing `v` at `pos` into a file: it grows if need be, a gap is filled with zeros. -/
def writeInto (file : Bytes) (pos : Nat) (v : Bytes) : Bytes :=
  if v = [] then file else (file ++ List.replicate (pos - file.length) 0).take pos ++ v ++ file.drop (pos + v.length)

/-- The contracts of io.Reader, io.Writer, io.Seeker and os.File.Truncate for a stream whose contents are `bytes` and whose position is `pos`.
Read may return fewer bytes than asked for, and everything may fail. -/
structure StreamLaw {S : Type} (r : RWS S) (bytes : S → Bytes) (pos : S → Nat) : Prop where
  read_bytes : ∀ s n, bytes (r.read s n).1 = bytes s
  read_le : ∀ s n, (r.read s n).2.1.length ≤ n
  read_data : ∀ s n, (r.read s n).2.1 = slice (bytes s) (pos s) (r.read s n).2.1.length
  read_pos : ∀ s n, pos (r.read s n).1 = pos s + (r.read s n).2.1.length
  write_le : ∀ s b, (r.write s b).2.1 ≤ b.length
  write_all : ∀ s b, (r.write s b).2.2 = none → (r.write s b).2.1 = b.length
  write_bytes : ∀ s b, bytes (r.write s b).1 = writeInto (bytes s) (pos s) (b.take (r.write s b).2.1)
  write_pos : ∀ s b, pos (r.write s b).1 = pos s + (r.write s b).2.1
  seek_bytes : ∀ s o, bytes (r.seekStart s o).1 = bytes s ∧ bytes (r.seekEnd s o).1 = bytes s
  seekStart_ok : ∀ s (n : Nat), (r.seekStart s n).2.2 = none → pos (r.seekStart s n).1 = n ∧ (r.seekStart s n).2.1 = n
  seekEnd_ok : ∀ s, (r.seekEnd s 0).2.2 = none → pos (r.seekEnd s 0).1 = (bytes s).length ∧ (r.seekEnd s 0).2.1 = (bytes s).length
  truncate_ok : ∀ t, r.truncate = some t → ∀ s (n : Nat), (t s n).2 = none →
    bytes (t s n).1 = (bytes s).take n ++ List.replicate (n - (bytes s).length) 0
  truncate_fail : ∀ t, r.truncate = some t → ∀ s n, (t s n).2 ≠ none → bytes (t s n).1 = bytes s

/-- Read delivers all there is, up to the length of the buffer, unless it fails. -/
def FullReads {S : Type} (r : RWS S) (bytes : S → Bytes) (pos : S → Nat) : Prop :=
  ∀ s n, (∀ e, (r.read s n).2.2 ≠ some (.other e)) → (r.read s n).2.1.length = min n ((bytes s).length - pos s)

/-- Write does not use io.EOF as an error. -/
def PlainWrites {S : Type} (r : RWS S) : Prop := ∀ s b, (r.write s b).2.2 ≠ some .eof

end Spec

/-! ### C113 -/

/-- The property: over any stream that obeys the contracts of the io package, at least as long as the cached object, every history of
operations gives the results of a flat byte array that starts as the stream's bytes. -/
def C113_statement : Prop :=
  ∀ (S : Type) (r : RWS S) (bytes : S → Bytes) (pos : S → Nat), StreamLaw r bytes pos →
    ∀ (bpb total : Nat) (s0 : S) (allowResize : Bool), 0 < bpb → total * bpb ≤ maxInt → total * bpb ≤ (bytes s0).length →
    ∀ ops : List Op, (∀ op ∈ ops, Valid bpb op) →
      ∃ st rs a, After (wrapRWS r bpb total allowResize) bpb total s0 ops st rs ∧ ConformsAll bpb ops rs ((bytes s0).take (total * bpb)) a

theorem dropEOF_none {e : Option IOErr} (h : dropEOF e = none) : ∀ n, e ≠ some (.other n) := by
  rintro n rfl; cases h

/-- Where a block starts, without overflow. -/
theorem offset_exact {i bpb : Nat} (h : i * bpb ≤ maxInt) (h1 : i ≠ 0 → bpb ≤ maxInt) (h2 : i ≤ maxInt) : i64 (i64 i * i64 bpb) = ((i * bpb : Nat) : Int) := by
  unfold maxInt at *
  by_cases h0 : i = 0
  · subst h0
    simp [i64]
  · have := h1 h0
    rw [i64_of_range (z := (i : Int)) (by omega) (by omega), i64_of_range (z := (bpb : Int)) (by omega) (by omega), ← Int.natCast_mul]
    exact i64_of_range (by omega) (by omega)

theorem block_exact {i bpb total : Nat} (hi : i < total) (hb : 0 < bpb) (hcap : total * bpb ≤ maxInt) :
    i64 (i64 i * i64 bpb) = ((i * bpb : Nat) : Int) := by
  have h1 : i * bpb ≤ total * bpb := Nat.mul_le_mul_right _ (by omega)
  have h2 : 1 * bpb ≤ total * bpb := Nat.mul_le_mul_right _ (by omega)
  have h3 : total ≤ total * bpb := Nat.le_mul_of_pos_right _ hb
  exact offset_exact (by omega) (fun _ => by omega) (by omega)

variable {S : Type}

theorem seekToBlock_spec {r : RWS S} {bytes : S → Bytes} {pos : S → Nat} (hl : StreamLaw r bytes pos) {bpb total : Nat} (hb : 0 < bpb) (hcap : total * bpb ≤ maxInt)
    (s : S) (i : Nat) : bytes (seekToBlock r s i total bpb).1 = bytes s ∧
      ((seekToBlock r s i total bpb).2 = none → i < total ∧ pos (seekToBlock r s i total bpb).1 = i * bpb) := by
  unfold seekToBlock
  split
  · exact ⟨rfl, fun h => by cases h⟩
  · rename_i hi
    simp only
    rw [block_exact (by omega) hb hcap]
    have h1 := (hl.seek_bytes s ((i * bpb : Nat) : Int)).1
    have h2 := hl.seekStart_ok s (i * bpb)
    rcases h : r.seekStart s ((i * bpb : Nat) : Int) with ⟨s', o, _ | e⟩
    · rw [h] at h1 h2
      exact ⟨h1, fun _ => ⟨by omega, (h2 rfl).1⟩⟩
    · rw [h] at h1
      exact ⟨h1, fun h => by cases h⟩

theorem writeInto_inside {file v : Bytes} {p : Nat} (h : p + v.length ≤ file.length) : writeInto file p v = splice file p v := by
  unfold writeInto
  split
  · rename_i hv
    subst hv
    simp [splice]
  · have : p - file.length = 0 := by omega
    simp [splice, this]

theorem wrapRWS_lawful {r : RWS S} {bytes : S → Bytes} {pos : S → Nat} (hl : StreamLaw r bytes pos) (hfull : FullReads r bytes pos) (hplain : PlainWrites r)
    {bpb total : Nat} (hb : 0 < bpb) (hcap : total * bpb ≤ maxInt) (allowResize : Bool) : Lawful (wrapRWS r bpb total allowResize) bpb bytes := by
  have hseek := fun s i => seekToBlock_spec hl (total := total) hb hcap s i
  refine ⟨fun s i buf => ?_, fun s i buf h1 h2 h3 => ?_, fun s i buf h1 h2 h3 => ?_, fun s i buf h1 h2 h3 => ?_, fun s n hn h => ?_, fun s n h => ?_⟩
  · have hk := hseek s i
    simp only [wrapRWS]
    rcases h : seekToBlock r s i total bpb with ⟨s', _ | e⟩
    · rw [h] at hk
      exact (hl.read_bytes s' buf.length).trans hk.1
    · rw [h] at hk
      exact hk.1
  · have hk := hseek s i
    simp only [wrapRWS] at h3 ⊢
    rcases h : seekToBlock r s i total bpb with ⟨s', _ | e⟩
    · rw [h] at hk h3
      simp only at h3 hk ⊢
      obtain ⟨hlt, hpos⟩ := hk.2 trivial
      have hd := hl.read_data s' buf.length
      have hlen := hfull s' buf.length (dropEOF_none h3)
      rw [hk.1, hpos, h2] at hlen
      rw [h2] at hd ⊢
      rw [Nat.min_eq_left (by omega)] at hlen
      rw [hlen, hk.1, hpos] at hd
      rw [goCopy_eq_of_length (by rw [h2, hlen]), hd]
    · rw [h] at h3
      cases h3
  · have hk := hseek s i
    simp only [wrapRWS] at h3 ⊢
    rcases h : seekToBlock r s i total bpb with ⟨s', _ | e⟩
    · rw [h] at hk h3
      simp only at h3 hk ⊢
      obtain ⟨hlt, hpos⟩ := hk.2 trivial
      have hnone : (r.write s' buf).2.2 = none := by
        have := hplain s' buf
        rcases hw : (r.write s' buf).2.2 with _ | _ | e
        · rfl
        · exact absurd hw this
        · rw [hw] at h3; cases h3
      rw [hl.write_bytes, hl.write_all s' buf hnone, List.take_length, hk.1, hpos]
      exact writeInto_inside (by omega)
    · rw [h] at h3
      cases h3
  · have hk := hseek s i
    simp only [wrapRWS]
    rcases h : seekToBlock r s i total bpb with ⟨s', _ | e⟩
    · rw [h] at hk
      simp only at hk ⊢
      obtain ⟨hlt, hpos⟩ := hk.2 trivial
      have hle := hl.write_le s' buf
      have htl : (buf.take (r.write s' buf).2.1).length = (r.write s' buf).2.1 := by rw [List.length_take]; omega
      have hin : i * bpb + (buf.take (r.write s' buf).2.1).length ≤ (bytes s).length := by omega
      rw [hl.write_bytes, hk.1, hpos, writeInto_inside hin]
      refine ⟨length_splice hin, fun k hkne => ?_⟩
      have hkr : k < i * bpb ∨ i * bpb + bpb ≤ k := by
        rcases Nat.lt_or_ge k (i * bpb) with h | h
        · exact .inl h
        · refine .inr (Nat.le_of_not_lt fun h' => hkne ?_)
          rw [Nat.div_eq_iff hb]
          omega
      rw [getElem?_splice (by omega)]
      rcases hkr with hk' | hk'
      · rw [if_pos hk']
      · rw [if_neg (by omega), if_neg (by omega)]
    · rw [h] at hk
      exact ⟨congrArg List.length hk.1, fun k _ => by rw [hk.1]⟩
  · simp only [wrapRWS] at h ⊢
    have hno : i64 (i64 n * i64 bpb) = ((n * bpb : Nat) : Int) := by
      have h3 : n ≤ n * bpb := Nat.le_mul_of_pos_right _ hb
      refine offset_exact hn (fun h0 => ?_) (by omega)
      have : 1 * bpb ≤ n * bpb := Nat.mul_le_mul_right _ (by omega)
      omega
    cases allowResize with
    | false => cases h
    | true =>
      simp only [if_true] at h ⊢
      rcases ht : r.truncate with _ | t
      · rw [ht] at h; cases h
      · rw [ht] at h
        simp only [hno] at h ⊢
        have ho := hl.truncate_ok t ht s (n * bpb)
        rcases hr : t s ((n * bpb : Nat) : Int) with ⟨s', _ | e⟩
        · rw [hr] at ho
          simp only at ho ⊢
          rw [ho trivial]
          refine ⟨by rw [List.length_append, List.length_take, List.length_replicate]; omega, fun k h1 h2 => ?_⟩
          rw [List.getElem?_append_left (by rw [List.length_take]; omega), List.getElem?_take, if_pos h1]
        · rw [hr] at h; cases h
  · simp only [wrapRWS] at h ⊢
    cases allowResize with
    | false => rfl
    | true =>
      simp only [if_true] at h ⊢
      rcases ht : r.truncate with _ | t
      · rfl
      · rw [ht] at h
        simp only at h ⊢
        have ho := hl.truncate_fail t ht s (i64 (i64 n * i64 bpb))
        rcases hr : t s (i64 (i64 n * i64 bpb)) with ⟨s', _ | e⟩
        · rw [hr] at h; exact absurd rfl h
        · rw [hr] at ho
          exact ho (by simp)

/-- **C113 (partial)**: the property for streams whose Read delivers all there is unless it fails, and whose Write does not return io.EOF. Their methods may
fail at any time. -/
theorem C113_full_reads_partial {r : RWS S} {bytes : S → Bytes} {pos : S → Nat} (hl : StreamLaw r bytes pos) (hfull : FullReads r bytes pos) (hplain : PlainWrites r)
    {bpb total : Nat} {s0 : S} {allowResize : Bool} (hb : 0 < bpb) (hcap : total * bpb ≤ maxInt) (hs : total * bpb ≤ (bytes s0).length)
    (ops : List Op) (hv : ∀ op ∈ ops, Valid bpb op) :
    ∃ st rs a, After (wrapRWS r bpb total allowResize) bpb total s0 ops st rs ∧ ConformsAll bpb ops rs ((bytes s0).take (total * bpb)) a :=
  C09_flat_array ⟨wrapRWS_lawful hl hfull hplain hb hcap allowResize, hb, hcap, hs⟩ ops hv

/-- **C113 (partial)**: a successful Flush puts the contents on such a stream. -/
theorem C113_flush_partial {r : RWS S} {bytes : S → Bytes} {pos : S → Nat} (hl : StreamLaw r bytes pos) (hfull : FullReads r bytes pos) (hplain : PlainWrites r)
    {bpb total : Nat} {s0 : S} {allowResize : Bool} (hb : 0 < bpb) (hcap : total * bpb ≤ maxInt) (hs : total * bpb ≤ (bytes s0).length)
    {ops : List Op} {st st' : St S} {rs : List Result} (ha : After (wrapRWS r bpb total allowResize) bpb total s0 ops st rs)
    (hf : flush (wrapRWS r bpb total allowResize) st = .ret (st', .ok ())) :
    ∃ a, ConformsAll bpb ops rs ((bytes s0).take (total * bpb)) a ∧ a.length = st'.c.totalBlocks * bpb ∧ (bytes st'.s).take a.length = a :=
  C10_flush_durable ⟨wrapRWS_lawful hl hfull hplain hb hcap allowResize, hb, hcap, hs⟩ ha hf

/-! Examples: a stream over a byte array that delivers at most `chunk` bytes per Read if that is given, and fails where `faults` says so. -/

/-- See above. -/
structure Tape where
  bytes : Bytes
  pos : Nat
  faults : List Bool
deriving DecidableEq, Repr

/-- See above. -/
def tape (chunk : Option Nat) : RWS Tape where
  read s n :=
    if s.faults.headD false then ({ s with faults := s.faults.tail }, [], some (.other 7))
    else
      let d := slice s.bytes s.pos (chunk.elim n (min n))
      (⟨s.bytes, s.pos + d.length, s.faults.tail⟩, d, none)
  write s b :=
    if s.faults.headD false then ({ s with faults := s.faults.tail }, 0, some (.other 8))
    else (⟨writeInto s.bytes s.pos b, s.pos + b.length, s.faults.tail⟩, b.length, none)
  seekStart s o := if o < 0 then (s, 0, some 9) else ({ s with pos := o.toNat }, o, none)
  seekEnd s o := if o = 0 then ({ s with pos := s.bytes.length }, s.bytes.length, none) else (s, 0, some 9)
  truncate := some fun s n => if n < 0 then (s, some 9) else ({ s with bytes := s.bytes.take n.toNat ++ List.replicate (n.toNat - s.bytes.length) 0 }, none)

theorem tape_law (chunk : Option Nat) : StreamLaw (tape chunk) Tape.bytes Tape.pos where
  read_bytes s n := by simp only [tape]; split <;> rfl
  read_le s n := by
    simp only [tape]
    split
    · simp
    · simp only [slice, List.length_take]; cases chunk <;> simp only [Option.elim] <;> omega
  read_data s n := by
    simp only [tape]
    split
    · simp [slice]
    · simp [slice, List.take_take]
  read_pos s n := by simp only [tape]; split <;> rfl
  write_le s b := by simp only [tape]; split <;> simp
  write_all s b h := by
    simp only [tape] at h ⊢
    split
    · rename_i hf; rw [if_pos hf] at h; cases h
    · rfl
  write_bytes s b := by
    simp only [tape]
    split
    · simp [writeInto]
    · simp
  write_pos s b := by simp only [tape]; split <;> rfl
  seek_bytes s o := by constructor <;> simp only [tape] <;> split <;> rfl
  seekStart_ok s n h := by
    simp only [tape]
    rw [if_neg (by omega)]
    simp
  seekEnd_ok s h := by simp [tape]
  truncate_ok t ht s n h := by
    cases ht
    simp only
    rw [if_neg (by omega)]
    simp
  truncate_fail t ht s n h := by
    cases ht
    simp only at h ⊢
    split
    · rfl
    · rename_i hn; rw [if_neg hn] at h; exact absurd rfl h

theorem tape_full : FullReads (tape none) Tape.bytes Tape.pos := by
  intro s n h
  simp only [tape] at h ⊢
  split
  · rename_i hf
    rw [if_pos hf] at h
    exact absurd rfl (h 7)
  · simp [slice]

theorem tape_plain (chunk : Option Nat) : PlainWrites (tape chunk) := by
  intro s b
  simp only [tape]
  split <;> simp

/-- Non-vacuity: the first Read fails, the second one succeeds, the Flush writes through. -/
example : ∃ st rs a, After (wrapRWS (tape none) 2 2 true) 2 2 ⟨[1, 2, 3, 4, 5], 0, [true]⟩ [.read [0, 0] 0, .write [9] 1, .flush] st rs ∧
    ConformsAll 2 [.read [0, 0] 0, .write [9] 1, .flush] rs [1, 2, 3, 4] a :=
  C113_full_reads_partial (tape_law none) tape_full (tape_plain none) (s0 := ⟨[1, 2, 3, 4, 5], 0, [true]⟩) (by decide) (by decide) (by decide) _ (by simp [Valid, maxInt])

example : (do
    let c ← new 2 2
    let r ← runOps (wrapRWS (tape none) 2 2 true) ⟨c, ⟨[1, 2, 3, 4, 5], 0, [true]⟩⟩ [.read [0, 0] 0, .write [9] 1, .flush]
    return (r.1.s.bytes, r.2)) =   .ret ([1, 2, 9, 4, 5], [.read (.error (.fetchFailed 0 (.other 7))), .write (.ok 1), .unit (.ok ())]) := by decide +kernel

/-- A Read that returns less than a block is taken for the whole block: the rest of it is 0, although the stream has other bytes. -/
theorem C113_refuted : ¬ C113_statement := by
  intro h
  obtain ⟨st, rs, a, ⟨c, hn, _, hrun⟩, hconf⟩ := h Tape (tape (some 1)) Tape.bytes Tape.pos (tape_law (some 1)) 2 1 ⟨[1, 2], 0, []⟩ false (by decide) (by decide) (by decide)
    [.read [0, 0] 0] (by simp [Valid, maxInt])
  have hn' : new 2 1 = .ret ⟨2, 1, List.replicate 8 false, List.replicate 8 false, [0, 0]⟩ := by decide +kernel
  rw [hn'] at hn
  cases hn
  have hrs : rs = [.read (.ok ([1, 0], 2))] := by
    have : (runOps (wrapRWS (tape (some 1)) 2 1 false) ⟨⟨2, 1, List.replicate 8 false, List.replicate 8 false, [0, 0]⟩, ⟨[1, 2], 0, []⟩⟩ [.read [0, 0] 0]) =
      .ret (⟨⟨2, 1, [true, false, false, false, false, false, false, false], List.replicate 8 false, [1, 0]⟩, ⟨[1, 2], 1, []⟩⟩, [.read (.ok ([1, 0], 2))]) := by rfl
    rw [this] at hrun
    cases hrun
    rfl
  subst hrs
  obtain ⟨a1, hc, _⟩ := hconf
  have := hc.2.1
  exact absurd this (by decide)

/-! ### What operations can do to the storage -/
section
variable {R : S → S → Prop} (hrefl : ∀ s, R s s) (htrans : ∀ {a b c}, R a b → R b c → R a c) (b : Backend S)
  (bpb : Nat) (hb : bpb < 2 ^ 64) (hf : ∀ s i buf, R s (b.fetch s i buf).1)
  (hr : ∀ s n, R s (b.resize s n).1)
include hrefl htrans hb hf

theorem step_frame_op (st : St S) (hs : st.c.bpb = bpb) (op : Op) (hr : ∀ n, op = .resize n → R st.s (b.resize st.s n).1)
    (hw : op = .flush → ∀ s i buf, buf.length = bpb → R s (b.flush s i buf).1) : (step b st op).All fun r => R st.s r.1.s ∧ r.1.c.bpb = bpb := by
  have hload : ∀ (st : St S) i n, st.c.bpb = bpb → (loadBlockRange b st i n).All fun r => R st.s r.1.s ∧ r.1.c.bpb = bpb := fun st i n hs =>
    (loadBlockRange_frame hrefl htrans b st.c.shape (fun s i buf _ => hf s i buf) i n st rfl).imp fun r h => ⟨h.rel, (congrArg Shape.bpb h.shape).trans hs⟩
  have hget : ∀ (st : St S) i n, st.c.bpb = bpb → (getSlice b st i n).All fun r => R st.s r.1.s ∧ r.1.c.bpb = bpb := fun st i n hs =>
    (getSlice_frame hrefl htrans b st.c.shape (fun s i buf _ => hf s i buf) i n st rfl).imp fun r h => ⟨h.rel, (congrArg Shape.bpb h.shape).trans hs⟩
  have hall : (loadAll b st).All fun r => R st.s r.1.s ∧ r.1.c.bpb = bpb := by
    unfold loadAll
    refine (hload st _ _ hs).bind fun r h => ?_
    rcases r with ⟨st', _ | e⟩ <;> exact .ret h
  cases op with
  | read buf start =>
    refine Outcome.All.bind (P := fun r => R st.s r.1.s ∧ r.1.c.bpb = bpb) ?_ fun r h => .ret h
    unfold readAt
    refine (Outcome.All.any _).bind fun c _ => ?_
    cases c with
    | some c => exact .ret ⟨hrefl _, hs⟩
    | none =>
      refine (Outcome.All.any _).bind fun n _ => (hload st _ _ hs).bind fun r h => ?_
      rcases r with ⟨st', _ | e⟩
      · refine (hget st' _ _ h.2).bind fun r h2 => ?_
        rcases r with ⟨st'', e | w⟩ <;> exact .ret ⟨htrans h.1 h2.1, h2.2⟩
      · exact .ret h
  | write buf start =>
    refine Outcome.All.bind (P := fun r => R st.s r.1.s ∧ r.1.c.bpb = bpb) ?_ fun r h => .ret h
    unfold writeAt
    refine (Outcome.All.any _).bind fun c _ => ?_
    cases c with
    | some c => exact .ret ⟨hrefl _, hs⟩
    | none =>
      refine (Outcome.All.any _).bind fun n _ => (hget st _ _ hs).bind fun r h => ?_
      rcases r with ⟨st', e | w⟩
      · exact .ret h
      · exact (markLoop_bpb _ _ _).bind fun c hc => .ret ⟨h.1, hc.trans h.2⟩
  | resize n => exact (resize_len b bpb n st hs (hr n rfl)).bind fun r h => .ret h
  | flush => exact (flush_len hrefl htrans b bpb hb hf (hw rfl) st hs).bind fun r h => .ret h
  | loadAll => exact hall.bind fun r h => .ret h
  | data =>
    refine Outcome.All.bind (P := fun r => R st.s r.1.s ∧ r.1.c.bpb = bpb) ?_ fun r h => .ret h
    unfold data
    refine hall.bind fun r h => ?_
    rcases r with ⟨st', e | _⟩ <;> exact .ret h
  | getSlice start count => exact (hget st _ _ hs).bind fun r h => .ret h
  | edit start count at_ v =>
    refine (hget st _ _ hs).bind fun r h => ?_
    rcases r with ⟨st', e | w⟩
    · exact .ret h
    · refine Outcome.All.bind (P := fun r => R st.s r.1.s ∧ r.1.c.bpb = bpb) ?_ fun r h => .ret h
      unfold markBlockRangeDirty
      refine (Outcome.All.any _).bind fun c _ => ?_
      cases c with
      | some c => exact .ret h
      | none => exact (markLoop_bpb _ _ _).bind fun c hc => .ret ⟨h.1, hc.trans h.2⟩

include hr

theorem step_frame (st : St S) (hs : st.c.bpb = bpb) (op : Op) (hw : op = .flush → ∀ s i buf, buf.length = bpb → R s (b.flush s i buf).1) :
    (step b st op).All fun r => R st.s r.1.s ∧ r.1.c.bpb = bpb :=
  step_frame_op hrefl htrans b bpb hb hf st hs op (fun n _ => hr st.s n) hw

theorem runOps_frame (hw : ∀ s i buf, buf.length = bpb → R s (b.flush s i buf).1) : ∀ (ops : List Op) (st : St S), st.c.bpb = bpb → (runOps b st ops).All fun r => R st.s r.1.s ∧ r.1.c.bpb = bpb
  | [], _, hs => .ret ⟨hrefl _, hs⟩
  | op :: ops, st, hs =>
    (step_frame hrefl htrans b bpb hb hf hr st hs op fun _ => hw).bind fun r h =>
      (runOps_frame hw ops r.1 h.2).bind fun _ h2 => .ret ⟨htrans h.1 h2.1, h2.2⟩
end

/-! ### C114: WrapSlice -/

/-- The callbacks of WrapSlice. -/
abbrev sliceBackend (bpb total : Nat) : Backend SliceStream := wrapRWS sliceRWS bpb total false

theorem slice_seek {bpb total i : Nat} (hb : 0 < bpb) (hcap : total * bpb ≤ maxInt) (s : SliceStream) :
    seekToBlock sliceRWS s i total bpb = if i < total then ({ s with pos := i * bpb }, none) else (s, some .argumentOutOfRange) := by
  unfold seekToBlock
  by_cases hi : i < total
  · rw [if_neg (by omega), if_pos hi]
    simp only
    rw [block_exact hi hb hcap]
    simp only [sliceRWS]
    rw [if_neg (by omega), Int.toNat_natCast]
  · rw [if_pos (by omega), if_neg hi]

theorem slice_fetch {bpb total i : Nat} (hb : 0 < bpb) (hcap : total * bpb ≤ maxInt) (s : SliceStream) (buf : Bytes) :
    ((sliceBackend bpb total).fetch s i buf).1.storage = s.storage ∧ (i < total → i * bpb + bpb ≤ s.storage.length → buf.length = bpb →
      ((sliceBackend bpb total).fetch s i buf).2 = (slice s.storage (i * bpb) bpb, none)) ∧
    (¬ i < total → ((sliceBackend bpb total).fetch s i buf).2.2 = some .argumentOutOfRange) ∧
    (i < total → ((sliceBackend bpb total).fetch s i buf).2.2 = none) := by
  simp only [sliceBackend, wrapRWS, slice_seek hb hcap]
  by_cases hi : i < total
  · rw [if_pos hi]
    simp only [sliceRWS]
    refine ⟨by split <;> rfl, fun _ h1 h2 => ?_, fun h => absurd hi h, fun _ => by split <;> rfl⟩
    rw [if_neg (by omega), h2]
    simp only [dropEOF]
    rw [goCopy_eq_of_length (by rw [h2, length_slice_of_le (by omega)])]
  · rw [if_neg hi]
    exact ⟨rfl, fun h => absurd h hi, fun _ => rfl, fun h => absurd h hi⟩

theorem slice_flush {bpb total i : Nat} (hb : 0 < bpb) (hcap : total * bpb ≤ maxInt) (s : SliceStream) (buf : Bytes) (hs : i * bpb + bpb ≤ s.storage.length) (hl : buf.length = bpb) :
    ((sliceBackend bpb total).flush s i buf).2 = (if i < total then none else some .argumentOutOfRange) ∧
    ((sliceBackend bpb total).flush s i buf).1.storage = if i < total then splice s.storage (i * bpb) buf else s.storage := by
  simp only [sliceBackend, wrapRWS, slice_seek hb hcap]
  by_cases hi : i < total
  · have h1 : ¬ buf.length < buf.length := by omega
    have h2 : i * bpb ≤ s.storage.length := by omega
    simp only [if_pos hi, sliceRWS]
    rw [List.take_of_length_le (by omega)]
    simp only [if_neg h1, if_pos h2]
    exact ⟨rfl, trivial⟩
  · simp only [if_neg hi]
    exact ⟨trivial, trivial⟩

theorem slice_lawful {bpb total : Nat} (hb : 0 < bpb) (hcap : total * bpb ≤ maxInt) : Lawful (sliceBackend bpb total) bpb SliceStream.storage := by
  refine ⟨fun s i buf => (slice_fetch hb hcap s buf).1, fun s i buf h1 h2 h3 => ?_, fun s i buf h1 h2 h3 => ?_, fun s i buf h1 h2 h3 => ?_, fun s n hn h => ?_, fun s n h => rfl⟩
  · by_cases hi : i < total
    · rw [(slice_fetch hb hcap s buf).2.1 hi h1 h2]
    · rw [(slice_fetch hb hcap s buf).2.2.1 hi] at h3; cases h3
  · obtain ⟨h4, h5⟩ := slice_flush (total := total) hb hcap s buf h1 h2
    by_cases hi : i < total
    · rw [h5, if_pos hi]
    · rw [h4, if_neg hi] at h3; cases h3
  · obtain ⟨h4, h5⟩ := slice_flush (total := total) hb hcap s buf h1 h2
    by_cases hi : i < total
    · rw [h4, if_pos hi] at h3; exact absurd rfl h3
    · rw [h5, if_neg hi]
      exact ⟨rfl, fun _ _ => rfl⟩
  · cases h

/-- Flushing whole blocks does not touch what follows the last whole block, nor the length. -/
theorem slice_flush_frame {bpb total : Nat} (hb : 0 < bpb) (hcap : total * bpb ≤ maxInt) (s : SliceStream) (i : Nat) (buf : Bytes) (hl : buf.length = bpb) :
    (total * bpb ≤ s.storage.length → ((sliceBackend bpb total).flush s i buf).1.storage.length = s.storage.length ∧
      ((sliceBackend bpb total).flush s i buf).1.storage.drop (total * bpb) = s.storage.drop (total * bpb)) := by
  intro hs
  by_cases hi : i < total
  · have hend : i * bpb + bpb ≤ total * bpb := by
      rw [← Nat.succ_mul]; exact Nat.mul_le_mul_right _ hi
    obtain ⟨_, h5⟩ := slice_flush (total := total) hb hcap s buf (i := i) (by omega) hl
    rw [h5, if_pos hi]
    refine ⟨length_splice (by omega), List.ext_getElem? fun k => ?_⟩
    rw [List.getElem?_drop, List.getElem?_drop, getElem?_splice (by omega), if_neg (by omega), if_neg (by omega)]
  · have : (sliceBackend bpb total).flush s i buf = (s, some .argumentOutOfRange) := by
      simp only [sliceBackend, wrapRWS, slice_seek hb hcap, if_neg hi]
    rw [this]
    exact ⟨rfl, rfl⟩

theorem wrapSlice_setup {storage : Bytes} {bpb : Nat} (hb : 0 < bpb) (hlen : storage.length ≤ maxInt) :
    Setup (sliceBackend bpb (storage.length / bpb)) bpb (storage.length / bpb) SliceStream.storage ⟨storage, 0⟩ := by
  have h := Nat.div_mul_le_self storage.length bpb
  exact ⟨slice_lawful hb (by omega), hb, by omega, h⟩

/-- Where a history of the cache WrapSlice gives ends. -/
def AfterSlice (storage : Bytes) (bpb : Nat) (ops : List Op) (st : St SliceStream) (rs : List Result) : Prop :=
  ∃ total st0, wrapSlice storage bpb = .ret (total, st0) ∧ (∀ op ∈ ops, Valid bpb op) ∧ runOps (sliceBackend bpb total) st0 ops = .ret (st, rs)

theorem AfterSlice.after {storage : Bytes} {bpb : Nat} {ops : List Op} {st : St SliceStream} {rs : List Result} (h : AfterSlice storage bpb ops st rs) :
    After (sliceBackend bpb (storage.length / bpb)) bpb (storage.length / bpb) ⟨storage, 0⟩ ops st rs := by
  obtain ⟨total, st0, h1, h2, h3⟩ := h
  unfold wrapSlice at h1
  split at h1
  · cases h1
  · rcases hn : new bpb (storage.length / bpb) with c | _ | _
    · rw [hn] at h1
      cases h1
      exact ⟨c, hn, h2, h3⟩
    · rw [hn] at h1; cases h1
    · rw [hn] at h1; cases h1

/-- **C114**: block size 0 panics; any other gives a cache of the slice's whole blocks, over which every history of operations gives the results of a flat
byte array that starts as those bytes of the slice. -/
theorem C114_flat_array (storage : Bytes) (bpb : Nat) (hlen : storage.length ≤ maxInt) :
    (bpb = 0 → wrapSlice storage bpb = .panic) ∧
    (0 < bpb → ∀ ops : List Op, (∀ op ∈ ops, Valid bpb op) →
      ∃ st rs a, AfterSlice storage bpb ops st rs ∧ ConformsAll bpb ops rs (storage.take (storage.length / bpb * bpb)) a) := by
  refine ⟨fun h => by simp [wrapSlice, h], fun hb ops hv => ?_⟩
  obtain ⟨st, rs, a, ⟨c, hn, _, hr⟩, hc⟩ := C09_flat_array (wrapSlice_setup hb hlen) ops hv
  refine ⟨st, rs, a, ⟨storage.length / bpb, ⟨c, ⟨storage, 0⟩⟩, ?_, hv, hr⟩, hc⟩
  unfold wrapSlice
  rw [if_neg (by omega), hn]
  rfl

theorem slice_resize {bpb total : Nat} (st : St SliceStream) (n : Nat) :
    step (sliceBackend bpb total) st (.resize n) = .ret (st, .unit (.error (.resizeFailed .notPermitted))) := rfl

theorem slice_total_step {bpb total : Nat} (hb : 0 < bpb) (hcap : total * bpb ≤ maxInt) {st : St SliceStream} (w : WF SliceStream.storage st) (hbp : st.c.bpb = bpb)
    (ht : st.c.total = total) {op : Op} (hv : Valid bpb op) {st' : St SliceStream} {r : Result} (hs : step (sliceBackend bpb total) st op = .ret (st', r)) :
    WF SliceStream.storage st' ∧ st'.c.bpb = bpb ∧ st'.c.total = total := by
  obtain ⟨st1, r1, h1, s1⟩ := step_spec (slice_lawful (total := total) hb hcap) st w hbp op hv
  rw [hs] at h1
  cases h1
  refine ⟨s1.wf, s1.bpb.trans hbp, s1.total.trans ?_⟩
  cases op with
  | resize n =>
    rw [slice_resize] at hs
    cases hs
    exact ht
  | _ => exact ht

theorem slice_total_run {bpb total : Nat} (hb : 0 < bpb) (hcap : total * bpb ≤ maxInt) : ∀ (ops : List Op) {st : St SliceStream}, WF SliceStream.storage st → st.c.bpb = bpb →
    st.c.total = total → (∀ op ∈ ops, Valid bpb op) → ∀ {st' : St SliceStream} {rs : List Result}, runOps (sliceBackend bpb total) st ops = .ret (st', rs) → st'.c.total = total
  | [], st, w, hbp, ht, hv, st', rs, h => by cases h; exact ht
  | op :: ops, st, w, hbp, ht, hv, st', rs, h => by
    unfold runOps at h
    rcases hs : step (sliceBackend bpb total) st op with ⟨st1, r⟩ | _ | _
    · rw [hs, Outcome.bind_ret] at h
      obtain ⟨w1, hb1, ht1⟩ := slice_total_step hb hcap w hbp ht (hv op (by simp)) hs
      rcases hr : runOps (sliceBackend bpb total) st1 ops with ⟨st2, rs2⟩ | _ | _
      · simp only [hr, Outcome.bind_ret] at h
        cases h
        exact slice_total_run hb hcap ops w1 hb1 ht1 (fun o ho => hv o (by simp [ho])) hr
      · simp only [hr] at h; cases h
      · simp only [hr] at h; cases h
    · rw [hs] at h; cases h
    · rw [hs] at h; cases h

/-- What is true after every history. -/
theorem slice_after {storage : Bytes} {bpb : Nat} (hb : 0 < bpb) (hlen : storage.length ≤ maxInt) {ops : List Op} {st : St SliceStream} {rs : List Result}
    (ha : AfterSlice storage bpb ops st rs) : WF SliceStream.storage st ∧ st.c.bpb = bpb ∧ st.c.total = storage.length / bpb ∧
      ConformsAll bpb ops rs (storage.take (storage.length / bpb * bpb)) (contents SliceStream.storage st) := by
  have H := wrapSlice_setup hb hlen
  obtain ⟨w, hbp, hc⟩ := after_spec H ha.after
  obtain ⟨c, hn, hv, hr⟩ := ha.after
  obtain ⟨c', hn', w', hb', ht', _⟩ := new_spec hb H.cap SliceStream.storage ⟨storage, 0⟩ H.store
  rw [hn] at hn'
  cases hn'
  exact ⟨w, hbp, slice_total_run hb H.cap ops w' hb' ht' hv hr, hc⟩

/-- **C114**: the only errors are those of ranges outside the object, and that Resize is not permitted; Resize always fails. -/
theorem C114_errors {storage : Bytes} {bpb : Nat} (hb : 0 < bpb) (hlen : storage.length ≤ maxInt) {ops : List Op} {st : St SliceStream} {rs : List Result}
    (ha : AfterSlice storage bpb ops st rs) (op : Op) (hv : Valid bpb op) :
    ∃ st' r, step (sliceBackend bpb (storage.length / bpb)) st op = .ret (st', r) ∧
      (∀ n, op = .resize n → r = .unit (.error (.resizeFailed .notPermitted))) ∧
      ((∀ n, op ≠ .resize n) → ∀ e, r.err? = some e → e = .argumentOutOfRange ∧
        (op.range? bpb).elim (storage.length / bpb = 0) (fun p => ¬ (p.1 < storage.length / bpb * bpb ∧ p.1 + p.2 ≤ storage.length / bpb * bpb))) := by
  have H := wrapSlice_setup hb hlen
  obtain ⟨w, hbp, ht, _⟩ := slice_after hb hlen ha
  obtain ⟨st', r, h1, s1⟩ := step_spec H.lawful st w hbp op hv
  refine ⟨st', r, h1, fun n hn => ?_, fun hne e he => ?_⟩
  · subst hn
    rw [slice_resize] at h1
    cases h1
    rfl
  · have hj := s1.errs e he
    rw [hbp, ht] at hj
    cases e with
    | argumentOutOfRange =>
      refine ⟨rfl, ?_⟩
      unfold Justified at hj
      rcases hr : op.range? bpb with _ | ⟨off, len⟩
      · rw [hr] at hj
        exact (Nat.mul_eq_zero.1 hj).resolve_right (by omega)
      · rw [hr] at hj
        exact hj
    | fetchFailed j be =>
      obtain ⟨h2, s, buf, h3⟩ := hj
      rw [Nat.mul_div_cancel _ hb] at h2
      rw [(slice_fetch hb H.cap s buf).2.2.2 h2] at h3
      cases h3
    | flushFailed j be =>
      obtain ⟨rfl, h2, _⟩ := hj
      exfalso
      simp only [step] at h1
      rcases flush_spec H.lawful st w hbp with ⟨h0, h4⟩ | ⟨_, st1, e1, m, F, h4⟩
      · rw [h4] at h1
        cases h1
        cases he
      · rw [h4] at h1
        cases h1
        cases e1 with
        | none => cases he
        | some x =>
          obtain ⟨f1, _, be', _, s, buf, f4, f5, f6⟩ := F.fail x rfl
          have hend : m * bpb + bpb ≤ storage.length / bpb * bpb := by
            rw [← Nat.succ_mul]; exact Nat.mul_le_mul_right _ (by omega)
          have hst := w.store
          rw [hbp, ht] at hst
          rw [Nat.zero_add] at f4
          obtain ⟨h5, _⟩ := slice_flush (total := storage.length / bpb) hb H.cap s buf (i := m) (by omega) (by rw [f5, hbp])
          rw [h5, if_pos (by omega)] at f4
          cases f4
    | resizeFailed be =>
      obtain ⟨n, rfl, _⟩ := hj
      exact absurd rfl (hne n)

/-- **C114**: the slice's length and the bytes after its last whole block never change, nor does the number of blocks. -/
theorem C114_rest_untouched {storage : Bytes} {bpb : Nat} (hb : 0 < bpb) (hb64 : bpb < 2 ^ 64) (hlen : storage.length ≤ maxInt) {ops : List Op} {st : St SliceStream} {rs : List Result}
    (ha : AfterSlice storage bpb ops st rs) : st.c.totalBlocks = storage.length / bpb ∧ st.s.storage.length = storage.length ∧
      st.s.storage.drop (storage.length / bpb * bpb) = storage.drop (storage.length / bpb * bpb) := by
  obtain ⟨_, _, ht, _⟩ := slice_after hb hlen ha
  have H := wrapSlice_setup hb hlen
  obtain ⟨c, hn, _, hr⟩ := ha.after
  obtain ⟨c', hn', w', hb', ht', _⟩ := new_spec hb H.cap SliceStream.storage ⟨storage, 0⟩ H.store
  rw [hn] at hn'
  cases hn'
  refine ⟨ht, ?_⟩
  generalize storage.length / bpb = total at *
  have hstore := H.store
  have := (runOps_frame (R := fun a b : SliceStream => total * bpb ≤ a.storage.length → b.storage.length = a.storage.length ∧ b.storage.drop (total * bpb) = a.storage.drop (total * bpb))
    (fun s _ => ⟨rfl, rfl⟩) (fun h1 h2 h => ⟨(h2 (by rw [(h1 h).1]; exact h)).1.trans (h1 h).1, (h2 (by rw [(h1 h).1]; exact h)).2.trans (h1 h).2⟩)
    (sliceBackend bpb total) bpb hb64 (fun s i buf _ => by rw [(slice_fetch hb H.cap s buf).1]; exact ⟨rfl, rfl⟩)
    (fun s n _ => ⟨rfl, rfl⟩) (fun s i buf hl => slice_flush_frame hb H.cap s i buf hl) ops _ hb' _ hr).1 hstore
  exact this

theorem runOps_snoc (b : Backend S) (op : Op) : ∀ (ops : List Op) {st st1 st2 : St S} {rs : List Result} {r : Result}, runOps b st ops = .ret (st1, rs) →
    step b st1 op = .ret (st2, r) → runOps b st (ops ++ [op]) = .ret (st2, rs ++ [r])
  | [], st, st1, st2, rs, r, h, hs => by
    cases h
    simp only [List.nil_append, runOps, hs, Outcome.bind_ret]
    rfl
  | o :: ops, st, st1, st2, rs, r, h, hs => by
    simp only [List.cons_append, runOps] at h ⊢
    rcases ho : step b st o with ⟨sa, ra⟩ | _ | _
    · simp only [ho, Outcome.bind_ret] at h ⊢
      rcases hr : runOps b sa ops with ⟨sb, rb⟩ | _ | _
      · simp only [hr, Outcome.bind_ret] at h
        cases h
        rw [runOps_snoc b op ops hr hs]
        rfl
      · simp only [hr] at h; cases h
      · simp only [hr] at h; cases h
    · rw [ho] at h; cases h
    · rw [ho] at h; cases h

/-- **C114**: Flush succeeds unless the slice has no whole block, and then the slice is the contents followed by the bytes it always had there. -/
theorem C114_flush {storage : Bytes} {bpb : Nat} (hb : 0 < bpb) (hb64 : bpb < 2 ^ 64) (hlen : storage.length ≤ maxInt) (hpos : bpb ≤ storage.length)
    {ops : List Op} {st : St SliceStream} {rs : List Result} (ha : AfterSlice storage bpb ops st rs) :
    ∃ st' a, flush (sliceBackend bpb (storage.length / bpb)) st = .ret (st', .ok ()) ∧ ConformsAll bpb ops rs (storage.take (storage.length / bpb * bpb)) a ∧
      st'.s.storage = a ++ storage.drop (storage.length / bpb * bpb) := by
  have H := wrapSlice_setup hb hlen
  obtain ⟨st', r, h1, _, h2⟩ := C114_errors hb hlen ha .flush trivial
  have htp : 0 < storage.length / bpb := Nat.div_pos hpos hb
  have hflush : flush (sliceBackend bpb (storage.length / bpb)) st = .ret (st', .ok ()) := by
    simp only [step] at h1
    rcases hf : flush (sliceBackend bpb (storage.length / bpb)) st with ⟨st1, r1⟩ | _ | _
    · rw [hf] at h1
      cases h1
      rcases r1 with e | u
      · have := (h2 (by simp) e rfl).2
        simp only [Op.range?, Option.elim] at this
        omega
      · rfl
    · rw [hf] at h1; cases h1
    · rw [hf] at h1; cases h1
  obtain ⟨a, hc, hal, htake⟩ := C10_flush_durable H ha.after hflush
  refine ⟨st', a, hflush, hc, ?_⟩
  have ha' : AfterSlice storage bpb (ops ++ [.flush]) st' (rs ++ [.unit (.ok ())]) := by
    have ⟨c, g1, g2, g3⟩ := ha.after
    refine ⟨storage.length / bpb, ⟨c, ⟨storage, 0⟩⟩, ?_, fun op hop => ?_, runOps_snoc _ _ ops g3 (by simp only [step, hflush]; rfl)⟩
    · unfold wrapSlice
      rw [if_neg (by omega), g1]
      rfl
    · rcases List.mem_append.1 hop with h | h
      · exact g2 op h
      · rw [List.mem_singleton.1 h]; trivial
  obtain ⟨g1, g2, g3⟩ := C114_rest_untouched hb hb64 hlen ha'
  rw [hal, g1] at htake
  rw [← List.take_append_drop (storage.length / bpb * bpb) st'.s.storage, htake, g3]

/-- Non-vacuity: seven bytes in blocks of two. -/
example : ∃ st rs, AfterSlice [1, 2, 3, 4, 5, 6, 7] 2 [.write [9, 9, 9] 1, .resize 4, .read [0, 0] 3, .flush] st rs ∧
    rs = [.write (.ok 3), .unit (.error (.resizeFailed .notPermitted)), .read (.error .argumentOutOfRange), .unit (.ok ())] ∧
    st.s.storage = [1, 2, 9, 9, 9, 6, 7] :=
  ⟨_, _, ⟨3, _, rfl, by simp [Valid, maxInt], rfl⟩, by decide +kernel, by decide +kernel⟩

/-! ### C115: WrapStreamWithInferredSize -/

/-- The property: whatever the stream does, the number of blocks is the number of whole blocks in the stream. -/
def C115_statement : Prop :=
  ∀ (S : Type) (r : RWS S) (bytes : S → Bytes) (pos : S → Nat), StreamLaw r bytes pos →
    ∀ (bpb : Nat) (s0 : S), 0 < bpb → (bytes s0).length ≤ maxInt →
    ∃ st, wrapInferred r s0 bpb = .ret ((bytes s0).length / bpb, st) ∧ st.c.totalBlocks = (bytes s0).length / bpb

/-- **C115 (partial)**: where Seek to the end succeeds, the cache has the stream's whole blocks, and every history of operations gives the results of a flat
byte array that starts as those bytes of the stream (for streams whose Read delivers all there is: see C113). -/
theorem C115_size_partial {r : RWS S} {bytes : S → Bytes} {pos : S → Nat} (hl : StreamLaw r bytes pos) {bpb : Nat} {s0 : S} (hb : 0 < bpb)
    (hlen : (bytes s0).length ≤ maxInt) (hseek : (r.seekEnd s0 0).2.2 = none) :
    ∃ st, wrapInferred r s0 bpb = .ret ((bytes s0).length / bpb, st) ∧ st.c.totalBlocks = (bytes s0).length / bpb ∧ bytes st.s = bytes s0 ∧
      (FullReads r bytes pos → PlainWrites r → ∀ (allowResize : Bool) (ops : List Op), (∀ op ∈ ops, Valid bpb op) →
        ∃ st' rs a, runOps (wrapRWS r bpb ((bytes s0).length / bpb) allowResize) st ops = .ret (st', rs) ∧
          ConformsAll bpb ops rs ((bytes s0).take ((bytes s0).length / bpb * bpb)) a) := by
  have hdm := Nat.div_mul_le_self (bytes s0).length bpb
  have h1 := hl.seekEnd_ok s0 hseek
  have h2 := (hl.seek_bytes s0 0).2
  unfold wrapInferred
  rcases hs : r.seekEnd s0 0 with ⟨s1, o, e⟩
  rw [hs] at h1 h2
  simp only at h1 h2 ⊢
  rw [if_neg (by omega)]
  have h3 := (hl.seek_bytes s1 0).1
  rcases hs2 : r.seekStart s1 0 with ⟨s2, o2, e2⟩
  rw [hs2] at h3
  simp only at h3 ⊢
  have ho : (o % (2 ^ 64 : Int)).toNat = (bytes s0).length := by
    rw [h1.2]
    unfold maxInt at hlen
    omega
  rw [ho]
  have h4 : bytes s2 = bytes s0 := h3.trans h2
  obtain ⟨c, hn, _, _, ht, _⟩ := new_spec (total := (bytes s0).length / bpb) hb (by omega) bytes s2 (by rw [h4]; exact hdm)
  refine ⟨⟨c, s2⟩, by rw [hn]; show Outcome.ret (_, (⟨c, (r.seekStart s1 0).1⟩ : St S)) = _; rw [hs2], ht, h4, fun hfull hplain allowResize ops hv => ?_⟩
  obtain ⟨st, rs, a, ⟨c', hn', _, hr⟩, hc⟩ := C113_full_reads_partial hl hfull hplain (s0 := s2) (total := (bytes s0).length / bpb) (allowResize := allowResize) hb (by omega) (by rw [h4]; exact hdm) ops hv
  rw [hn] at hn'
  cases hn'
  rw [h4] at hc
  exact ⟨st, rs, a, hr, hc⟩

/-- Non-vacuity: five bytes in blocks of two. -/
example : (tape none).seekEnd ⟨[1, 2, 3, 4, 5], 0, []⟩ 0 = (⟨[1, 2, 3, 4, 5], 5, []⟩, 5, none) := by decide +kernel

example : ∃ st, wrapInferred (tape none) ⟨[1, 2, 3, 4, 5], 0, []⟩ 2 = .ret (2, st) ∧ st.s = ⟨[1, 2, 3, 4, 5], 0, []⟩ := ⟨_, rfl, rfl⟩

/-- A stream that cannot seek to its end. -/
def deaf : RWS Tape := { tape none with seekEnd := fun s _ => (s, 0, some 5) }

theorem deaf_law : StreamLaw deaf Tape.bytes Tape.pos :=
  { tape_law none with
    seek_bytes := fun s o => ⟨((tape_law none).seek_bytes s o).1, rfl⟩
    seekEnd_ok := fun s h => by cases h }

/-- The error of Seek is dropped, and the offset it gave with it is taken for the size: the cache has no blocks, and reports no error. -/
theorem C115_refuted : ¬ C115_statement := by
  intro h
  obtain ⟨st, h1, _⟩ := h Tape deaf Tape.bytes Tape.pos deaf_law 2 ⟨[1, 2, 3, 4], 0, []⟩ (by decide) (by decide)
  have : wrapInferred deaf ⟨[1, 2, 3, 4], 0, []⟩ 2 = .ret (0, ⟨⟨2, 0, [], [], []⟩, ⟨[1, 2, 3, 4], 0, []⟩⟩) := by decide +kernel
  rw [this] at h1
  cases h1

end Disko.BlockCache

import Verif.Testing.Lemmas
import Verif.Compression.Props
/-! C129, C130: the fixtures for tests of file systems. -/
namespace Disko.Testing
open Disko BlockCache BlockCache.Spec

namespace Spec

/-- `st` is the state of a cache made by CreateDefaultCache, after the valid operations `ops`, which gave the results `rs`. -/
def AfterDefault (bpb total : Nat) (writable : Bool) (image : Bytes) (ops : List Op) (st : St Fixture) (rs : List Result) : Prop :=
  ∃ st0, createDefaultCache bpb total image = .ret st0 ∧ (∀ op ∈ ops, Valid bpb op) ∧ runOps (callbacks bpb total writable) st0 ops = .ret (st, rs)

/-- The arguments CreateDefaultCache documents: the image is at least `bpb * total` bytes long, and that is a size Go can allocate. -/
structure Documented (bpb total : Nat) (image : Bytes) : Prop where
  bpb_pos : 0 < bpb
  bpb_uint : bpb < 2 ^ 64
  cap : total * bpb ≤ maxInt
  len : total * bpb ≤ image.length

/-- The complaint, if any, that a result of a history on a read-only image stands for: a Flush that failed at a block. -/
def refusal (bpb : Nat) : Result → Option Complaint
  | .unit (.error (.flushFailed j _)) => some (.writeToReadOnly bpb j)
  | _ => none

/-- The operation changed something: it wrote at least one byte, or marked at least one block as modified. -/
def Wrote : Op → Result → Prop
  | .write buf _, .write (.ok _) => buf ≠ []
  | .edit _ count _ _, .unit (.ok _) => 0 < count
  | _, _ => False

end Spec
open Spec

variable {bpb total : Nat} {writable : Bool} {image : Bytes}

theorem created (h : Documented bpb total image) :
    ∃ c, new bpb total = .ret c ∧ createDefaultCache bpb total image = .ret ⟨c, ⟨image, []⟩⟩ ∧ WF Fixture.image ⟨c, ⟨image, []⟩⟩ ∧ c.bpb = bpb ∧ c.total = total := by
  obtain ⟨c, hn, w, hb, ht, _⟩ := new_spec h.bpb_pos h.cap Fixture.image ⟨image, []⟩ h.len
  refine ⟨c, hn, ?_, w, hb, ht⟩
  have hc := h.cap
  have : (u64 (bpb * total) : Int) = c.size := by
    unfold Cache.size
    have hz := offset_exact (i := total) (bpb := bpb) hc (fun h0 => ?_) (Nat.le_trans (Nat.le_mul_of_pos_right _ h.bpb_pos) hc)
    · rw [hb, ht, Int.mul_comm, hz, Nat.mul_comm bpb, u64_of_lt (by unfold maxInt at *; omega)]
    · have : 1 * bpb ≤ total * bpb := Nat.mul_le_mul_right _ (by omega)
      omega
  unfold createDefaultCache
  rw [hn]
  simp only [Outcome.bind]
  rw [if_pos hb.symm, if_pos (by unfold Cache.totalBlocks; exact ht.symm), if_pos this]
  rfl

theorem setup (h : Documented bpb total image) : Setup (callbacks bpb total writable) bpb total Fixture.image ⟨image, []⟩ :=
  ⟨lawful h.bpb_pos h.cap, h.bpb_pos, h.cap, h.len⟩

theorem AfterDefault.after (h : Documented bpb total image) {ops : List Op} {st : St Fixture} {rs : List Result} (ha : AfterDefault bpb total writable image ops st rs) :
    After (callbacks bpb total writable) bpb total ⟨image, []⟩ ops st rs := by
  obtain ⟨st0, h0, hv, hr⟩ := ha
  obtain ⟨c, hn, hc, _⟩ := created h
  rw [h0] at hc
  cases hc
  exact ⟨c, hn, hv, hr⟩

/-- A whole history. -/
theorem history (h : Documented bpb total image) : ∀ (ops : List Op) {st st' : St Fixture} {rs : List Result}, WF Fixture.image st → st.c.bpb = bpb → st.c.total = total →
    (∀ op ∈ ops, Valid bpb op) → runOps (callbacks bpb total writable) st ops = .ret (st', rs) →
    WF Fixture.image st' ∧ st'.c.bpb = bpb ∧ st'.c.total = total ∧ st'.s.complaints = st.s.complaints ++ (if writable then [] else rs.filterMap (refusal bpb)) ∧
      (writable = false → (∃ j, j < total ∧ isDirty st.c j = true) ∨ (∃ (i : Nat) (op : Op) (r : Result), ops[i]? = some op ∧ rs[i]? = some r ∧ Wrote op r) →
        ∃ j, j < total ∧ isDirty st'.c j = true)
  | [], st, st', rs, w, hb, ht, _, hr => by
    cases hr
    refine ⟨w, hb, ht, by cases writable <;> simp, fun _ hd => hd.resolve_right ?_⟩
    rintro ⟨i, op, r, h, _⟩
    simp at h
  | op :: ops, st, st', rs, w, hb, ht, hv, hr => by
    obtain ⟨st1, r, h1, s1, S⟩ := stepped (writable := writable) h.bpb_pos h.bpb_uint h.cap w hb ht op (hv op (List.mem_cons_self ..))
    simp only [runOps, h1, Outcome.bind_ret] at hr
    rcases h2 : runOps (callbacks bpb total writable) st1 ops with ⟨st2, rs2⟩ | _ | _ <;> rw [h2] at hr <;> cases hr
    obtain ⟨w2, hb2, ht2, hc2, hd2⟩ := history h ops S.wf S.block S.blocks (fun o ho => hv o (List.mem_cons_of_mem _ ho)) h2
    refine ⟨w2, hb2, ht2, ?_, fun hw hd => hd2 hw ?_⟩
    · rw [hc2, S.complaints]
      cases writable
      · have : blame bpb r = refusal bpb r := rfl
        simp only [Bool.false_eq_true, if_false, List.append_assoc, List.filterMap_cons, this]
        rcases refusal bpb r with _ | x <;> simp
      · simp
    · rcases hd with ⟨j, hj, hd⟩ | ⟨i, o, x, hi, hx, hwr⟩
      · exact .inl ⟨j, hj, S.dirty hw j hj hd⟩
      · cases i with
        | succ i =>
          simp only [List.getElem?_cons_succ] at hi hx
          exact .inr ⟨i, o, x, hi, hx, hwr⟩
        | zero =>
          simp only [List.getElem?_cons_zero, Option.some.injEq] at hi hx
          subst hi hx
          left
          obtain ⟨evs, hp⟩ := S.pending
          have hlen : (contents Fixture.image st).length = total * bpb := by rw [length_contents, hb, ht]
          have hconf := s1.conf
          rw [hb] at hconf
          cases op with
          | write buf start =>
            cases r with
            | write x =>
              cases x with
              | error e => exact absurd hwr (by simp [Wrote])
              | ok n =>
                simp only [Wrote] at hwr
                have hbuf : 0 < buf.length := by
                  cases buf with
                  | nil => exact absurd rfl hwr
                  | cons => simp
                have h1 := hconf.1
                rw [hlen] at h1
                have hlt : start < total := (Nat.mul_lt_mul_right h.bpb_pos).1 (by omega : start * bpb < total * bpb)
                refine ⟨start, hlt, ?_⟩
                have hbp := h.bpb_pos
                rw [hp start hlt]
                simp only [nextPending]
                rw [decide_eq_true (by omega : start * bpb < start * bpb + bpb), decide_eq_true (by omega : start * bpb < start * bpb + buf.length)]
                simp
            | _ => exact absurd hwr (by simp [Wrote])
          | edit start count at_ v =>
            cases r with
            | unit x =>
              cases x with
              | error e => exact absurd hwr (by simp [Wrote])
              | ok n =>
                simp only [Wrote] at hwr
                have h1 := hconf.1
                rw [hlen] at h1
                have hcb : 1 * bpb ≤ count * bpb := Nat.mul_le_mul_right _ hwr
                have hbp := h.bpb_pos
                have hlt : start < total := (Nat.mul_lt_mul_right h.bpb_pos).1 (by omega : start * bpb < total * bpb)
                refine ⟨start, hlt, ?_⟩
                rw [hp start hlt]
                simp only [nextPending]
                rw [decide_eq_true (by omega : start ≤ start), decide_eq_true (by omega : start < start + count)]
                simp
            | _ => exact absurd hwr (by simp [Wrote])
          | _ => exact absurd hwr (by simp [Wrote])

theorem AfterDefault.facts (h : Documented bpb total image) {ops : List Op} {st : St Fixture} {rs : List Result} (ha : AfterDefault bpb total writable image ops st rs) :
    WF Fixture.image st ∧ st.c.bpb = bpb ∧ st.c.total = total ∧ st.s.complaints = (if writable then [] else rs.filterMap (refusal bpb)) ∧
      (writable = false → (∃ (i : Nat) (op : Op) (r : Result), ops[i]? = some op ∧ rs[i]? = some r ∧ Wrote op r) → ∃ j, j < total ∧ isDirty st.c j = true) := by
  obtain ⟨st0, h0, hv, hr⟩ := ha
  obtain ⟨c, hn, hc, w, hb, ht⟩ := created h
  rw [h0] at hc
  cases hc
  obtain ⟨w1, hb1, ht1, hc1, hd1⟩ := history h ops w hb ht hv hr
  exact ⟨w1, hb1, ht1, by rw [hc1]; rfl, fun hw hx => hd1 hw (.inr hx)⟩

/-! ### C129: CreateDefaultCache -/

/-- **C129**: CreateDefaultCache complains about nothing, and every history of operations on the cache gives the results of a flat byte array that starts as
the image. -/
theorem C129_flat_array (h : Documented bpb total image) (writable : Bool) (ops : List Op) (hv : ∀ op ∈ ops, Valid bpb op) :
    ∃ st rs a, AfterDefault bpb total writable image ops st rs ∧ ConformsAll bpb ops rs (image.take (total * bpb)) a := by
  obtain ⟨st, rs, a, ⟨c, hn, _, hr⟩, hc⟩ := C09_flat_array (setup (writable := writable) h) ops hv
  obtain ⟨c', hn', hc', _⟩ := created h
  rw [hn] at hn'
  cases hn'
  exact ⟨st, rs, a, ⟨_, hc', hv, hr⟩, hc⟩

/-- **C129**: over a writable image, no history makes the fixture complain. -/
theorem C129_writable_never_complains (h : Documented bpb total image) {ops : List Op} {st : St Fixture} {rs : List Result}
    (ha : AfterDefault bpb total true image ops st rs) : st.s.complaints = [] := (AfterDefault.facts h ha).2.2.2.1

/-- **C129**: over a read-only image, the fixture complains exactly about the Flushes that failed at a block: once for each. -/
theorem C129_read_only_complaints (h : Documented bpb total image) {ops : List Op} {st : St Fixture} {rs : List Result}
    (ha : AfterDefault bpb total false image ops st rs) : st.s.complaints = rs.filterMap (refusal bpb) := (AfterDefault.facts h ha).2.2.2.1

/-- **C129**: once anything has been written to the cache over a read-only image, every Flush fails, with the error for read-only file systems (which is not
the one for I/O errors), and the fixture complains. -/
theorem C129_read_only_caught (h : Documented bpb total image) {ops : List Op} {st : St Fixture} {rs : List Result} (ha : AfterDefault bpb total false image ops st rs)
    {i : Nat} {op : Op} {r : Result} (hi : ops[i]? = some op) (hx : rs[i]? = some r) (hw : Wrote op r) :
    ∃ st' j, flush (callbacks bpb total false) st = .ret (st', .error (.flushFailed j readOnlyFileSystem)) ∧ j < total ∧
      st'.s.complaints = st.s.complaints ++ [.writeToReadOnly bpb j] ∧ readOnlyFileSystem ≠ ioFailed := by
  obtain ⟨w, hb, ht, _, hd⟩ := AfterDefault.facts h ha
  obtain ⟨st', r', h1, _, S⟩ := stepped (writable := false) h.bpb_pos h.bpb_uint h.cap w hb ht .flush trivial
  obtain ⟨j, hj, rfl⟩ := S.caught rfl rfl (hd rfl ⟨i, op, r, hi, hx, hw⟩)
  refine ⟨st', j, ?_, hj, S.complaints, by decide⟩
  simp only [step] at h1
  rcases hf : flush (callbacks bpb total false) st with ⟨st2, x⟩ | _ | _ <;> rw [hf] at h1 <;> cases h1
  rfl

/-- **C129**: a read-only image never changes; of a writable one only the blocks of the cache do. -/
theorem C129_image (h : Documented bpb total image) {ops : List Op} {st : St Fixture} {rs : List Result} (ha : AfterDefault bpb total writable image ops st rs) :
    (writable = false → st.s.image = image) ∧ st.s.image.length = image.length ∧ st.s.image.drop (total * bpb) = image.drop (total * bpb) := by
  obtain ⟨c, hn, hv, hr⟩ := AfterDefault.after h ha
  obtain ⟨c', hn', _, w, hb, ht⟩ := created h
  rw [hn] at hn'
  cases hn'
  have hcap := h.cap
  have := (runOps_frame (R := fun a b : Fixture => total * bpb ≤ a.image.length → (writable = false → b.image = a.image) ∧ b.image.length = a.image.length ∧ b.image.drop (total * bpb) = a.image.drop (total * bpb))
    (fun s _ => ⟨fun _ => rfl, rfl, rfl⟩)
    (fun h1 h2 h => by
      obtain ⟨g1, g2, g3⟩ := h1 h
      obtain ⟨k1, k2, k3⟩ := h2 (by rw [g2]; exact h)
      exact ⟨fun hw => (k1 hw).trans (g1 hw), k2.trans g2, k3.trans g3⟩)
    (callbacks bpb total writable) bpb h.bpb_uint
    (fun s i buf _ => by simp only [callbacks]; split <;> exact ⟨fun _ => rfl, rfl, rfl⟩)
    (fun s n _ => ⟨fun _ => rfl, rfl, rfl⟩)
    (fun s i buf hl hlen => by
      simp only [callbacks]
      cases writable with
      | false => exact ⟨fun _ => rfl, rfl, rfl⟩
      | true =>
        simp only [if_true]
        split
        · exact ⟨fun _ => rfl, rfl, rfl⟩
        · rename_i hi
          have hend : i * bpb + bpb ≤ total * bpb := by rw [← Nat.succ_mul]; exact Nat.mul_le_mul_right _ (by omega)
          have hu : u64 (i * bpb) = i * bpb := u64_of_lt (by unfold maxInt at *; omega)
          simp only [hu]
          have hg : (goCopy (slice s.image (i * bpb) bpb) buf).length = bpb := by rw [goCopy_length, length_slice_of_le (by omega)]
          refine ⟨(fun h => by cases h), length_splice (by omega), ?_⟩
          apply List.ext_getElem?
          intro k
          rw [List.getElem?_drop, List.getElem?_drop, getElem?_splice (by omega), if_neg (by omega), if_neg (by omega)])
    ops _ hb _ hr).1 h.len
  exact this

/-- **C129**: over a writable image, a successful Flush puts the contents of the cache at the beginning of the image. -/
theorem C129_flush (h : Documented bpb total image) {ops : List Op} {st st' : St Fixture} {rs : List Result} (ha : AfterDefault bpb total writable image ops st rs)
    (hf : flush (callbacks bpb total writable) st = .ret (st', .ok ())) :
    ∃ a, ConformsAll bpb ops rs (image.take (total * bpb)) a ∧ a.length = total * bpb ∧ st'.s.image = a ++ image.drop (total * bpb) := by
  have hA := AfterDefault.after h ha
  obtain ⟨a, hc, hal, htake⟩ := C10_flush_durable (setup h) hA hf
  obtain ⟨st0, g1, g2, g3⟩ := ha
  have ha' : AfterDefault bpb total writable image (ops ++ [.flush]) st' (rs ++ [.unit (.ok ())]) := by
    refine ⟨st0, g1, fun op hop => ?_, runOps_snoc _ _ ops g3 (by simp only [step, hf]; rfl)⟩
    rcases List.mem_append.1 hop with h | h
    · exact g2 op h
    · rw [List.mem_singleton.1 h]; trivial
  have ht := (AfterDefault.facts h ha').2.2.1
  have hd := (C129_image h ha').2.2
  have hal' : a.length = total * bpb := by rw [hal]; unfold Cache.totalBlocks; rw [ht]
  refine ⟨a, hc, hal', ?_⟩
  rw [hal'] at htake
  rw [← List.take_append_drop (total * bpb) st'.s.image, htake, hd]

/-- **C129**: the image cannot be resized. -/
theorem C129_resize (st : St Fixture) (n : Nat) : resize (callbacks bpb total writable) st n = .ret (st, .error (.resizeFailed .notSupported)) := rfl

/-- Non-vacuity: five bytes, two blocks of two. -/
example : Documented 2 2 [1, 2, 3, 4, 5] := ⟨by decide, by decide, by decide, by decide⟩

example : ∃ st rs, AfterDefault 2 2 true [1, 2, 3, 4, 5] [.write [9] 1, .flush, .resize 3, .read [0, 0] 2] st rs ∧ st.s = ⟨[1, 2, 9, 4, 5], []⟩ ∧
    rs = [.write (.ok 1), .unit (.ok ()), .unit (.error (.resizeFailed .notSupported)), .read (.error .argumentOutOfRange)] :=
  ⟨_, _, ⟨_, rfl, by simp [Valid, maxInt], rfl⟩, by decide +kernel, by decide +kernel⟩

example : ∃ st rs, AfterDefault 2 2 false [1, 2, 3, 4, 5] [.flush, .write [9] 1, .flush, .flush] st rs ∧
    st.s = ⟨[1, 2, 3, 4, 5], [.writeToReadOnly 2 1, .writeToReadOnly 2 1]⟩ ∧ Wrote (.write [9] 1) (rs.getD 1 (.unit (.ok ()))) :=
  ⟨_, _, ⟨_, rfl, by simp [Valid, maxInt], rfl⟩, by decide +kernel, by simp [Wrote]⟩

/-! ### C130: LoadDiskImage -/

/-- The streams of github.com/xaionaro-go/bytesextra obey the contracts of the io package (they are full when they have no room left). -/
theorem slice_law : StreamLaw sliceRWS SliceStream.storage SliceStream.pos where
  read_bytes s n := by simp only [sliceRWS]; split <;> rfl
  read_le s n := by
    simp only [sliceRWS]
    split
    · simp
    · simp only [slice, List.length_take]; omega
  read_data s n := by
    simp only [sliceRWS]
    split
    · simp [slice]
    · simp [slice, List.take_take]
  read_pos s n := by simp only [sliceRWS]; split <;> rfl
  write_le s b := by simp only [sliceRWS, List.length_take]; omega
  write_all s b h := by
    simp only [sliceRWS] at h ⊢
    split at h
    · cases h
    · rename_i hl
      have := List.length_take_le (s.storage.length - s.pos) b
      simp only [List.length_take] at hl ⊢
      omega
  write_bytes s b := by
    simp only [sliceRWS]
    have htt : b.take (b.take (s.storage.length - s.pos)).length = b.take (s.storage.length - s.pos) := by
      rw [List.length_take]
      rcases Nat.le_total (s.storage.length - s.pos) b.length with h | h
      · rw [Nat.min_eq_left h]
      · rw [Nat.min_eq_right h, List.take_of_length_le h, List.take_length]
    rw [htt]
    split
    · rw [writeInto_inside (by rw [List.length_take]; omega)]
    · have : s.storage.length - s.pos = 0 := by omega
      simp [this, writeInto]
  write_pos s b := rfl
  seek_bytes s o := by constructor <;> simp only [sliceRWS] <;> split <;> rfl
  seekStart_ok s n h := by
    simp only [sliceRWS]
    rw [if_neg (by omega)]
    simp
  seekEnd_ok s h := by
    simp only [sliceRWS]
    rw [if_neg (by omega)]
    simp
  truncate_ok t ht := by cases ht
  truncate_fail t ht := by cases ht

theorem slice_full : FullReads sliceRWS SliceStream.storage SliceStream.pos := by
  intro s n h
  simp only [sliceRWS] at h ⊢
  split
  · simp only [List.length_nil]; omega
  · simp [slice]

theorem slice_plain : PlainWrites sliceRWS := by
  intro s b
  simp only [sliceRWS]
  split <;> simp

/-- **C130**: LoadDiskImage succeeds exactly for non-empty input that is a gzip stream of a valid RLE encoding of an image of the right size; it gives a stream at
the beginning of that image.  (Go slices have less than 2^63 bytes, and the size is computed in 64 bits.) -/
theorem C130_exact (z : Compression.Gzip) (c : Bytes) (ss ts : Nat) (hlen : ∀ e d o, z.gunzip ⟨c, none⟩ = some ⟨e, none⟩ → Compression.Spec.RLE8 e d o → d.length ≤ maxInt)
    (s : SliceStream) : loadDiskImage z c ss ts = some s ↔
      c ≠ [] ∧ ∃ e o, z.gunzip ⟨c, none⟩ = some ⟨e, none⟩ ∧ Compression.Spec.RLE8 e s.storage o ∧ s.storage.length = ts * ss % 2 ^ 64 ∧ s.pos = 0 := by
  obtain ⟨h1, h2, h3, h4⟩ := Compression.C08_toBytes_errors z ⟨c, none⟩
  unfold loadDiskImage
  by_cases hc : c = []
  · subst hc; simp
  have hpos : c.length > 0 := by
    cases c with
    | nil => exact absurd rfl hc
    | cons => simp
  rw [if_pos hpos]
  rcases hg : z.gunzip ⟨c, none⟩ with _ | ⟨e, _ | n⟩
  · rw [h1 hg]
    simp
  · by_cases hx : ∃ d o, Compression.Spec.RLE8 e d o
    · obtain ⟨d, o, hd⟩ := hx
      have hu : u64 d.length = d.length := u64_of_lt (by have := hlen e d o hg hd; unfold maxInt at this; omega)
      rw [h2 e d o hg hd]
      simp only [hu]
      constructor
      · intro h
        split at h
        · rename_i he
          cases h
          exact ⟨hc, e, o, rfl, hd, he.symm, rfl⟩
        · cases h
      · rintro ⟨_, e', o', he, hd', hl, hp⟩
        cases he
        have e1 := h2 e d o hg hd
        rw [h2 e _ _ hg hd'] at e1
        simp only [Prod.mk.injEq, and_true] at e1
        rcases s with ⟨st, ps⟩
        simp only at e1 hl hp
        subst e1 hp
        rw [if_pos (by rw [hl]; rfl)]
    · rw [h3 e hg hx]
      simp only [reduceCtorEq, false_iff]
      rintro ⟨_, e', o', he, hd', _⟩
      cases he
      exact hx ⟨_, _, hd'⟩
  · rw [h4 e n hg]
    simp

/-- **C130**: an image that was compressed with CompressImage is loaded unchanged, if its size is the given one; otherwise loading it fails the test.  (gzip
rejects empty input.) -/
theorem C130_roundtrip (z : Compression.Gzip) (hz : z.gunzip ⟨[], none⟩ = none) (image : Bytes) (ss ts : Nat) (hl : image.length ≤ maxInt) (hs : ts * ss < 2 ^ 64) :
    loadDiskImage z (Compression.compressImage z Compression.bufferSink ⟨image, none⟩ []).1 ss ts = if image.length = ts * ss then some ⟨image, 0⟩ else none := by
  obtain ⟨_, _, h1, h2⟩ := Compression.C08_image_roundtrip z image
  generalize (Compression.compressImage z Compression.bufferSink ⟨image, none⟩ []).1 = c at h1 h2
  unfold loadDiskImage
  have hpos : c.length > 0 := by
    cases c with
    | nil => simp only [Compression.decompressImage, hz] at h1; cases h1
    | cons => simp
  rw [if_pos hpos, h2]
  simp only
  rw [u64_of_lt hs, u64_of_lt (by unfold maxInt at hl; omega)]
  by_cases h : image.length = ts * ss
  · rw [if_pos h, if_pos h.symm]
  · rw [if_neg h, if_neg (fun h' => h h'.symm)]

/-- **C130**: a cache with blocks of a sector over the loaded stream has all its sectors, and every history of operations on it gives the results of a flat byte
array that starts as the image. -/
theorem C130_cache (z : Compression.Gzip) (hz : z.gunzip ⟨[], none⟩ = none) (image : Bytes) (ss ts : Nat) (hss : 0 < ss) (hl : image.length ≤ maxInt) (hs : image.length = ts * ss) :
    ∃ stream st, loadDiskImage z (Compression.compressImage z Compression.bufferSink ⟨image, none⟩ []).1 ss ts = some stream ∧
      wrapInferred sliceRWS stream ss = .ret (ts, st) ∧ st.c.totalBlocks = ts ∧
      ∀ ops : List Op, (∀ op ∈ ops, Valid ss op) →
        ∃ st' rs a, runOps (wrapRWS sliceRWS ss ts false) st ops = .ret (st', rs) ∧ ConformsAll ss ops rs image a := by
  have h1 := C130_roundtrip z hz image ss ts hl (by unfold maxInt at hl; omega)
  rw [if_pos hs] at h1
  have hdiv : image.length / ss = ts := by rw [hs, Nat.mul_div_cancel _ hss]
  obtain ⟨st, h2, h3, _, h4⟩ := C115_size_partial slice_law (s0 := ⟨image, 0⟩) hss hl (by simp only [sliceRWS]; rw [if_neg (by omega)])
  simp only [hdiv] at h2 h3 h4
  refine ⟨_, st, h1, h2, h3, fun ops hv => ?_⟩
  obtain ⟨st', rs, a, h5, h6⟩ := h4 slice_full slice_plain false ops hv
  rw [← hs, List.take_length] at h6
  exact ⟨st', rs, a, h5, h6⟩

/-- Non-vacuity: with a format that only stores (and rejects empty input), [9, 9, 9, 4] is 31 9 9 1 4. -/
example : Compression.storeGzip.gunzip ⟨[], none⟩ = none := by decide +kernel

example : loadDiskImage Compression.storeGzip [31, 9, 9, 1, 4] 2 2 = some ⟨[9, 9, 9, 4], 0⟩ ∧ loadDiskImage Compression.storeGzip [31, 9, 9, 1, 4] 2 3 = none ∧
    loadDiskImage Compression.storeGzip [31, 9, 9] 1 2 = none ∧ loadDiskImage Compression.storeGzip [] 0 0 = none := by decide +kernel

end Disko.Testing

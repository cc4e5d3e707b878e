import Verif.Stream.Props
/-!
C26-C29, C31: append mode, Seek, Truncate and what writes do to the file.
-/
namespace Disko.Stream
open Disko Disko.BlockCache Disko.BlockCache.Spec Disko.Stream.Spec

variable {S : Type}

/-! ### Preliminaries (not claims) -/

theorem wrote_size_eq {b : Backend S} {bpb : Nat} {view : S → Bytes} {x x' : Stm S} (h : Inv bpb view x)
    {buf : Bytes} {off : Nat} {e : Option SErr} (w : Wrote b view x buf off x' e) :
    x'.size = if capacity x ≤ off + buf.length then (off : Int) + buf.length else x.size := by
  rw [w.size, newSize_eq h]

theorem wrote_size_mono {b : Backend S} {bpb : Nat} {view : S → Bytes} {x x' : Stm S} (h : Inv bpb view x)
    {buf : Bytes} {off : Nat} {e : Option SErr} (w : Wrote b view x buf off x' e) : x.size ≤ x'.size := by
  have := h.size_le
  have hc : capacity x = x.st.c.total * x.st.c.bpb := rfl
  rw [wrote_size_eq h w]; split <;> omega

/-- Byte `k` of the file after a write. -/
theorem wrote_byte {b : Backend S} {bpb : Nat} {view : S → Bytes} {x x' : Stm S} (h : Inv bpb view x)
    {buf : Bytes} {off : Nat} {e : Option SErr} (w : Wrote b view x buf off x' e) {k : Nat} (hk : (k : Int) < x'.size) :
    (file view x')[k]? = if k < off then (contents view x.st ++
        List.replicate (x'.st.c.total * x.st.c.bpb - x.st.c.total * x.st.c.bpb) 0)[k]?
      else if k < off + buf.length then buf[k - off]? else (contents view x.st ++
        List.replicate (x'.st.c.total * x.st.c.bpb - x.st.c.total * x.st.c.bpb) 0)[k]? := by
  unfold file
  rw [List.getElem?_take, if_pos (by omega), w.contents, getElem?_splice]
  have := w.inside; have := w.grows
  rw [List.length_append, length_contents, List.length_replicate]
  omega

theorem file_byte {bpb : Nat} {view : S → Bytes} {x : Stm S} (h : Inv bpb view x) {k m : Nat} (hk : (k : Int) < x.size) :
    (contents view x.st ++ List.replicate m 0)[k]? = (file view x)[k]? := by
  have := h.size_le
  unfold file
  rw [List.getElem?_append_left (by rw [length_contents]; omega), List.getElem?_take, if_pos (by omega)]

/-! ### C26 -/

/-- C26 in full: in append mode a successful Write puts the data after the last byte of the file. -/
def C26_statement : Prop :=
  ∀ (S : Type) (b : Backend S) (bpb total : Nat) (view : S → Bytes) (s0 : S),
    StreamSetup b bpb total view s0 → ∀ x, Reachable b bpb total s0 x → Flags.append x.flags = true →
    ∀ buf : Bytes, FitsWrite x buf.length x.size' → ∀ x' n, write b x buf = .ret (x', n, none) →
      file view x' = file view x ++ buf

/-- The size is not updated when the data fits in the last block: the appended byte is not part
of the file (and the next append overwrites it). -/
theorem C26_refuted : ¬ C26_statement := by
  intro h
  have := h _ _ _ _ _ _ exSetup _ (exReachable 1 (Flags.O_RDWR ||| Flags.O_APPEND) (by omega) (by decide +kernel))
    (by decide +kernel) [9] (by decide +kernel) _ 1 rfl
  revert this
  decide +kernel

/-- C26: in append mode WriteAt is refused, in any state, without effect. -/
theorem C26_writeAt_refused (b : Backend S) {x : Stm S} (ha : Flags.append x.flags = true) (buf : Bytes) (off : Int) :
    writeAt b x buf off = .ret (x, 0, some .notPermitted) := by
  unfold writeAt; rw [ha]; rfl

/-- C26: in append mode the position before the call does not matter at all (for a stream that
can be written to). -/
theorem C26_position_irrelevant {b : Backend S} {bpb total : Nat} {view : S → Bytes} {s0 : S}
    (H : StreamSetup b bpb total view s0) {x : Stm S} (hr : Reachable b bpb total s0 x)
    (ha : Flags.append x.flags = true) (hw : Flags.write x.flags = true) (buf : Bytes) (off whence : Int)
    (hoff : -(2 ^ 63) ≤ off ∧ off < 2 ^ 63) :
    write b (seek x off whence).1 buf = write b x buf := by
  have h := reachable_inv H hr
  have h2 := (seek_effect (whence := whence) h hoff.1 hoff.2).1
  have e : ∃ p, (seek x off whence).1 = { x with position := p } := by
    unfold seek
    simp only
    split
    · exact ⟨x.position, rfl⟩
    · split
      · exact ⟨x.position, rfl⟩
      · exact ⟨_, rfl⟩
  obtain ⟨p, e⟩ := e
  rw [e] at h2 ⊢
  have ha2 : Flags.append ({ x with position := p } : Stm S).flags = true := ha
  rw [write_eq h2 buf hw, write_eq h buf hw]
  have : writeOffset { x with position := p } = writeOffset x := by
    unfold writeOffset; rw [if_pos ha2, if_pos ha]
  rw [this]

/-- C26, where a successful Write puts the data.  The whole statement holds when the data
reaches the end of the last block; missing: the size when it does not (`C26_refuted`); even then
the bytes are stored from the old end of the file on and the file as it was is kept. -/
theorem C26_append_partial {b : Backend S} {bpb total : Nat} {view : S → Bytes} {s0 : S}
    (H : StreamSetup b bpb total view s0) {x : Stm S} (hr : Reachable b bpb total s0 x)
    (ha : Flags.append x.flags = true) (buf : Bytes) (hf : FitsWrite x buf.length x.size') {x' : Stm S} {n : Int}
    (hw : write b x buf = .ret (x', n, none)) :
    n = buf.length ∧ x'.tell = x.size' + buf.length ∧
    slice (contents view x'.st) x.size'.toNat buf.length = buf ∧
    (file view x).isPrefixOf (file view x') = true ∧
    ((capacity x : Int) ≤ x.size' + buf.length → file view x' = file view x ++ buf) := by
  have h := reachable_inv H hr
  have ho : writeOffset x = x.size := by unfold writeOffset; rw [ha]; rfl
  obtain ⟨x1, n1, e1, w1, w2, w3, w4⟩ := write_effect H.cache.lawful h buf (by rw [ho]; exact hf)
  rw [hw] at w1; cases w1
  rw [ho] at w4
  rcases w4 with ⟨_, _, _, w4⟩ | ⟨_, wp, ⟨_, y, hy, _⟩ | ⟨rfl, w⟩⟩
  · simp at w4
  · simp at hy
  have hsn := h.size_nn
  have hsl := h.size_le
  have hlf := length_file h
  have hc := w.contents
  have hwi := w.inside
  have hwg := w.grows
  have hpre : file view x <+: file view x' := by
    rw [List.prefix_iff_eq_take]
    apply List.ext_getElem?
    intro k
    rw [List.getElem?_take, hlf]
    split
    · rw [wrote_byte h w (by have := wrote_size_mono h w; omega), if_pos (by omega), file_byte h (by omega)]
    · rw [List.getElem?_eq_none (by rw [hlf]; omega)]
  refine ⟨rfl, wp, ?_, ?_, ?_⟩
  · show slice _ x.size.toNat _ = _
    symm
    apply slice_eq_of_getElem? rfl
    intro k hk
    rw [hc, getElem?_splice (by rw [List.length_append, length_contents, List.length_replicate]; omega)]
    rw [if_neg (by omega), if_pos (by omega)]
    congr 1; omega
  · exact List.isPrefixOf_iff_prefix.2 hpre
  · intro hcap
    have hsz : x'.size = x.size + buf.length := by
      rw [wrote_size_eq h w, if_pos]
      · omega
      · have : x.size' = x.size := rfl
        omega
    apply List.ext_getElem?
    intro k
    by_cases hk : (k : Int) < x'.size
    · rw [wrote_byte h w hk]
      by_cases h1 : k < x.size.toNat
      · rw [if_pos h1, file_byte h (by omega), List.getElem?_append_left (by rw [hlf]; omega)]
      · rw [if_neg h1, if_pos (by omega), List.getElem?_append_right (by rw [hlf]; omega), hlf]
    · rw [List.getElem?_eq_none (by rw [length_file w2]; omega),
        List.getElem?_eq_none (by rw [List.length_append, hlf]; omega)]

/-- An append of 6 bytes to a file of 1 byte with room for 6. -/
example : FitsWrite (exStream 1 (Flags.O_RDWR ||| Flags.O_APPEND)) 6 1 ∧
    ∃ x', write (mem 2) (exStream 1 (Flags.O_RDWR ||| Flags.O_APPEND)) [9, 9, 9, 9, 9, 9] = .ret (x', 6, none) ∧
      file (fun s => s.1) x' = [1, 9, 9, 9, 9, 9, 9] :=
  ⟨by decide +kernel, _, rfl, by decide +kernel⟩

/-! ### C27 -/

/-- The byte a `whence` counts from: 0 the start, 1 the position, 2 the end of the file. -/
def origin (x : Stm S) (whence : Int) : Option Int :=
  if whence = 0 then some 0 else if whence = 1 then some x.tell else if whence = 2 then some x.size' else none

/-- C27: Seek computes `origin + offset` as an exact integer.  If that is a non-negative int64 it
becomes the position and is returned; otherwise Seek fails and nothing changes. -/
theorem C27_seek {b : Backend S} {bpb total : Nat} {view : S → Bytes} {s0 : S}
    (H : StreamSetup b bpb total view s0) {x : Stm S} (hr : Reachable b bpb total s0 x) (off whence : Int)
    (hoff : -(2 ^ 63) ≤ off ∧ off < 2 ^ 63) :
    (∀ o, origin x whence = some o → 0 ≤ o + off → o + off < 2 ^ 63 →
      seek x off whence = ({ x with position := o + off }, o + off, none)) ∧
    (∀ o, origin x whence = some o → (o + off < 0 ∨ 2 ^ 63 ≤ o + off) →
      seek x off whence = (x, x.tell, some .invalidSeek)) ∧
    (origin x whence = none → seek x off whence = (x, x.tell, some .invalidSeek)) := by
  have h := reachable_inv H hr
  have hp := h.pos_nn
  have hp2 := h.pos_lt
  have hs := h.size_nn
  have hs2 := h.size_lt
  have wrapped : ∀ o : Int, 0 ≤ o → o < 2 ^ 63 → 2 ^ 63 ≤ o + off → i64 (o + off) < 0 := by
    intro o h0 h1 h2; unfold i64; rw [Int.bmod_def]; omega
  have exact_ : ∀ o : Int, 0 ≤ o → o < 2 ^ 63 → o + off < 2 ^ 63 → i64 (o + off) = o + off := by
    intro o h0 h1 h2; unfold i64; rw [Int.bmod_def]; omega
  have e2 : ∀ a : Int, 0 ≤ a → (if a < 0 then (x, x.position, some SErr.invalidSeek)
      else ({ x with position := a }, a, none)) = ({ x with position := a }, a, none) := by
    intro a ha; rw [if_neg (by omega)]
  have e3 : ∀ a : Int, a < 0 → (if a < 0 then (x, x.position, some SErr.invalidSeek)
      else ({ x with position := a }, a, none)) = (x, x.position, some SErr.invalidSeek) := by
    intro a ha; rw [if_pos ha]
  unfold origin seek Stm.tell Stm.size'
  by_cases w0 : whence = 0
  · simp only [w0, if_true, Option.some.injEq, reduceCtorEq, false_implies, and_true]
    constructor
    · rintro o rfl h1 h2; rw [show (0 : Int) + off = off from by omega] at *; exact e2 off h1
    · rintro o rfl h1; exact e3 off (by omega)
  · by_cases w1 : whence = 1
    · subst w1
      simp only [w0, if_false, if_true, Option.some.injEq, reduceCtorEq, false_implies, and_true]
      constructor
      · rintro o rfl h1 h2; rw [exact_ _ hp hp2 h2]; exact e2 _ h1
      · rintro o rfl (h1 | h1)
        · rw [exact_ _ hp hp2 (by omega)]; exact e3 _ h1
        · exact e3 _ (wrapped _ hp hp2 h1)
    · by_cases w2 : whence = 2
      · subst w2
        simp only [w0, w1, if_false, if_true, Option.some.injEq, reduceCtorEq, false_implies, and_true]
        constructor
        · rintro o rfl h1 h2; rw [exact_ _ hs hs2 h2]; exact e2 _ h1
        · rintro o rfl (h1 | h1)
          · rw [exact_ _ hs hs2 (by omega)]; exact e3 _ h1
          · exact e3 _ (wrapped _ hs hs2 h1)
      · simp [w0, w1, w2]

/-- C27: in every history the position is a non-negative int64. -/
theorem C27_position {b : Backend S} {bpb total : Nat} {view : S → Bytes} {s0 : S}
    (H : StreamSetup b bpb total view s0) {x : Stm S} (hr : Reachable b bpb total s0 x) :
    0 ≤ x.tell ∧ x.tell < 2 ^ 63 :=
  ⟨(reachable_inv H hr).pos_nn, (reachable_inv H hr).pos_lt⟩

/-- Seeks from the end, beyond the end, before the start, and past the largest int64. -/
example : (seek (exStream 5 0) (-2) 2).2 = (3, none) ∧ (seek (exStream 5 0) 9 2).2 = (14, none) ∧
    (seek (exStream 5 0) (-6) 2).2 = (0, some .invalidSeek) ∧
    (seek (exStream 5 0) (2 ^ 63 - 1) 2).2 = (0, some .invalidSeek) := by decide +kernel

/-! ### C28 -/

/-- C28 in full. -/
def C28_statement : Prop :=
  ∀ (S : Type) (b : Backend S) (bpb total : Nat) (view : S → Bytes) (s0 : S),
    StreamSetup b bpb total view s0 → ∀ x, Reachable b bpb total s0 x → ∀ n : Nat, FitsSize x n →
    ∀ x' e, truncate b x n = .ret (x', e) →
      (e = none → file view x' = (file view x).take n ++ List.replicate (n - (file view x).length) 0) ∧
      (e ≠ none → file view x' = file view x)

/-- Growing a file inside its last block uncovers the bytes that were there before. -/
theorem C28_refuted : ¬ C28_statement := by
  intro h
  have := (h _ _ _ _ _ _ exSetup _ (exReachable 1 Flags.O_RDWR (by omega) (by decide +kernel)) 2
    (by decide +kernel) _ none rfl).1 rfl
  revert this
  decide +kernel

/-- C28 without O_SYNC: a Truncate that fails changes nothing; one that succeeds sets the size
and keeps the bytes below the old and the new size; new bytes are zero from the end of the last
block on, hence all of them when the file was full.  Missing: zeros between the old size and the
end of the last block (`C28_refuted`). -/
theorem C28_truncate_partial {b : Backend S} {bpb total : Nat} {view : S → Bytes} {s0 : S}
    (H : StreamSetup b bpb total view s0) {x : Stm S} (hr : Reachable b bpb total s0 x) (n : Int)
    (hf : FitsSize x n) {x' : Stm S} {e : Option SErr} (ht : truncate b x n = .ret (x', e)) :
    x'.tell = x.tell ∧
    (e = none → 0 ≤ n ∧ x'.size' = n ∧
      (file view x').take x.size'.toNat = (file view x).take n.toNat ∧
      (∀ k, capacity x ≤ k → (k : Int) < n → (file view x')[k]? = some 0) ∧
      (x.size' = capacity x → file view x' =
        (file view x).take n.toNat ++ List.replicate (n.toNat - (file view x).length) 0)) ∧
    (e ≠ none → (Flags.synchronous x.flags = false ∨ n < 0) → file view x' = file view x ∧ x'.size' = x.size') := by
  have h := reachable_inv H hr
  have key : ∀ x1, Resized view x n x1 → 0 ≤ n → x1.size = n ∧
      (file view x1).take x.size.toNat = (file view x).take n.toNat ∧
      (∀ k, capacity x ≤ k → (k : Int) < n → (file view x1)[k]? = some 0) ∧
      (x.size = capacity x → file view x1 =
        (file view x).take n.toNat ++ List.replicate (n.toNat - (file view x).length) 0) := by
    intro x1 r h0
    have hb := h.weak.bpb_pos
    have hsl := h.size_le
    have hsn := h.size_nn
    have hlf := length_file h
    have hroom : n.toNat ≤ x1.st.c.total * x.st.c.bpb := by
      have := (ceil_le_iff (a := n.toNat) (t := x1.st.c.total) hb).1 (by rw [r.total]; exact Nat.le_refl _)
      omega
    have hlf1 : (file view x1).length = n.toNat := by
      unfold file
      rw [List.length_take, r.contents, List.length_append, List.length_take, List.length_replicate,
        length_contents, r.size]
      omega
    have hz : ∀ k, capacity x ≤ k → (k : Int) < n → (file view x1)[k]? = some 0 := by
      intro k hk1 hk2
      have hc : capacity x = x.st.c.total * x.st.c.bpb := rfl
      unfold file
      rw [List.getElem?_take, r.size, if_pos (by omega), r.contents, List.getElem?_append_right,
        List.getElem?_replicate, if_pos]
      · rw [List.length_take, length_contents]; omega
      · rw [List.length_take, length_contents]; omega
    refine ⟨r.size, ?_, hz, ?_⟩
    · apply List.ext_getElem?
      intro k
      rw [List.getElem?_take, List.getElem?_take]
      by_cases h1 : k < x.size.toNat
      · by_cases h2 : k < n.toNat
        · rw [if_pos h1, if_pos h2, r.file_prefix (by omega) (by omega) hsl hb]
        · rw [if_pos h1, if_neg h2, List.getElem?_eq_none (by omega)]
      · rw [if_neg h1, List.getElem?_eq_none (l := file view x) (by omega)]; simp
    · intro hfull
      have hc : capacity x = x.st.c.total * x.st.c.bpb := rfl
      apply List.ext_getElem?
      intro k
      by_cases h2 : k < n.toNat
      · by_cases h1 : k < x.size.toNat
        · rw [r.file_prefix (by omega) (by omega) hsl hb, List.getElem?_append_left
            (by rw [List.length_take]; omega), List.getElem?_take, if_pos h2]
        · rw [hz k (by omega) (by omega), List.getElem?_append_right (by rw [List.length_take]; omega),
            List.getElem?_replicate, if_pos]
          rw [List.length_take]; omega
      · rw [List.getElem?_eq_none (by omega), List.getElem?_eq_none]
        rw [List.length_append, List.length_take, List.length_replicate]; omega
  rcases truncate_spec H.cache.lawful h hf with ⟨_, t⟩ | ⟨_, _, t⟩ | ⟨_, h0, s', be, t, _, _, _, t7⟩ | ⟨_, h0, x1, t3, t4, t5⟩
  · rw [ht] at t; cases t; exact ⟨rfl, by simp, fun _ _ => ⟨rfl, rfl⟩⟩
  · rw [ht] at t; cases t; exact ⟨rfl, by simp, fun _ _ => ⟨rfl, rfl⟩⟩
  · rw [ht] at t; cases t
    refine ⟨rfl, by simp, fun _ _ => ⟨?_, rfl⟩⟩
    unfold file; rw [t7]
  · rw [ht] at t5
    cases hs : Flags.synchronous x.flags with
    | false =>
      rw [hs, if_neg (by simp)] at t5
      cases t5
      exact ⟨t4.position, fun _ => ⟨h0, key _ t4 h0⟩, by simp⟩
    | true =>
      rw [hs, if_pos rfl] at t5
      obtain ⟨x2, e2, s1, s2, s3⟩ := sync_spec H.cache.lawful t3
      rw [← t5] at s1; cases s1
      have hfile : file view x' = file view x1 := by unfold file; rw [s3.contents, s3.size]
      refine ⟨s3.position.trans t4.position, fun _ => ⟨h0, ?_⟩, ?_⟩
      · rw [hfile]
        have k := key _ t4 h0
        exact ⟨s3.size.trans k.1, k.2⟩
      · intro _ hbad; simp at hbad; omega

/-- Truncating a full file of 6 bytes to 3 and then extending it to 9. -/
example : ∃ x1 x2, truncate (mem 2) (exStream 6 Flags.O_RDWR) 3 = .ret (x1, none) ∧
    file (fun s => s.1) x1 = [1, 2, 3] ∧
    truncate (mem 2) (exStream 6 Flags.O_RDWR) 9 = .ret (x2, none) ∧
    file (fun s => s.1) x2 = [1, 2, 3, 4, 5, 6, 0, 0, 0] :=
  ⟨_, _, rfl, by decide +kernel, rfl, by decide +kernel⟩

/-! ### C29 -/

/-- C29 in full: a write that returns nil is read back, and leaves the rest alone; and, with
callbacks that never fail, a permitted write at a position inside or at the end of the file
returns nil. -/
def C29_statement : Prop :=
  ∀ (S : Type) (b : Backend S) (bpb total : Nat) (view : S → Bytes) (s0 : S),
    StreamSetup b bpb total view s0 → ∀ x, Reachable b bpb total s0 x → Flags.write x.flags = true →
    ∀ (buf : Bytes) (off : Nat), (off : Int) ≤ x.size' → FitsWrite x buf.length off → ∀ x' n e,
    WriteCall b x buf off x' n e →
      (e = none → n = buf.length ∧ slice (file view x') off buf.length = buf ∧
        (∀ k : Nat, (k : Int) < x.size' → (k < off ∨ off + buf.length ≤ k) → (file view x')[k]? = (file view x)[k]?)) ∧
      (AllReliable b → e = none)

/-- Storage that never fails and can be resized. -/
def steady (bpb : Nat) : Backend Bytes where
  fetch s i _ := (s, slice s (i * bpb) bpb, none)
  flush s i buf := (splice s (i * bpb) buf, none)
  resize s n := (s.take (n * bpb) ++ List.replicate (n * bpb - s.length) 0, none)

theorem lawful_steady (bpb : Nat) : Lawful (steady bpb) bpb (fun s => s) := by
  refine ⟨fun _ _ _ => rfl, fun _ _ _ _ _ _ => rfl, fun _ _ _ _ _ _ => rfl,
    fun _ _ _ _ _ h => by simp [steady] at h, ?_, fun _ _ h => by simp [steady] at h⟩
  intro s n _ _
  constructor
  · simp only [steady, List.length_append, List.length_take, List.length_replicate]; omega
  · intro k hk hl
    simp only [steady]
    rw [List.getElem?_append_left (by rw [List.length_take]; omega), List.getElem?_take, if_pos hk]

/-- Examples on storage that never fails: 3 blocks of 2 bytes. -/
def okStream (size : Int) (flags : Flags.IOFlags) : Stm Bytes := ⟨size, 0, ⟨exampleCache, [1, 2, 3, 4, 5, 6]⟩, flags⟩

theorem okReliable : AllReliable (steady 2) := ⟨⟨fun _ _ _ => rfl, fun _ _ _ => rfl⟩, fun _ _ => rfl⟩

theorem okSetup : StreamSetup (steady 2) 2 3 (fun s => s) [1, 2, 3, 4, 5, 6] :=
  ⟨⟨lawful_steady 2, by omega, by decide +kernel, by simp⟩, by decide +kernel⟩

theorem okReachable (size : Int) (flags : Flags.IOFlags) (h : 0 ≤ size ∧ size ≤ 6)
    (hf : Flags.truncate flags = false) : Reachable (steady 2) 2 3 [1, 2, 3, 4, 5, 6] (okStream size flags) := by
  refine .opened (ops := []) (rs := []) (st := ⟨exampleCache, [1, 2, 3, 4, 5, 6]⟩)
    ⟨exampleCache, by decide +kernel, by simp, rfl⟩ (size := size) (flags := flags) (e := none) ?_
  unfold new
  have : exampleCache.size = 6 := by decide +kernel
  simp only [this]
  rw [if_neg (by omega), hf]; rfl

/-- Reading off what a call returned, and one observation of the stream after it. -/
theorem ret_of {α β γ : Type} [DecidableEq γ] {o : Outcome (α × β)} (f : α → γ) {r : β} {v : γ}
    (h : o.bind (fun p => .ret (f p.1, p.2)) = .ret (v, r)) : ∃ x', o = .ret (x', r) ∧ f x' = v := by
  rcases o with ⟨x', r'⟩ | _ | _
  · simp only [Outcome.bind, Outcome.ret.injEq, Prod.mk.injEq] at h
    obtain ⟨rfl, rfl⟩ := h
    exact ⟨x', rfl, rfl⟩
  · simp [Outcome.bind] at h
  · simp [Outcome.bind] at h

/-- Overwriting two bytes in the middle of a full file fails. -/
theorem C29_refuted : ¬ C29_statement := by
  intro h
  obtain ⟨x', hw, _⟩ := ret_of (o := writeAt (steady 2) (okStream 6 Flags.O_RDWR) [7, 7] 2) Stm.size'
    (r := (0, some (.cache .argumentOutOfRange))) (v := 6) (by decide +kernel)
  have := (h _ _ _ _ _ _ okSetup _ (okReachable 6 Flags.O_RDWR (by omega) (by decide +kernel)) (by decide +kernel)
    [7, 7] 2 (by decide +kernel) (by decide +kernel) x' 0 (some (.cache .argumentOutOfRange))
    (.writeAt (by decide +kernel) hw)).2 okReliable
  simp at this

/-- C29, read back: a Write or WriteAt that returns nil at any offset wrote all its bytes; those
inside the file are read back, those of the file outside the range are unchanged.  Missing: bytes
written beyond the size in the last block (see C31), and success (`C29_success_partial`). -/
theorem C29_readback_partial {b : Backend S} {bpb total : Nat} {view : S → Bytes} {s0 : S}
    (H : StreamSetup b bpb total view s0) {x : Stm S} (hr : Reachable b bpb total s0 x) (buf : Bytes) (off : Nat)
    (hf : FitsWrite x buf.length off) {x' : Stm S} {n : Int} (hw : WriteCall b x buf off x' n none) :
    n = buf.length ∧ x.size' ≤ x'.size' ∧
    (∀ k, k < buf.length → ((off + k : Nat) : Int) < x'.size' → (file view x')[off + k]? = buf[k]?) ∧
    ((off + buf.length : Nat) ≤ x'.size' → slice (file view x') off buf.length = buf) ∧
    (∀ k : Nat, (k : Int) < x.size' → (k < off ∨ off + buf.length ≤ k) → (file view x')[k]? = (file view x)[k]?) := by
  have h := reachable_inv H hr
  obtain ⟨h2, _, ⟨_, y, hy, _⟩ | ⟨rfl, w⟩⟩ := writeCall_cases H.cache.lawful h hw hf
  · simp at hy
  have back : ∀ k, k < buf.length → ((off + k : Nat) : Int) < x'.size' → (file view x')[off + k]? = buf[k]? := by
    intro k hk hlt
    rw [wrote_byte h w hlt, if_neg (by omega), if_pos (by omega)]
    congr 1; omega
  refine ⟨rfl, wrote_size_mono h w, back, ?_, ?_⟩
  · intro hle
    symm
    exact slice_eq_of_getElem? rfl fun k hk => (back k hk (by omega)).symm
  · intro k hk ho
    have hm := wrote_size_mono h w
    have hk' : (k : Int) < x.size := hk
    rw [wrote_byte h w (Int.lt_of_lt_of_le hk' hm), file_byte h hk]
    split
    · rfl
    · rw [if_neg (by omega)]

/-- C29, success: with callbacks that never fail, exactly the writes satisfying the last
condition return nil: the block the write starts in, plus the block after the byte it ends with,
must be within the cached object after growing it.  (The code asks the cache for one block too
many, and for a count of blocks from the start of the object instead of from the first block.)
Missing: the others (`C29_refuted`). -/
theorem C29_success_partial {b : Backend S} {bpb total : Nat} {view : S → Bytes} {s0 : S}
    (H : StreamSetup b bpb total view s0) (R : AllReliable b) {x : Stm S} (hr : Reachable b bpb total s0 x)
    (hw : Flags.write x.flags = true) (buf : Bytes) (off : Nat) (hf : FitsWrite x buf.length off)
    (hs : FitsSize x (off + buf.length : Nat)) {x' : Stm S} {n : Int} {e : Option SErr}
    (hc : WriteCall b x buf off x' n e) :
    e = none ↔ off / bpb + (off + buf.length) / bpb + 1 ≤ blocksAfter x (off + buf.length) := by
  have h := reachable_inv H hr
  have hb := h.bpb
  have nofail : ∀ y, ¬ CallbackFailed b y := by
    intro y hy
    unfold CallbackFailed at hy
    split at hy
    · obtain ⟨s, buf, hq⟩ := hy; rw [R.cache.fetch] at hq; simp at hq
    · obtain ⟨s, buf, hq⟩ := hy; rw [R.cache.flush] at hq; simp at hq
    · obtain ⟨s, m, hq⟩ := hy; rw [R.resize] at hq; simp at hq
    · exact hy
  have hlb : lastBlk x off buf.length = (off + buf.length) / bpb := by unfold lastBlk; rw [hb]
  obtain ⟨h2, _, ⟨_, y, rfl, w⟩ | ⟨rfl, w⟩⟩ := writeCall_cases H.cache.lawful h hc hf
  · simp only [reduceCtorEq, false_iff]
    rcases w.why with ⟨_, q, _⟩ | ⟨_, _, q, _⟩ | ⟨_, q⟩ | ⟨_, _, _, q⟩
    · rw [hw] at q; simp at q
    · have hs' : ((off + buf.length : Nat) : Int) + x.st.c.bpb ≤ maxInt := hs
      omega
    · exact absurd q (nofail _)
    · rw [newTotal_eq h, hlb, hb] at q; exact Nat.not_le.2 q
  · have hroom := w.room
    rw [w.total, newTotal_eq h, hlb, hb] at hroom
    simp only [hroom, iff_true]
    cases e with
    | none => rfl
    | some y => exact absurd (w.err y rfl) (nofail y)

/-- C29, a simple sufficient condition: a write that starts in the first block, and ends either
before the end of the cached object or (growing it) not at a multiple of the block size. -/
theorem C29_first_block_partial {b : Backend S} {bpb total : Nat} {view : S → Bytes} {s0 : S}
    (H : StreamSetup b bpb total view s0) (R : AllReliable b) {x : Stm S} (hr : Reachable b bpb total s0 x)
    (hw : Flags.write x.flags = true) (buf : Bytes) (off : Nat) (hf : FitsWrite x buf.length off)
    (hs : FitsSize x (off + buf.length : Nat)) {x' : Stm S} {n : Int} {e : Option SErr}
    (hc : WriteCall b x buf off x' n e) (h1 : off < bpb)
    (h2 : off + buf.length < capacity x ∨ (off + buf.length) % bpb ≠ 0) : e = none := by
  rw [C29_success_partial H R hr hw buf off hf hs hc, Nat.div_eq_of_lt h1]
  have h := reachable_inv H hr
  have hb := h.bpb
  have hp := h.weak.bpb_pos
  rw [hb] at hp
  have hcap : capacity x = x.st.c.total * bpb := by show x.st.c.total * x.st.c.bpb = _; rw [hb]
  have ht : x.st.c.totalBlocks = x.st.c.total := rfl
  generalize off + buf.length = m at *
  unfold blocksAfter
  rw [hb, ht, hcap]
  rw [hcap] at h2
  split
  · rename_i hle
    have hm : m % bpb ≠ 0 := by omega
    have h3 := Nat.div_add_mod m bpb
    have : m / bpb + 1 ≤ (m + (bpb - 1)) / bpb := by
      rw [Nat.le_div_iff_mul_le hp, Nat.add_mul, Nat.mul_comm (m / bpb) bpb]
      generalize bpb * (m / bpb) = q at *
      omega
    generalize m / bpb = q at *
    omega
  · have : m / bpb < x.st.c.total := by rw [Nat.div_lt_iff_lt_mul hp]; omega
    generalize m / bpb = q at *
    omega

/-- Of the writes of 2 bytes to a full file of 3 blocks of 2 bytes, only those at 0 and 1
succeed. -/
example : ∀ off ∈ [0, 1, 2, 3, 4, 5, 6], (off / 2 + (off + 2) / 2 + 1 ≤ blocksAfter (okStream 6 Flags.O_RDWR) (off + 2) ↔
    off ≤ 1) ∧ FitsWrite (okStream 6 Flags.O_RDWR) 2 off := by decide +kernel

/-! ### C31 -/

/-- C31 in full. -/
def C31_statement : Prop :=
  ∀ (S : Type) (b : Backend S) (bpb total : Nat) (view : S → Bytes) (s0 : S),
    StreamSetup b bpb total view s0 → ∀ x, Reachable b bpb total s0 x →
    ∀ (buf : Bytes) (off : Nat), FitsWrite x buf.length off → ∀ x' n,
    WriteCall b x buf off x' n none → x'.size' = max x.size' (off + buf.length : Nat)

/-- A write that ends inside the last block does not change the size. -/
theorem C31_refuted : ¬ C31_statement := by
  intro h
  obtain ⟨x', hw, hs⟩ := ret_of (o := writeAt (steady 2) (okStream 1 Flags.O_RDWR) [7, 7] 0) Stm.size'
    (r := (2, none)) (v := 1) (by decide +kernel)
  have := h _ _ _ _ _ _ okSetup _ (okReachable 1 Flags.O_RDWR (by omega) (by decide +kernel))
    [7, 7] 0 (by decide +kernel) x' 2 (.writeAt (by decide +kernel) hw)
  rw [hs] at this
  revert this
  decide +kernel

/-- C31 for writes that end inside the file, or at or beyond the end of the cached object.
Missing: writes that end between the two (`C31_refuted`), for which the size stays the same. -/
theorem C31_size_partial {b : Backend S} {bpb total : Nat} {view : S → Bytes} {s0 : S}
    (H : StreamSetup b bpb total view s0) {x : Stm S} (hr : Reachable b bpb total s0 x)
    (buf : Bytes) (off : Nat) (hf : FitsWrite x buf.length off) {x' : Stm S} {n : Int}
    (hw : WriteCall b x buf off x' n none) :
    ((off + buf.length : Nat) ≤ x.size' ∨ capacity x ≤ off + buf.length →
      x'.size' = max x.size' (off + buf.length : Nat)) ∧
    (off + buf.length < capacity x → x'.size' = x.size') := by
  have h := reachable_inv H hr
  obtain ⟨h2, _, ⟨_, y, hy, _⟩ | ⟨rfl, w⟩⟩ := writeCall_cases H.cache.lawful h hw hf
  · simp at hy
  have hsz := wrote_size_eq h w
  have hle : x.size ≤ ((x.st.c.total * x.st.c.bpb : Nat) : Int) := h.size_le
  have hc : capacity x = x.st.c.total * x.st.c.bpb := rfl
  unfold Stm.size'
  rw [hsz]
  constructor
  · rintro (hq | hq)
    · split <;> omega
    · rw [if_pos hq]; omega
  · intro hq; rw [if_neg (by omega)]

/-- A write of 7 bytes to a file of 1 byte: the size becomes 7. -/
example : ∃ x', WriteCall (steady 2) (okStream 1 Flags.O_RDWR) [1, 2, 3, 4, 5, 6, 7] 0 x' 7 none ∧ x'.size' = 7 :=
  ⟨_, .write (by decide +kernel) rfl, by decide +kernel⟩

end Disko.Stream

import Verif.Stream.SelfCopy
import Verif.Stream.Props5
/-! C145: a stream copied to itself. -/
namespace Disko.Stream
open Disko Disko.BlockCache Disko.BlockCache.Spec Disko.Stream.Spec Disko.Stream.Copying

variable {S : Type}

/-- What is before the position is as it was, and the file is not shorter. -/
def KeptBefore (view : S → Bytes) (x x' : Stm S) : Prop :=
  (file view x').take (min x.tell.toNat (file view x).length) = (file view x).take x.tell.toNat ∧ x.size' ≤ x'.size'

/-- C145 in full: with storage that never fails and an object for which there is room in memory four times, `f.WriteTo(f)` (also `io.Copy(f, f)`) and
`f.ReadFrom(f)` return after at most one Read for each whole block that is left, and another one, and keep what is before the position. -/
def C145_statement : Prop :=
  ∀ (S : Type) (b : Backend S) (bpb total : Nat) (view : S → Bytes) (s0 : S), StreamSetup b bpb total view s0 → AllReliable b →
    ∀ x, Reachable b bpb total s0 x → 4 * (capacity x + bpb) ≤ maxInt → x.tell + bpb ≤ maxInt →
    (∃ x' n e, selfTo b ((rest view x).length / bpb + 1) x = .ret (x', n, e) ∧ KeptBefore view x x') ∧
    (∃ x' n e, selfFrom b ((rest view x).length / bpb + 1) x = .ret (x', n, e) ∧ KeptBefore view x x')

/-- A file of 6 bytes in blocks of 2: after 4 Reads WriteTo is still busy. -/
theorem C145_refuted : ¬ C145_statement := by
  intro h
  obtain ⟨⟨x', n, e, hx, _⟩, _⟩ := h _ _ _ _ _ _ okSetup okReliable _ (okReachable 6 Flags.O_RDWR (by omega) (by decide +kernel))
    (by decide +kernel) (by decide +kernel)
  have : selfTo (steady 2) ((rest (fun s => s) (okStream 6 Flags.O_RDWR)).length / 2 + 1) (okStream 6 Flags.O_RDWR) = .timeout := by decide +kernel
  rw [this] at hx
  cases hx

theorem keptBefore {bpb : Nat} {view : S → Bytes} {x x' : Stm S} (h : Inv bpb view x) (k : KeepsTo view x.position.toNat x x') :
    KeptBefore view x x' := by
  refine ⟨?_, k.size⟩
  rw [length_file h]
  exact k.bytes

theorem length_rest {bpb : Nat} {view : S → Bytes} {x : Stm S} (h : Inv bpb view x) :
    (rest view x).length = (x.size - x.position).toNat := by
  have h1 := h.size_nn
  have h2 := h.pos_nn
  unfold rest Stm.tell
  rw [List.length_drop, length_file h]
  omega

/-- C145 for `f.ReadFrom(f)`, in full, and for storage that may fail. -/
theorem C145_readFrom_partial {b : Backend S} {bpb total : Nat} {view : S → Bytes} {s0 : S}
    (H : StreamSetup b bpb total view s0) {x : Stm S} (hr : Reachable b bpb total s0 x)
    (hcap : capacity x + 2 * bpb ≤ maxInt) (hpos : x.tell + bpb ≤ maxInt) :
    ∃ x' n e, selfFrom b ((rest view x).length / bpb + 1) x = .ret (x', n, e) ∧ KeptBefore view x x' := by
  have h := reachable_inv H hr
  have hb := h.bpb
  have hpn := h.pos_nn
  have hc : x.st.c.total * x.st.c.bpb + 2 * bpb ≤ maxInt := hcap
  rw [hb] at hc
  unfold selfFrom
  by_cases hw : Flags.write x.flags = true
  · obtain ⟨x', n, e, s1, s2⟩ := selfFromLoop_spec H.cache.lawful ((rest view x).length / bpb + 1) h (List.replicate x.st.c.bpb 0)
      (by rw [List.length_replicate, hb]) 0 hc hpos (by rw [length_rest h]; exact Nat.lt_succ_self _) (k := x.position.toNat) (by omega)
    refine ⟨x', n, e, ?_, keptBefore h s2⟩
    rw [hw]
    exact s1
  · replace hw : Flags.write x.flags = false := by simpa using hw
    exact ⟨x, 0, some .notPermitted, by rw [hw]; rfl, keptBefore h (KeepsTo.refl h _)⟩

/-- Three blocks of two bytes, from the start: there is no room for the second block (`C29`), the file is as it was, and an error is returned. -/
example : capacity (okStream 6 Flags.O_RDWR) + 2 * 2 ≤ maxInt ∧
    (selfFrom (steady 2) ((rest (fun s => s) (okStream 6 Flags.O_RDWR)).length / 2 + 1) (okStream 6 Flags.O_RDWR)).bind
      (fun p => .ret (file (fun s => s) p.1, p.2)) = .ret ([1, 2, 3, 4, 5, 6], 2, some (.cache .argumentOutOfRange)) := by decide +kernel

/-- C145 for `f.WriteTo(f)` and `io.Copy(f, f)`: whatever the storage does, as long as memory lasts it does not panic, and if it returns it has kept what was
before the position.  Missing: that it returns, which is false (`C145_refuted`, `C145_never_partial`). -/
theorem C145_writeTo_partial {b : Backend S} {bpb total : Nat} {view : S → Bytes} {s0 : S}
    (H : StreamSetup b bpb total view s0) {x : Stm S} (hr : Reachable b bpb total s0 x) (fuel : Nat)
    (hcap : capacity x + fuel * (2 * bpb) ≤ maxInt) :
    selfTo b fuel x = .timeout ∨ ∃ x' n e, selfTo b fuel x = .ret (x', n, e) ∧ KeptBefore view x x' := by
  have h := reachable_inv H hr
  have hb := h.bpb
  have hpn := h.pos_nn
  have hc : x.st.c.total * x.st.c.bpb + fuel * (2 * bpb) ≤ maxInt := hcap
  rw [hb] at hc
  rcases selfToLoop_keeps H.cache.lawful fuel h (List.replicate x.st.c.bpb 0) (by rw [List.length_replicate, hb]) 0 hc (k := x.position.toNat) (by omega) with
    t | ⟨x', n, e, t, k⟩
  · left; exact t
  · right; exact ⟨x', n, e, t, keptBefore h k⟩

/-- C145 for `f.WriteTo(f)`, in full, and for storage that may fail, if the stream cannot be written or its object is more than a block longer than its file. -/
theorem C145_ends_partial {b : Backend S} {bpb total : Nat} {view : S → Bytes} {s0 : S}
    (H : StreamSetup b bpb total view s0) {x : Stm S} (hr : Reachable b bpb total s0 x)
    (hcap : capacity x + 2 * bpb ≤ maxInt) (hc : Flags.write x.flags = false ∨ x.size' + bpb < capacity x) :
    ∃ x' n e, selfTo b ((rest view x).length / bpb + 1) x = .ret (x', n, e) ∧ KeptBefore view x x' ∧ x'.size' = x.size' := by
  have h := reachable_inv H hr
  have hb := h.bpb
  have hpn := h.pos_nn
  have hc1 : x.st.c.total * x.st.c.bpb + 2 * bpb ≤ maxInt := hcap
  have hc2 : Flags.write x.flags = false ∨ x.size + bpb < (x.st.c.total * x.st.c.bpb : Nat) := hc
  rw [hb] at hc1 hc2
  obtain ⟨x', n, e, t, k, t2⟩ := selfToLoop_ends H.cache.lawful ((rest view x).length / bpb + 1) h (List.replicate x.st.c.bpb 0)
    (by rw [List.length_replicate, hb]) 0 hc1 (k := x.position.toNat) (by omega) hc2 (by rw [length_rest h]; exact Nat.lt_succ_self _)
  exact ⟨x', n, e, t, keptBefore h k, t2⟩

/-- A file of three bytes in an object of six. -/
example : (okStream 3 Flags.O_RDWR).size' + 2 < capacity (okStream 3 Flags.O_RDWR) ∧
    (selfTo (steady 2) ((rest (fun s => s) (okStream 3 Flags.O_RDWR)).length / 2 + 1) (okStream 3 Flags.O_RDWR)).bind
      (fun p => .ret (file (fun s => s) p.1, p.2)) = .ret ([1, 2, 3], 3, none) := by decide +kernel

/-- How C145 fails: if the storage never fails, the stream can be read and written and was not opened with O_APPEND, the file ends in the last block of its object, the
position is at the start of a block, and a whole block is left, then `f.WriteTo(f)` and `io.Copy(f, f)` do not end as long as there is memory: the file grows
and grows. -/
theorem C145_never_partial {b : Backend S} {bpb total : Nat} {view : S → Bytes} {s0 : S}
    (H : StreamSetup b bpb total view s0) (R : AllReliable b) {x : Stm S} (hr : Reachable b bpb total s0 x) (fuel : Nat)
    (hrd : Flags.read x.flags = true) (hw : Flags.write x.flags = true) (ha : Flags.append x.flags = false)
    (hcap : capacity x + fuel * (2 * bpb) ≤ maxInt) (hal : x.tell.toNat % bpb = 0) (hleft : bpb ≤ (rest view x).length)
    (hlast : capacity x < x.size' + bpb) : selfTo b fuel x = .timeout := by
  have h := reachable_inv H hr
  have hb := h.bpb
  have hpn := h.pos_nn
  have hc : x.st.c.total * x.st.c.bpb + fuel * (2 * bpb) ≤ maxInt := hcap
  have hl : ((x.st.c.total * x.st.c.bpb : Nat) : Int) < x.size + bpb := hlast
  rw [hb] at hc hl
  have hbp : 0 < bpb := by rw [← hb]; exact h.weak.bpb_pos
  rw [length_rest h] at hleft
  obtain ⟨i, hi⟩ : ∃ i, x.position.toNat = i * bpb := ⟨x.position.toNat / bpb, (Nat.div_mul_cancel (Nat.dvd_of_mod_eq_zero hal)).symm⟩
  refine selfToLoop_never H.cache.lawful R fuel h hrd hw ha (List.replicate x.st.c.bpb 0) (by rw [List.length_replicate, hb]) 0 hc (i := i) (by omega) ?_ hl
  rw [Nat.succ_mul]
  omega

/-- A file of five bytes in three blocks of two: after a million Reads WriteTo is still busy. -/
example : selfTo (steady 2) 1000000 (okStream 5 Flags.O_RDWR) = .timeout :=
  C145_never_partial okSetup okReliable (okReachable 5 Flags.O_RDWR (by omega) (by decide +kernel)) 1000000 (by decide +kernel) (by decide +kernel)
    (by decide +kernel) (by decide +kernel) (by decide +kernel) (by decide +kernel) (by decide +kernel)

/-- The same with O_APPEND, from any position with a whole block left. -/
theorem C145_never_append_partial {b : Backend S} {bpb total : Nat} {view : S → Bytes} {s0 : S}
    (H : StreamSetup b bpb total view s0) (R : AllReliable b) {x : Stm S} (hr : Reachable b bpb total s0 x) (fuel : Nat)
    (hrd : Flags.read x.flags = true) (hw : Flags.write x.flags = true) (ha : Flags.append x.flags = true)
    (hcap : capacity x + fuel * (2 * bpb) ≤ maxInt) (hleft : bpb ≤ (rest view x).length)
    (hlast : capacity x ≤ x.size' + bpb) : selfTo b fuel x = .timeout := by
  have h := reachable_inv H hr
  have hb := h.bpb
  have hpn := h.pos_nn
  have hc : x.st.c.total * x.st.c.bpb + fuel * (2 * bpb) ≤ maxInt := hcap
  have hl : ((x.st.c.total * x.st.c.bpb : Nat) : Int) ≤ x.size + bpb := hlast
  rw [hb] at hc hl
  rw [length_rest h] at hleft
  have hbp : 0 < bpb := by rw [← hb]; exact h.weak.bpb_pos
  exact selfToLoop_never_append H.cache.lawful R fuel h hrd hw ha (List.replicate x.st.c.bpb 0) (by rw [List.length_replicate, hb]) 0 hc (by omega) hl

/-- The same file, opened for appending. -/
example : selfTo (steady 2) 1000000 (okStream 4 (Flags.O_RDWR ||| Flags.O_APPEND)) = .timeout :=
  C145_never_append_partial okSetup okReliable (okReachable 4 (Flags.O_RDWR ||| Flags.O_APPEND) (by omega) (by decide +kernel)) 1000000 (by decide +kernel)
    (by decide +kernel) (by decide +kernel) (by decide +kernel) (by decide +kernel) (by decide +kernel)

end Disko.Stream

import Verif.Driver.Props11
/-! What opening a file gives. -/
namespace Disko.Driver
open Disko Spec

variable {σ H α β : Type}

namespace Spec

/-- The sizes Stat reports make sense: there are `t` blocks of `b` bytes, the size lies within them, and they fit in memory. -/
def SizesFit (st : FileStat) (b t : Nat) : Prop :=
  0 < b ∧ b ≤ maxInt ∧ st.blockSize = b ∧ st.numBlocks = t ∧ 0 ≤ st.size ∧ st.size ≤ (t * b : Nat) ∧ t * b ≤ maxInt

end Spec

/-- The file that newFile makes. -/
def freshFile (st : FileStat) (b t : Nat) (h : H) (p : Str) (flags : Flags.IOFlags) : File H :=
  { size := st.size, position := 0, cache := ⟨b, t, List.replicate (BlockCache.bitmapLen t) false, List.replicate (BlockCache.bitmapLen t) false, List.replicate (t * b) 0⟩,
    ioFlags := flags, objectHandle := ⟨some h, p⟩, fileInfoStat := st, fileInfoPath := p, lastReadDirResult := none, readDirResultPointer := 0 }

/-- The file that newFile makes with O_TRUNC. -/
def emptiedFile (st : FileStat) (b : Nat) (h : H) (p : Str) (flags : Flags.IOFlags) : File H :=
  { size := 0, position := 0, cache := ⟨b, 0, [], [], []⟩,
    ioFlags := flags, objectHandle := ⟨some h, p⟩, fileInfoStat := st, fileInfoPath := p, lastReadDirResult := none, readDirResultPointer := 0 }

theorem fits_new {st : FileStat} {b t : Nat} (hf : SizesFit st b t) :
    BlockCache.new (Stream.toUint st.blockSize) (Stream.toUint st.numBlocks) =
      .ret ⟨b, t, List.replicate (BlockCache.bitmapLen t) false, List.replicate (BlockCache.bitmapLen t) false, List.replicate (t * b) 0⟩ ∧
    (⟨b, t, List.replicate (BlockCache.bitmapLen t) false, List.replicate (BlockCache.bitmapLen t) false, List.replicate (t * b) 0⟩ : BlockCache.Cache).size = (t * b : Nat) := by
  obtain ⟨h1, h2, h3, h4, h5, h6, h7⟩ := hf
  have ht : t ≤ maxInt := Nat.le_trans (Nat.le_mul_of_pos_right _ h1) h7
  have hlt : ∀ n, n ≤ maxInt → n < 2 ^ 64 := fun n h => by unfold maxInt at h; omega
  constructor
  · rw [h3, h4, Stream.toUint_nat (hlt _ h2), Stream.toUint_nat (hlt _ ht)]
    unfold BlockCache.new
    rw [Nat.mul_comm b t, u64_of_lt (hlt _ h7), if_pos ⟨ht, h7⟩]
  · unfold BlockCache.Cache.size
    simp only
    rw [i64_of_range (z := (b : Int)) (by omega) (by unfold maxInt at h2; omega), i64_of_range (z := (t : Int)) (by omega) (by unfold maxInt at ht; omega)]
    have : (b : Int) * (t : Int) = ((t * b : Nat) : Int) := by rw [Int.natCast_mul, Int.mul_comm]
    rw [this, i64_of_range (by omega) (by unfold maxInt at h7; omega)]

theorem newFile_open (d : Drv σ H) {s : σ} {h : H} {b t : Nat} (hf : SizesFit (d.impl.stat s h) b t) (p : Str) (flags : Flags.IOFlags) (ht : Flags.truncate flags = false) :
    newFile d ⟨some h, p⟩ flags s = .ret (s, .ok (freshFile (d.impl.stat s h) b t h p flags)) := by
  obtain ⟨hn, hsz⟩ := fits_new hf
  unfold newFile
  rw [andThen_ok (a := d.impl.stat s h) (s' := s) rfl]
  simp only [Ext.method, hn]
  unfold Stream.new
  simp only
  rw [hsz, if_neg (by have := hf.2.2.2.2.1; have := hf.2.2.2.2.2.1; omega), ht]
  rfl

theorem newFile_trunc (d : Drv σ H) {s s' : σ} {h : H} {b t : Nat} (hf : SizesFit (d.impl.stat s h) b t) (p : Str) (flags : Flags.IOFlags)
    (ht : Flags.truncate flags = true) (hw : Flags.write flags = true) (hs : Flags.synchronous flags = false) (hr : d.impl.resize s h 0 = (s', none)) :
    newFile d ⟨some h, p⟩ flags s = .ret (s', .ok (emptiedFile (d.impl.stat s h) b h p flags)) := by
  obtain ⟨hn, hsz⟩ := fits_new hf
  have hb : 0 < b := hf.1
  have hbm := hf.2.1
  have htr : Stream.truncate (backendOf d.impl h) ⟨(d.impl.stat s h).size, 0, ⟨⟨b, t, List.replicate (BlockCache.bitmapLen t) false, List.replicate (BlockCache.bitmapLen t) false, List.replicate (t * b) 0⟩, s⟩, flags⟩ 0
      = .ret (⟨0, 0, ⟨⟨b, 0, [], [], []⟩, s'⟩, flags⟩, none) := by
    unfold Stream.truncate
    simp only [hw, Bool.not_true, Bool.false_eq_true, if_false]
    rw [if_neg (by omega)]
    unfold BlockCache.Cache.getMinBlocksForSize
    simp only
    rw [if_neg (by omega)]
    simp only [Outcome.bind_ret]
    have h0 : u64 (Stream.toUint 0 + (b - 1)) / b = 0 := by
      rw [show Stream.toUint 0 = 0 by decide, u64_of_lt (by unfold maxInt at hbm; omega)]
      exact Nat.div_eq_of_lt (by omega)
    rw [h0]
    unfold BlockCache.resize
    simp only [backendOf, hr]
    simp only [Nat.zero_mul, show u64 0 = 0 by decide, Nat.zero_le, and_self, if_true, Nat.zero_sub, BlockCache.markLoop, Outcome.pure_eq, Outcome.bind_ret, hs, Bool.false_eq_true, if_false]
    simp [goCopy, BlockCache.bitCopy, BlockCache.bitmapLen]
  unfold newFile
  rw [andThen_ok (a := d.impl.stat s h) (s' := s) rfl]
  simp only [Ext.method, hn]
  unfold Stream.new
  simp only
  rw [hsz, if_neg (by have := hf.2.2.2.2.1; have := hf.2.2.2.2.2.1; omega), ht]
  simp only [if_true, htr, Outcome.bind_ret, Outcome.pure_eq]
  rfl

theorem newFile_trunc_fails (d : Drv σ H) {s s' : σ} {h : H} {b t : Nat} (hf : SizesFit (d.impl.stat s h) b t) (p : Str) (flags : Flags.IOFlags)
    (ht : Flags.truncate flags = true) (hw : Flags.write flags = true) {e : BlockCache.BErr} (hr : d.impl.resize s h 0 = (s', some e)) :
    newFile d ⟨some h, p⟩ flags s = .ret (s', .error (.stream (.cache (.resizeFailed e)))) := by
  obtain ⟨hn, hsz⟩ := fits_new hf
  have hb : 0 < b := hf.1
  have hbm := hf.2.1
  have h0 : u64 (Stream.toUint 0 + (b - 1)) / b = 0 := by
    rw [show Stream.toUint 0 = 0 by decide, u64_of_lt (by unfold maxInt at hbm; omega)]
    exact Nat.div_eq_of_lt (by omega)
  unfold newFile
  rw [andThen_ok (a := d.impl.stat s h) (s' := s) rfl]
  simp only [Ext.method, hn]
  unfold Stream.new
  simp only
  rw [hsz, if_neg (by have := hf.2.2.2.2.1; have := hf.2.2.2.2.2.1; omega), ht]
  unfold Stream.truncate BlockCache.Cache.getMinBlocksForSize BlockCache.resize
  have h2 : (if b = 0 then (Outcome.panic : Outcome Nat) else .ret (u64 (Stream.toUint 0 + (b - 1)) / b)) = .ret 0 := by rw [if_neg (by omega), h0]
  simp only [if_true, hw, Bool.not_true, Bool.false_eq_true, if_false, show ¬ ((0 : Int) < 0) by omega, h2, Outcome.bind_ret, backendOf, hr, Outcome.pure_eq]

end Disko.Driver

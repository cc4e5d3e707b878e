import Verif.Fat8.Props2
/-! C121: FormatImage with the options of an FSStat. -/
namespace Disko.Fat8
open Disko Disko.Fat8.Spec

/-- The size in bytes of every supported volume. -/
def SupportedSize (n : Nat) : Prop := n = 640 * 128 ∨ n = 1898 * 128 ∨ n = 2002 * 128

theorem supported_iff (n : Nat) : SupportedSize n ↔ ∃ N l, layout N = some l ∧ n = N * 128 := by
  unfold SupportedSize layout
  constructor
  · rintro (h | h | h)
    · exact ⟨640, _, rfl, h⟩
    · exact ⟨1898, _, rfl, h⟩
    · exact ⟨2002, _, rfl, h⟩
  · rintro ⟨N, l, h, h2⟩
    split at h
    · left; omega
    · split at h
      · omega
      · cases h

/-- TotalSizeBytes is the product of the two fields modulo 2^64, as a signed number. -/
theorem totalSize_eq (s : FSStat) : s.totalSizeBytes = Int.bmod (s.blockSize * s.totalBlocks : Nat) (2 ^ 64) := by
  unfold FSStat.totalSizeBytes i64
  rw [Int.bmod_mul_bmod, Int.mul_bmod_bmod]
  congr 1

/-- **C121**: FormatImage accepts exactly the FSStats that describe a supported volume: those whose TotalBlocks is 640, 1898 or 2002 (its documentation: it "only
requires the TotalBlocks field to be set"). -/
def C121_statement : Prop :=
  ∀ (F : Type) (o : FileOps F) (view : F → Bytes), LawfulFile o view → Truncates o → Writable o →
    ∀ (d : Drv F) (s : FSStat), d.isMounted = false → s.blockSize < 2 ^ 64 → s.totalBlocks < 2 ^ 64 →
      ((∃ d', formatImage o s.totalSizeBytes d = .ret (d', .ok ())) ↔ s.totalBlocks = 640 ∨ s.totalBlocks = 1898 ∨ s.totalBlocks = 2002)

variable {F : Type}

/-- **C121 (partial)**: what it accepts: the FSStats whose BlockSize * TotalBlocks is, modulo 2^64, the size of a supported volume. -/
theorem C121_accepts_partial {o : FileOps F} {view : F → Bytes} (L : LawfulFile o view) (T : Truncates o) (W : Writable o)
    (d : Drv F) (s : FSStat) (hm : d.isMounted = false) :
    ((∃ d', formatImage o s.totalSizeBytes d = .ret (d', .ok ())) ↔ SupportedSize (s.blockSize * s.totalBlocks % 2 ^ 64)) ∧
    (¬ SupportedSize (s.blockSize * s.totalBlocks % 2 ^ 64) → ∃ e, formatImage o s.totalSizeBytes d = .ret (d, .error e)) := by
  generalize hp : s.blockSize * s.totalBlocks = p
  have hs : s.totalSizeBytes = Int.bmod (p : Nat) (2 ^ 64) := by rw [← hp]; exact totalSize_eq s
  have hlo : -(2 ^ 63) ≤ s.totalSizeBytes := by rw [hs, Int.bmod_def]; omega
  have hhi : s.totalSizeBytes < 2 ^ 63 := by rw [hs, Int.bmod_def]; omega
  have key : ∀ N l, layout N = some l → (s.totalSizeBytes = (N * 128 : Nat) ↔ p % 2 ^ 64 = N * 128) := by
    intro N l h
    have hN : N ≤ 2002 := by
      unfold layout at h
      split at h
      · omega
      · split at h
        · omega
        · cases h
    rw [hs, Int.bmod_def]
    omega
  by_cases h : SupportedSize (p % 2 ^ 64)
  · obtain ⟨N, l, h1, h2⟩ := (supported_iff _).1 h
    have e := (key N l h1).2 h2
    obtain ⟨d', hd⟩ := C40_format_succeeds L T W h1 hm
    exact ⟨⟨fun _ => h, fun _ => ⟨d', by rw [e]; exact hd⟩⟩, fun h' => absurd h h'⟩
  · have hrej : ∃ e, formatImage o s.totalSizeBytes d = .ret (d, .error e) := by
      refine C40_format_rejects hlo hhi (fun N hN e => ?_) d
      rcases hl : layout N with _ | l
      · exact hN hl
      · exact h ((supported_iff _).2 ⟨N, l, hl, (key N l hl).1 e⟩)
    refine ⟨⟨fun ⟨d', hd⟩ => ?_, fun h' => absurd h' h⟩, fun _ => hrej⟩
    obtain ⟨e, he⟩ := hrej
    rw [hd] at he; simp at he

/-- C121 is false: an FSStat with only TotalBlocks set is refused, because the size is computed with BlockSize. -/
theorem C121_refuted : ¬ C121_statement := by
  intro h
  have h1 := (h Bytes memFile id memFile_lawful memFile_truncates memFile_writable (newDriver []) { totalBlocks := 640 } rfl (by decide) (by decide)).2 (.inl rfl)
  have h2 := (C121_accepts_partial memFile_lawful memFile_truncates memFile_writable (newDriver []) { totalBlocks := 640 } rfl).1.1 h1
  revert h2; unfold SupportedSize; decide

/-- Nor is the size what it says when the product is too large: a volume of 2^57 + 640 blocks of 128 bytes is formatted as a minifloppy. -/
theorem C121_wraps_refuted : ∃ s : FSStat, s.blockSize = 128 ∧ s.totalBlocks = 2 ^ 57 + 640 ∧
    ∃ d' : Drv Bytes, formatImage memFile s.totalSizeBytes (newDriver []) = .ret (d', .ok ()) :=
  ⟨{ blockSize := 128, totalBlocks := 2 ^ 57 + 640 }, rfl, rfl,
    (C121_accepts_partial memFile_lawful memFile_truncates memFile_writable _ _ rfl).1.2 (by unfold SupportedSize; decide)⟩

/-- An FSStat that is accepted. -/
example : SupportedSize (({ blockSize := 128, totalBlocks := 640 } : FSStat).blockSize * 640 % 2 ^ 64) := by unfold SupportedSize; decide
example : ({ blockSize := 128, totalBlocks := 640 } : FSStat).totalSizeBytes = 81920 := by decide

end Disko.Fat8

import Verif.Fat8.Props7
/-!
C147: FAT8 SameFile.  Names are ASCII.
-/
namespace Disko.Fat8
open Disko Disko.Fat8.Spec

/-- C147 in full: for names that can be stored, SameFile is true exactly if both have the same on-disk form, so that they name the same directory
entry. -/
def C147_statement : Prop :=
  ∀ a b x y : Bytes, Ascii a → Ascii b → filenameToBytes a = .ok x → filenameToBytes b = .ok y → (sameFile a b = true ↔ x = y)

theorem sameFile_iff (a b : Bytes) : sameFile a b = true ↔ upper a = upper b := by
  unfold sameFile
  rw [beq_iff_eq, toUpper_eq, toUpper_eq]

/-- "AB" and "AB " are the same entry, but not the same file. -/
theorem C147_refuted : ¬ C147_statement := by
  intro h
  have := (h [65, 66] [65, 66, 32] [65, 66, 32, 32, 32, 32, 32, 32, 32] [65, 66, 32, 32, 32, 32, 32, 32, 32] (by unfold Ascii; decide) (by unfold Ascii; decide)
    (by decide +kernel) (by decide +kernel)).2 rfl
  revert this
  decide +kernel

/-- C147: SameFile compares the names and nothing else, ignoring case. -/
theorem C147_names_partial (a b : Bytes) (_ha : Ascii a) (_hb : Ascii b) : sameFile a b = true ↔ upper a = upper b := sameFile_iff a b

/-- It is an equivalence. -/
theorem C147_equivalence_partial (a b c : Bytes) : sameFile a a = true ∧ (sameFile a b = sameFile b a) ∧
    (sameFile a b = true → sameFile b c = true → sameFile a c = true) := by
  refine ⟨(sameFile_iff _ _).2 rfl, ?_, fun h k => (sameFile_iff _ _).2 (((sameFile_iff _ _).1 h).trans ((sameFile_iff _ _).1 k))⟩
  rw [Bool.eq_iff_iff, sameFile_iff, sameFile_iff]
  exact eq_comm

/-- C147, one direction in full: if SameFile is true, the names have the same on-disk form (or are refused alike), and Stat says the same of both. -/
theorem C147_same_partial {a b : Bytes} (h : sameFile a b = true) :
    filenameToBytes a = filenameToBytes b ∧ ∀ (F : Type) (d : Drv F), stat d a = stat d b := by
  have hu := (sameFile_iff a b).1 h
  refine ⟨C48_same_partial hu, fun F d => ?_⟩
  unfold stat
  rw [toUpper_eq, toUpper_eq, hu]

/-- C147, the other direction: for names without trailing spaces whose extension, if any, is not empty.
Missing: names with trailing spaces in stem or extension, and names that end with their first period (`C147_refuted`). -/
theorem C147_plain_partial {a b x y : Bytes} (ha : Ascii a) (hb : Ascii b) (pa : Plain63 a) (pb : Plain63 b)
    (h1 : filenameToBytes a = .ok x) (h2 : filenameToBytes b = .ok y) : sameFile a b = true ↔ x = y := by
  constructor
  · intro h
    have := (C147_same_partial h).1
    rw [h1, h2] at this
    exact Except.ok.inj this
  · rintro rfl
    exact (sameFile_iff a b).2 (C48_distinct_partial ha hb pa pb h1 h2)

/-- C147, exactly: of two names that can be stored, with what they amount to on the disk (stem and extension without trailing spaces), SameFile says what it should, except
exactly when stems and extensions agree ignoring case but the names do not. -/
theorem C147_exact_partial {a b x y sa ea sb eb : Bytes} (ha : Ascii a) (hb : Ascii b) (h1 : filenameToBytes a = .ok x) (h2 : filenameToBytes b = .ok y)
    (ma : Amounts a sa ea) (mb : Amounts b sb eb) :
    ¬ (sameFile a b = true ↔ x = y) ↔ upper sa = upper sb ∧ upper ea = upper eb ∧ upper a ≠ upper b := by
  have na : a ≠ [] := by rintro rfl; unfold filenameToBytes at h1; simp at h1
  have nb : b ≠ [] := by rintro rfl; unfold filenameToBytes at h2; simp at h2
  have hx := C48_exact_partial ha hb na nb ma mb
  rw [h1, h2, Except.ok.injEq] at hx
  have himp : upper a = upper b → x = y := fun h => by
    have := C48_same_partial h
    rw [h1, h2] at this
    exact Except.ok.inj this
  rw [sameFile_iff]
  constructor
  · intro h
    by_cases hu : upper a = upper b
    · exact absurd ⟨fun _ => himp hu, fun _ => hu⟩ h
    · have hxy : x = y := Classical.byContradiction fun hn => h ⟨fun k => absurd k hu, fun k => absurd k hn⟩
      exact ⟨(hx.mp hxy).1, (hx.mp hxy).2, hu⟩
  · rintro ⟨k1, k2, k3⟩ h
    exact k3 (h.mpr (hx.mpr ⟨k1, k2⟩))

/-- "AB" and "AB ". -/
example : Amounts [65, 66] [65, 66] [] ∧ Amounts [65, 66, 32] [65, 66] [] ∧ ¬ (sameFile [65, 66] [65, 66, 32] = true) :=
  ⟨⟨by unfold NoTrail; decide, by unfold NoTrail; decide, 0, by decide, by decide, by decide, .inl ⟨rfl, rfl⟩⟩,
   ⟨by unfold NoTrail; decide, by unfold NoTrail; decide, 1, by decide, by decide, by decide, .inl ⟨rfl, rfl⟩⟩, by decide +kernel⟩

/-- "a.b" and "A.B". -/
example : sameFile [97, 46, 98] [65, 46, 66] = true ∧ sameFile [97, 46, 98] [97, 98] = false ∧ Ascii [97, 46, 98] ∧
    filenameToBytes [97, 46, 98] = .ok [65, 32, 32, 32, 32, 32, 66, 32, 32] := by
  refine ⟨by decide +kernel, by decide +kernel, by unfold Ascii; decide, by decide +kernel⟩

end Disko.Fat8

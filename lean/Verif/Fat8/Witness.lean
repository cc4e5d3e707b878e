import Verif.Fat8.Run
/-! A concrete file in memory, used in examples and refutations. -/
namespace Disko.Fat8
open Disko Disko.Fat8.Spec

/-- A file in memory on which nothing fails. -/
def memFile : FileOps Bytes where
  seekEnd f := (f, .ok f.length)
  readAt f n off :=
    if 0 ≤ off ∧ (n = 0 ∨ off.toNat + n ≤ f.length) then (f, slice f off.toNat n, none)
    else (f, List.replicate n 0, some 1)
  writeAt f buf off := if off < 0 then (f, some 1) else (overwrite f off.toNat buf, none)
  truncate f n := if n < 0 then (f, some 1) else (f.take n.toNat ++ List.replicate (n.toNat - f.length) 0, none)

theorem memFile_lawful : LawfulFile memFile id where
  seek_view _ := rfl
  seek_ok f n h := by simp [memFile] at h; simp [← h]
  read_view f n off := by unfold memFile; simp only; split <;> rfl
  read_ok f n off h := by
    unfold memFile at h ⊢
    simp only at h ⊢
    split at h
    · rename_i h1; rw [if_pos h1]; exact ⟨h1.1, h1.2, rfl⟩
    · simp at h
  write_ok f buf off h := by
    unfold memFile at h ⊢
    simp only at h ⊢
    split at h
    · simp at h
    · rename_i h1; rw [if_neg h1]; exact ⟨by omega, rfl⟩
  write_neg f buf off h := by unfold memFile; simp [h]
  write_fail f buf off h := by
    unfold memFile at h ⊢
    simp only at h ⊢
    split at h
    · rename_i h1; rw [if_pos h1]
      refine ⟨Nat.le_refl _, ?_, fun _ _ _ => rfl⟩
      exact Nat.le_max_left _ _
    · simp at h
  truncate_ok f n h := by
    unfold memFile at h ⊢
    simp only at h ⊢
    split at h
    · simp at h
    · rename_i h1; rw [if_neg h1]; exact ⟨by omega, rfl⟩
  truncate_fail f n h := by
    unfold memFile at h ⊢
    simp only at h ⊢
    split at h
    · rename_i h1; rw [if_pos h1]
    · simp at h

theorem memFile_truncates : Truncates memFile := by
  intro f n h; unfold memFile; simp only; rw [if_neg (by omega)]

theorem memFile_writable : Writable memFile := by
  intro f b off h; unfold memFile; simp only; rw [if_neg (by omega)]

theorem memFile_readable : Readable memFile id where
  seek f := ⟨_, rfl⟩
  read f n off h1 h2 := by unfold memFile; simp only; rw [if_pos ⟨h1, .inr h2⟩]

/-- The same file, except that Truncate fails. -/
def noTruncFile : FileOps Bytes := { memFile with truncate := fun f _ => (f, some 5) }

theorem noTruncFile_lawful : LawfulFile noTruncFile id :=
  { memFile_lawful with
    truncate_ok := by intro f n h; simp [noTruncFile] at h
    truncate_fail := by intro f n _; rfl }

/-- The image is formatted, whatever its size was. -/
theorem format_mem {N : Nat} {l : Layout} (hl : layout N = some l) (f : Bytes) (d : Drv Bytes) (hm : d.isMounted = false)
    (hf : d.image = f) :
    ∃ d', formatImage memFile (N * 128 : Nat) d = .ret (d', .ok ()) ∧ Ready id N d' ∧ Good N l d'.geometry ∧
      d' = { d with image := d'.image, geometry := d'.geometry, stat := newStat N l } ∧
      d'.image = splice (resized f (N * 128)) (l.dirStart * 128) (newTrack l (newFat l)) := by
  obtain ⟨g0, hg0⟩ := getGeometry_of_layout hl
  have hN := N_le hg0
  rcases formatImage_spec memFile_lawful (size := (N * 128 : Nat)) (by omega) (by omega) d
      (fun n _ => truncates_resized memFile_lawful memFile_truncates d.image n) with
    ⟨h, _⟩ | ⟨_, h, _⟩ | ⟨_, N', l', g, d', r, hs, G, hg, h, R, hd, hw, hv⟩
  · rw [hm] at h; simp at h
  · exact absurd rfl (h N (by rw [hl]; simp))
  · have hN' : N' = N := by omega
    subst hN'
    have : l' = l := by have := G.lay.symm.trans hl; simpa using this
    subst this
    have hr := hw (Writable.format memFile_writable)
    subst hr
    have hgd : g = d'.geometry := by rw [hd]
    refine ⟨d', h, R, hgd ▸ G, ?_, ?_⟩
    · conv => lhs; rw [hd]
      rw [hgd]
    · rw [← hf]; exact hv rfl

theorem reach_format {N : Nat} {l : Layout} (hl : layout N = some l) {f0 : Bytes} {d d' : Drv Bytes} {r : Except Err Unit}
    (hr : Reachable memFile f0 d) (h : formatImage memFile (N * 128 : Nat) d = .ret (d', r)) : Reachable memFile f0 d' := by
  obtain ⟨g0, hg0⟩ := getGeometry_of_layout hl
  have hN := N_le hg0
  refine .call (c := .format (N * 128 : Nat)) hr ⟨by omega, by omega⟩ ?_
  show after _ = _
  rw [h]; rfl

end Disko.Fat8

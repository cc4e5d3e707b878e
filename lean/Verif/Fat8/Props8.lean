import Verif.Fat8.Props2
/-! Exact forms of C41 and C46: which clusters the code reserves, and the free list that Mount makes. -/
namespace Disko.Fat8
open Disko Disko.Fat8.Spec

variable {F : Type}

/-- C41, exactly: of the clusters, counted from 1, those with the numbers `track + 1` and `track + 2` are marked reserved, for the directory's
track (counted from 0), all others free, in each of the three copies.  The clusters of the directory are `2 * track + 1` and `2 * track + 2`.
Missing: that those two are reserved, which is false (`C41_refuted`). -/
theorem C41_exact_partial {o : FileOps F} {view : F → Bytes} (L : LawfulFile o view) (T : Truncates o)
    {N : Nat} {l : Layout} {d d' : Drv F} (hl : layout N = some l)
    (hr : formatImage o (N * 128 : Nat) d = .ret (d', .ok ())) :
    ∀ i, i < 3 → ∀ c, 1 ≤ c → c ≤ l.clusters → (fatCopy l (view d'.image) i)[c - 1]? =
      some (if c = l.dirTrack + 1 ∨ c = l.dirTrack + 2 then 0xfe else 0xff) := by
  obtain ⟨R, G, _, _, hf⟩ := format_fat L T hl hr
  have h1 := G.dirTrack_lt
  have h2 := G.room
  intro i hi c hc1 hc2
  rw [hf i hi, getElem?_newFat h1]
  by_cases hc : c = l.dirTrack + 1 ∨ c = l.dirTrack + 2
  · rw [if_pos (by omega), if_pos hc]
  · rw [if_neg (by omega), if_pos (by omega), if_neg hc]

/-- On a minifloppy: clusters 18 and 19. -/
example : ∃ d', formatImage memFile (640 * 128 : Nat) (newDriver []) = .ret (d', .ok ()) ∧
    ∀ i, i < 3 → ∀ c, 1 ≤ c → c ≤ 80 → (fatCopy ⟨40, 16, 17, 1⟩ d'.image i)[c - 1]? = some (if c = 18 ∨ c = 19 then 0xfe else 0xff) := by
  obtain ⟨d', h⟩ := C40_format_succeeds memFile_lawful memFile_truncates memFile_writable (N := 640) (d := newDriver []) rfl rfl
  exact ⟨d', h, C41_exact_partial memFile_lawful memFile_truncates (l := ⟨40, 16, 17, 1⟩) rfl h⟩

theorem freeOf_eq (fat : Bytes) (n : Nat) :
    freeOf fat n = ((List.range fat.length).filter fun i => fat[i]? = some 0xff).map fun i => UInt8.ofNat (n + i + 1) := by
  induction fat generalizing n with
  | nil => rfl
  | cons c fat ih =>
    unfold freeOf
    rw [List.length_cons, List.range_succ_eq_map, List.filter_cons]
    have e : (List.map (fun i => UInt8.ofNat (n + i + 1)) (List.filter (fun i => decide ((c :: fat)[i]? = some 0xff)) (List.map Nat.succ (List.range fat.length))))
        = freeOf fat (n + 1) := by
      rw [ih, List.filter_map, List.map_map]
      have e1 : (fun i => UInt8.ofNat (n + i + 1)) ∘ Nat.succ = fun i => UInt8.ofNat (n + 1 + i + 1) := by
        funext i
        show UInt8.ofNat (n + (i + 1) + 1) = UInt8.ofNat (n + 1 + i + 1)
        congr 1; omega
      rw [e1]; rfl
    by_cases hc : c = 0xff
    · rw [if_pos hc, if_pos (by simp [hc]), List.map_cons, e]
    · rw [if_neg hc, if_neg (by simp [hc]), e]

/-- C46, exactly: Mount appends, in order, the number `i + 1` for every entry `i` of the FAT (all bytes of its sectors, also those of no cluster) that
is marked free.  Missing: that only clusters of the volume are listed, and that the list is emptied first, which are false (`C46_refuted`,
`C46_remount_duplicates`). -/
theorem C46_exact_partial {o : FileOps F} {view : F → Bytes} (L : LawfulFile o view) (T : Truncates o) {f0 : F}
    {d d' : Drv F} (hr : Reachable o f0 d) (hm : mount o d = .ret (d', .ok ())) {N : Nat} {l : Layout}
    (hN : d.stat.totalBlocks = N) (hl : layout N = some l) :
    d'.freeClusters = d.freeClusters ++
      ((List.range (l.fatSectors * 128)).filter fun i => (fatCopy l (view d.image) 0)[i]? = some 0xff).map fun i => UInt8.ofNat (i + 1) := by
  obtain ⟨N', l', R, G⟩ := reachable_ready L T hr (by rw [hN]; intro h; subst h; cases hl)
  have e1 : N' = N := R.total.symm.trans hN
  subst e1
  have e2 : l' = l := by have := G.lay.symm.trans hl; simpa using this
  subst e2
  rcases mount_spec L R G with ⟨_, h⟩ | ⟨_, d1, r1, h, _, _, _, _, _, hres, _⟩
  · rw [h] at hm; simp at hm
  rw [h] at hm; cases hm
  rcases hres with ⟨⟨e, h⟩, _⟩ | ⟨h, _⟩ | ⟨_, _, _, _, hfc, _⟩
  · simp at h
  · simp at h
  rw [hfc, freeOf_eq, length_fatCopy R G (i := 0) (by omega)]
  simp only [Nat.zero_add]

example : ∃ d d' : Drv Bytes, Reachable memFile [] d ∧ mount memFile d = .ret (d', .ok ()) ∧ d.stat.totalBlocks = 640 := by
  obtain ⟨d0, d, hr0, hf, hm0, _⟩ := mounted_mem (N := 640) (l := ⟨40, 16, 17, 1⟩) rfl
  have h := format_fat memFile_lawful memFile_truncates (l := ⟨40, 16, 17, 1⟩) rfl hf
  exact ⟨d0, d, hr0, hm0, h.1.total⟩

end Disko.Fat8

import Verif.Fat8.Witness
/-!
C39-C46 and C69-C71, C73: FAT8 volumes.  `LawfulFile` is what os.File documents, `Reachable` are
the drivers that can exist (any image, any history of calls, any failures).  `Truncates` says
that Truncate does not fail (FormatImage ignores its result, see C70).
-/
namespace Disko.Fat8
open Disko Disko.Fat8.Spec

variable {F : Type}

/-! ### C39: geometry -/

/-- C39: exactly three sizes are supported. -/
theorem C39_supported_sizes (n : Nat) : (∃ g, getGeometry n = .ok g) ↔ n = 640 ∨ n = 1898 ∨ n = 2002 := by
  unfold getGeometry
  split
  · simp [*]
  · split
    · simp [*]
    · split
      · simp [*]
      · simp [*]

/-- C39: the parts of a volume.  The directory track is track DirectoryTrackNumber (counting from
1); it consists of directory entries, then one info sector, then three FAT copies, and nothing
else; a FAT copy has room for one byte per cluster and is not larger than needed; the clusters are
the halves of the data tracks; the image has all its tracks. -/
theorem C39_layout {n : Nat} {g : Geometry} (h : getGeometry n = .ok g) :
    1 ≤ g.directoryTrackNumber ∧ g.directoryTrackNumber ≤ g.totalTracks ∧
    g.directoryTrackStart = (g.directoryTrackNumber - 1) * g.sectorsPerTrack ∧
    g.directoryTrackStart < g.infoSectorStart ∧
    g.infoSectorStart + 1 = g.fatsStart ∧
    g.fatsStart + 3 * g.sectorsPerFAT = g.directoryTrackStart + g.sectorsPerTrack ∧
    g.totalClusters ≤ g.sectorsPerFAT * 128 ∧ (g.sectorsPerFAT - 1) * 128 < g.totalClusters ∧
    g.sectorsPerTrack = 2 * g.sectorsPerCluster ∧
    g.totalClusters * g.sectorsPerCluster = g.totalTracks * g.sectorsPerTrack ∧
    g.bytesPerCluster = g.sectorsPerCluster * 128 ∧
    g.totalTracks ≤ g.trueTotalTracks ∧ g.trueTotalTracks * g.sectorsPerTrack = n := by
  unfold getGeometry at h
  split at h
  · rename_i hn; subst hn; cases h; decide +kernel
  · split at h
    · rename_i hn; subst hn; cases h; decide +kernel
    · split at h
      · rename_i hn; subst hn; cases h; decide +kernel
      · simp at h

/-- C39: the numbers are those of the two IBM formats (specification `layout`). -/
theorem C39_formats {n : Nat} {g : Geometry} (h : getGeometry n = .ok g) : ∃ l, layout n = some l ∧
    g.totalTracks = l.tracks ∧ g.sectorsPerTrack = l.spt ∧ g.directoryTrackNumber = l.dirTrack + 1 ∧
    g.directoryTrackStart = l.dirStart ∧ g.infoSectorStart = l.info ∧ g.fatsStart = l.fatStart 0 ∧
    g.sectorsPerFAT = l.fatSectors ∧ g.totalClusters = l.clusters ∧ g.sectorsPerCluster = l.spc := by
  obtain ⟨l, G⟩ := good_of h
  exact ⟨l, G.lay, G.tracks, G.spt, G.dirNumber, G.dirStart, G.info, G.fats, G.spf, G.clusters, G.spc⟩

example : ∃ g, getGeometry 1898 = .ok g := (C39_supported_sizes 1898).2 (by omega)

/-! ### C40: what formatting writes -/

/-- Resizing a blank image gives a blank image. -/
theorem resized_blank (m n : Nat) : resized (List.replicate m 0) n = List.replicate n 0 := by
  unfold resized
  rw [List.take_replicate, List.length_replicate, List.replicate_append_replicate]
  congr 1; omega

theorem length_newTrack {l : Layout} (h : l.dirStart + l.direntSectors = l.info)
    (h2 : l.info + 1 + 3 * l.fatSectors = l.dirStart + l.spt) {fat : Bytes} (hf : fat.length = l.fatSectors * 128) :
    (newTrack l fat).length = l.spt * 128 := by
  unfold newTrack
  simp only [List.length_append, List.length_replicate]
  omega

theorem splice_blank {N : Nat} {l : Layout} (h : l.dirStart + l.direntSectors = l.info)
    (h2 : l.info + 1 + 3 * l.fatSectors = l.dirStart + l.spt) (h3 : l.dirStart + l.spt ≤ N) {fat : Bytes}
    (hf : fat.length = l.fatSectors * 128) :
    splice (List.replicate (N * 128) 0) (l.dirStart * 128) (newTrack l fat) = emptyVolume l N fat := by
  unfold splice emptyVolume
  rw [length_newTrack h h2 hf, List.take_replicate, List.drop_replicate]
  rw [Nat.min_eq_left (by omega)]
  rw [show N * 128 - (l.dirStart * 128 + l.spt * 128) = (N - (l.dirStart + l.spt)) * 128 from by omega]
  unfold newTrack
  simp only [List.append_assoc]

/-- C40: a successful FormatImage of a blank image (of any size) leaves exactly an empty volume of
the requested, supported size. -/
theorem C40_format_blank {o : FileOps F} {view : F → Bytes} (L : LawfulFile o view) (T : Truncates o)
    {size : Int} (h1 : -(2 ^ 63) ≤ size) (h2 : size < 2 ^ 63) {d d' : Drv F} {m : Nat}
    (hb : view d.image = List.replicate m 0) (hr : formatImage o size d = .ret (d', .ok ())) :
    ∃ N l fat, size = (N * 128 : Nat) ∧ layout N = some l ∧ fat.length = l.fatSectors * 128 ∧
      view d'.image = emptyVolume l N fat ∧ (view d'.image).length = N * 128 := by
  rcases formatImage_spec L h1 h2 d (fun n _ => truncates_resized L T d.image n) with
    ⟨_, h⟩ | ⟨_, _, e, h⟩ | ⟨_, N, l, g, d1, r, hs, G, hg, h, R, hd, hw, hv⟩
  · rw [h] at hr; simp at hr
  · rw [h] at hr; simp at hr
  · rw [h] at hr; cases hr
    have hv := hv rfl
    rw [hb, resized_blank, splice_blank G.dirents G.split (Nat.le_of_lt G.inside) (length_newFat l)] at hv
    exact ⟨N, l, newFat l, hs, G.lay, length_newFat l, hv, R.len⟩

/-- C40: FormatImage of a supported size succeeds on an unmounted driver unless the file fails. -/
theorem C40_format_succeeds {o : FileOps F} {view : F → Bytes} (L : LawfulFile o view) (T : Truncates o) (W : Writable o)
    {N : Nat} {l : Layout} (hl : layout N = some l) {d : Drv F} (hm : d.isMounted = false) :
    ∃ d', formatImage o (N * 128 : Nat) d = .ret (d', .ok ()) := by
  obtain ⟨g0, hg0⟩ := getGeometry_of_layout hl
  have hN := N_le hg0
  rcases formatImage_spec L (size := (N * 128 : Nat)) (by omega) (by omega) d (fun n _ => truncates_resized L T d.image n) with
    ⟨h, _⟩ | ⟨_, h, _⟩ | ⟨_, N', l', g, d', r, hs, G, hg, h, R, hd, hw, hv⟩
  · rw [hm] at h; simp at h
  · exact absurd rfl (h N (by rw [hl]; simp))
  · rw [hw (Writable.format W)] at h; exact ⟨d', h⟩

/-- C40: other sizes are rejected, and then nothing has been written and the driver is as it was. -/
theorem C40_format_rejects {o : FileOps F} {size : Int} (h1 : -(2 ^ 63) ≤ size) (h2 : size < 2 ^ 63)
    (hs : ∀ N : Nat, layout N ≠ none → size ≠ (N * 128 : Nat)) (d : Drv F) :
    ∃ e, formatImage o size d = .ret (d, .error e) := by
  unfold formatImage
  rw [get_bind]
  by_cases hm : d.isMounted = true
  · rw [if_pos hm]; exact ⟨_, rfl⟩
  rw [if_neg hm]
  by_cases ht : size.tmod 128 ≠ 0
  · rw [if_pos ht]; exact ⟨_, rfl⟩
  rw [if_neg ht]
  simp only
  rcases hg : getGeometry ((size % 2 ^ 64).toNat / 128) with e | g
  · exact ⟨e, by rw [hg]; exact bind_err rfl⟩
  · obtain ⟨l, G⟩ := good_of hg
    have := G.N_le
    exact absurd (size_blocks h1 h2 (by omega) (by omega)) (hs _ (by rw [G.lay]; simp))

example : ∃ d', formatImage memFile (1898 * 128 : Nat) (newDriver (List.replicate 7 0)) = .ret (d', .ok ()) :=
  C40_format_succeeds memFile_lawful memFile_truncates memFile_writable (N := 1898) rfl rfl
example : (∀ N : Nat, layout N ≠ none → (641 * 128 : Int) ≠ (N * 128 : Nat)) := by
  intro N hN h
  have : N = 641 := by omega
  subst this; exact hN rfl

/-! ### C41: the directory's clusters are reserved -/

/-- C41 in full: after formatting, a cluster is marked reserved (0xFE) exactly if it overlaps the
directory track, and all others are marked free (0xFF). -/
def C41_statement : Prop :=
  ∀ (F : Type) (o : FileOps F) (view : F → Bytes), LawfulFile o view → Truncates o →
    ∀ (N : Nat) (l : Layout) (d d' : Drv F), layout N = some l → formatImage o (N * 128 : Nat) d = .ret (d', .ok ()) →
      ∀ c, 1 ≤ c → c ≤ l.clusters →
        ((fatCopy l (view d'.image) 0)[c - 1]? = some 0xfe ↔ inDirectoryTrack l c) ∧
        ((fatCopy l (view d'.image) 0)[c - 1]? = some 0xff ↔ ¬ inDirectoryTrack l c)

theorem getElem?_newFat {l : Layout} (h : l.dirTrack + 1 < l.fatSectors * 128) (k : Nat) :
    (newFat l)[k]? = if k = l.dirTrack ∨ k = l.dirTrack + 1 then some 0xfe
      else if k < l.fatSectors * 128 then some 0xff else none := by
  unfold newFat
  rw [List.getElem?_set, List.getElem?_set, List.length_set, List.length_replicate, List.getElem?_replicate]
  by_cases h1 : l.dirTrack + 1 = k
  · rw [if_pos h1, if_pos (by omega), if_pos (by omega)]
  · rw [if_neg h1]
    by_cases h2 : l.dirTrack = k
    · rw [if_pos h2, if_pos (by omega), if_pos (by omega)]
    · rw [if_neg h2, if_neg (c := k = l.dirTrack ∨ _) (by omega)]

theorem slice_splice_track {d : Bytes} {N : Nat} {l : Layout} {g : Geometry} (G : Good N l g) (hd : d.length = N * 128)
    {fat : Bytes} (hf : fat.length = l.fatSectors * 128) {i : Nat} (hi : i < 3) :
    fatCopy l (splice d (l.dirStart * 128) (newTrack l fat)) i = fat := by
  have hde := G.dirents
  have hsp := G.split
  have hin := G.inside
  have hlt := length_newTrack hde hsp hf
  have hmul : i * l.fatSectors ≤ 2 * l.fatSectors := Nat.mul_le_mul_right _ (by omega)
  unfold fatCopy sectors
  symm
  apply slice_eq_of_getElem? hf
  intro k hk
  rw [getElem?_splice (by omega)]
  have hfs : l.fatStart i * 128 = l.dirStart * 128 + (l.direntSectors * 128 + 128 + i * l.fatSectors * 128) := by
    unfold Layout.fatStart; omega
  rw [hfs, if_neg (by omega), if_pos (by rw [hlt]; omega)]
  unfold newTrack
  rw [List.getElem?_append_right (by simp only [List.length_append, List.length_replicate]; omega)]
  simp only [List.length_append, List.length_replicate]
  have hi' : i = 0 ∨ i = 1 ∨ i = 2 := by omega
  rcases hi' with rfl | rfl | rfl
  · rw [List.append_assoc, List.getElem?_append_left (by omega)]
    have e : l.dirStart * 128 + (l.direntSectors * 128 + 128 + 0 * l.fatSectors * 128) + k - l.dirStart * 128 -
      (l.direntSectors * 128 + 128) = k := by omega
    rw [e]
  · rw [List.append_assoc, List.getElem?_append_right (by omega), List.getElem?_append_left (by omega)]
    have e : l.dirStart * 128 + (l.direntSectors * 128 + 128 + 1 * l.fatSectors * 128) + k - l.dirStart * 128 -
      (l.direntSectors * 128 + 128) - fat.length = k := by omega
    rw [e]
  · rw [List.getElem?_append_right (by rw [List.length_append]; omega)]
    have e : l.dirStart * 128 + (l.direntSectors * 128 + 128 + 2 * l.fatSectors * 128) + k - l.dirStart * 128 -
      (l.direntSectors * 128 + 128) - (fat ++ fat).length = k := by rw [List.length_append]; omega
    rw [e]

/-- After formatting, each FAT copy is `newFat`. -/
theorem format_fat {o : FileOps F} {view : F → Bytes} (L : LawfulFile o view) (T : Truncates o) {N : Nat} {l : Layout}
    {d d' : Drv F} (hl : layout N = some l) (hr : formatImage o (N * 128 : Nat) d = .ret (d', .ok ())) :
    Ready view N d' ∧ Good N l d'.geometry ∧ d'.isMounted = false ∧ d'.freeClusters = d.freeClusters ∧
    ∀ i, i < 3 → fatCopy l (view d'.image) i = newFat l := by
  obtain ⟨g0, hg0⟩ := getGeometry_of_layout hl
  have hN := N_le hg0
  rcases formatImage_spec L (size := (N * 128 : Nat)) (by omega) (by omega) d (fun n _ => truncates_resized L T d.image n) with
    ⟨_, h⟩ | ⟨_, _, e, h⟩ | ⟨hm, N', l', g, d1, r, hs, G, hg, h, R, hd, hw, hv⟩
  · rw [h] at hr; simp at hr
  · rw [h] at hr; simp at hr
  · rw [h] at hr; cases hr
    have hN' : N' = N := by omega
    subst hN'
    have : l' = l := by have := G.lay.symm.trans hl; simpa using this
    subst this
    refine ⟨R, ?_, ?_, ?_, fun i hi => ?_⟩
    · rw [hd]; exact G
    · rw [hd]; exact hm
    · rw [hd]
    · rw [hv rfl]
      exact slice_splice_track G (length_resized _ _) (length_newFat l') hi

/-- C41 is false: FormatImage marks FAT entries by track number instead of cluster number, so it
reserves clusters 18 and 19 of a minifloppy instead of clusters 35 and 36 (and 35 and 36 of a
floppy instead of 69 and 70). -/
theorem C41_refuted : ¬ C41_statement := by
  intro h
  obtain ⟨d', hd, R, G, _⟩ := format_mem (N := 640) (l := ⟨40, 16, 17, 1⟩) rfl [] (newDriver []) rfl rfl
  have h1 := (h Bytes memFile id memFile_lawful memFile_truncates 640 _ _ d' rfl hd 18 (by omega) (by decide)).1
  have h2 := (format_fat memFile_lawful memFile_truncates (l := ⟨40, 16, 17, 1⟩) rfl hd).2.2.2.2 0 (by omega)
  rw [h2, getElem?_newFat (by decide)] at h1
  obtain ⟨s, a1, a2, a3, a4⟩ := h1.1 (by decide)
  simp only [Layout.spc, Layout.dirStart] at a1 a2 a3 a4
  omega

/-- C41, the part that holds: exactly two clusters are marked reserved, all others free, in each
of the three copies.  (Missing: they are not the clusters of the directory.) -/
theorem C41_two_reserved_partial {o : FileOps F} {view : F → Bytes} (L : LawfulFile o view) (T : Truncates o)
    {N : Nat} {l : Layout} {d d' : Drv F} (hl : layout N = some l)
    (hr : formatImage o (N * 128 : Nat) d = .ret (d', .ok ())) :
    ∃ a b, 1 ≤ a ∧ a ≤ l.clusters ∧ 1 ≤ b ∧ b ≤ l.clusters ∧ a ≠ b ∧
      ∀ i, i < 3 → ∀ c, 1 ≤ c → c ≤ l.clusters → (fatCopy l (view d'.image) i)[c - 1]? =
        some (if c = a ∨ c = b then 0xfe else 0xff) := by
  obtain ⟨R, G, _, _, hf⟩ := format_fat L T hl hr
  have h1 := G.dirTrack_lt
  have h2 := G.room
  have h3 : l.dirTrack + 2 ≤ l.clusters := by
    have := G.tracks; have h4 := G.dirStart
    unfold layout at hl
    split at hl
    · cases hl; decide
    · split at hl
      · cases hl; decide
      · simp at hl
  refine ⟨l.dirTrack + 1, l.dirTrack + 2, by omega, by omega, by omega, by omega, by omega, fun i hi c hc1 hc2 => ?_⟩
  rw [hf i hi, getElem?_newFat h1]
  by_cases hc : c = l.dirTrack + 1 ∨ c = l.dirTrack + 2
  · rw [if_pos (by omega), if_pos hc]
  · rw [if_neg (by omega), if_pos (by omega), if_neg hc]

example : ∃ d', formatImage memFile (640 * 128 : Nat) (newDriver []) = .ret (d', .ok ()) :=
  C40_format_succeeds memFile_lawful memFile_truncates memFile_writable (N := 640) rfl rfl

/-! ### C42: mounting a formatted image -/

/-- C42 in full: a new driver can mount an image that FormatImage produced, if nothing fails. -/
def C42_statement : Prop :=
  ∀ (F : Type) (o : FileOps F) (view : F → Bytes), LawfulFile o view → Truncates o → Readable o view →
    ∀ (size : Int) (d d' : Drv F), -(2 ^ 63) ≤ size → size < 2 ^ 63 → formatImage o size d = .ret (d', .ok ()) →
      ∃ d'', mount o (newDriver d'.image) = .ret (d'', .ok ())

/-- C42 is false, for every image whatsoever: Mount never sets the number of blocks, so every read
is "past the end of the image". -/
theorem C42_never_mounts {o : FileOps F} {view : F → Bytes} (L : LawfulFile o view) (f : F) :
    ∃ d' e, mount o (newDriver f) = .ret (d', .error e) := by
  obtain ⟨f', g, e, h, _⟩ := mount_fresh L (d := newDriver f) rfl rfl
  exact ⟨_, e, h⟩

theorem C42_refuted : ¬ C42_statement := by
  intro h
  obtain ⟨d', hd, _⟩ := format_mem (N := 640) (l := ⟨40, 16, 17, 1⟩) rfl [] (newDriver []) rfl rfl
  obtain ⟨d'', hm⟩ := h Bytes memFile id memFile_lawful memFile_truncates memFile_readable (640 * 128 : Nat) _ d'
    (by decide) (by decide) hd
  obtain ⟨d1, e, h1⟩ := C42_never_mounts memFile_lawful d'.image
  rw [h1] at hm; simp at hm

/-- C42, the part that holds: the driver that formatted the image can mount it.  (Missing: any
other driver.) -/
theorem C42_formatter_mounts_partial {o : FileOps F} {view : F → Bytes} (L : LawfulFile o view) (T : Truncates o)
    (A : Readable o view) {size : Int} {d d' : Drv F} (h1 : -(2 ^ 63) ≤ size) (h2 : size < 2 ^ 63)
    (hr : formatImage o size d = .ret (d', .ok ())) : ∃ d'', mount o d' = .ret (d'', .ok ()) ∧ d''.isMounted = true ∧
      view d''.image = view d'.image := by
  have : ∃ N : Nat, ∃ l, size = (N * 128 : Nat) ∧ layout N = some l := by
    rcases formatImage_spec L h1 h2 d (fun n _ => truncates_resized L T d.image n) with
      ⟨_, h⟩ | ⟨_, _, e, h⟩ | ⟨_, N, l, g, d1, r, hs, G, _⟩
    · rw [h] at hr; simp at hr
    · rw [h] at hr; simp at hr
    · exact ⟨N, l, hs, G.lay⟩
  obtain ⟨N, l, rfl, hl⟩ := this
  obtain ⟨R, G, hm, _, hf⟩ := format_fat L T hl hr
  rcases mount_spec L R G with ⟨h, _⟩ | ⟨_, d1, r1, h, hv, R1, _, _, _, hres, _⟩
  · rw [hm] at h; simp at h
  · rcases hres with ⟨_, hA, _⟩ | ⟨_, _, hc⟩ | ⟨rfl, hm1, _⟩
    · exact absurd A hA
    · exact absurd ⟨by rw [hf 0 (by omega), hf 1 (by omega)], by rw [hf 0 (by omega), hf 2 (by omega)]⟩ hc.1
    · exact ⟨d1, h, hm1, hv⟩

example : ∃ d', formatImage memFile (2002 * 128 : Nat) (newDriver [1, 2, 3]) = .ret (d', .ok ()) :=
  C40_format_succeeds memFile_lawful memFile_truncates memFile_writable (N := 2002) rfl rfl

/-! ### C43: clusters -/

/-- C43 in full, for absolute clusters: what is written is what is read, and other clusters keep
their contents. -/
def C43_statement : Prop :=
  ∀ (F : Type) (o : FileOps F) (view : F → Bytes), LawfulFile o view → Truncates o → ∀ (f0 : F) (d : Drv F),
    Reachable o f0 d → ∀ (N : Nat) (l : Layout), d.stat.totalBlocks = N → layout N = some l →
      ∀ (c : Nat) (data : Bytes) (d' : Drv F), writeAbsoluteCluster o c data d = .ret (d', .ok ()) →
        (∀ (d'' : Drv F) (x : Bytes), readAbsoluteCluster o c d' = .ret (d'', .ok x) → x = data) ∧
        (∀ c', 1 ≤ c' → c' ≤ l.clusters → c' ≠ c → cluster l (view d'.image) c' = cluster l (view d.image) c')

/-- Clusters that do not meet the written range keep their contents. -/
theorem cluster_splice_other {l : Layout} {d data : Bytes} {c' s : Nat} (hd : (s + l.spc) * 128 ≤ d.length)
    (hl : data.length = l.spc * 128) (h : (c' - 1) * l.spc + l.spc ≤ s ∨ s + l.spc ≤ (c' - 1) * l.spc) :
    cluster l (splice d (s * 128) data) c' = cluster l d c' := by
  unfold cluster sectors
  apply List.ext_getElem?
  intro k
  rw [getElem?_slice, getElem?_slice]
  split
  · generalize (c' - 1) * l.spc = t at *
    rw [getElem?_splice (by omega)]
    split
    · rfl
    · rw [if_neg (by rcases h with h | h <;> omega)]
  · rfl

theorem cluster_splice_self {l : Layout} {d data : Bytes} {c : Nat} (hd : ((c - 1) * l.spc + l.spc) * 128 ≤ d.length)
    (hl : data.length = l.spc * 128) :
    cluster l (splice d ((c - 1) * l.spc * 128) data) c = data := by
  unfold cluster sectors
  symm
  apply slice_eq_of_getElem? hl
  intro k hk
  rw [getElem?_splice (by omega), if_neg (by omega), if_pos (by omega)]
  congr 1; omega

theorem clusters_apart {a b p : Nat} (h : a ≠ b) : a * p + p ≤ b * p ∨ b * p + p ≤ a * p := by
  rcases Nat.lt_or_ge a b with h1 | h1
  · left; have := Nat.mul_le_mul_right p (show a + 1 ≤ b by omega); rw [Nat.add_mul] at this; omega
  · right; have := Nat.mul_le_mul_right p (show b + 1 ≤ a by omega); rw [Nat.add_mul] at this; omega

/-- What WriteAbsoluteCluster does when it succeeds. -/
theorem writeCluster_spec {o : FileOps F} {view : F → Bytes} (L : LawfulFile o view) {N : Nat} {l : Layout} {d d' : Drv F}
    (R : Ready view N d) (G : Good N l d.geometry) {c : Nat} {data : Bytes}
    (h : writeAbsoluteCluster o c data d = .ret (d', .ok ())) :
    1 ≤ c ∧ c ≤ l.clusters ∧ data.length = l.spc * 128 ∧ ImgStep view d d' ∧
      ((2 * c - 1 - 1) * l.spc + l.spc) * 128 ≤ N * 128 ∧
      view d'.image = splice (view d.image) ((2 * c - 1 - 1) * l.spc * 128) data := by
  unfold writeAbsoluteCluster at h
  rw [get_bind] at h
  split at h
  · cases h
  · rename_i hv
    simp only [isValidCluster, G.clusters, Bool.not_eq_true', Bool.not_eq_false, Bool.and_eq_true, decide_eq_true_eq] at hv
    split at h
    · cases h
    · rename_i hl
      have hcl := G.clusters_lt
      have hspc : l.spc ≤ N := by
        have := G.two; have := G.inside; omega
      have hN := G.N_le
      rw [G.bpc, i64_of_range (by omega) (by omega)] at hl
      have hlen : data.length = l.spc * 128 := by omega
      have e1 : u64sub c 1 = c - 1 := by unfold u64sub; omega
      have hmul : (c - 1) * l.spt = (2 * c - 1 - 1) * l.spc := by
        have e : (c - 1) * 2 = 2 * c - 1 - 1 := by omega
        rw [G.two, ← Nat.mul_assoc, e]
      have hmulle : (2 * c - 1 - 1) * l.spc ≤ 510 * 2002 := Nat.mul_le_mul (by omega) (by omega)
      rw [e1, G.spt, hmul, u64_of_lt (by omega)] at h
      rcases writeDiskBlocks_spec L (start := (2 * c - 1 - 1) * l.spc) (data := data) (by omega) (by unfold maxInt; omega) d
          R.enough.1 with ⟨_, f', e, hr, _⟩ | ⟨_, hb, f', ⟨e, _, hr, _⟩ | ⟨hr, hv'⟩⟩
      · rw [hr] at h; simp at h
      · rw [hr] at h; simp at h
      · rw [hr] at h; cases h
        rw [R.total] at hb
        rw [overwrite_inside (by rw [R.len]; omega)] at hv'
        exact ⟨hv.1, hv.2, hlen, .of_image (by rw [hv', length_splice (by rw [R.len]; omega)]), by omega, hv'⟩

/-- What ReadAbsoluteCluster returns when it succeeds. -/
theorem readCluster_spec {o : FileOps F} {view : F → Bytes} (L : LawfulFile o view) {N : Nat} {l : Layout} {d d' : Drv F}
    (R : Ready view N d) (G : Good N l d.geometry) {c : Nat} {x : Bytes}
    (h : readAbsoluteCluster o c d = .ret (d', .ok x)) :
    1 ≤ c ∧ c ≤ l.clusters ∧ x = cluster l (view d.image) c ∧ view d'.image = view d.image := by
  unfold readAbsoluteCluster at h
  rw [get_bind] at h
  split at h
  · cases h
  · rename_i hv
    simp only [isValidCluster, G.clusters, Bool.not_eq_true', Bool.not_eq_false, Bool.and_eq_true, decide_eq_true_eq] at hv
    have hcl := G.clusters_lt
    have hspc : l.spc ≤ N := by
      have := G.two; have := G.inside; omega
    have hN := G.N_le
    have e1 : u64sub c 1 = c - 1 := by unfold u64sub; omega
    have hmulle : (c - 1) * l.spc ≤ 510 * 2002 := Nat.mul_le_mul (by omega) (by omega)
    simp only at h
    rw [e1, G.spc, u64_of_lt (by omega)] at h
    rcases readDiskBlocks_spec L (start := (c - 1) * l.spc) (count := l.spc) (by omega) d with
      ⟨_, hr⟩ | ⟨_, f', hv', ⟨e, _, hr⟩ | ⟨_, hr⟩⟩
    · rw [hr] at h; simp at h
    · rw [hr] at h; simp at h
    · rw [hr] at h; cases h
      exact ⟨hv.1, hv.2, rfl, hv'⟩

/-- Cluster 2 of a minifloppy cannot be read back. -/
theorem C43_refuted : ¬ C43_statement := by
  intro h
  obtain ⟨d, hd, R, G, hd', himg⟩ := format_mem (N := 640) (l := ⟨40, 16, 17, 1⟩) rfl [] (newDriver []) rfl rfl
  have hreach := reach_format (N := 640) (l := ⟨40, 16, 17, 1⟩) rfl (Reachable.new (o := memFile) (f0 := ([] : Bytes))) hd
  have hw : ∃ d', writeAbsoluteCluster memFile 2 (List.replicate 1024 7) d = .ret (d', .ok ()) := by
    unfold writeAbsoluteCluster
    rw [get_bind, if_neg (by simp [isValidCluster, G.clusters, Layout.clusters])]
    rw [if_neg (by rw [G.bpc, List.length_replicate]; decide)]
    rw [G.spt]
    obtain ⟨d', _, ⟨e, he, _⟩ | ⟨hr, _⟩⟩ := write_inside memFile_lawful (start := u64 (u64sub 2 1 * 16))
      (data := List.replicate 1024 7) R.enough (by rw [List.length_replicate]) (by rw [R.total, List.length_replicate]; decide)
    · rw [memFile_writable _ _ _ (by omega)] at he; simp at he
    · exact ⟨d', hr⟩
  obtain ⟨d', hw⟩ := hw
  obtain ⟨_, _, hlen, hs, _, hv⟩ := writeCluster_spec memFile_lawful R G hw
  have R' := R.step hs
  have G' : Good 640 ⟨40, 16, 17, 1⟩ d'.geometry := by rw [hs.rest]; exact G
  have hrd : ∃ d'' x, readAbsoluteCluster memFile 2 d' = .ret (d'', .ok x) := by
    unfold readAbsoluteCluster
    rw [get_bind, if_neg (by simp [isValidCluster, G'.clusters, Layout.clusters])]
    rw [G'.spc]
    obtain ⟨d'', _, _, ⟨e, he, _⟩ | hr⟩ := read_inside memFile_lawful (s := u64 (u64sub 2 1 * 8)) (n := 8) R' (by decide)
    · rw [read_total R' (by decide) memFile_readable] at he; simp at he
    · exact ⟨d'', _, hr⟩
  obtain ⟨d'', x, hrd⟩ := hrd
  have hx := (h Bytes memFile id memFile_lawful memFile_truncates [] d hreach 640 _ R.total rfl 2 _ d' hw).1 d'' x hrd
  obtain ⟨_, _, hx2, _⟩ := readCluster_spec memFile_lawful R' G' hrd
  rw [hv, cluster_splice_other (by rw [show (id d.image).length = 640 * 128 from R.len]; decide) hlen
    (by left; decide)] at hx2
  rw [hx2] at hx
  have hx0 := congrArg (fun z => z[0]?) hx
  simp only [cluster, sectors] at hx0
  rw [getElem?_slice, if_pos (by decide)] at hx0
  rw [show id d.image = d.image from rfl, himg, getElem?_splice (by rw [length_resized]; decide), if_pos (by decide)] at hx0
  rw [show resized [] (640 * 128) = List.replicate (640 * 128) 0 from by unfold resized; rw [List.take_nil, List.nil_append, List.length_nil, Nat.sub_zero], List.getElem?_replicate,
    if_pos (by decide), List.getElem?_replicate, if_pos (by decide)] at hx0
  simp at hx0

/-- C43, the part that holds: WriteAbsoluteCluster(c) stores the data in cluster 2c-1 and changes
nothing else; ReadAbsoluteCluster(c) reads cluster c.  (Missing: they differ unless c = 1.) -/
theorem C43_absolute_partial {o : FileOps F} {view : F → Bytes} (L : LawfulFile o view) (T : Truncates o) {f0 : F}
    {d : Drv F} (hr : Reachable o f0 d) {N : Nat} {l : Layout} (hN : d.stat.totalBlocks = N) (hl : layout N = some l)
    {c : Nat} {data : Bytes} {d' : Drv F} (hw : writeAbsoluteCluster o c data d = .ret (d', .ok ())) :
    cluster l (view d'.image) (2 * c - 1) = data ∧
    (∀ c', 1 ≤ c' → c' ≠ 2 * c - 1 → cluster l (view d'.image) c' = cluster l (view d.image) c') ∧
    (view d'.image).length = (view d.image).length ∧
    (∀ c' d'' x, readAbsoluteCluster o c' d' = .ret (d'', .ok x) → x = cluster l (view d'.image) c') := by
  obtain ⟨N', l', R, G⟩ := reachable_ready L T hr (by rw [hN]; intro h; subst h; cases hl)
  have e1 : N' = N := R.total.symm.trans hN
  subst e1
  have e2 : l' = l := by have := G.lay.symm.trans hl; simpa using this
  subst e2
  obtain ⟨h1, h2, h3, hs, h4, hv⟩ := writeCluster_spec L R G hw
  have G' : Good N' l' d'.geometry := by rw [hs.rest]; exact G
  refine ⟨?_, fun c' hc' hne => ?_, hs.len, fun c' d'' x hx => (readCluster_spec L (R.step hs) G' hx).2.2.1⟩
  · rw [hv]; exact cluster_splice_self (by rw [R.len]; exact h4) h3
  · rw [hv]
    exact cluster_splice_other (by rw [R.len]; exact h4) h3 (clusters_apart (by omega))

/-- C43, cluster 1: the round trip. -/
theorem C43_first_cluster_partial {o : FileOps F} {view : F → Bytes} (L : LawfulFile o view) (T : Truncates o) {f0 : F}
    {d : Drv F} (hr : Reachable o f0 d) (hN : d.stat.totalBlocks ≠ 0) {data : Bytes} {d' d'' : Drv F} {x : Bytes}
    (hw : writeAbsoluteCluster o 1 data d = .ret (d', .ok ())) (hx : readAbsoluteCluster o 1 d' = .ret (d'', .ok x)) :
    x = data := by
  obtain ⟨N, l, R, G⟩ := reachable_ready L T hr hN
  obtain ⟨h1, _, _, h2⟩ := C43_absolute_partial L T hr R.total G.lay hw
  rw [h2 1 d'' x hx]; exact h1

/-- C43, files: WriteFileCluster(i) of a file whose cluster `i` has number `p` stores the data in
cluster 2p-1, and ReadFileCluster reads cluster p+1.  (Missing: they differ unless p = 2.) -/
theorem C43_file_partial {o : FileOps F} {view : F → Bytes} (L : LawfulFile o view) (T : Truncates o) {f0 : F}
    {d : Drv F} (hr : Reachable o f0 d) {N : Nat} {l : Layout} (hN : d.stat.totalBlocks = N) (hl : layout N = some l)
    {e : DirectoryEntry} (he : e.clusters.length ≤ maxInt) {i p : Nat} (hp : e.clusters[i]? = some p) {data : Bytes}
    {d' : Drv F}
    (hw : writeFileCluster o e i data d = .ret (d', .ok ())) :
    cluster l (view d'.image) (2 * p - 1) = data ∧
    (∀ c', 1 ≤ c' → c' ≠ 2 * p - 1 → cluster l (view d'.image) c' = cluster l (view d.image) c') ∧
    (∀ d'' x, readFileCluster o e i d' = .ret (d'', .ok x) → x = cluster l (view d'.image) (p + 1)) := by
  have hlt : i < e.clusters.length := by
    rcases Nat.lt_or_ge i e.clusters.length with h | h
    · exact h
    · rw [List.getElem?_eq_none h] at hp; simp at hp
  unfold maxInt at he
  have hcond : ¬ (i64 i ≥ e.clusters.length) := by rw [i64_of_range (by omega) (by omega)]; omega
  unfold writeFileCluster at hw
  rw [if_neg hcond, hp] at hw
  obtain ⟨h1, h2, h3, h4⟩ := C43_absolute_partial L T hr hN hl hw
  refine ⟨h1, h2, fun d'' x hx => ?_⟩
  obtain ⟨N', l', R, G⟩ := reachable_ready L T hr (by rw [hN]; intro h; subst h; cases hl)
  have e1 : N' = N := R.total.symm.trans hN
  subst e1
  have e2 : l' = l := by have := G.lay.symm.trans hl; simpa using this
  subst e2
  obtain ⟨_, hpc, _, hs, _, _⟩ := writeCluster_spec L R G hw
  have hps := Nat.lt_of_le_of_lt hpc G.clusters_lt
  have G' : Good N' l' d'.geometry := by rw [hs.rest]; exact G
  unfold readFileCluster at hx
  rw [get_bind, if_neg hcond, hp] at hx
  have hspc : l'.spc ≤ 2002 := by
    have := G.two; have := G.inside; have := G.N_le; omega
  have hmul : p * l'.spc ≤ 255 * 2002 := Nat.mul_le_mul (by omega) hspc
  simp only at hx
  rw [G'.spc, u64_of_lt (by omega)] at hx
  rcases readDiskBlocks_spec L (start := p * l'.spc) (count := l'.spc) (by omega) d' with
    ⟨_, hr⟩ | ⟨_, f', hv', ⟨e, _, hr⟩ | ⟨_, hr⟩⟩
  · rw [hr] at hx; simp at hx
  · rw [hr] at hx; simp at hx
  · rw [hr] at hx; cases hx; rfl

/-- C43: calls with a cluster that does not exist, or with data that is not one cluster, are
rejected and change nothing. -/
theorem C43_rejects {o : FileOps F} {view : F → Bytes} (L : LawfulFile o view) (T : Truncates o) {f0 : F}
    {d : Drv F} (hr : Reachable o f0 d) {N : Nat} {l : Layout} (hN : d.stat.totalBlocks = N) (hl : layout N = some l)
    (c : Nat) (data : Bytes) :
    (¬ (1 ≤ c ∧ c ≤ l.clusters) → readAbsoluteCluster o c d = .ret (d, .error .badCluster)) ∧
    (¬ (1 ≤ c ∧ c ≤ l.clusters ∧ data.length = l.spc * 128) →
      ∃ e, writeAbsoluteCluster o c data d = .ret (d, .error e)) := by
  obtain ⟨N', l', R, G⟩ := reachable_ready L T hr (by rw [hN]; intro h; subst h; cases hl)
  have e1 : N' = N := R.total.symm.trans hN
  subst e1
  have e2 : l' = l := by have := G.lay.symm.trans hl; simpa using this
  subst e2
  have hv : isValidCluster d c = true ↔ (1 ≤ c ∧ c ≤ l'.clusters) := by
    simp [isValidCluster, G.clusters]
  constructor
  · intro h
    unfold readAbsoluteCluster
    rw [get_bind, if_pos (by rw [← hv] at h; simpa using h)]; rfl
  · intro h
    unfold writeAbsoluteCluster
    rw [get_bind]
    by_cases hc : isValidCluster d c = true
    · rw [if_neg (by simp [hc])]
      have hspc : l'.spc ≤ N' := by
        have := G.two; have := G.inside; omega
      have hN := G.N_le
      have hc' := hv.1 hc
      rw [if_pos (by rw [G.bpc, i64_of_range (by omega) (by omega)]; omega)]
      exact ⟨_, rfl⟩
    · rw [if_pos (by simpa using hc)]; exact ⟨_, rfl⟩

/-- C43: on a file that does not fail, every cluster `c` whose place 2c-1 lies in the image can be
written, and every cluster that does not include the last block can be read.  (Missing: clusters
in the second half of the volume cannot be written.) -/
theorem C43_succeeds_partial {o : FileOps F} {view : F → Bytes} (L : LawfulFile o view) (T : Truncates o) {f0 : F}
    {d : Drv F} (hr : Reachable o f0 d) {N : Nat} {l : Layout} (hN : d.stat.totalBlocks = N) (hl : layout N = some l)
    {c : Nat} (h1 : 1 ≤ c) (h2 : c ≤ l.clusters) :
    (Writable o → (2 * c - 1) * l.spc ≤ N → ∀ data : Bytes, data.length = l.spc * 128 →
      ∃ d', writeAbsoluteCluster o c data d = .ret (d', .ok ())) ∧
    (Readable o view → c * l.spc < N →
      ∃ d', readAbsoluteCluster o c d = .ret (d', .ok (cluster l (view d.image) c))) := by
  obtain ⟨N', l', R, G⟩ := reachable_ready L T hr (by rw [hN]; intro h; subst h; cases hl)
  have e1 : N' = N := R.total.symm.trans hN
  subst e1
  have e2 : l' = l := by have := G.lay.symm.trans hl; simpa using this
  subst e2
  have hspc : l'.spc ≤ N' := by
    have := G.two; have := G.inside; omega
  have hNle := G.N_le
  have hcl := G.clusters_lt
  have hv : isValidCluster d c = true := by simp [isValidCluster, G.clusters, h1, h2]
  have hu : u64sub c 1 = c - 1 := by unfold u64sub; omega
  constructor
  · intro W hfit data hlen
    unfold writeAbsoluteCluster
    rw [get_bind, if_neg (by simp [hv]), if_neg (by rw [G.bpc, i64_of_range (by omega) (by omega)]; omega)]
    have hmul : (c - 1) * l'.spt = (2 * c - 1 - 1) * l'.spc := by
      have e : (c - 1) * 2 = 2 * c - 1 - 1 := by omega
      rw [G.two, ← Nat.mul_assoc, e]
    have hsub : (2 * c - 1) * l'.spc = (2 * c - 1 - 1) * l'.spc + l'.spc := by
      have e : 2 * c - 1 = (2 * c - 1 - 1) + 1 := by omega
      rw [e, Nat.succ_mul, Nat.add_sub_cancel]
    rw [hu, G.spt, hmul, u64_of_lt (by omega)]
    obtain ⟨d', _, ⟨e, he, _⟩ | ⟨hr', _⟩⟩ := write_inside L (start := (2 * c - 1 - 1) * l'.spc) (data := data) R.enough
      (by omega) (by rw [R.total]; omega)
    · rw [W _ _ _ (by omega)] at he; simp at he
    · exact ⟨d', hr'⟩
  · intro A hfit
    unfold readAbsoluteCluster
    rw [get_bind, if_neg (by simp [hv])]
    have hsub : c * l'.spc = (c - 1) * l'.spc + l'.spc := by
      have e : c = (c - 1) + 1 := by omega
      rw [e, Nat.succ_mul, Nat.add_sub_cancel]
    show ∃ d', readDiskBlocks o (u64 (u64sub c 1 * d.geometry.sectorsPerCluster)) d.geometry.sectorsPerCluster d = _
    rw [hu, G.spc, u64_of_lt (by omega)]
    obtain ⟨d', _, _, ⟨e, he, _⟩ | hr'⟩ := read_inside L (s := (c - 1) * l'.spc) (n := l'.spc) R (by omega)
    · rw [read_total R (by omega) A] at he; simp at he
    · exact ⟨d', hr'⟩

/-- The hypotheses of the C43 theorems are met: a formatted minifloppy, cluster 2 written. -/
example : ∃ d d' : Drv Bytes, Reachable memFile [] d ∧ d.stat.totalBlocks = 640 ∧
    writeAbsoluteCluster memFile 2 (List.replicate 1024 7) d = .ret (d', .ok ()) := by
  obtain ⟨d, hd, R, G, _⟩ := format_mem (N := 640) (l := ⟨40, 16, 17, 1⟩) rfl [] (newDriver []) rfl rfl
  refine ⟨d, ?_⟩
  have hreach := reach_format (N := 640) (l := ⟨40, 16, 17, 1⟩) rfl (Reachable.new (o := memFile) (f0 := ([] : Bytes))) hd
  unfold writeAbsoluteCluster
  rw [get_bind, if_neg (by simp [isValidCluster, G.clusters, Layout.clusters])]
  rw [if_neg (by rw [G.bpc, List.length_replicate]; decide)]
  rw [G.spt]
  obtain ⟨d', _, ⟨e, he, _⟩ | ⟨hr, _⟩⟩ := write_inside memFile_lawful (start := u64 (u64sub 2 1 * 16))
    (data := List.replicate 1024 7) R.enough (by rw [List.length_replicate]) (by rw [R.total, List.length_replicate]; decide)
  · rw [memFile_writable _ _ _ (by omega)] at he; simp at he
  · exact ⟨d', hreach, R.total, hr⟩

end Disko.Fat8

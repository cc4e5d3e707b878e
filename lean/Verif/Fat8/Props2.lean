import Verif.Fat8.Props
/-! C44-C46, C69-C71, C73: FAT8 blocks, FAT copies, the free list, formatting again. -/
namespace Disko.Fat8
open Disko Disko.Fat8.Spec

variable {F : Type}

/-! ### C44: bounds -/

/-- C44 in full for reads: ReadDiskBlocks returns the blocks if they lie in the image (unless the
file fails), and otherwise reports an error. -/
def C44_read_statement : Prop :=
  ∀ (F : Type) (o : FileOps F) (view : F → Bytes), LawfulFile o view → Truncates o → Readable o view →
    ∀ (f0 : F) (d : Drv F), Reachable o f0 d → ∀ start count : Nat, start < 2 ^ 64 → count < 2 ^ 64 →
      (start + count ≤ d.stat.totalBlocks →
        ∃ d', readDiskBlocks o start count d = .ret (d', .ok (sectors (view d.image) start count))) ∧
      (d.stat.totalBlocks < start + count → ∃ d' e, readDiskBlocks o start count d = .ret (d', .error e))

/-- C44 is false for reads: the last block of the image cannot be read. -/
theorem C44_read_refuted : ¬ C44_read_statement := by
  intro h
  obtain ⟨d, hd, R, G, _⟩ := format_mem (N := 640) (l := ⟨40, 16, 17, 1⟩) rfl [] (newDriver []) rfl rfl
  have hreach := reach_format (N := 640) (l := ⟨40, 16, 17, 1⟩) rfl (Reachable.new (o := memFile) (f0 := ([] : Bytes))) hd
  obtain ⟨d', h1⟩ := (h Bytes memFile id memFile_lawful memFile_truncates memFile_readable [] d hreach 639 1
    (by decide) (by decide)).1 (by rw [R.total]; decide)
  unfold readDiskBlocks at h1
  rw [if_pos (by rw [R.total]; decide)] at h1
  simp at h1

/-- Also false in the other direction: `start + count` may wrap around; this call asks for almost
2^64 blocks, is accepted and returns one block. -/
theorem C44_read_overflow : ∃ d : Drv Bytes, Reachable memFile [] d ∧ d.stat.totalBlocks = 640 ∧
    ∃ d' x, readDiskBlocks memFile (2 ^ 57) (2 ^ 64 - 2 ^ 57 + 1) d = .ret (d', .ok x) ∧ x.length = 128 := by
  obtain ⟨d, hd, R, G, _⟩ := format_mem (N := 640) (l := ⟨40, 16, 17, 1⟩) rfl [] (newDriver []) rfl rfl
  have hreach := reach_format (N := 640) (l := ⟨40, 16, 17, 1⟩) rfl (Reachable.new (o := memFile) (f0 := ([] : Bytes))) hd
  refine ⟨d, hreach, R.total, ?_⟩
  have hlen : d.image.length = 640 * 128 := R.len
  unfold readDiskBlocks
  rw [if_neg (by rw [R.total]; decide)]
  simp only
  rw [if_neg (by decide)]
  have e1 : i64 (i64 ((2 ^ 57 : Nat) : Int) * 128) = 0 := by decide
  have e2 : u64 (128 * (2 ^ 64 - 2 ^ 57 + 1)) = 128 := by decide
  rw [e1, e2]
  have e3 : memFile.readAt d.image 128 0 = (d.image, slice d.image 0 128, none) := by
    unfold memFile; simp only; rw [if_pos ⟨by omega, .inr (by rw [hlen]; decide)⟩]; rfl
  rw [e3]
  exact ⟨_, _, rfl, by rw [length_slice_of_le (by rw [hlen]; decide)]⟩

/-- C44 for reads, the part that holds: unless `start + count` wraps around, a range is accepted
exactly if it ends before the last block, it then returns these blocks unless the file fails, and
a rejected call leaves everything as it was.  (Missing: the last block, and wrap-around.) -/
theorem C44_read_partial {o : FileOps F} {view : F → Bytes} (L : LawfulFile o view) (T : Truncates o)
    {f0 : F} {d : Drv F} (hr : Reachable o f0 d) {start count : Nat} (h : start + count < 2 ^ 64) :
    (start + count < d.stat.totalBlocks →
      ∃ d', view d'.image = view d.image ∧
        (readDiskBlocks o start count d = .ret (d', .ok (sectors (view d.image) start count)) ∨
        (¬ Readable o view ∧ ∃ e, readDiskBlocks o start count d = .ret (d', .error (.file e))))) ∧
    (d.stat.totalBlocks ≤ start + count → readDiskBlocks o start count d = .ret (d, .error .pastEnd)) := by
  have I := (reachable_inv L T hr).enough
  refine ⟨fun hlt => ?_, fun hge => ?_⟩
  · have hI := I.1
    rcases readDiskBlocks_spec L (show start + count < 2 ^ 56 by omega) d with ⟨h1, h2⟩ | ⟨h1, f', hv, ⟨e, h0, h2⟩ | ⟨_, h2⟩⟩
    · omega
    · refine ⟨_, hv, .inr ⟨fun A => ?_, e, h2⟩⟩
      have := I.2
      rw [A.read _ _ _ (by omega) (by rw [Int.toNat_natCast]; omega)] at h0
      simp at h0
    · exact ⟨_, hv, .inl h2⟩
  · unfold readDiskBlocks
    rw [if_pos (by rw [u64_of_lt h]; exact hge)]

/-- C44 for writes: a whole number of blocks inside the image is written exactly there (or the file
fails, and only there); anything else is rejected and nothing changes. -/
theorem C44_write {o : FileOps F} {view : F → Bytes} (L : LawfulFile o view) (T : Truncates o)
    {f0 : F} {d : Drv F} (hr : Reachable o f0 d) {start : Nat} {data : Bytes} (hs : start < 2 ^ 64)
    (hd : data.length ≤ maxInt) :
    (data.length % 128 = 0 ∧ start * 128 + data.length ≤ d.stat.totalBlocks * 128 →
      ∃ d', (writeDiskBlocks o start data d = .ret (d', .ok ()) ∧
          view d'.image = splice (view d.image) (start * 128) data) ∨
        (¬ Writable o ∧ (∃ e, writeDiskBlocks o start data d = .ret (d', .error (.file e))) ∧
          (view d'.image).length = (view d.image).length ∧
          ∀ k, (k < start * 128 ∨ start * 128 + data.length ≤ k) → (view d'.image)[k]? = (view d.image)[k]?)) ∧
    (¬ (data.length % 128 = 0 ∧ start * 128 + data.length ≤ d.stat.totalBlocks * 128) →
      ∃ d' e, writeDiskBlocks o start data d = .ret (d', .error e) ∧ view d'.image = view d.image ∧
        d' = { d with image := d'.image }) := by
  have I := (reachable_inv L T hr).enough
  have hI := I.2
  rcases writeDiskBlocks_spec L hs hd d I.1 with ⟨hn, f', e, hr, hv⟩ | ⟨h1, h2, f', ⟨e, h0, hr, h3, h4, h5⟩ | ⟨hr, hv⟩⟩
  · exact ⟨fun h => absurd h hn, fun _ => ⟨_, _, hr, hv, rfl⟩⟩
  · refine ⟨fun _ => ⟨_, .inr ⟨fun W => ?_, ⟨e, hr⟩, by show (view f').length = _; omega, fun k hk => ?_⟩⟩,
      fun h => absurd ⟨h1, h2⟩ h⟩
    · rw [W _ _ _ (by omega)] at h0; simp at h0
    · show (view f')[k]? = _
      rcases Nat.lt_or_ge k (view d.image).length with h6 | h6
      · exact h5 k h6 hk
      · rw [List.getElem?_eq_none (by omega), List.getElem?_eq_none h6]
  · rw [overwrite_inside (by omega)] at hv
    exact ⟨fun _ => ⟨_, .inl ⟨hr, hv⟩⟩, fun h => absurd ⟨h1, h2⟩ h⟩

/-- The bounds are not empty: a driver with 640 blocks. -/
example : ∃ d : Drv Bytes, Reachable memFile [] d ∧ d.stat.totalBlocks = 640 := by
  obtain ⟨d, hd, R, _⟩ := format_mem (N := 640) (l := ⟨40, 16, 17, 1⟩) rfl [] (newDriver []) rfl rfl
  exact ⟨d, reach_format (N := 640) (l := ⟨40, 16, 17, 1⟩) rfl .new hd, R.total⟩

/-! ### C45: the copies of the FAT -/

/-- C45: on a formatted volume GetFAT compares the three copies; it returns the common contents,
or ErrFileSystemCorrupted if they differ (or the file fails). It changes nothing. -/
theorem C45_getFAT {o : FileOps F} {view : F → Bytes} (L : LawfulFile o view) (T : Truncates o)
    {f0 : F} {d : Drv F} (hr : Reachable o f0 d) {N : Nat} {l : Layout} (hN : d.stat.totalBlocks = N)
    (hl : layout N = some l) :
    ∃ d' r, getFAT o d = .ret (d', r) ∧ view d'.image = view d.image ∧
      (((∃ e, r = .error (.file e)) ∧ ¬ Readable o view) ∨
       ((∀ i, i < 3 → fatCopy l (view d.image) i = fatCopy l (view d.image) 0) ∧
          r = .ok (fatCopy l (view d.image) 0)) ∨
       ((∃ i, i < 3 ∧ fatCopy l (view d.image) i ≠ fatCopy l (view d.image) 0) ∧ r = .error .corrupted)) := by
  obtain ⟨N', l', R, G⟩ := reachable_ready L T hr (by rw [hN]; intro h; subst h; cases hl)
  have e1 : N' = N := R.total.symm.trans hN
  subst e1
  have e2 : l' = l := by have := G.lay.symm.trans hl; simpa using this
  subst e2
  obtain ⟨d', r, h1, _, h2, h3⟩ := getFAT_spec L R G
  refine ⟨d', r, h1, h2, ?_⟩
  rcases h3 with h | ⟨h, c1, c2⟩ | ⟨h, c⟩
  · exact .inl h
  · refine .inr (.inl ⟨fun i hi => ?_, h⟩)
    have hi' : i = 0 ∨ i = 1 ∨ i = 2 := by omega
    rcases hi' with rfl | rfl | rfl
    · rfl
    · exact c1.symm
    · exact c2.symm
  · refine .inr (.inr ⟨?_, h⟩)
    by_cases c1 : fatCopy l' (view d.image) 0 = fatCopy l' (view d.image) 1
    · exact ⟨2, by omega, fun c2 => c ⟨c1, c2.symm⟩⟩
    · exact ⟨1, by omega, fun c2 => c1 c2.symm⟩

theorem fatCopy_splice {N : Nat} {l : Layout} {g : Geometry} (G : Good N l g) {d fat : Bytes} (hd : d.length = N * 128)
    (hf : fat.length = l.fatSectors * 128) {i : Nat} (hi : i < 3) :
    fatCopy l (splice d (l.fatStart 0 * 128) (fat ++ fat ++ fat)) i = fat := by
  have hde := G.dirents
  have hsp := G.split
  have hin := G.inside
  have hmul : i * l.fatSectors ≤ 2 * l.fatSectors := Nat.mul_le_mul_right _ (by omega)
  have h0 : l.fatStart 0 = l.info + 1 := by unfold Layout.fatStart; omega
  unfold fatCopy sectors
  symm
  apply slice_eq_of_getElem? hf
  intro k hk
  rw [getElem?_splice (by omega)]
  have hfs : l.fatStart i * 128 = l.fatStart 0 * 128 + i * l.fatSectors * 128 := by
    unfold Layout.fatStart; omega
  rw [hfs, if_neg (by omega), if_pos (by simp only [List.length_append]; omega)]
  have e : l.fatStart 0 * 128 + i * l.fatSectors * 128 + k - l.fatStart 0 * 128 = i * fat.length + k := by
    rw [hf, ← Nat.mul_assoc]; omega
  rw [e]
  have hi' : i = 0 ∨ i = 1 ∨ i = 2 := by omega
  rcases hi' with rfl | rfl | rfl
  · rw [List.append_assoc, List.getElem?_append_left (by omega)]
    have e : 0 * fat.length + k = k := by omega
    rw [e]
  · rw [List.append_assoc, List.getElem?_append_right (by omega), List.getElem?_append_left (by omega)]
    have e : 1 * fat.length + k - fat.length = k := by omega
    rw [e]
  · rw [List.getElem?_append_right (by rw [List.length_append]; omega)]
    have e : 2 * fat.length + k - (fat ++ fat).length = k := by rw [List.length_append]; omega
    rw [e]

/-- C45: a successful Flush of a mounted volume makes all three copies equal to the FAT the driver
holds; GetFAT then returns it; nothing outside the copies changes. -/
theorem C45_flush {o : FileOps F} {view : F → Bytes} (L : LawfulFile o view) (T : Truncates o)
    {f0 : F} {d : Drv F} (hr : Reachable o f0 d) (hm : d.isMounted = true) {N : Nat} {l : Layout}
    (hN : d.stat.totalBlocks = N) (hl : layout N = some l) {d' : Drv F} (hf : flush o d = .ret (d', .ok ())) :
    d'.fat = d.fat ∧ (∀ i, i < 3 → fatCopy l (view d'.image) i = d.fat) ∧
    (view d'.image).length = (view d.image).length ∧
    (∀ k, (k < l.fatStart 0 * 128 ∨ l.fatStart 3 * 128 ≤ k) → (view d'.image)[k]? = (view d.image)[k]?) ∧
    ∃ d'' r, getFAT o d' = .ret (d'', r) ∧ (r = .ok d.fat ∨ ((∃ e, r = .error (.file e)) ∧ ¬ Readable o view)) := by
  obtain ⟨N', l', R, G⟩ := reachable_ready L T hr (by rw [hN]; intro h; subst h; cases hl)
  have e1 : N' = N := R.total.symm.trans hN
  subst e1
  have e2 : l' = l := by have := G.lay.symm.trans hl; simpa using this
  subst e2
  have hfl := (reachable_inv L T hr).mounted hm
  rw [G.spf] at hfl
  have hin := G.inside
  have hsp := G.split
  have h0 : l'.fatStart 0 = l'.info + 1 := by unfold Layout.fatStart; omega
  have h3 : l'.fatStart 3 = l'.info + 1 + 3 * l'.fatSectors := rfl
  unfold flush at hf
  rw [get_bind, G.fats, repeatBytes_three] at hf
  obtain ⟨d1, s1, ⟨e, _, hr1⟩ | ⟨hr1, hv1⟩⟩ := write_inside L (start := l'.fatStart 0) (data := d.fat ++ d.fat ++ d.fat)
    R.enough (by simp only [List.length_append]; omega) (by rw [R.total]; simp only [List.length_append]; omega)
  · rw [hr1] at hf; simp at hf
  rw [hr1] at hf; cases hf
  have G1 : Good N' l' d'.geometry := by rw [s1.rest]; exact G
  have hc : ∀ i, i < 3 → fatCopy l' (view d'.image) i = d.fat := fun i hi => by
    rw [hv1]; exact fatCopy_splice G R.len hfl hi
  refine ⟨by rw [s1.rest], hc, s1.len, fun k hk => ?_, ?_⟩
  · rw [hv1, getElem?_splice (by rw [R.len]; omega)]
    split
    · rfl
    · rw [if_neg (by simp only [List.length_append]; omega)]
  · obtain ⟨d2, r, h1, _, _, hres⟩ := getFAT_spec L (R.step s1) G1
    refine ⟨d2, r, h1, ?_⟩
    rcases hres with h | ⟨h, _⟩ | ⟨_, c⟩
    · exact .inr h
    · rw [hc 0 (by omega)] at h; exact .inl h
    · exact absurd ⟨by rw [hc 0 (by omega), hc 1 (by omega)], by rw [hc 0 (by omega), hc 2 (by omega)]⟩ c

/-- Formatting and mounting. -/
theorem mounted_mem {N : Nat} {l : Layout} (hl : layout N = some l) :
    ∃ d0 d : Drv Bytes, Reachable memFile [] d0 ∧ formatImage memFile (N * 128 : Nat) (newDriver []) = .ret (d0, .ok ()) ∧
      mount memFile d0 = .ret (d, .ok ()) ∧ Reachable memFile [] d ∧
      d.isMounted = true ∧ d.stat.totalBlocks = N ∧ d.fat = newFat l ∧ d.freeClusters = freeOf (newFat l) 0 ∧
      Ready id N d ∧ Good N l d.geometry := by
  obtain ⟨d0, hd, R, G, _⟩ := format_mem hl [] (newDriver []) rfl rfl
  have hreach := reach_format hl (Reachable.new (o := memFile) (f0 := ([] : Bytes))) hd
  obtain ⟨_, _, hnm, hfree, hc⟩ := format_fat memFile_lawful memFile_truncates hl hd
  rcases mount_spec memFile_lawful R G with ⟨h, _⟩ | ⟨_, d1, r1, h, hv, R1, g1, _, _, hres, _⟩
  · rw [hnm] at h; simp at h
  · rcases hres with ⟨_, hA, _⟩ | ⟨_, _, c⟩ | ⟨rfl, hm1, _, hf, hfc, _⟩
    · exact absurd memFile_readable hA
    · exact absurd ⟨by rw [hc 0 (by omega), hc 1 (by omega)], by rw [hc 0 (by omega), hc 2 (by omega)]⟩ c.1
    · refine ⟨d0, d1, hreach, hd, h, .call (c := .mount) hreach trivial (by show after _ = _; rw [h]; rfl), hm1, R1.total, ?_, ?_,
        R1, by rw [g1]; exact G⟩
      · rw [hf, hc 0 (by omega)]
      · rw [hfc, hfree, hc 0 (by omega)]; rfl

example : ∃ d d' : Drv Bytes, Reachable memFile [] d ∧ d.isMounted = true ∧ d.stat.totalBlocks = 1898 ∧
    flush memFile d = .ret (d', .ok ()) := by
  obtain ⟨_, d, _, _, _, h1, h2, h3, h4, _, R, G⟩ := mounted_mem (N := 1898) (l := ⟨73, 26, 34, 2⟩) rfl
  refine ⟨d, ?_⟩
  unfold flush
  rw [get_bind, G.fats, repeatBytes_three, h4]
  obtain ⟨d', _, ⟨e, he, _⟩ | ⟨hr, _⟩⟩ := write_inside memFile_lawful (start := Layout.fatStart ⟨73, 26, 34, 2⟩ 0)
    (data := newFat ⟨73, 26, 34, 2⟩ ++ newFat ⟨73, 26, 34, 2⟩ ++ newFat ⟨73, 26, 34, 2⟩) R.enough
    (by simp only [List.length_append, length_newFat])
    (by rw [R.total]; simp only [List.length_append, length_newFat]; decide)
  · rw [memFile_writable _ _ _ (by omega)] at he; simp at he
  · exact ⟨d', h1, h2, h3, hr⟩

/-! ### C46: the free list -/

/-- C46 in full: after a successful Mount the free list holds exactly the clusters of the volume
which the FAT marks free (0xFF), each once. -/
def C46_statement : Prop :=
  ∀ (F : Type) (o : FileOps F) (view : F → Bytes), LawfulFile o view → Truncates o → ∀ (f0 : F) (d d' : Drv F),
    Reachable o f0 d → mount o d = .ret (d', .ok ()) → ∀ (N : Nat) (l : Layout), d.stat.totalBlocks = N → layout N = some l →
      d'.freeClusters.Nodup ∧
      ∀ c : UInt8, c ∈ d'.freeClusters ↔
        1 ≤ c.toNat ∧ c.toNat ≤ l.clusters ∧ (fatCopy l (view d.image) 0)[c.toNat - 1]? = some 0xff

theorem mem_freeOf (fat : Bytes) (n : Nat) (c : UInt8) :
    c ∈ freeOf fat n ↔ ∃ i, fat[i]? = some 0xff ∧ c = UInt8.ofNat (n + i + 1) := by
  induction fat generalizing n with
  | nil => simp [freeOf]
  | cons b rest ih =>
    have hshift : (∃ i, rest[i]? = some 0xff ∧ c = UInt8.ofNat (n + 1 + i + 1)) ↔
        ∃ i, (b :: rest)[i + 1]? = some 0xff ∧ c = UInt8.ofNat (n + (i + 1) + 1) := by
      constructor <;> rintro ⟨i, h1, h2⟩ <;> refine ⟨i, by simpa using h1, ?_⟩ <;> rw [h2] <;> congr 1 <;> omega
    unfold freeOf
    split
    · rename_i hb
      rw [List.mem_cons, ih, hshift]
      constructor
      · rintro (h | ⟨i, h1, h2⟩)
        · exact ⟨0, by simp [hb], by simpa using h⟩
        · exact ⟨i + 1, h1, h2⟩
      · rintro ⟨i, h1, h2⟩
        cases i with
        | zero => left; simpa using h2
        | succ i => exact .inr ⟨i, h1, h2⟩
    · rename_i hb
      rw [ih, hshift]
      constructor
      · rintro ⟨i, h1, h2⟩; exact ⟨i + 1, h1, h2⟩
      · rintro ⟨i, h1, h2⟩
        cases i with
        | zero => simp at h1; exact absurd h1 hb
        | succ i => exact ⟨i, h1, h2⟩

theorem ofNat_inj {a b : Nat} (ha : 1 ≤ a) (hb : 1 ≤ b) (ha2 : a ≤ 256) (hb2 : b ≤ 256)
    (h : UInt8.ofNat a = UInt8.ofNat b) : a = b := by
  have := congrArg UInt8.toNat h
  simp only [UInt8.toNat_ofNat'] at this
  omega

theorem nodup_freeOf (fat : Bytes) (n : Nat) (h : n + fat.length ≤ 256) : (freeOf fat n).Nodup := by
  induction fat generalizing n with
  | nil => simp [freeOf]
  | cons b rest ih =>
    rw [List.length_cons] at h
    unfold freeOf
    split
    · rw [List.nodup_cons]
      refine ⟨fun hm => ?_, ih _ (by omega)⟩
      obtain ⟨i, h1, h2⟩ := (mem_freeOf _ _ _).1 hm
      have hi : i < rest.length := by
        rcases Nat.lt_or_ge i rest.length with h3 | h3
        · exact h3
        · rw [List.getElem?_eq_none h3] at h1; simp at h1
      have := ofNat_inj (by omega) (by omega) (by omega) (by omega) h2
      omega
    · exact ih _ (by omega)

/-- C46 is false: the list also has FAT entries that belong to no cluster. A freshly formatted
floppy has 146 clusters, but its free list contains 147. -/
theorem C46_refuted : ¬ C46_statement := by
  intro h
  obtain ⟨d0, d, hr, hf, hm, _, _, _, _, hfc, R, G⟩ := mounted_mem (N := 1898) (l := ⟨73, 26, 34, 2⟩) rfl
  have h0 := format_fat memFile_lawful memFile_truncates (l := ⟨73, 26, 34, 2⟩) rfl hf
  have h1 := ((h Bytes memFile id memFile_lawful memFile_truncates [] d0 d hr hm 1898 ⟨73, 26, 34, 2⟩ h0.1.total rfl).2 147).1
    (by
      rw [hfc, mem_freeOf]
      refine ⟨146, ?_, by decide⟩
      rw [getElem?_newFat (by decide)]; decide)
  exact absurd h1.2.1 (by decide)

/-- Also false after remounting: every mount adds the free clusters again. -/
theorem C46_remount_duplicates : ∃ d d' : Drv Bytes, Reachable memFile [] d ∧ mount memFile d = .ret (d', .ok ()) ∧
    ¬ d'.freeClusters.Nodup := by
  obtain ⟨d0, d, hr0, hf, hm0, hr, hm, htot, hfat, hfc, R, G⟩ := mounted_mem (N := 640) (l := ⟨40, 16, 17, 1⟩) rfl
  have hreach1 : Reachable memFile [] { d with isMounted := false } :=
    .call (c := .unmount) hr trivial rfl
  have R1 : Ready id 640 { d with isMounted := false } := ⟨R.geo, R.total, R.len⟩
  obtain ⟨_, _, _, _, hc⟩ := format_fat memFile_lawful memFile_truncates (l := ⟨40, 16, 17, 1⟩) rfl hf
  have hv : d.image = d0.image := by
    have h0 := format_fat memFile_lawful memFile_truncates (l := ⟨40, 16, 17, 1⟩) rfl hf
    rcases mount_spec memFile_lawful h0.1 h0.2.1 with ⟨h, _⟩ | ⟨_, d1, r1, h, hv, _⟩
    · rw [h0.2.2.1] at h; simp at h
    · rw [h] at hm0; cases hm0; exact hv
  rcases mount_spec memFile_lawful R1 G with ⟨h, _⟩ | ⟨_, d1, r1, h, _, _, _, _, _, hres, _⟩
  · simp at h
  · simp only [id, hv] at hres
    simp only [id] at hc
    rcases hres with ⟨_, hA, _⟩ | ⟨_, _, c⟩ | ⟨rfl, hm1, _, _, hfc1, _⟩
    · exact absurd memFile_readable hA
    · exact absurd ⟨by rw [hc 0 (by omega), hc 1 (by omega)], by rw [hc 0 (by omega), hc 2 (by omega)]⟩ c.1
    · refine ⟨_, d1, hreach1, h, ?_⟩
      rw [hfc1, hc 0 (by omega), hfc, List.nodup_append]
      rintro ⟨_, _, hdis⟩
      have hmem : (1 : UInt8) ∈ freeOf (newFat ⟨40, 16, 17, 1⟩) 0 := by
        rw [mem_freeOf]
        refine ⟨0, ?_, by decide⟩
        rw [getElem?_newFat (by decide)]; decide
      exact hdis _ hmem _ hmem rfl

/-- C46, the part that holds: Mount appends, without repetition, a list that contains a cluster of
the volume exactly if the FAT marks it free.  (Missing: that list also contains numbers of no
cluster, and what was in the free list before stays there.) -/
theorem C46_mount_partial {o : FileOps F} {view : F → Bytes} (L : LawfulFile o view) (T : Truncates o) {f0 : F}
    {d d' : Drv F} (hr : Reachable o f0 d) (hm : mount o d = .ret (d', .ok ())) {N : Nat} {l : Layout}
    (hN : d.stat.totalBlocks = N) (hl : layout N = some l) :
    ∃ added, d'.freeClusters = d.freeClusters ++ added ∧ added.Nodup ∧
      ∀ c : UInt8, 1 ≤ c.toNat → c.toNat ≤ l.clusters →
        (c ∈ added ↔ (fatCopy l (view d.image) 0)[c.toNat - 1]? = some 0xff) := by
  obtain ⟨N', l', R, G⟩ := reachable_ready L T hr (by rw [hN]; intro h; subst h; cases hl)
  have e1 : N' = N := R.total.symm.trans hN
  subst e1
  have e2 : l' = l := by have := G.lay.symm.trans hl; simpa using this
  subst e2
  rcases mount_spec L R G with ⟨_, h⟩ | ⟨_, d1, r1, h, _, _, _, _, _, hres, _⟩
  · rw [h] at hm; simp at hm
  rw [h] at hm; cases hm
  rcases hres with ⟨⟨e, h⟩, _⟩ | ⟨h, _⟩ | ⟨_, _, _, _, hfc, _⟩
  · simp at h
  · simp at h
  have hlen := length_fatCopy R G (i := 0) (by omega)
  have hspf := G.spf_le
  refine ⟨_, hfc, nodup_freeOf _ _ (by omega), fun c hc1 hc2 => ?_⟩
  rw [mem_freeOf]
  constructor
  · rintro ⟨i, h1, h2⟩
    have hi : i < (fatCopy l' (view d.image) 0).length := by
      rcases Nat.lt_or_ge i (fatCopy l' (view d.image) 0).length with h3 | h3
      · exact h3
      · rw [List.getElem?_eq_none h3] at h1; simp at h1
    have : c.toNat = (0 + i + 1) % 256 := by rw [h2, UInt8.toNat_ofNat']
    have : c.toNat - 1 = i := by omega
    rw [this]; exact h1
  · intro h
    refine ⟨_, h, ?_⟩
    apply UInt8.toNat_inj.1
    rw [UInt8.toNat_ofNat']
    have := c.toNat_lt
    omega

/-- C46, in particular: if the free list was empty before (the first mount), the clusters of the
volume in it are exactly the free ones, each once.  (Missing: the numbers of no cluster.) -/
theorem C46_first_mount_partial {o : FileOps F} {view : F → Bytes} (L : LawfulFile o view) (T : Truncates o) {f0 : F}
    {d d' : Drv F} (hr : Reachable o f0 d) (h0 : d.freeClusters = []) (hm : mount o d = .ret (d', .ok ()))
    {N : Nat} {l : Layout} (hN : d.stat.totalBlocks = N) (hl : layout N = some l) :
    d'.freeClusters.Nodup ∧ ∀ c : UInt8, 1 ≤ c.toNat → c.toNat ≤ l.clusters →
      (c ∈ d'.freeClusters ↔ (fatCopy l (view d.image) 0)[c.toNat - 1]? = some 0xff) := by
  obtain ⟨added, h1, h2, h3⟩ := C46_mount_partial L T hr hm hN hl
  rw [h0, List.nil_append] at h1
  rw [h1]; exact ⟨h2, h3⟩

example : ∃ d d' : Drv Bytes, Reachable memFile [] d ∧ d.freeClusters = [] ∧ mount memFile d = .ret (d', .ok ()) ∧
    d.stat.totalBlocks = 640 := by
  obtain ⟨d0, d, hr0, hf, hm0, _⟩ := mounted_mem (N := 640) (l := ⟨40, 16, 17, 1⟩) rfl
  have h := format_fat memFile_lawful memFile_truncates (l := ⟨40, 16, 17, 1⟩) rfl hf
  exact ⟨d0, d, hr0, h.2.2.2.1, hm0, h.1.total⟩

/-! ### C69: formatting an image that is not blank -/

/-- C69 in full: whatever the image held, a successful FormatImage leaves an empty volume. -/
def C69_statement : Prop :=
  ∀ (F : Type) (o : FileOps F) (view : F → Bytes), LawfulFile o view → Truncates o →
    ∀ (N : Nat) (l : Layout) (d d' : Drv F), layout N = some l → formatImage o (N * 128 : Nat) d = .ret (d', .ok ()) →
      ∃ fat, view d'.image = emptyVolume l N fat

/-- C69 is false: old contents outside the directory track stay. -/
theorem C69_refuted : ¬ C69_statement := by
  intro h
  obtain ⟨d', hd, _, _, _, hi⟩ := format_mem (N := 640) (l := ⟨40, 16, 17, 1⟩) rfl [7] (newDriver [7]) rfl rfl
  obtain ⟨fat, hv⟩ := h Bytes memFile id memFile_lawful memFile_truncates 640 _ _ d' rfl hd
  have h0 := congrArg (fun z => z[0]?) hv
  simp only [id] at h0
  rw [hi, getElem?_splice (by rw [length_resized]; decide), if_pos (by decide)] at h0
  unfold emptyVolume resized at h0
  rw [List.getElem?_append_left (by decide), List.append_assoc, List.append_assoc, List.append_assoc,
    List.getElem?_append_left (by rw [List.length_replicate]; decide), List.getElem?_replicate, if_pos (by decide)] at h0
  simp at h0

/-- C69, the part that holds: the directory track is that of an empty volume, the image has the
requested size, and every other byte is the old one (null where there was none). -/
theorem C69_format_any_partial {o : FileOps F} {view : F → Bytes} (L : LawfulFile o view) (T : Truncates o)
    {N : Nat} {l : Layout} {d d' : Drv F} (hl : layout N = some l)
    (hr : formatImage o (N * 128 : Nat) d = .ret (d', .ok ())) :
    ∃ fat, fat.length = l.fatSectors * 128 ∧ (view d'.image).length = N * 128 ∧
      (∀ k, l.dirStart * 128 ≤ k → k < (l.dirStart + l.spt) * 128 →
        (view d'.image)[k]? = (emptyVolume l N fat)[k]?) ∧
      (∀ k, k < N * 128 → (k < l.dirStart * 128 ∨ (l.dirStart + l.spt) * 128 ≤ k) →
        (view d'.image)[k]? = some ((view d.image)[k]?.getD 0)) := by
  obtain ⟨g0, hg0⟩ := getGeometry_of_layout hl
  have hN := N_le hg0
  rcases formatImage_spec L (size := (N * 128 : Nat)) (by omega) (by omega) d (fun n _ => truncates_resized L T d.image n) with
    ⟨_, h⟩ | ⟨_, _, e, h⟩ | ⟨_, N', l', g, d1, r, hs, G, hg, h, R, hd, hw, hv⟩
  · rw [h] at hr; simp at hr
  · rw [h] at hr; simp at hr
  rw [h] at hr; cases hr
  have hN' : N' = N := by omega
  subst hN'
  have : l' = l := by have := G.lay.symm.trans hl; simpa using this
  subst this
  have hin := G.inside
  have hlt := length_newTrack G.dirents G.split (length_newFat l')
  have hlr := length_resized (view d.image) (N' * 128)
  refine ⟨newFat l', length_newFat l', R.len, fun k h1 h2 => ?_, fun k h1 h2 => ?_⟩
  · rw [← splice_blank G.dirents G.split (Nat.le_of_lt hin) (length_newFat l'), hv rfl,
      getElem?_splice_in (by omega) h1 (by rw [hlt]; omega),
      getElem?_splice_in (by rw [List.length_replicate]; omega) h1 (by rw [hlt]; omega)]
  · rw [hv rfl, getElem?_splice (by omega)]
    have e : (resized (view d.image) (N' * 128))[k]? = some ((view d.image)[k]?.getD 0) := by
      unfold resized
      rw [List.getElem?_append, List.length_take]
      split
      · rw [List.getElem?_take, if_pos h1, List.getElem?_eq_getElem (by omega)]; rfl
      · rw [List.getElem?_replicate, if_pos (by omega), List.getElem?_eq_none (by omega)]; rfl
    split
    · exact e
    · rw [if_neg (by rw [hlt]; omega)]; exact e

example : ∃ d', formatImage memFile (640 * 128 : Nat) (newDriver [7]) = .ret (d', .ok ()) :=
  C40_format_succeeds memFile_lawful memFile_truncates memFile_writable (N := 640) rfl rfl

/-! ### C70: FormatImage reports failures -/

/-- C70 in full: if FormatImage succeeds, the image is a volume of the requested size: it has all
its blocks and a directory track with three equal FAT copies. -/
def C70_statement : Prop :=
  ∀ (F : Type) (o : FileOps F) (view : F → Bytes), LawfulFile o view →
    ∀ (N : Nat) (l : Layout) (d d' : Drv F), layout N = some l → formatImage o (N * 128 : Nat) d = .ret (d', .ok ()) →
      (view d'.image).length = N * 128

theorem noTrunc_fill (n i : Nat) (d : Drv Bytes) (h : i + n ≤ d.stat.totalBlocks) (ht : d.stat.totalBlocks ≤ 2002) :
    ∃ f', fillSectors noTruncFile n i d = .ret ({ d with image := f' }, .ok ()) ∧
      f'.length ≤ max d.image.length ((i + n) * 128) := by
  induction n generalizing i d with
  | zero => exact ⟨d.image, rfl, by omega⟩
  | succ n ih =>
    unfold fillSectors
    rcases writeDiskBlocks_spec noTruncFile_lawful (start := i) (data := List.replicate 128 0xff) (by omega)
        (by rw [List.length_replicate]; decide) d (by omega) with ⟨hn, _⟩ | ⟨_, _, f', ⟨e, he, _⟩ | ⟨hr, hv⟩⟩
    · exact absurd ⟨by rw [List.length_replicate], by rw [List.length_replicate]; omega⟩ hn
    · have := memFile_writable d.image (List.replicate 128 0xff) (i * 128 : Nat) (by omega)
      exact absurd (he.symm.trans this) (by simp)
    · rw [bind_ok hr]
      have hl := (length_overwrite_le (id d.image) (List.replicate 128 0xff) (i * 128)).1
      simp only [id, List.length_replicate] at hl hv
      obtain ⟨f2, h2, hl2⟩ := ih (i + 1) { d with image := f' } (by show _ ≤ d.stat.totalBlocks; omega) ht
      refine ⟨f2, h2, ?_⟩
      rw [hv] at hl2
      simp only [] at hl2
      omega

theorem noTrunc_write {start : Nat} {data : Bytes} (d : Drv Bytes) (h1 : data.length % 128 = 0)
    (h : start * 128 + data.length ≤ d.stat.totalBlocks * 128) (ht : d.stat.totalBlocks ≤ 2002) :
    ∃ f', writeDiskBlocks noTruncFile start data d = .ret ({ d with image := f' }, .ok ()) ∧
      f'.length ≤ max d.image.length (start * 128 + data.length) := by
  rcases writeDiskBlocks_spec noTruncFile_lawful (start := start) (data := data) (by omega)
      (by unfold maxInt; omega) d (by omega) with ⟨hn, _⟩ | ⟨_, _, f', ⟨e, he, _⟩ | ⟨hr, hv⟩⟩
  · exact absurd ⟨h1, h⟩ hn
  · have := memFile_writable d.image data (start * 128 : Nat) (by omega)
    exact absurd (he.symm.trans this) (by simp)
  · refine ⟨f', hr, ?_⟩
    have hl := (length_overwrite_le (id d.image) data (start * 128)).1
    simp only [id] at hl hv
    rw [hv]; exact hl

/-- A driver that is formatting 640 blocks (used in the refutation). -/
def refDrv (f : Bytes) : Drv Bytes :=
  { newDriver f with geometry := deriveGeometry 40 40 16 18, stat := newStat 640 ⟨40, 16, 17, 1⟩ }

theorem noTrunc_format : ∃ d', formatImage noTruncFile (640 * 128 : Nat) (newDriver []) = .ret (d', .ok ()) ∧ d'.image.length ≤ 288 * 128 := by
  unfold formatImage
  rw [get_bind, if_neg (by decide), if_neg (by decide)]
  simp only
  have hN : ((((640 * 128 : Nat) : Int) % 2 ^ 64).toNat / 128 : Nat) = 640 := by decide
  rw [hN]
  rw [bind_ok (show orThrow (getGeometry 640) _ = _ from rfl), modify_bind, modify_bind]
  obtain ⟨f1, h1, l1⟩ := noTrunc_fill 12 272 (refDrv []) (by decide) (by decide)
  obtain ⟨f2, h2, l2⟩ := noTrunc_write (start := 284) (data := List.replicate 128 0) (refDrv f1)
    (by rw [List.length_replicate]) (by rw [List.length_replicate]; show _ ≤ 640 * 128; decide)
    (by show 640 ≤ 2002; decide)
  obtain ⟨f3, h3, l3⟩ := noTrunc_write (start := 285) (data := repeatBytes (newFat ⟨40, 16, 17, 1⟩) 3) (refDrv f2)
    (by rw [repeatBytes_three]; simp only [List.length_append, length_newFat])
    (by rw [repeatBytes_three]; simp only [List.length_append, length_newFat]; show _ ≤ 640 * 128; decide)
    (by show 640 ≤ 2002; decide)
  have s1 : (setByte (List.replicate (1 * 128) (0xff : UInt8)) 17 0xfe : M Bytes Bytes) (refDrv f2) =
      .ret (refDrv f2, .ok ((List.replicate (1 * 128) (0xff : UInt8)).set 17 0xfe)) := by
    unfold setByte; rw [if_pos (by rw [List.length_replicate]; omega)]; rfl
  have s2 : (setByte ((List.replicate (1 * 128) (0xff : UInt8)).set 17 0xfe) 18 0xfe : M Bytes Bytes) (refDrv f2) =
      .ret (refDrv f2, .ok (newFat ⟨40, 16, 17, 1⟩)) := by
    unfold setByte; rw [if_pos (by rw [List.length_set, List.length_replicate]; omega)]; rfl
  refine ⟨_, (bind_ok h1).trans ((bind_ok h2).trans ((bind_ok s1).trans ((bind_ok s2).trans h3))), ?_⟩
  rw [repeatBytes_three] at l3
  simp only [List.length_append, length_newFat, List.length_replicate, refDrv, newDriver, List.length_nil] at l1 l2 l3 ⊢
  omega

/-- C70 is false: the result of Truncate is ignored, so FormatImage can succeed and leave an image
that lacks its last tracks. -/
theorem C70_refuted : ¬ C70_statement := by
  intro h
  obtain ⟨d', h1, h2⟩ := noTrunc_format
  have h3 := h Bytes noTruncFile id noTruncFile_lawful 640 _ _ d' rfl h1
  simp only [id] at h3
  omega

/-- C70, the part that holds: if the image already has the right size (or Truncate works, C40), a
successful FormatImage has written the whole directory track, whatever failures there were. -/
theorem C70_sized_partial {o : FileOps F} {view : F → Bytes} (L : LawfulFile o view)
    {N : Nat} {l : Layout} {d d' : Drv F} (hl : layout N = some l) (hlen : (view d.image).length = N * 128)
    (hr : formatImage o (N * 128 : Nat) d = .ret (d', .ok ())) :
    (view d'.image).length = N * 128 ∧
    ∃ fat, fat.length = l.fatSectors * 128 ∧ ∀ k, l.dirStart * 128 ≤ k → k < (l.dirStart + l.spt) * 128 →
        (view d'.image)[k]? = (emptyVolume l N fat)[k]? := by
  obtain ⟨g0, hg0⟩ := getGeometry_of_layout hl
  have hN := N_le hg0
  have hT : ∀ n : Nat, ((N * 128 : Nat) : Int) = n → view (o.truncate d.image n).1 = resized (view d.image) n := by
    intro n hn
    have hn' : N * 128 = n := by omega
    subst hn'
    have e : resized (view d.image) (N * 128) = view d.image := by
      unfold resized; rw [← hlen, List.take_length, Nat.sub_self]; simp
    by_cases ht : (o.truncate d.image (N * 128 : Nat)).2 = none
    · rw [(L.truncate_ok _ _ ht).2, Int.toNat_natCast]; rfl
    · rw [L.truncate_fail _ _ ht, e]
  rcases formatImage_spec L (size := (N * 128 : Nat)) (by omega) (by omega) d hT with
    ⟨_, h⟩ | ⟨_, _, e, h⟩ | ⟨_, N', l', g, d1, r, hs, G, hg, h, R, hd, hw, hv⟩
  · rw [h] at hr; simp at hr
  · rw [h] at hr; simp at hr
  rw [h] at hr; cases hr
  have hN' : N' = N := by omega
  subst hN'
  have : l' = l := by have := G.lay.symm.trans hl; simpa using this
  subst this
  have hin := G.inside
  have hlt := length_newTrack G.dirents G.split (length_newFat l')
  have hlr := length_resized (view d.image) (N' * 128)
  refine ⟨R.len, newFat l', length_newFat l', fun k h1 h2 => ?_⟩
  rw [← splice_blank G.dirents G.split (Nat.le_of_lt hin) (length_newFat l'), hv rfl,
    getElem?_splice_in (by omega) h1 (by rw [hlt]; omega),
    getElem?_splice_in (by rw [List.length_replicate]; omega) h1 (by rw [hlt]; omega)]

example : ∃ d', formatImage memFile (640 * 128 : Nat) (newDriver (List.replicate (640 * 128) 7)) = .ret (d', .ok ()) :=
  C40_format_succeeds memFile_lawful memFile_truncates memFile_writable (N := 640) rfl rfl

/-! ### C71: mounted volumes are protected -/

/-- C71: while a volume is mounted, Mount and FormatImage are refused without any effect. -/
theorem C71_mounted_refused {o : FileOps F} {d : Drv F} (hm : d.isMounted = true) (size : Int) :
    mount o d = .ret (d, .error .alreadyInProgress) ∧ formatImage o size d = .ret (d, .error .busy) := by
  constructor
  · unfold mount; rw [get_bind, if_pos hm]; rfl
  · unfold formatImage; rw [get_bind, if_pos hm]; rfl

/-- C71: a successful Mount mounts, an unsuccessful one does not, Unmount unmounts, and the volume
can be mounted again (unless the file fails or the FAT copies differ). -/
theorem C71_mount_unmount {o : FileOps F} {view : F → Bytes} (L : LawfulFile o view) (T : Truncates o) {f0 : F}
    {d : Drv F} (hr : Reachable o f0 d) (hm : d.isMounted = false) :
    (∀ d' r, mount o d = .ret (d', r) → (d'.isMounted = true ↔ r = .ok ()) ∧ view d'.image = view d.image) ∧
    (∀ d', mount o d = .ret (d', .ok ()) → Readable o view →
      ∃ d'' d3, unmount d' = .ret (d'', .ok ()) ∧ d''.isMounted = false ∧ mount o d'' = .ret (d3, .ok ())) := by
  have I := reachable_inv L T hr
  rcases I.state with ⟨h1, h2, h3, h4⟩ | ⟨N, R⟩
  · obtain ⟨f', g, e, h, hv, _⟩ := mount_fresh L (d := d) (by rw [h1]) h2
    rw [h]
    refine ⟨fun d' r hr => ?_, fun d' hr => by simp at hr⟩
    cases hr
    exact ⟨by simp [h2], hv⟩
  · obtain ⟨l, G⟩ := good_of R.geo
    rcases mount_spec L R G with ⟨h, _⟩ | ⟨_, d1, r1, h, hv, R1, g1, _, _, hres, _⟩
    · rw [hm] at h; simp at h
    rw [h]
    constructor
    · intro d' r hr
      cases hr
      refine ⟨?_, hv⟩
      rcases hres with ⟨⟨e, h⟩, _, h2⟩ | ⟨h, h2, _⟩ | ⟨h, h2, _⟩
      · simp [h, h2]
      · simp [h, h2]
      · simp [h, h2]
    · intro d' hr A
      cases hr
      rcases hres with ⟨⟨e, h⟩, _, h2⟩ | ⟨h, h2, _⟩ | ⟨_, _, c, _⟩
      · simp at h
      · simp at h
      refine ⟨{ d1 with isMounted := false }, ?_⟩
      have R2 : Ready view N { d1 with isMounted := false } := ⟨R1.geo, R1.total, R1.len⟩
      have G2 : Good N l ({ d1 with isMounted := false } : Drv F).geometry := by
        show Good N l d1.geometry; rw [g1]; exact G
      rcases mount_spec L R2 G2 with ⟨h, _⟩ | ⟨_, d2, r2, h2, _, _, _, _, _, hres2, _⟩
      · simp at h
      · simp only at hres2
        rw [hv] at hres2
        rcases hres2 with ⟨_, hA, _⟩ | ⟨_, _, c'⟩ | ⟨rfl, _⟩
        · exact absurd A hA
        · exact absurd c c'.1
        · exact ⟨d2, rfl, rfl, h2⟩

example : ∃ d d' : Drv Bytes, Reachable memFile [] d ∧ d.isMounted = false ∧ mount memFile d = .ret (d', .ok ()) ∧
    d'.isMounted = true := by
  obtain ⟨d0, d, hr0, hf, hm0, _, hm, _⟩ := mounted_mem (N := 640) (l := ⟨40, 16, 17, 1⟩) rfl
  exact ⟨d0, d, hr0, (format_fat memFile_lawful memFile_truncates (l := ⟨40, 16, 17, 1⟩) rfl hf).2.2.1, hm0, hm⟩

/-! ### C73: FSStat -/

/-- C73: after FormatImage, FSStat describes the volume: block size and number of blocks are those
of the image; the blocks outside the directory track of the data tracks are free; the directory
has room for one 16-byte entry per free file. -/
theorem C73_fsstat {o : FileOps F} {view : F → Bytes} (L : LawfulFile o view) (T : Truncates o)
    {N : Nat} {l : Layout} {d d' : Drv F} (hl : layout N = some l)
    (hr : formatImage o (N * 128 : Nat) d = .ret (d', .ok ())) :
    (fsStat d').blockSize * (fsStat d').totalBlocks = (view d'.image).length ∧ (fsStat d').totalBlocks = N ∧
    (fsStat d').blocksFree = l.tracks * l.spt - l.spt ∧ (fsStat d').blocksAvailable = (fsStat d').blocksFree ∧
    (fsStat d').files = 0 ∧ (fsStat d').filesFree * 16 = l.direntSectors * 128 ∧
    (fsStat d').maxNameLength = 6 + 1 + 3 := by
  obtain ⟨g0, hg0⟩ := getGeometry_of_layout hl
  have hN := N_le hg0
  rcases formatImage_spec L (size := (N * 128 : Nat)) (by omega) (by omega) d (fun n _ => truncates_resized L T d.image n) with
    ⟨_, h⟩ | ⟨_, _, e, h⟩ | ⟨_, N', l', g, d1, r, hs, G, hg, h, R, hd, hw, hv⟩
  · rw [h] at hr; simp at hr
  · rw [h] at hr; simp at hr
  rw [h] at hr; cases hr
  have hN' : N' = N := by omega
  subst hN'
  have : l' = l := by have := G.lay.symm.trans hl; simpa using this
  subst this
  have hst : d'.stat = newStat N' l' := by rw [hd]
  have h1 := R.len
  unfold fsStat
  rw [h1, hst]
  refine ⟨?_, rfl, ?_, rfl, rfl, ?_, rfl⟩
  · show 128 * N' = N' * 128; omega
  · show (l'.tracks - 1) * l'.spt = _; rw [Nat.sub_mul]; omega
  · show l'.direntSectors * 8 * 16 = _; omega

example : ∃ d', formatImage memFile (1898 * 128 : Nat) (newDriver []) = .ret (d', .ok ()) :=
  C40_format_succeeds memFile_lawful memFile_truncates memFile_writable (N := 1898) rfl rfl

end Disko.Fat8

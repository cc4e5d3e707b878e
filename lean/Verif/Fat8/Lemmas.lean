import Verif.Fat8.Spec
import Verif.Base.Lists
/-! Lemmas about the FAT8 driver. -/
namespace Disko.Fat8
open Disko Disko.Fat8.Spec

variable {F : Type}

/-! ### The monad -/

theorem bind_ok {α β : Type} {m : M F α} {f : α → M F β} {d d' : Drv F} {a : α} (h : m d = .ret (d', .ok a)) :
    (m >>= f) d = f a d' := by
  show M.bind m f d = _
  unfold M.bind; rw [h]

theorem bind_err {α β : Type} {m : M F α} {f : α → M F β} {d d' : Drv F} {e : Err} (h : m d = .ret (d', .error e)) :
    (m >>= f) d = .ret (d', .error e) := by
  show M.bind m f d = _
  unfold M.bind; rw [h]

theorem bind_panic {α β : Type} {m : M F α} {f : α → M F β} {d : Drv F} (h : m d = .panic) :
    (m >>= f) d = .panic := by
  show M.bind m f d = _
  unfold M.bind; rw [h]

theorem get_bind {β : Type} {f : Drv F → M F β} {d : Drv F} : (get >>= f) d = f d d := rfl
theorem modify_bind {β : Type} {g : Drv F → Drv F} {f : Unit → M F β} {d : Drv F} :
    (modify g >>= f) d = f () (g d) := rfl
theorem pure_apply {α : Type} {a : α} {d : Drv F} : (pure a : M F α) d = .ret (d, .ok a) := rfl
theorem throw_apply {α : Type} {e : Err} {d : Drv F} : (throw e : M F α) d = .ret (d, .error e) := rfl

/-! ### Geometry -/

/-- What the geometry of a volume of `N` blocks looks like. -/
structure Good (N : Nat) (l : Layout) (g : Geometry) : Prop where
  lay : layout N = some l
  tracks : g.totalTracks = l.tracks
  clusters : g.totalClusters = l.clusters
  spt : g.sectorsPerTrack = l.spt
  spf : g.sectorsPerFAT = l.fatSectors
  spc : g.sectorsPerCluster = l.spc
  bpc : g.bytesPerCluster = l.spc * 128
  dirNumber : g.directoryTrackNumber = l.dirTrack + 1
  dirStart : g.directoryTrackStart = l.dirStart
  info : g.infoSectorStart = l.info
  fats : g.fatsStart = l.fatStart 0
  size : g.trueTotalTracks * l.spt = N
  N_le : N ≤ 2002
  two : l.spt = 2 * l.spc
  split : l.info + 1 + 3 * l.fatSectors = l.dirStart + l.spt
  dirents : l.dirStart + l.direntSectors = l.info
  inside : l.dirStart + l.spt < N
  room : l.clusters ≤ l.fatSectors * 128
  tile : l.clusters * l.spc ≤ N
  tracksN : l.tracks * l.spt ≤ N
  clusters_lt : l.clusters < 255
  spf_pos : 1 ≤ l.fatSectors
  spf_le : l.fatSectors ≤ 2
  spc_pos : 1 ≤ l.spc
  dirTrack_lt : l.dirTrack + 1 < l.fatSectors * 128
  dirTrack : l.dirStart / l.spt = l.dirTrack

theorem good_of {N : Nat} {g : Geometry} (h : getGeometry N = .ok g) : ∃ l, Good N l g := by
  unfold getGeometry at h
  split at h
  · rename_i hN; subst hN; cases h
    exact ⟨⟨40, 16, 17, 1⟩, by constructor <;> decide +kernel⟩
  · split at h
    · rename_i hN; subst hN; cases h
      exact ⟨⟨73, 26, 34, 2⟩, by constructor <;> decide +kernel⟩
    · split at h
      · rename_i hN; subst hN; cases h
        exact ⟨⟨73, 26, 34, 2⟩, by constructor <;> decide +kernel⟩
      · simp at h

theorem getGeometry_of_layout {N : Nat} {l : Layout} (h : layout N = some l) : ∃ g, getGeometry N = .ok g := by
  unfold layout at h
  unfold getGeometry
  split at h
  · rename_i hN; rw [if_pos hN]; exact ⟨_, rfl⟩
  · rename_i hN
    split at h
    · rename_i hN2
      rw [if_neg hN]
      rcases hN2 with h2 | h2 <;> subst h2 <;> exact ⟨_, rfl⟩
    · simp at h

theorem getGeometry_none {N : Nat} (h : layout N = none) : getGeometry N = .error .badBlockCount := by
  unfold layout at h
  unfold getGeometry
  split at h
  · simp at h
  · split at h
    · simp at h
    · rename_i h1 h2
      rw [if_neg h1, if_neg (by omega), if_neg (by omega)]

theorem Good.unique {N : Nat} {l l' : Layout} {g g' : Geometry} (h : Good N l g) (h' : Good N l' g') : l = l' := by
  have := h.lay.symm.trans h'.lay; simpa using this

/-! ### Blocks -/

theorem sector_off {s : Nat} (h : s < 2 ^ 56) : i64 (i64 s * 128) = (s * 128 : Nat) := by
  rw [i64_of_range (z := (s : Int)) (by omega) (by omega), i64_of_range (by omega) (by omega)]
  omega

/-- ReadDiskBlocks changes nothing. -/
theorem readDiskBlocks_any {o : FileOps F} {view : F → Bytes} (L : LawfulFile o view) (start count : Nat) (d : Drv F) :
    (readDiskBlocks o start count d = .panic ∧ maxInt < u64 (128 * count)) ∨
    ∃ f' r, readDiskBlocks o start count d = .ret ({ d with image := f' }, r) ∧ view f' = view d.image := by
  unfold readDiskBlocks
  split
  · right; exact ⟨d.image, _, rfl, rfl⟩
  · simp only
    split
    · left; exact ⟨rfl, by assumption⟩
    · right
      have hv := L.read_view d.image (u64 (128 * count)) (i64 (i64 start * 128))
      rcases ho : o.readAt d.image (u64 (128 * count)) (i64 (i64 start * 128)) with ⟨f', buf, _ | e⟩
      · rw [ho] at hv; exact ⟨f', _, rfl, hv⟩
      · rw [ho] at hv; exact ⟨f', _, rfl, hv⟩

/-- ReadDiskBlocks with small arguments. -/
theorem readDiskBlocks_spec {o : FileOps F} {view : F → Bytes} (L : LawfulFile o view) {start count : Nat}
    (hs : start + count < 2 ^ 56) (d : Drv F) :
    (d.stat.totalBlocks ≤ start + count ∧ readDiskBlocks o start count d = .ret (d, .error .pastEnd)) ∨
    (start + count < d.stat.totalBlocks ∧ ∃ f', view f' = view d.image ∧
      ((∃ e, (o.readAt d.image (count * 128) (start * 128 : Nat)).2.2 = some e ∧
          readDiskBlocks o start count d = .ret ({ d with image := f' }, .error (.file e))) ∨
       ((count = 0 ∨ (start + count) * 128 ≤ (view d.image).length) ∧
         readDiskBlocks o start count d = .ret ({ d with image := f' }, .ok (sectors (view d.image) start count))))) := by
  unfold readDiskBlocks
  rw [u64_of_lt (by omega : start + count < 2 ^ 64)]
  by_cases h : start + count ≥ d.stat.totalBlocks
  · left; rw [if_pos h]; exact ⟨h, rfl⟩
  · right
    refine ⟨by omega, ?_⟩
    have hc : u64 (128 * count) = count * 128 := by rw [u64_of_lt (by omega)]; omega
    have hoff := sector_off (s := start) (by omega)
    rw [if_neg h]
    simp only
    rw [hc, hoff, if_neg (by unfold maxInt; omega)]
    have hv := L.read_view d.image (count * 128) (start * 128 : Nat)
    have hok := L.read_ok d.image (count * 128) (start * 128 : Nat)
    rcases ho : o.readAt d.image (count * 128) (start * 128 : Nat) with ⟨f', buf, _ | e⟩
    · rw [ho] at hv hok
      obtain ⟨_, k2, k3⟩ := hok rfl
      refine ⟨f', hv, .inr ⟨by omega, ?_⟩⟩
      simp only at k3 ⊢
      rw [k3]; rfl
    · rw [ho] at hv
      exact ⟨f', hv, .inl ⟨e, rfl, rfl⟩⟩

/-- WriteDiskBlocks: outside the image, inside it and successful, inside it and failed. -/
theorem writeDiskBlocks_spec {o : FileOps F} {view : F → Bytes} (L : LawfulFile o view) {start : Nat} {data : Bytes}
    (hs : start < 2 ^ 64) (hd : data.length ≤ maxInt) (d : Drv F) (ht : d.stat.totalBlocks < 2 ^ 56) :
    (¬ (data.length % 128 = 0 ∧ start * 128 + data.length ≤ d.stat.totalBlocks * 128) ∧
      ∃ f' e, writeDiskBlocks o start data d = .ret ({ d with image := f' }, .error e) ∧ view f' = view d.image) ∨
    (data.length % 128 = 0 ∧ start * 128 + data.length ≤ d.stat.totalBlocks * 128 ∧ ∃ f',
      ((∃ e, (o.writeAt d.image data (start * 128 : Nat)).2 = some e ∧
          writeDiskBlocks o start data d = .ret ({ d with image := f' }, .error (.file e)) ∧
          (view d.image).length ≤ (view f').length ∧
          (view f').length ≤ max (view d.image).length (start * 128 + data.length) ∧
          ∀ k, k < (view d.image).length → (k < start * 128 ∨ start * 128 + data.length ≤ k) →
            (view f')[k]? = (view d.image)[k]?) ∨
       (writeDiskBlocks o start data d = .ret ({ d with image := f' }, .ok ()) ∧
         view f' = overwrite (view d.image) (start * 128) data))) := by
  unfold maxInt at hd
  unfold writeDiskBlocks
  by_cases h1 : data.length % 128 = 0
  · rw [if_neg (by omega)]
    simp only
    by_cases h2 : start * 128 + data.length ≤ d.stat.totalBlocks * 128
    · right
      refine ⟨h1, h2, ?_⟩
      have hdiv : start + data.length / 128 ≤ d.stat.totalBlocks := by omega
      rw [u64_of_lt (by omega), if_neg (by omega), sector_off (by omega)]
      have hok := L.write_ok d.image data (start * 128 : Nat)
      have hfail := L.write_fail d.image data (start * 128 : Nat)
      rw [Int.toNat_natCast] at hok hfail
      rcases ho : o.writeAt d.image data (start * 128 : Nat) with ⟨f', _ | e⟩
      · rw [ho] at hok
        exact ⟨f', .inr ⟨rfl, (hok rfl).2⟩⟩
      · rw [ho] at hfail
        exact ⟨f', .inl ⟨e, rfl, rfl, hfail (by simp)⟩⟩
    · left
      refine ⟨fun h => h2 h.2, ?_⟩
      by_cases h3 : start + data.length / 128 < 2 ^ 64
      · rw [u64_of_lt h3, if_pos (by omega)]
        exact ⟨d.image, _, rfl, rfl⟩
      · split
        · exact ⟨d.image, _, rfl, rfl⟩
        · have hneg : i64 (i64 start * 128) < 0 := by
            have e1 : i64 (start : Int) = (start : Int) - 2 ^ 64 := by
              unfold i64; rw [Int.bmod_def]; omega
            rw [e1, i64_of_range (by omega) (by omega)]; omega
          have hv := L.write_neg d.image data _ hneg
          have hok := L.write_ok d.image data (i64 (i64 start * 128))
          rcases ho : o.writeAt d.image data (i64 (i64 start * 128)) with ⟨f', _ | e⟩
          · rw [ho] at hok
            have := (hok rfl).1
            omega
          · rw [ho] at hv
            exact ⟨f', _, rfl, hv⟩
  · left
    rw [if_pos h1]
    exact ⟨fun h => h1 h.1, d.image, _, rfl, rfl⟩

theorem overwrite_inside {d v : Bytes} {off : Nat} (h : off + v.length ≤ d.length) :
    overwrite d off v = splice d off v := by
  unfold overwrite
  split
  · rename_i hv; rw [hv]; simp
  · rw [show off + v.length - d.length = 0 from by omega]; simp

theorem length_overwrite_le (d v : Bytes) (off : Nat) :
    (overwrite d off v).length ≤ max d.length (off + v.length) ∧ d.length ≤ (overwrite d off v).length := by
  unfold overwrite
  split
  · omega
  · rw [length_splice (by rw [List.length_append, List.length_replicate]; omega), List.length_append,
      List.length_replicate]
    omega

theorem splice_splice_adjacent {d v w : Bytes} {a : Nat} (h : a + v.length + w.length ≤ d.length) :
    splice (splice d a v) (a + v.length) w = splice d a (v ++ w) := by
  apply List.ext_getElem?
  intro k
  rw [getElem?_splice (by rw [length_splice (by omega)]; omega), getElem?_splice (by omega),
    getElem?_splice (by omega), List.length_append, List.getElem?_append]
  by_cases h1 : k < a
  · rw [if_pos (by omega), if_pos h1, if_pos h1]
  · by_cases h2 : k < a + v.length
    · rw [if_pos h2, if_neg h1, if_pos h2, if_neg h1, if_pos (by omega), if_pos (by omega)]
    · rw [if_neg h2, if_neg h1, if_neg h2, if_neg h1]
      by_cases h3 : k < a + v.length + w.length
      · rw [if_pos h3, if_pos (by omega), if_neg (by omega)]; congr 1; omega
      · rw [if_neg h3, if_neg (by omega)]

/-! ### What calls do to the driver -/

/-- Only the image changed, and not its size. -/
structure ImgStep (view : F → Bytes) (d d' : Drv F) : Prop where
  rest : d' = { d with image := d'.image }
  len : (view d'.image).length = (view d.image).length

theorem ImgStep.refl (view : F → Bytes) (d : Drv F) : ImgStep view d d := ⟨rfl, rfl⟩

theorem ImgStep.trans {view : F → Bytes} {d d' d'' : Drv F} (h : ImgStep view d d') (h' : ImgStep view d' d'') :
    ImgStep view d d'' := by
  refine ⟨?_, h'.len.trans h.len⟩
  rw [h'.rest, h.rest]

theorem ImgStep.of_image {view : F → Bytes} {d : Drv F} {f' : F} (h : (view f').length = (view d.image).length) :
    ImgStep view d { d with image := f' } := ⟨rfl, h⟩

/-- The image has at least the blocks the driver believes it has. -/
def Enough (view : F → Bytes) (d : Drv F) : Prop :=
  d.stat.totalBlocks < 2 ^ 56 ∧ d.stat.totalBlocks * 128 ≤ (view d.image).length

theorem ImgStep.enough {view : F → Bytes} {d d' : Drv F} (h : ImgStep view d d') (he : Enough view d) :
    Enough view d' := by
  unfold Enough at *
  rw [h.len, h.rest]; exact he

theorem read_imgStep {o : FileOps F} {view : F → Bytes} (L : LawfulFile o view) {start count : Nat} {d d' : Drv F}
    {r : Except Err Bytes} (h : readDiskBlocks o start count d = .ret (d', r)) :
    ImgStep view d d' ∧ view d'.image = view d.image := by
  rcases readDiskBlocks_any L start count d with ⟨hp, _⟩ | ⟨f', r', hr, hv⟩
  · rw [hp] at h; simp at h
  · rw [hr] at h; simp at h; obtain ⟨rfl, rfl⟩ := h
    exact ⟨.of_image (by rw [hv]), hv⟩

theorem write_imgStep {o : FileOps F} {view : F → Bytes} (L : LawfulFile o view) {start : Nat} {data : Bytes}
    (hs : start < 2 ^ 64) (hd : data.length ≤ maxInt) {d : Drv F} (he : Enough view d) :
    ∃ d' r, writeDiskBlocks o start data d = .ret (d', r) ∧ ImgStep view d d' := by
  rcases writeDiskBlocks_spec L hs hd d he.1 with ⟨_, f', e, hr, hv⟩ | ⟨h1, h2, f', h | h⟩
  · exact ⟨_, _, hr, .of_image (by rw [hv])⟩
  · obtain ⟨e, _, hr, h3, h4, _⟩ := h
    have := he.2
    exact ⟨_, _, hr, .of_image (by omega)⟩
  · obtain ⟨hr, hv⟩ := h
    have := he.2
    have := length_overwrite_le (view d.image) data (start * 128)
    exact ⟨_, _, hr, .of_image (by rw [hv]; omega)⟩

/-- Writing inside the image. -/
theorem write_inside {o : FileOps F} {view : F → Bytes} (L : LawfulFile o view) {start : Nat} {data : Bytes}
    {d : Drv F} (he : Enough view d) (h1 : data.length % 128 = 0)
    (h2 : start * 128 + data.length ≤ d.stat.totalBlocks * 128) :
    ∃ d', ImgStep view d d' ∧
      ((∃ e, (o.writeAt d.image data (start * 128 : Nat)).2 = some e ∧
          writeDiskBlocks o start data d = .ret (d', .error (.file e))) ∨
        (writeDiskBlocks o start data d = .ret (d', .ok ()) ∧
          view d'.image = splice (view d.image) (start * 128) data)) := by
  have := he.1
  have := he.2
  rcases writeDiskBlocks_spec L (start := start) (data := data) (by omega) (by unfold maxInt; omega) d he.1 with
    ⟨hn, _⟩ | ⟨_, _, f', h | h⟩
  · exact absurd ⟨h1, h2⟩ hn
  · obtain ⟨e, h0, hr, h3, h4, _⟩ := h
    exact ⟨_, .of_image (by omega), .inl ⟨e, h0, hr⟩⟩
  · obtain ⟨hr, hv⟩ := h
    rw [overwrite_inside (by omega)] at hv
    exact ⟨_, .of_image (by rw [hv, length_splice (by omega)]), .inr ⟨hr, hv⟩⟩

/-- Writes of data that starts with 0xFF or 0 (all that FormatImage writes) do not fail. -/
def FormatWritable (o : FileOps F) : Prop :=
  ∀ f buf off, 0 ≤ off → buf.head? = some 0xff ∨ buf.head? = some 0 → (o.writeAt f buf off).2 = none

theorem Writable.format {o : FileOps F} (W : Writable o) : FormatWritable o := fun f b off h _ => W f b off h

theorem fillSectors_spec {o : FileOps F} {view : F → Bytes} (L : LawfulFile o view) (n i : Nat) {d : Drv F}
    (he : Enough view d) (h : i + n ≤ d.stat.totalBlocks) :
    ∃ d' r, fillSectors o n i d = .ret (d', r) ∧ ImgStep view d d' ∧ (FormatWritable o → r = .ok ()) ∧
      (r = .ok () → view d'.image = splice (view d.image) (i * 128) (List.replicate (n * 128) 0xff)) := by
  induction n generalizing i d with
  | zero => exact ⟨d, _, rfl, .refl _ _, fun _ => rfl, fun _ => by simp⟩
  | succ n ih =>
    unfold fillSectors
    obtain ⟨d1, hs, h1 | h1⟩ := write_inside L (start := i) (data := List.replicate 128 0xff) he (by simp)
      (by rw [List.length_replicate]; omega)
    · obtain ⟨e, h0, h1⟩ := h1
      exact ⟨d1, _, bind_err h1, hs, fun W => by rw [W _ _ _ (by omega) (.inl rfl)] at h0; simp at h0, by simp⟩
    · obtain ⟨h1, hv⟩ := h1
      have ht : d1.stat.totalBlocks = d.stat.totalBlocks := by rw [hs.rest]
      obtain ⟨d2, r, h2, hs2, hw2, hv2⟩ := ih (i + 1) (hs.enough he) (by omega)
      refine ⟨d2, r, (bind_ok h1).trans h2, hs.trans hs2, hw2, fun hr => ?_⟩
      have := he.2
      rw [hv2 hr, hv]
      have e1 : (i + 1) * 128 = i * 128 + (List.replicate 128 (0xff : UInt8)).length := by
        rw [List.length_replicate]; omega
      rw [e1, splice_splice_adjacent (by simp only [List.length_replicate]; omega), List.replicate_append_replicate,
        show 128 + n * 128 = (n + 1) * 128 from by omega]

/-! ### Formatting -/

/-- The FAT FormatImage writes. -/
def newFat (l : Layout) : Bytes :=
  ((List.replicate (l.fatSectors * 128) (0xff : UInt8)).set l.dirTrack 0xfe).set (l.dirTrack + 1) 0xfe

/-- The directory track FormatImage writes. -/
def newTrack (l : Layout) (fat : Bytes) : Bytes :=
  List.replicate (l.direntSectors * 128) 0xff ++ List.replicate 128 0 ++ (fat ++ fat ++ fat)

/-- Changing the size of a file. -/
def resized (d : Bytes) (n : Nat) : Bytes := d.take n ++ List.replicate (n - d.length) 0

theorem length_resized (d : Bytes) (n : Nat) : (resized d n).length = n := by
  unfold resized; rw [List.length_append, List.length_take, List.length_replicate]; omega

theorem repeatBytes_three (b : Bytes) : repeatBytes b 3 = b ++ b ++ b := by
  simp [repeatBytes, List.replicate]

theorem length_newFat (l : Layout) : (newFat l).length = l.fatSectors * 128 := by
  simp [newFat]

theorem head_newFats {N : Nat} {l : Layout} {g : Geometry} (G : Good N l g) :
    (repeatBytes (newFat l) 3).head? = some 0xff := by
  have hl := G.lay
  unfold layout at hl
  split at hl
  · cases hl; decide +kernel
  · split at hl
    · cases hl; decide +kernel
    · simp at hl

/-- The volume is ready: formatted or being formatted with `N` blocks. -/
structure Ready (view : F → Bytes) (N : Nat) (d : Drv F) : Prop where
  geo : getGeometry N = .ok d.geometry
  total : d.stat.totalBlocks = N
  len : (view d.image).length = N * 128

theorem N_le {N : Nat} {g : Geometry} (h : getGeometry N = .ok g) : N ≤ 2002 := by
  obtain ⟨l, G⟩ := good_of h; exact G.N_le

theorem Ready.enough {view : F → Bytes} {N : Nat} {d : Drv F} (h : Ready view N d) : Enough view d := by
  have := N_le h.geo
  have := h.total
  have := h.len
  exact ⟨by omega, by omega⟩

theorem Ready.step {view : F → Bytes} {N : Nat} {d d' : Drv F} (h : Ready view N d) (hs : ImgStep view d d') :
    Ready view N d' := by
  refine ⟨?_, ?_, by rw [hs.len, h.len]⟩
  · rw [hs.rest]; exact h.geo
  · rw [hs.rest]; exact h.total

/-- The FSStat FormatImage prepares. -/
def newStat (N : Nat) (l : Layout) : FSStat :=
  { blockSize := 128, totalBlocks := N, blocksFree := (l.tracks - 1) * l.spt,
    blocksAvailable := (l.tracks - 1) * l.spt, files := 0, filesFree := l.direntSectors * 8, maxNameLength := 10 }

theorem size_blocks {size : Int} (h1 : -(2 ^ 63) ≤ size) (h2 : size < 2 ^ 63) (h3 : size.tmod 128 = 0)
    (h4 : (size % 2 ^ 64).toNat / 128 ≤ 2002) : size = ((size % 2 ^ 64).toNat / 128 * 128 : Nat) := by
  have := Int.dvd_of_tmod_eq_zero h3
  omega

theorem truncates_resized {o : FileOps F} {view : F → Bytes} (L : LawfulFile o view) (T : Truncates o) (f : F) (n : Nat) :
    view (o.truncate f n).1 = resized (view f) n := by
  rw [(L.truncate_ok f n (T _ _ (by omega))).2, Int.toNat_natCast]; rfl

/-- FormatImage: rejected, or performed as far as the writes succeed. -/
theorem formatImage_spec {o : FileOps F} {view : F → Bytes} (L : LawfulFile o view) {size : Int}
    (h1 : -(2 ^ 63) ≤ size) (h2 : size < 2 ^ 63) (d : Drv F)
    (T : ∀ n : Nat, size = n → view (o.truncate d.image n).1 = resized (view d.image) n) :
    (d.isMounted = true ∧ formatImage o size d = .ret (d, .error .busy)) ∨
    (d.isMounted = false ∧ (∀ N : Nat, layout N ≠ none → size ≠ (N * 128 : Nat)) ∧
      ∃ e, formatImage o size d = .ret (d, .error e)) ∨
    (d.isMounted = false ∧ ∃ N l g d' r, size = (N * 128 : Nat) ∧ Good N l g ∧ getGeometry N = .ok g ∧
      formatImage o size d = .ret (d', r) ∧ Ready view N d' ∧
      d' = { d with image := d'.image, geometry := g, stat := newStat N l } ∧
      (FormatWritable o → r = .ok ()) ∧
      (r = .ok () → view d'.image =
        splice (resized (view d.image) (N * 128)) (l.dirStart * 128) (newTrack l (newFat l)))) := by
  unfold formatImage
  rw [get_bind]
  by_cases hm : d.isMounted = true
  · left; rw [if_pos hm]; exact ⟨hm, rfl⟩
  have hm' : d.isMounted = false := by simpa using hm
  rw [if_neg hm]
  right
  by_cases ht : size.tmod 128 ≠ 0
  · left; rw [if_pos ht]
    refine ⟨hm', fun N _ hN => ht ?_, _, rfl⟩
    rw [hN, show ((N * 128 : Nat) : Int) = (N : Int) * 128 from by omega, Int.mul_tmod_left]
  rw [if_neg ht]
  simp only
  have ht' : size.tmod 128 = 0 := by omega
  generalize hN : (size % 2 ^ 64).toNat / 128 = N
  rcases hg : getGeometry N with e | g
  · left
    rw [bind_err (show orThrow (Except.error e) d = _ from rfl)]
    refine ⟨hm', fun N' hN' hs => ?_, _, rfl⟩
    rcases hl : layout N' with _ | l
    · exact hN' hl
    · obtain ⟨g', hg'⟩ := getGeometry_of_layout hl
      have := N_le hg'
      have : N = N' := by omega
      rw [this, hg'] at hg
      simp at hg
  · right
    obtain ⟨l, G⟩ := good_of hg
    have hNle := G.N_le
    have hsz := size_blocks h1 h2 ht' (by omega)
    rw [hN] at hsz
    refine ⟨hm', N, l, g, ?_⟩
    rw [bind_ok (show orThrow (Except.ok g) d = _ from rfl)]
    rw [modify_bind, modify_bind]
    have hstat : (FSStat.mk 128 N (u64 (u64sub g.totalTracks 1 * g.sectorsPerTrack))
      (u64 (u64sub g.totalTracks 1 * g.sectorsPerTrack)) 0
      (u64 (u64sub (u64sub g.sectorsPerTrack 1) (u64 (g.sectorsPerFAT * 3)) * 8)) 10) = newStat N l := by
      unfold getGeometry at hg
      have hl := G.lay
      unfold layout at hl
      split at hg
      · rename_i h; subst h; cases hg; cases hl; decide +kernel
      · split at hg
        · rename_i h; subst h; cases hg; cases hl; decide +kernel
        · split at hg
          · rename_i h; subst h; cases hg; cases hl; decide +kernel
          · simp at hg
    have hfs : i64 (u64 (u64 (128 * g.trueTotalTracks) * g.sectorsPerTrack)) = (N * 128 : Nat) := by
      unfold getGeometry at hg
      split at hg
      · rename_i h; subst h; cases hg; decide +kernel
      · split at hg
        · rename_i h; subst h; cases hg; decide +kernel
        · split at hg
          · rename_i h; subst h; cases hg; decide +kernel
          · simp at hg
    rw [hstat, hfs]
    have htr := T _ hsz
    generalize hf1 : (o.truncate d.image (N * 128 : Nat)).1 = f1 at *
    have hv1 : view f1 = resized (view d.image) (N * 128) := htr
    generalize hd1 : ({ d with image := f1, geometry := g, stat := newStat N l } : Drv F) = d1
    have hd1' : ({ ({ d with geometry := g, stat := newStat N l } : Drv F) with image := f1 } : Drv F) = d1 := hd1
    have R1 : Ready view N d1 := by
      subst hd1
      exact ⟨hg, rfl, by rw [hv1, length_resized]⟩
    have himg : d1.image = f1 := by rw [← hd1]
    have fin : ∀ d', ImgStep view d1 d' → d' = { d with image := d'.image, geometry := g, stat := newStat N l } := by
      intro d' hs; rw [hs.rest, ← hd1]
    have hlen1 : (view f1).length = N * 128 := by rw [hv1, length_resized]
    have hin := G.inside
    have hsp := G.split
    have hde := G.dirents
    -- directory entries
    obtain ⟨d2, r2, e2, s2, w2, v2⟩ := fillSectors_spec L (g.infoSectorStart - g.directoryTrackStart) g.directoryTrackStart
      R1.enough (by rw [R1.total, G.info, G.dirStart]; omega)
    show ∃ d' r, _ ∧ _ ∧ _ ∧ (fillSectors o _ _ >>= _) _ = _ ∧ _
    rcases r2 with e | ⟨⟩
    · exact ⟨d2, _, hsz, G, hg, bind_err e2, R1.step s2, fin _ s2, w2, by simp⟩
    rw [bind_ok e2]
    have R2 := R1.step s2
    -- info sector
    obtain ⟨d3, s3, h3⟩ := write_inside L (start := g.infoSectorStart) (data := List.replicate 128 0) R2.enough (by simp)
      (by rw [R2.total, G.info, List.length_replicate]; omega)
    have s13 := s2.trans s3
    rcases h3 with ⟨e, h0, e3⟩ | ⟨e3, v3⟩
    · exact ⟨d3, _, hsz, G, hg, bind_err e3, R1.step s13, fin _ s13,
        fun W => by rw [W _ _ _ (by omega) (.inr rfl)] at h0; simp at h0, by simp⟩
    rw [bind_ok e3]
    have R3 := R2.step s3
    -- the FAT
    have hdt : g.directoryTrackStart / g.sectorsPerTrack = l.dirTrack := by rw [G.dirStart, G.spt, G.dirTrack]
    have hlt := G.dirTrack_lt
    rw [hdt, G.spf]
    have hset1 : (setByte (List.replicate (l.fatSectors * 128) (0xff : UInt8)) l.dirTrack 0xfe : M F Bytes) d3 =
        .ret (d3, .ok ((List.replicate (l.fatSectors * 128) (0xff : UInt8)).set l.dirTrack 0xfe)) := by
      unfold setByte; rw [if_pos (by rw [List.length_replicate]; omega)]; rfl
    rw [bind_ok hset1]
    have hset2 : (setByte ((List.replicate (l.fatSectors * 128) (0xff : UInt8)).set l.dirTrack 0xfe) (l.dirTrack + 1) 0xfe
        : M F Bytes) d3 = .ret (d3, .ok (newFat l)) := by
      unfold setByte; rw [if_pos (by rw [List.length_set, List.length_replicate]; omega)]; rfl
    rw [bind_ok hset2]
    have hlf := length_newFat l
    have hrep : (repeatBytes (newFat l) 3).length = 3 * (l.fatSectors * 128) := by
      rw [repeatBytes_three]; simp only [List.length_append]; omega
    have hfat0 : g.fatsStart = l.info + 1 := by rw [G.fats]; unfold Layout.fatStart; omega
    obtain ⟨d4, s4, h4⟩ := write_inside L (start := g.fatsStart) (data := repeatBytes (newFat l) 3) R3.enough
      (by rw [hrep]; omega) (by rw [R3.total, hrep, hfat0]; omega)
    have s14 := s13.trans s4
    rcases h4 with ⟨e, h0, e4⟩ | ⟨e4, v4⟩
    · exact ⟨d4, _, hsz, G, hg, e4, R1.step s14, fin _ s14,
        fun W => by rw [W _ _ _ (by omega) (.inl (head_newFats G))] at h0; simp at h0, by simp⟩
    refine ⟨d4, _, hsz, G, hg, e4, R1.step s14, fin _ s14, fun _ => rfl, fun _ => ?_⟩
    have v2' := v2 rfl
    rw [v4, v3, v2', himg, hv1, hfat0, G.info, G.dirStart, repeatBytes_three, ← hde]
    have hR := length_resized (view d.image) (N * 128)
    have c1 : (l.dirStart + l.direntSectors) * 128 = l.dirStart * 128 +
        (List.replicate ((l.dirStart + l.direntSectors - l.dirStart) * 128) (0xff : UInt8)).length := by
      rw [List.length_replicate]; omega
    rw [c1, splice_splice_adjacent (by simp only [List.length_replicate]; omega)]
    have c2 : (l.dirStart + l.direntSectors + 1) * 128 = l.dirStart * 128 +
        (List.replicate ((l.dirStart + l.direntSectors - l.dirStart) * 128) (0xff : UInt8) ++
          List.replicate 128 (0 : UInt8)).length := by
      simp only [List.length_append, List.length_replicate]; omega
    rw [c2, splice_splice_adjacent (by simp only [List.length_append, List.length_replicate]; omega)]
    unfold newTrack
    rw [show l.dirStart + l.direntSectors - l.dirStart = l.direntSectors from by omega]

/-! ### GetFAT and Mount -/

/-- Reading sectors inside the image (and not including its last one). -/
theorem read_inside {o : FileOps F} {view : F → Bytes} (L : LawfulFile o view) {N s n : Nat} {d : Drv F}
    (R : Ready view N d) (h : s + n < N) :
    ∃ d', ImgStep view d d' ∧ view d'.image = view d.image ∧
      ((∃ e, (o.readAt d.image (n * 128) (s * 128 : Nat)).2.2 = some e ∧
          readDiskBlocks o s n d = .ret (d', .error (.file e))) ∨
        readDiskBlocks o s n d = .ret (d', .ok (sectors (view d.image) s n))) := by
  have := N_le R.geo
  rcases readDiskBlocks_spec L (start := s) (count := n) (by omega) d with ⟨h1, _⟩ | ⟨_, f', hv, h1 | ⟨_, h1⟩⟩
  · rw [R.total] at h1; omega
  · obtain ⟨e, h0, h1⟩ := h1
    exact ⟨_, .of_image (by rw [hv]), hv, .inl ⟨e, h0, h1⟩⟩
  · exact ⟨_, .of_image (by rw [hv]), hv, .inr h1⟩

theorem read_total {o : FileOps F} {view : F → Bytes} {N s n : Nat} {d : Drv F}
    (R : Ready view N d) (h : s + n < N) (A : Readable o view) :
    (o.readAt d.image (n * 128) (s * 128 : Nat)).2.2 = none := by
  refine A.read _ _ _ (by omega) ?_
  rw [R.len, Int.toNat_natCast]; omega

/-- GetFAT on a formatted volume: a file error, or a comparison of the three copies. -/
theorem getFAT_spec {o : FileOps F} {view : F → Bytes} (L : LawfulFile o view) {N : Nat} {l : Layout} {d : Drv F}
    (R : Ready view N d) (G : Good N l d.geometry) :
    ∃ d' r, getFAT o d = .ret (d', r) ∧ ImgStep view d d' ∧ view d'.image = view d.image ∧
      (((∃ e, r = .error (.file e)) ∧ ¬ Readable o view) ∨
        (r = .ok (fatCopy l (view d.image) 0) ∧ fatCopy l (view d.image) 0 = fatCopy l (view d.image) 1 ∧
          fatCopy l (view d.image) 0 = fatCopy l (view d.image) 2) ∨
        (r = .error .corrupted ∧ ¬ (fatCopy l (view d.image) 0 = fatCopy l (view d.image) 1 ∧
          fatCopy l (view d.image) 0 = fatCopy l (view d.image) 2))) := by
  have hin := G.inside
  have hsp := G.split
  have hN := G.N_le
  have hf := G.spf_le
  unfold getFAT
  rw [get_bind, G.fats, G.spf]
  have e1 : u64 (l.fatStart 0 + l.fatSectors) = l.fatStart 1 := by
    unfold Layout.fatStart; rw [u64_of_lt (by omega)]; omega
  have e2 : u64 (l.fatStart 0 + u64 (2 * l.fatSectors)) = l.fatStart 2 := by
    unfold Layout.fatStart; rw [u64_of_lt (n := 2 * l.fatSectors) (by omega), u64_of_lt (by omega)]; omega
  rw [e1, e2]
  have b0 : l.fatStart 0 + l.fatSectors < N := by unfold Layout.fatStart; omega
  have b1 : l.fatStart 1 + l.fatSectors < N := by unfold Layout.fatStart; omega
  have b2 : l.fatStart 2 + l.fatSectors < N := by unfold Layout.fatStart; omega
  obtain ⟨d1, s1, v1, ⟨e, f1, h1⟩ | h1⟩ := read_inside L R b0
  · exact ⟨d1, _, bind_err h1, s1, v1, .inl ⟨⟨e, rfl⟩, fun A => by rw [read_total R b0 A] at f1; simp at f1⟩⟩
  rw [bind_ok h1]
  have R1 := R.step s1
  obtain ⟨d2, s2, v2, ⟨e, f2, h2⟩ | h2⟩ := read_inside L R1 b1
  · exact ⟨d2, _, bind_err h2, s1.trans s2, v2.trans v1,
      .inl ⟨⟨e, rfl⟩, fun A => by rw [read_total R1 b1 A] at f2; simp at f2⟩⟩
  rw [bind_ok h2]
  have R2 := R1.step s2
  have v12 := v2.trans v1
  obtain ⟨d3, s3, v3, ⟨e, f3, h3⟩ | h3⟩ := read_inside L R2 b2
  · exact ⟨d3, _, bind_err h3, (s1.trans s2).trans s3, v3.trans v12,
      .inl ⟨⟨e, rfl⟩, fun A => by rw [read_total R2 b2 A] at f3; simp at f3⟩⟩
  rw [bind_ok h3, v1, v12]
  have s13 := (s1.trans s2).trans s3
  have v13 := v3.trans v12
  show ∃ d' r, (if fatCopy l (view d.image) 0 ≠ fatCopy l (view d.image) 1 then throw .corrupted
    else if fatCopy l (view d.image) 0 ≠ fatCopy l (view d.image) 2 then throw .corrupted
    else pure (fatCopy l (view d.image) 0) : M F Bytes) d3 = .ret (d', r) ∧ _
  by_cases c1 : fatCopy l (view d.image) 0 = fatCopy l (view d.image) 1
  · rw [if_neg (by simpa using c1)]
    by_cases c2 : fatCopy l (view d.image) 0 = fatCopy l (view d.image) 2
    · rw [if_neg (by simpa using c2)]
      exact ⟨d3, _, rfl, s13, v13, .inr (.inl ⟨rfl, c1, c2⟩)⟩
    · rw [if_pos c2]
      exact ⟨d3, _, rfl, s13, v13, .inr (.inr ⟨rfl, fun h => c2 h.2⟩)⟩
  · rw [if_pos c1]
    exact ⟨d3, _, rfl, s13, v13, .inr (.inr ⟨rfl, fun h => c1 h.1⟩)⟩

theorem getFAT_fresh {o : FileOps F} {d : Drv F} (h : d.stat.totalBlocks = 0) :
    getFAT o d = .ret (d, .error .pastEnd) := by
  unfold getFAT
  rw [get_bind]
  refine bind_err ?_
  unfold readDiskBlocks
  rw [h, if_pos (Nat.zero_le _)]

/-- Mount on a formatted volume. -/
theorem mount_spec {o : FileOps F} {view : F → Bytes} (L : LawfulFile o view) {N : Nat} {l : Layout} {d : Drv F}
    (R : Ready view N d) (G : Good N l d.geometry) :
    (d.isMounted = true ∧ mount o d = .ret (d, .error .alreadyInProgress)) ∨
    (d.isMounted = false ∧ ∃ d' r, mount o d = .ret (d', r) ∧ view d'.image = view d.image ∧ Ready view N d' ∧
      d'.geometry = d.geometry ∧ d'.dirents = d.dirents ∧ d'.stat = d.stat ∧
      (((∃ e, r = .error (.file e)) ∧ ¬ Readable o view ∧ d'.isMounted = false) ∨
       (r = .error .corrupted ∧ d'.isMounted = false ∧
          ¬ (fatCopy l (view d.image) 0 = fatCopy l (view d.image) 1 ∧
            fatCopy l (view d.image) 0 = fatCopy l (view d.image) 2) ∧ d'.fat = d.fat) ∨
       (r = .ok () ∧ d'.isMounted = true ∧
          (fatCopy l (view d.image) 0 = fatCopy l (view d.image) 1 ∧
            fatCopy l (view d.image) 0 = fatCopy l (view d.image) 2) ∧
          d'.fat = fatCopy l (view d.image) 0 ∧
          d'.freeClusters = d.freeClusters ++ freeOf (fatCopy l (view d.image) 0) 0 ∧
          (sectors (view d.image) l.info 1).head? = some d'.defaultFileAttrFlags)) ∧
      (d'.fat = d.fat ∨ (d'.fat = fatCopy l (view d.image) 0 ∧ fatCopy l (view d.image) 0 = fatCopy l (view d.image) 1 ∧
        fatCopy l (view d.image) 0 = fatCopy l (view d.image) 2))) := by
  unfold mount
  rw [get_bind]
  by_cases hm : d.isMounted = true
  · left; rw [if_pos hm]; exact ⟨hm, rfl⟩
  have hm' : d.isMounted = false := by simpa using hm
  rw [if_neg hm]
  right
  refine ⟨hm', ?_⟩
  rw [modify_bind]
  have hsv := L.seek_view d.image
  have hok := L.seek_ok d.image
  have R0 : Ready view N { d with image := (o.seekEnd d.image).1 } :=
    ⟨R.geo, R.total, by rw [hsv, R.len]⟩
  rcases hr : (o.seekEnd d.image).2 with e | off
  · exact ⟨_, _, rfl, hsv, R0, rfl, rfl, rfl, .inl ⟨⟨e, rfl⟩, fun A => by
      obtain ⟨n, hn⟩ := A.seek d.image
      rw [hn] at hr; simp at hr, hm'⟩, .inl rfl⟩
  have hoff := hok _ hr
  rw [R.len] at hoff
  have hNle := G.N_le
  have hN : (off % 2 ^ 64).toNat / 128 = N := by omega
  simp only
  rw [hN, R.geo]
  simp only
  rw [modify_bind]
  generalize hd0 : ({ ({ d with image := (o.seekEnd d.image).1 } : Drv F) with geometry := d.geometry } : Drv F) = d0
  have hd0' : ({ d with image := (o.seekEnd d.image).1 } : Drv F) = d0 := by rw [← hd0]
  rw [hd0'] at R0
  have hg0 : d0.geometry = d.geometry := by rw [← hd0]
  have hv0 : view d0.image = view d.image := by rw [← hd0]; exact hsv
  obtain ⟨d1, r1, h1, s1, v1, hres⟩ := getFAT_spec L R0 (by rw [hg0]; exact G)
  rw [hv0] at v1 hres
  have R1 := R0.step s1
  have f1 : d1.geometry = d.geometry ∧ d1.dirents = d.dirents ∧ d1.stat = d.stat ∧ d1.isMounted = false ∧
      d1.fat = d.fat ∧ d1.freeClusters = d.freeClusters := by
    rw [s1.rest, ← hd0]; exact ⟨rfl, rfl, rfl, hm', rfl, rfl⟩
  obtain ⟨g1, g2, g3, g4, g5, g6⟩ := f1
  rcases hres with ⟨⟨e, rfl⟩, hA⟩ | ⟨rfl, c⟩ | ⟨rfl, c⟩
  · exact ⟨d1, _, bind_err h1, v1, R1, g1, g2, g3, .inl ⟨⟨e, rfl⟩, hA, g4⟩, .inl g5⟩
  · rw [bind_ok h1, modify_bind]
    generalize hd2 : ({ d1 with fat := fatCopy l (view d.image) 0, freeClusters := d1.freeClusters ++ freeOf (fatCopy l (view d.image) 0) 0 } : Drv F) = d2
    have R2 : Ready view N d2 := by rw [← hd2]; exact ⟨R1.geo, R1.total, R1.len⟩
    have v2 : view d2.image = view d.image := by rw [← hd2]; exact v1
    have hlt : l.info + 1 < N := by
      have := G.inside; have := G.split; omega
    rw [G.info]
    obtain ⟨d3, s3, v3, ⟨e, f3, h3⟩ | h3⟩ := read_inside L R2 hlt
    · refine ⟨d3, _, bind_err h3, v3.trans v2, R2.step s3, ?_, ?_, ?_, .inl ⟨⟨e, rfl⟩, fun A => by rw [read_total R2 hlt A] at f3; simp at f3, ?_⟩, .inr ⟨?_, c⟩⟩
      all_goals rw [s3.rest, ← hd2]
      all_goals assumption
    · rw [bind_ok h3, v2]
      have hhd : ∃ c, (sectors (view d.image) l.info 1).head? = some c := by
        rcases hh : sectors (view d.image) l.info 1 with _ | ⟨c, t⟩
        · have hl : (sectors (view d.image) l.info 1).length = 1 * 128 := by
            unfold sectors; rw [length_slice_of_le (by rw [R.len]; omega)]
          rw [hh] at hl; simp at hl
        · exact ⟨c, rfl⟩
      obtain ⟨c0, hc0⟩ := hhd
      rw [hc0]
      have R3 := R2.step s3
      refine ⟨{ d3 with defaultFileAttrFlags := c0, isMounted := true }, _, rfl, v3.trans v2, ⟨R3.geo, R3.total, R3.len⟩, ?_, ?_, ?_,
        .inr (.inr ⟨rfl, rfl, c, ?_, ?_, rfl⟩), .inr ⟨?_, c⟩⟩
      all_goals rw [s3.rest, ← hd2]
      all_goals first | assumption | skip
      rw [g6]
  · exact ⟨d1, _, bind_err h1, v1, R1, g1, g2, g3, .inr (.inl ⟨rfl, g4, c, g5⟩), .inl g5⟩

/-- Mount on a driver that has never formatted. -/
theorem mount_fresh {o : FileOps F} {view : F → Bytes} (L : LawfulFile o view) {d : Drv F} (h : d.stat.totalBlocks = 0)
    (hm : d.isMounted = false) :
    ∃ f' g e, mount o d = .ret ({ d with image := f', geometry := g }, .error e) ∧ view f' = view d.image ∧
      (g = d.geometry ∨ ∃ n, getGeometry n = .ok g) := by
  unfold mount
  rw [get_bind, if_neg (by simp [hm])]
  rw [modify_bind]
  have hsv := L.seek_view d.image
  rcases hr : (o.seekEnd d.image).2 with e | off
  · exact ⟨_, _, _, rfl, hsv, .inl rfl⟩
  simp only
  rcases hg : getGeometry ((off % 2 ^ 64).toNat / 128) with e | g
  · rw [hg]; exact ⟨_, _, _, rfl, hsv, .inl rfl⟩
  rw [hg]
  show ∃ f' g' e, (modify _ >>= _) _ = _ ∧ _
  rw [modify_bind]
  exact ⟨_, g, _, bind_err (getFAT_fresh (by exact h)), hsv, .inr ⟨_, hg⟩⟩

end Disko.Fat8

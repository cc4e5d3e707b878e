import Verif.Fat8.Run
/-! Writes that stop in the middle: lemmas for C140 and C141. -/
namespace Disko.Fat8.Crash
open Disko Disko.Fat8 Disko.Fat8.Spec

variable {F : Type}

/-- WriteDiskBlocks inside the image is one WriteAt. -/
theorem write_image {o : FileOps F} {view : F → Bytes} {start : Nat} {data : Bytes} {d : Drv F} (he : Enough view d)
    (h1 : data.length % 128 = 0) (h2 : start * 128 + data.length ≤ d.stat.totalBlocks * 128) {d' : Drv F}
    {r : Except Err Unit} (h : writeDiskBlocks o start data d = .ret (d', r)) :
    d' = { d with image := (o.writeAt d.image data (start * 128 : Nat)).1 } ∧
    (r = .ok () ↔ (o.writeAt d.image data (start * 128 : Nat)).2 = none) := by
  have := he.1
  unfold writeDiskBlocks at h
  rw [if_neg (by omega)] at h
  simp only at h
  rw [u64_of_lt (by omega), if_neg (by omega), sector_off (by omega)] at h
  rcases ho : o.writeAt d.image data (start * 128 : Nat) with ⟨f', _ | e⟩
  · rw [ho] at h; cases h; exact ⟨rfl, by simp⟩
  · rw [ho] at h; cases h; exact ⟨rfl, by simp⟩

/-- A write inside the image stores a prefix of its data, all of it if it succeeds. -/
theorem write_prefix {o : FileOps F} {view : F → Bytes} (L : LawfulFile o view) (P : PrefixWrites o view)
    {start : Nat} {data : Bytes} {d : Drv F} (he : Enough view d)
    (h1 : data.length % 128 = 0) (h2 : start * 128 + data.length ≤ d.stat.totalBlocks * 128) :
    ∃ d' r t, writeDiskBlocks o start data d = .ret (d', r) ∧ ImgStep view d d' ∧ t ≤ data.length ∧
      view d'.image = splice (view d.image) (start * 128) (data.take t) ∧ (r = .ok () → t = data.length) := by
  have := he.2
  obtain ⟨d', s, h⟩ := write_inside L he h1 h2
  rcases h with ⟨e, _, hr⟩ | ⟨hr, hv⟩
  · obtain ⟨hd, _⟩ := write_image he h1 h2 hr
    obtain ⟨t, ht, hv⟩ := P d.image data (start * 128 : Nat) (by omega)
    rw [Int.toNat_natCast, overwrite_inside (by rw [List.length_take]; omega)] at hv
    exact ⟨d', _, t, hr, s, ht, by rw [hd]; exact hv, by simp⟩
  · exact ⟨d', _, data.length, hr, s, Nat.le_refl _, by rw [List.take_length]; exact hv, fun _ => rfl⟩

theorem take_splice {d v w : Bytes} {a t : Nat} (h : a + v.length + w.length ≤ d.length) :
    splice (splice d a v) (a + v.length) (w.take t) = splice d a ((v ++ w).take (v.length + t)) := by
  rw [splice_splice_adjacent (by rw [List.length_take]; omega), List.take_append]
  congr 2
  · exact (List.take_of_length_le (by omega)).symm
  · rw [Nat.add_sub_cancel_left]

theorem fill_prefix {o : FileOps F} {view : F → Bytes} (L : LawfulFile o view) (P : PrefixWrites o view) (n i : Nat)
    {d : Drv F} (he : Enough view d) (h : i + n ≤ d.stat.totalBlocks) :
    ∃ d' r t, fillSectors o n i d = .ret (d', r) ∧ ImgStep view d d' ∧ t ≤ n * 128 ∧
      view d'.image = splice (view d.image) (i * 128) ((List.replicate (n * 128) 0xff).take t) ∧
      (r = .ok () → t = n * 128) := by
  induction n generalizing i d with
  | zero => exact ⟨d, _, 0, rfl, .refl _ _, Nat.zero_le _, by simp, fun _ => by simp⟩
  | succ n ih =>
    unfold fillSectors
    obtain ⟨d1, r1, t1, h1, s1, ht1, v1, f1⟩ := write_prefix L P (start := i) (data := List.replicate 128 0xff) he (by simp)
      (by rw [List.length_replicate]; omega)
    rw [List.length_replicate] at ht1 f1
    have e2 := he.2
    rcases r1 with e | ⟨⟩
    · refine ⟨d1, _, t1, bind_err h1, s1, by omega, ?_, by simp⟩
      rw [v1, List.take_replicate, List.take_replicate, Nat.min_eq_left ht1, Nat.min_eq_left (by omega)]
    · have ht : d1.stat.totalBlocks = d.stat.totalBlocks := by rw [s1.rest]
      obtain ⟨d2, r, t, h2, s2, ht2, v2, f2⟩ := ih (i + 1) (s1.enough he) (by omega)
      refine ⟨d2, r, 128 + t, (bind_ok h1).trans h2, s1.trans s2, by omega, ?_, fun hr => by have := f2 hr; omega⟩
      rw [v2, v1, f1 rfl, List.take_of_length_le (by rw [List.length_replicate]; omega)]
      have e1 : (i + 1) * 128 = i * 128 + (List.replicate 128 (0xff : UInt8)).length := by
        rw [List.length_replicate]; omega
      rw [e1, take_splice (by simp only [List.length_replicate]; omega), List.replicate_append_replicate,
        List.length_replicate, show 128 + n * 128 = (n + 1) * 128 from by omega]

/-- The FAT copies after a write of three copies of `fat` that stored a prefix of length `t`. -/
theorem fatCopy_torn {N : Nat} {l : Layout} {g : Geometry} (G : Good N l g) {v fat : Bytes} (hv : v.length = N * 128)
    (hf : fat.length = l.fatSectors * 128) {t : Nat} :
    (l.fatSectors * 128 ≤ t → fatCopy l (splice v (l.fatStart 0 * 128) ((fat ++ fat ++ fat).take t)) 0 = fat) ∧
    (t ≤ l.fatSectors * 128 →
      fatCopy l (splice v (l.fatStart 0 * 128) ((fat ++ fat ++ fat).take t)) 1 = fatCopy l v 1) := by
  have hsp := G.split
  have hin := G.inside
  have h0 : l.fatStart 0 = l.info + 1 := by unfold Layout.fatStart; omega
  have h1 : l.fatStart 1 = l.info + 1 + l.fatSectors := by unfold Layout.fatStart; omega
  constructor
  · intro ht
    unfold fatCopy sectors
    symm
    apply slice_eq_of_getElem? hf
    intro k hk
    rw [getElem?_splice (by omega), if_neg (by omega),
      if_pos (by simp only [List.length_take, List.length_append]; omega), Nat.add_sub_cancel_left,
      List.getElem?_take, if_pos (by omega), List.append_assoc, List.getElem?_append_left (by omega)]
  · intro ht
    unfold fatCopy sectors
    apply List.ext_getElem?
    intro k
    rw [getElem?_slice, getElem?_slice]
    split
    · rw [getElem?_splice (by omega), if_neg (by omega), if_neg (by rw [List.length_take]; omega)]
    · rfl

/-- FormatImage stores a prefix of the new directory track, and nothing else. -/
theorem format_prefix {o : FileOps F} {view : F → Bytes} (L : LawfulFile o view) (T : Truncates o) (P : PrefixWrites o view)
    {N : Nat} {l : Layout} (hl : layout N = some l) {d : Drv F} (hm : d.isMounted = false) :
    ∃ d' r t, formatImage o (N * 128 : Nat) d = .ret (d', r) ∧ Ready view N d' ∧ Good N l d'.geometry ∧
      t ≤ (newTrack l (newFat l)).length ∧
      view d'.image = splice (resized (view d.image) (N * 128)) (l.dirStart * 128) ((newTrack l (newFat l)).take t) ∧
      (r = .ok () → t = (newTrack l (newFat l)).length) := by
  obtain ⟨g, hg⟩ := getGeometry_of_layout hl
  obtain ⟨l', G⟩ := good_of hg
  have e2 : l' = l := by have := G.lay.symm.trans hl; simpa using this
  subst e2
  have hNle := G.N_le
  unfold formatImage
  rw [get_bind, if_neg (by simp [hm]), if_neg (by
    rw [show ((N * 128 : Nat) : Int) = (N : Int) * 128 from by omega, Int.mul_tmod_left]; simp)]
  simp only
  have hN : (((N * 128 : Nat) : Int) % 2 ^ 64).toNat / 128 = N := by omega
  rw [hN, hg, bind_ok (show orThrow (Except.ok g) d = _ from rfl), modify_bind, modify_bind]
  generalize hst : (FSStat.mk 128 N (u64 (u64sub g.totalTracks 1 * g.sectorsPerTrack))
      (u64 (u64sub g.totalTracks 1 * g.sectorsPerTrack)) 0
      (u64 (u64sub (u64sub g.sectorsPerTrack 1) (u64 (g.sectorsPerFAT * 3)) * 8)) 10) = st
  have htot : st.totalBlocks = N := by rw [← hst]
  have hfs : i64 (u64 (u64 (128 * g.trueTotalTracks) * g.sectorsPerTrack)) = (N * 128 : Nat) := by
    unfold getGeometry at hg
    split at hg
    · rename_i h; subst h; cases hg; decide +kernel
    · split at hg
      · rename_i h; subst h; cases hg; decide +kernel
      · split at hg
        · rename_i h; subst h; cases hg; decide +kernel
        · simp at hg
  rw [hfs]
  have hv1 := truncates_resized L T d.image (N * 128)
  generalize hf1 : (o.truncate d.image (N * 128 : Nat)).1 = f1 at *
  generalize hd1 : ({ ({ d with geometry := g, stat := st } : Drv F) with image := f1 } : Drv F) = d1
  have R1 : Ready view N d1 := by
    subst hd1
    exact ⟨hg, htot, by rw [hv1, length_resized]⟩
  have himg : d1.image = f1 := by rw [← hd1]
  have hgeo : d1.geometry = g := by rw [← hd1]
  have fin : ∀ d', ImgStep view d1 d' → Good N l' d'.geometry := by
    intro d' hs; rw [hs.rest, hgeo]; exact G
  have hlen1 : (view f1).length = N * 128 := by rw [hv1, length_resized]
  have hin := G.inside
  have hsp := G.split
  have hde := G.dirents
  have hlf := length_newFat l'
  have hR := length_resized (view d.image) (N * 128)
  have hlt : (newTrack l' (newFat l')).length = l'.direntSectors * 128 + 128 + 3 * (l'.fatSectors * 128) := by
    unfold newTrack; simp only [List.length_append, List.length_replicate]; omega
  -- directory entries
  obtain ⟨d2, r2, t2, e2, s2, b2, v2, w2⟩ := fill_prefix L P (g.infoSectorStart - g.directoryTrackStart)
    g.directoryTrackStart R1.enough (by rw [R1.total, G.info, G.dirStart]; omega)
  rw [G.info, G.dirStart] at b2 v2 w2
  have hn : l'.info - l'.dirStart = l'.direntSectors := by omega
  rw [hn] at b2 v2 w2
  rw [himg, hv1] at v2
  rcases r2 with e | ⟨⟩
  · refine ⟨d2, _, t2, bind_err e2, R1.step s2, fin _ s2, by omega, ?_, by simp⟩
    rw [v2]; unfold newTrack
    rw [List.append_assoc, List.take_append_of_le_length (by rw [List.length_replicate]; omega)]
  rw [bind_ok e2]
  have R2 := R1.step s2
  have v2' := v2
  rw [w2 rfl, List.take_of_length_le (by rw [List.length_replicate]; omega)] at v2'
  -- info sector
  obtain ⟨d3, r3, t3, e3, s3, b3, v3, w3⟩ := write_prefix L P (start := g.infoSectorStart) (data := List.replicate 128 0)
    R2.enough (by simp) (by rw [R2.total, G.info, List.length_replicate]; omega)
  have s13 := s2.trans s3
  have c1 : l'.info * 128 = l'.dirStart * 128 + (List.replicate (l'.direntSectors * 128) (0xff : UInt8)).length := by
    rw [List.length_replicate]; omega
  rw [G.info, v2', c1, take_splice (by simp only [List.length_replicate]; omega), List.length_replicate] at v3
  rw [List.length_replicate] at b3 w3
  rcases r3 with e | ⟨⟩
  · refine ⟨d3, _, l'.direntSectors * 128 + t3, bind_err e3, R1.step s13, fin _ s13, by omega, ?_, by simp⟩
    rw [v3]; unfold newTrack
    rw [List.take_append_of_le_length (l₂ := newFat l' ++ newFat l' ++ newFat l')
      (by simp only [List.length_append, List.length_replicate]; omega)]
  rw [bind_ok e3]
  have R3 := R2.step s3
  rw [w3 rfl, List.take_of_length_le (by simp only [List.length_append, List.length_replicate]; omega)] at v3
  -- the FAT
  have hdt : g.directoryTrackStart / g.sectorsPerTrack = l'.dirTrack := by rw [G.dirStart, G.spt, G.dirTrack]
  have hdl := G.dirTrack_lt
  rw [hdt, G.spf]
  have hset1 : (setByte (List.replicate (l'.fatSectors * 128) (0xff : UInt8)) l'.dirTrack 0xfe : M F Bytes) d3 =
      .ret (d3, .ok ((List.replicate (l'.fatSectors * 128) (0xff : UInt8)).set l'.dirTrack 0xfe)) := by
    unfold setByte; rw [if_pos (by rw [List.length_replicate]; omega)]; rfl
  rw [bind_ok hset1]
  have hset2 : (setByte ((List.replicate (l'.fatSectors * 128) (0xff : UInt8)).set l'.dirTrack 0xfe) (l'.dirTrack + 1) 0xfe
      : M F Bytes) d3 = .ret (d3, .ok (newFat l')) := by
    unfold setByte; rw [if_pos (by rw [List.length_set, List.length_replicate]; omega)]; rfl
  rw [bind_ok hset2]
  have hrep : (repeatBytes (newFat l') 3).length = 3 * (l'.fatSectors * 128) := by
    rw [repeatBytes_three]; simp only [List.length_append]; omega
  have hfat0 : g.fatsStart = l'.info + 1 := by rw [G.fats]; unfold Layout.fatStart; omega
  obtain ⟨d4, r4, t4, e4, s4, b4, v4, w4⟩ := write_prefix L P (start := g.fatsStart) (data := repeatBytes (newFat l') 3) R3.enough
    (by rw [hrep]; omega) (by rw [R3.total, hrep, hfat0]; omega)
  have s14 := s13.trans s4
  refine ⟨d4, r4, l'.direntSectors * 128 + 128 + t4, e4, R1.step s14, fin _ s14, by rw [hrep] at b4; omega, ?_,
    fun h => by rw [w4 h, hrep]; omega⟩
  have c2 : (l'.info + 1) * 128 = l'.dirStart * 128 +
      (List.replicate (l'.direntSectors * 128) (0xff : UInt8) ++ List.replicate 128 (0 : UInt8)).length := by
    simp only [List.length_append, List.length_replicate]; omega
  rw [v4, v3, hfat0, repeatBytes_three, c2, take_splice (by simp only [List.length_append, List.length_replicate]; omega)]
  unfold newTrack
  simp only [List.length_append, List.length_replicate]

end Disko.Fat8.Crash

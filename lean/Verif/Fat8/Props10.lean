import Verif.Fat8.Props9
/-! C43 and C70, exactly: what a cluster written before reads as, and what a FormatImage that reports success has left in the image, whatever operations on the file failed. -/
namespace Disko.Fat8
open Disko Disko.Fat8.Spec

variable {F : Type}

theorem getElem?_overwrite (d v : Bytes) (off k : Nat) (hv : v ≠ []) :
    (overwrite d off v)[k]? = if off ≤ k ∧ k < off + v.length then v[k - off]?
      else if k < max d.length (off + v.length) then some (d[k]?.getD 0) else none := by
  unfold overwrite
  rw [if_neg hv, getElem?_splice (by rw [List.length_append, List.length_replicate]; omega)]
  by_cases h1 : k < off
  · rw [if_pos h1, if_neg (by omega), if_pos (by omega), List.getElem?_append]
    split
    · rename_i h; rw [List.getElem?_eq_getElem h]; rfl
    · rename_i h; rw [List.getElem?_replicate, if_pos (by omega), List.getElem?_eq_none (by omega)]; rfl
  · rw [if_neg h1]
    by_cases h2 : k < off + v.length
    · rw [if_pos h2, if_pos (by omega)]
    · rw [if_neg h2, if_neg (by omega), List.getElem?_append]
      split
      · rename_i h; rw [if_pos (by omega), List.getElem?_eq_getElem h]; rfl
      · rename_i h
        rw [List.getElem?_replicate]
        rw [if_neg (by omega), if_neg (by omega)]

theorem overwrite_adjacent (d v w : Bytes) (a : Nat) : overwrite (overwrite d a v) (a + v.length) w = overwrite d a (v ++ w) := by
  by_cases hv : v = []
  · subst hv; simp [overwrite]
  by_cases hw : w = []
  · subst hw; simp [overwrite]
  have hvl : 0 < v.length := List.length_pos_iff.2 hv
  have hwl : 0 < w.length := List.length_pos_iff.2 hw
  apply List.ext_getElem?
  intro k
  have hl : (overwrite d a v).length = max d.length (a + v.length) := by
    unfold overwrite
    rw [if_neg hv, length_splice (by rw [List.length_append, List.length_replicate]; omega), List.length_append, List.length_replicate]
    omega
  rw [getElem?_overwrite _ _ _ _ hw, getElem?_overwrite d (v ++ w) _ _ (by simp [hv]), getElem?_overwrite d v _ _ hv, hl, List.length_append]
  by_cases h1 : k < a
  · rw [if_neg (show ¬ (a + v.length ≤ k ∧ k < a + v.length + w.length) by omega), if_neg (show ¬ (a ≤ k ∧ k < a + v.length) by omega),
      if_neg (show ¬ (a ≤ k ∧ k < a + (v.length + w.length)) by omega), if_pos (show k < max d.length (a + v.length) by omega),
      if_pos (show k < max (max d.length (a + v.length)) (a + v.length + w.length) by omega), if_pos (by omega)]; rfl
  · by_cases h2 : k < a + v.length
    · rw [if_neg (by omega), if_pos (by omega), if_pos (by omega), if_pos (by omega), List.getElem?_append_left (by omega),
        List.getElem?_eq_getElem (by omega)]; rfl
    · by_cases h3 : k < a + v.length + w.length
      · rw [if_pos (by omega), if_pos (by omega), List.getElem?_append_right (by omega)]
        congr 1; omega
      · rw [if_neg (show ¬ (a + v.length ≤ k ∧ k < a + v.length + w.length) by omega), if_neg (show ¬ (a ≤ k ∧ k < a + v.length) by omega),
          if_neg (show ¬ (a ≤ k ∧ k < a + (v.length + w.length)) by omega)]
        by_cases h4 : k < d.length
        · rw [if_pos (show k < max d.length (a + v.length) by omega),
            if_pos (show k < max (max d.length (a + v.length)) (a + v.length + w.length) by omega), if_pos (by omega)]; rfl
        · rw [if_neg (show ¬ k < max (max d.length (a + v.length)) (a + v.length + w.length) by omega), if_neg (by omega)]

/-- A successful WriteDiskBlocks of whole blocks inside the volume. -/
theorem write_any {o : FileOps F} {view : F → Bytes} (L : LawfulFile o view) {start : Nat} {data : Bytes} {d d' : Drv F}
    (ht : d.stat.totalBlocks ≤ 2002) (hs : start ≤ 2002) (hd : data.length ≤ 2 ^ 20) (h : writeDiskBlocks o start data d = .ret (d', .ok ())) :
    d' = { d with image := d'.image } ∧ view d'.image = overwrite (view d.image) (start * 128) data := by
  rcases writeDiskBlocks_spec L (start := start) (data := data) (by omega) (by unfold maxInt; omega) d (by omega) with
    ⟨_, f', e, hr, _⟩ | ⟨_, _, f', ⟨e, _, hr, _⟩ | ⟨hr, hv⟩⟩
  · rw [hr] at h; simp at h
  · rw [hr] at h; simp at h
  · rw [hr] at h; cases h; exact ⟨rfl, hv⟩

theorem bind_inv {α β : Type} {m : M F α} {f : α → M F β} {d d' : Drv F} {x : β} (h : (m >>= f) d = .ret (d', .ok x)) :
    ∃ d1 a, m d = .ret (d1, .ok a) ∧ f a d1 = .ret (d', .ok x) := by
  rcases hm : m d with ⟨d1, e | a⟩ | _ | _
  · rw [bind_err hm] at h; simp at h
  · rw [bind_ok hm] at h; exact ⟨d1, a, rfl, h⟩
  · rw [bind_panic hm] at h; cases h
  · have : (m >>= f) d = .timeout := by
      show M.bind m f d = _
      unfold M.bind; rw [hm]
    rw [this] at h; cases h

theorem fill_any {o : FileOps F} {view : F → Bytes} (L : LawfulFile o view) (n i : Nat) {d d' : Drv F} (ht : d.stat.totalBlocks ≤ 2002)
    (hi : i + n ≤ 2002) (h : fillSectors o n i d = .ret (d', .ok ())) :
    d' = { d with image := d'.image } ∧ view d'.image = overwrite (view d.image) (i * 128) (List.replicate (n * 128) 0xff) := by
  induction n generalizing i d with
  | zero => unfold fillSectors at h; cases h; exact ⟨rfl, by simp [overwrite]⟩
  | succ n ih =>
    unfold fillSectors at h
    obtain ⟨d1, _, h1, h2⟩ := bind_inv h
    obtain ⟨a1, a2⟩ := write_any L ht (by omega) (by rw [List.length_replicate]; omega) h1
    obtain ⟨b1, b2⟩ := ih (i + 1) (by rw [a1]; exact ht) (by omega) h2
    refine ⟨by rw [b1, a1], ?_⟩
    have e1 : (i + 1) * 128 = i * 128 + (List.replicate 128 (0xff : UInt8)).length := by rw [List.length_replicate]; omega
    rw [b2, a2, e1, overwrite_adjacent, List.replicate_append_replicate, show 128 + n * 128 = (n + 1) * 128 from by omega]

/-- A FormatImage that succeeds writes the directory track over what Truncate left. -/
theorem format_any {o : FileOps F} {view : F → Bytes} (L : LawfulFile o view) {N : Nat} {l : Layout} {d d' : Drv F} (hl : layout N = some l)
    (h : formatImage o (N * 128 : Nat) d = .ret (d', .ok ())) :
    view d'.image = overwrite (view (o.truncate d.image (N * 128 : Nat)).1) (l.dirStart * 128) (newTrack l (newFat l)) := by
  obtain ⟨g, hg⟩ := getGeometry_of_layout hl
  have hN := N_le hg
  obtain ⟨l', G⟩ := good_of hg
  have : l' = l := by have := G.lay.symm.trans hl; simpa using this
  subst this
  have hin := G.inside
  have hsp := G.split
  have hde := G.dirents
  unfold formatImage at h
  rw [get_bind] at h
  split at h
  · cases h
  rw [if_neg (by simp)] at h
  simp only at h
  generalize hM : (((N * 128 : Nat) : Int) % 2 ^ 64).toNat / 128 = K at h
  have hM' : K = N := by omega
  rw [hM'] at h
  rw [hg] at h
  rw [bind_ok (show orThrow (Except.ok g) d = _ from rfl)] at h
  rw [modify_bind, modify_bind] at h
  have hfs : i64 (u64 (u64 (128 * g.trueTotalTracks) * g.sectorsPerTrack)) = (N * 128 : Nat) := by
    unfold getGeometry at hg
    split at hg
    · rename_i h; subst h; cases hg; decide +kernel
    · split at hg
      · rename_i h; subst h; cases hg; decide +kernel
      · split at hg
        · rename_i h; subst h; cases hg; decide +kernel
        · simp at hg
  rw [hfs] at h
  obtain ⟨d1, _, h1, h⟩ := bind_inv h
  obtain ⟨a1, a2⟩ := fill_any L _ _ hN (by rw [G.info, G.dirStart]; omega) h1
  have t1 : d1.stat.totalBlocks = N := by rw [a1]
  obtain ⟨d2, _, h2, h⟩ := bind_inv h
  obtain ⟨b1, b2⟩ := write_any L (by omega) (by rw [G.info]; omega) (by rw [List.length_replicate]; omega) h2
  have t2 : d2.stat.totalBlocks = N := by rw [b1]; exact t1
  have hdt : g.directoryTrackStart / g.sectorsPerTrack = l'.dirTrack := by rw [G.dirStart, G.spt, G.dirTrack]
  have hlt := G.dirTrack_lt
  rw [hdt, G.spf] at h
  have hset1 : (setByte (List.replicate (l'.fatSectors * 128) (0xff : UInt8)) l'.dirTrack 0xfe : M F Bytes) d2 =
      .ret (d2, .ok ((List.replicate (l'.fatSectors * 128) (0xff : UInt8)).set l'.dirTrack 0xfe)) := by
    unfold setByte; rw [if_pos (by rw [List.length_replicate]; omega)]; rfl
  rw [bind_ok hset1] at h
  have hset2 : (setByte ((List.replicate (l'.fatSectors * 128) (0xff : UInt8)).set l'.dirTrack 0xfe) (l'.dirTrack + 1) 0xfe
      : M F Bytes) d2 = .ret (d2, .ok (newFat l')) := by
    unfold setByte; rw [if_pos (by rw [List.length_set, List.length_replicate]; omega)]; rfl
  rw [bind_ok hset2] at h
  have hlf := length_newFat l'
  have hrep : (repeatBytes (newFat l') 3).length = 3 * (l'.fatSectors * 128) := by
    rw [repeatBytes_three]; simp only [List.length_append]; omega
  have hfat0 : g.fatsStart = l'.info + 1 := by rw [G.fats]; unfold Layout.fatStart; omega
  obtain ⟨c1, c2⟩ := write_any L (by omega) (by rw [hfat0]; omega) (by rw [hrep]; omega) h
  rw [c2, b2, a2, hfat0, G.info, G.dirStart, repeatBytes_three, ← hde]
  have e1 : (l'.dirStart + l'.direntSectors) * 128 = l'.dirStart * 128 +
      (List.replicate ((l'.dirStart + l'.direntSectors - l'.dirStart) * 128) (0xff : UInt8)).length := by
    rw [List.length_replicate]; omega
  rw [e1, overwrite_adjacent]
  have e2 : (l'.dirStart + l'.direntSectors + 1) * 128 = l'.dirStart * 128 +
      (List.replicate ((l'.dirStart + l'.direntSectors - l'.dirStart) * 128) (0xff : UInt8) ++ List.replicate 128 0).length := by
    rw [List.length_append, List.length_replicate, List.length_replicate]; omega
  rw [e2, overwrite_adjacent]
  unfold newTrack
  rw [show l'.dirStart + l'.direntSectors - l'.dirStart = l'.direntSectors from by omega]

/-! ### C43 -/

/-- C43, exactly: what ReadAbsoluteCluster returns after a WriteAbsoluteCluster of the same cluster is the data if it is cluster 1, and otherwise what the
cluster held before. -/
theorem C43_exact_partial {o : FileOps F} {view : F → Bytes} (L : LawfulFile o view) (T : Truncates o) {f0 : F}
    {d : Drv F} (hr : Reachable o f0 d) {N : Nat} {l : Layout} (hN : d.stat.totalBlocks = N) (hl : layout N = some l)
    {c : Nat} (hc : 1 ≤ c) {data x : Bytes} {d' d'' : Drv F} (hw : writeAbsoluteCluster o c data d = .ret (d', .ok ()))
    (hx : readAbsoluteCluster o c d' = .ret (d'', .ok x)) :
    x = if c = 1 then data else cluster l (view d.image) c := by
  obtain ⟨h1, h2, _, h4⟩ := C43_absolute_partial L T hr hN hl hw
  rw [h4 c d'' x hx]
  split
  · rename_i h; subst h; exact h1
  · exact h2 c hc (by omega)

/-- C43, exactly, for files: what ReadFileCluster returns after a WriteFileCluster of the same cluster, whose number is `p`, is the data if p = 2, and
otherwise what cluster p + 1 held before. -/
theorem C43_file_exact_partial {o : FileOps F} {view : F → Bytes} (L : LawfulFile o view) (T : Truncates o) {f0 : F}
    {d : Drv F} (hr : Reachable o f0 d) {N : Nat} {l : Layout} (hN : d.stat.totalBlocks = N) (hl : layout N = some l)
    {e : DirectoryEntry} (he : e.clusters.length ≤ maxInt) {i p : Nat} (hp : e.clusters[i]? = some p) {data x : Bytes}
    {d' d'' : Drv F} (hw : writeFileCluster o e i data d = .ret (d', .ok ())) (hx : readFileCluster o e i d' = .ret (d'', .ok x)) :
    x = if p = 2 then data else cluster l (view d.image) (p + 1) := by
  obtain ⟨h1, h2, h4⟩ := C43_file_partial L T hr hN hl he hp hw
  rw [h4 d'' x hx]
  split
  · rename_i h; subst h; exact h1
  · exact h2 (p + 1) (by omega) (by omega)

/-- On a formatted minifloppy in memory, cluster 2 can be written, and then read. -/
example : ∃ (d d' d'' : Drv Bytes) (x : Bytes), Reachable memFile [] d ∧ d.stat.totalBlocks = 640 ∧
    writeAbsoluteCluster memFile 2 (List.replicate (8 * 128) 1) d = .ret (d', .ok ()) ∧ readAbsoluteCluster memFile 2 d' = .ret (d'', .ok x) := by
  obtain ⟨d, hd, R, G, _⟩ := format_mem (N := 640) (l := ⟨40, 16, 17, 1⟩) rfl [] (newDriver []) rfl rfl
  have hr := reach_format (N := 640) (l := ⟨40, 16, 17, 1⟩) rfl (Reachable.new (o := memFile) (f0 := ([] : Bytes))) hd
  have hs := C43_succeeds_partial (l := ⟨40, 16, 17, 1⟩) memFile_lawful memFile_truncates hr R.total rfl (c := 2) (by decide) (by decide)
  obtain ⟨d', h1⟩ := hs.1 memFile_writable (by decide) (List.replicate (8 * 128) 1) (by rw [List.length_replicate]; decide)
  have hr' : Reachable memFile [] d' := .call (c := .writeCluster 2 (List.replicate (8 * 128) 1)) hr
    ⟨by decide, by rw [List.length_replicate]; decide⟩ (by show after (writeAbsoluteCluster _ _ _ _) = _; rw [h1]; rfl)
  obtain ⟨_, _, _, hs', _, _⟩ := writeCluster_spec memFile_lawful R G h1
  have hs2 := C43_succeeds_partial (l := ⟨40, 16, 17, 1⟩) memFile_lawful memFile_truncates hr' (R.step hs').total rfl (c := 2) (by decide) (by decide)
  obtain ⟨d'', h2⟩ := hs2.2 memFile_readable (by decide)
  exact ⟨d, d', d'', _, hr, R.total, h1, h2⟩

/-- C70, exactly: if FormatImage of a supported size reports success, then whatever operations failed the directory track is complete (it is the one of an
empty volume) and the bytes outside of it are those Truncate left (zeros up to the track, if the file was shorter); the image has the requested size if and
only if Truncate succeeded or the image had that size before.  Missing: a Truncate that failed is not reported (`C70_refuted`). -/
theorem C70_exact_partial {o : FileOps F} {view : F → Bytes} (L : LawfulFile o view)
    {N : Nat} {l : Layout} {d d' : Drv F} (hl : layout N = some l)
    (hr : formatImage o (N * 128 : Nat) d = .ret (d', .ok ())) :
    ∃ left fat : Bytes, fat.length = l.fatSectors * 128 ∧
      (((o.truncate d.image (N * 128 : Nat)).2 = none ∧ left = (view d.image).take (N * 128) ++ List.replicate (N * 128 - (view d.image).length) 0) ∨
       ((o.truncate d.image (N * 128 : Nat)).2 ≠ none ∧ left = view d.image)) ∧
      (view d'.image).length = max left.length ((l.dirStart + l.spt) * 128) ∧
      (∀ k, k < (view d'.image).length → (view d'.image)[k]? =
        if l.dirStart * 128 ≤ k ∧ k < (l.dirStart + l.spt) * 128 then (emptyVolume l N fat)[k]? else some (left[k]?.getD 0)) ∧
      ((view d'.image).length = N * 128 ↔ (o.truncate d.image (N * 128 : Nat)).2 = none ∨ (view d.image).length = N * 128) := by
  have hv := format_any L hl hr
  obtain ⟨g, hg⟩ := getGeometry_of_layout hl
  obtain ⟨l', G⟩ := good_of hg
  have : l' = l := by have := G.lay.symm.trans hl; simpa using this
  subst this
  have hin := G.inside
  have hlt := length_newTrack G.dirents G.split (length_newFat l')
  have hspt : 0 < l'.spt := by have := G.split; have := G.dirents; omega
  have hne : newTrack l' (newFat l') ≠ [] := by
    intro h; rw [h] at hlt; simp at hlt; omega
  have hlen : (view d'.image).length = max (view (o.truncate d.image (N * 128 : Nat)).1).length ((l'.dirStart + l'.spt) * 128) := by
    rw [hv]; unfold overwrite
    rw [if_neg hne, length_splice (by rw [List.length_append, List.length_replicate]; omega), List.length_append, List.length_replicate, hlt]
    omega
  refine ⟨view (o.truncate d.image (N * 128 : Nat)).1, newFat l', length_newFat l', ?_, hlen, ?_, ?_⟩
  · by_cases ht : (o.truncate d.image (N * 128 : Nat)).2 = none
    · refine .inl ⟨ht, ?_⟩
      rw [(L.truncate_ok _ _ ht).2, Int.toNat_natCast]
    · exact .inr ⟨ht, L.truncate_fail _ _ ht⟩
  · intro k hk
    rw [hlen] at hk
    rw [hv, getElem?_overwrite _ _ _ _ hne, hlt, ← splice_blank G.dirents G.split (Nat.le_of_lt hin) (length_newFat l')]
    by_cases h : l'.dirStart * 128 ≤ k ∧ k < l'.dirStart * 128 + l'.spt * 128
    · rw [if_pos h, if_pos (by omega), getElem?_splice_in (by rw [List.length_replicate]; omega) h.1 (by rw [hlt]; omega)]
    · rw [if_neg h, if_neg (show ¬ (l'.dirStart * 128 ≤ k ∧ k < (l'.dirStart + l'.spt) * 128) by omega), if_pos (by omega)]
  · by_cases ht : (o.truncate d.image (N * 128 : Nat)).2 = none
    · rw [hlen, (L.truncate_ok _ _ ht).2, Int.toNat_natCast]
      have := length_resized (view d.image) (N * 128)
      unfold resized at this
      rw [this]
      exact ⟨fun _ => .inl ht, fun _ => by omega⟩
    · rw [hlen, L.truncate_fail _ _ ht]
      exact ⟨fun h => .inr (by omega), fun h => by rcases h with h | h; exact absurd h ht; omega⟩

/-- A minifloppy over a file that cannot be truncated (`noTruncFile`): FormatImage succeeds, and 288 of 640 blocks are there. -/
example : LawfulFile noTruncFile id ∧ ∃ d', formatImage noTruncFile (640 * 128 : Nat) (newDriver []) = .ret (d', .ok ()) ∧
    (id d'.image).length = 288 * 128 := by
  obtain ⟨d', h1, h2⟩ := noTrunc_format
  obtain ⟨_, _, _, _, h3, _⟩ := C70_exact_partial (view := id) noTruncFile_lawful (N := 640) (l := ⟨40, 16, 17, 1⟩) rfl h1
  refine ⟨noTruncFile_lawful, d', h1, ?_⟩
  have : ((⟨40, 16, 17, 1⟩ : Layout).dirStart + (⟨40, 16, 17, 1⟩ : Layout).spt) * 128 = 288 * 128 := by decide
  rw [this] at h3
  simp only [id] at h3 ⊢
  omega

end Disko.Fat8

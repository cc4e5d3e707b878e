import Verif.Fat8.Props2
import Verif.Fat8.Crash
/-!
C140: a Flush that stops in the middle.  C141: a FormatImage that stops in the middle.

A crash in the middle of a write and a write that fails are the same thing for the image: part of
the data has been stored (`PrefixWrites`, `SectorWrites`).
-/
namespace Disko.Fat8
open Disko Disko.Fat8.Spec

variable {F : Type}

/-! ### C140: Flush -/

/-- C140 in full: the volume is mounted, the three FAT copies on it are equal, and Flush stops after
storing some of the sectors, in any order. Then GetFAT reports an error, or returns the old FAT, or
the new one. -/
def C140_statement : Prop :=
  ∀ (F : Type) (o : FileOps F) (view : F → Bytes), LawfulFile o view → Truncates o → SectorWrites o view →
    ∀ (f0 : F) (d d' d'' : Drv F) (l : Layout) (old x : Bytes) (r : Except Err Unit),
      Reachable o f0 d → d.isMounted = true → layout d.stat.totalBlocks = some l →
      (∀ i, i < 3 → fatCopy l (view d.image) i = old) →
      flush o d = .ret (d', r) → getFAT o d' = .ret (d'', .ok x) → x = old ∨ x = d.fat

/-- Flush is one write of three copies. -/
theorem flush_image {o : FileOps F} {view : F → Bytes} (L : LawfulFile o view) (T : Truncates o)
    {f0 : F} {d d' : Drv F} (hr : Reachable o f0 d) (hm : d.isMounted = true) {l : Layout}
    (hl : layout d.stat.totalBlocks = some l) {r : Except Err Unit} (hf : flush o d = .ret (d', r)) :
    ∃ N, Ready view N d ∧ Good N l d.geometry ∧ d.fat.length = l.fatSectors * 128 ∧
      d' = { d with image := (o.writeAt d.image (d.fat ++ d.fat ++ d.fat) (l.fatStart 0 * 128 : Nat)).1 } ∧
      (r = .ok () ↔ (o.writeAt d.image (d.fat ++ d.fat ++ d.fat) (l.fatStart 0 * 128 : Nat)).2 = none) ∧
      ImgStep view d d' := by
  obtain ⟨N, l', R, G⟩ := reachable_ready L T hr (by intro h; rw [h] at hl; cases hl)
  have e2 : l' = l := by
    have := G.lay; rw [R.total] at hl; have := this.symm.trans hl; simpa using this
  subst e2
  have hfl := (reachable_inv L T hr).mounted hm
  rw [G.spf] at hfl
  have hin := G.inside
  have hsp := G.split
  have h0 : l'.fatStart 0 = l'.info + 1 := by unfold Layout.fatStart; omega
  have I := reachable_inv L T hr
  have hs := plain_flush L _ _ _ I hf
  unfold flush at hf
  rw [get_bind, G.fats, repeatBytes_three] at hf
  obtain ⟨h1, h2⟩ := Crash.write_image (view := view) R.enough (by simp only [List.length_append]; omega)
    (by rw [R.total]; simp only [List.length_append]; omega) hf
  exact ⟨N, R, G, hfl, h1, h2, hs⟩

/-- C140, writes that store a prefix: if Flush stops after storing any number of its bytes, GetFAT and
(after Unmount) Mount report an error, or find exactly the old FAT, or exactly the new one; nothing
outside the copies has changed, and the driver still holds the FAT (so that Flush can be repeated,
see C45). -/
theorem C140_prefix_partial {o : FileOps F} {view : F → Bytes} (L : LawfulFile o view) (T : Truncates o)
    (P : PrefixWrites o view) {f0 : F} {d d' : Drv F} (hr : Reachable o f0 d) (hm : d.isMounted = true) {l : Layout}
    (hl : layout d.stat.totalBlocks = some l) {old : Bytes} (hold : ∀ i, i < 3 → fatCopy l (view d.image) i = old)
    {r : Except Err Unit} (hf : flush o d = .ret (d', r)) :
    (∀ d'' x, getFAT o d' = .ret (d'', .ok x) → x = old ∨ x = d.fat) ∧
    (∀ d1 d'' u, unmount d' = .ret (d1, .ok ()) → mount o d1 = .ret (d'', .ok u) → d''.fat = old ∨ d''.fat = d.fat) ∧
    (view d'.image).length = (view d.image).length ∧
    (∀ k, (k < l.fatStart 0 * 128 ∨ l.fatStart 3 * 128 ≤ k) → (view d'.image)[k]? = (view d.image)[k]?) ∧
    d' = { d with image := d'.image } := by
  obtain ⟨N, R, G, hfl, hd, _, hs⟩ := flush_image L T hr hm hl hf
  have hin := G.inside
  have hsp := G.split
  have h0 : l.fatStart 0 = l.info + 1 := by unfold Layout.fatStart; omega
  have h3 : l.fatStart 3 = l.info + 1 + 3 * l.fatSectors := rfl
  have hRl := R.len
  obtain ⟨t, ht, hv⟩ := P d.image (d.fat ++ d.fat ++ d.fat) (l.fatStart 0 * 128 : Nat) (by omega)
  simp only [List.length_append] at ht
  rw [Int.toNat_natCast, overwrite_inside (by rw [List.length_take]; simp only [List.length_append]; omega)] at hv
  have hv' : view d'.image = splice (view d.image) (l.fatStart 0 * 128) ((d.fat ++ d.fat ++ d.fat).take t) := by
    rw [hd]; exact hv
  have R' := R.step hs
  have G' : Good N l d'.geometry := by rw [hs.rest]; exact G
  obtain ⟨c0, c1⟩ := Crash.fatCopy_torn (fat := d.fat) (t := t) G R.len hfl
  rw [← hv'] at c0 c1
  have key : fatCopy l (view d'.image) 0 = fatCopy l (view d'.image) 1 →
      fatCopy l (view d'.image) 0 = old ∨ fatCopy l (view d'.image) 0 = d.fat := by
    intro e
    by_cases h : l.fatSectors * 128 ≤ t
    · exact .inr (c0 h)
    · left; rw [e, c1 (by omega)]; exact hold 1 (by omega)
  refine ⟨fun d'' x hx => ?_, fun d1 d'' u hu hx => ?_, hs.len, fun k hk => ?_, hs.rest⟩
  · obtain ⟨d2, r2, hg, _, _, hres⟩ := getFAT_spec L R' G'
    rw [hg] at hx
    cases hx
    rcases hres with ⟨⟨e, h⟩, _⟩ | ⟨h, e, _⟩ | ⟨h, _⟩
    · cases h
    · cases h; exact key e
    · cases h
  · cases hu
    have R1 : Ready view N { d' with isMounted := false } := ⟨R'.geo, R'.total, R'.len⟩
    rcases mount_spec L R1 G' with ⟨h, _⟩ | ⟨_, d2, r2, h, _, _, _, _, _, hres, _⟩
    · cases h
    · rw [h] at hx; cases hx
      rcases hres with ⟨⟨e, h⟩, _⟩ | ⟨h, _⟩ | ⟨_, _, ⟨e, _⟩, hf, _⟩
      · cases h
      · cases h
      · rw [hf]; exact key e
  · rw [hv', getElem?_splice (by omega)]
    split
    · rfl
    · rw [if_neg (by rw [List.length_take]; simp only [List.length_append]; omega)]

/-- C140, writes that store whole sectors in any order: every sector of a FAT that GetFAT returns after
an interrupted Flush is that of the old FAT or that of the new one. -/
theorem C140_sectors_partial {o : FileOps F} {view : F → Bytes} (L : LawfulFile o view) (T : Truncates o)
    (S : SectorWrites o view) {f0 : F} {d d' d'' : Drv F} (hr : Reachable o f0 d) (hm : d.isMounted = true) {l : Layout}
    (hl : layout d.stat.totalBlocks = some l) {old x : Bytes} (hold : ∀ i, i < 3 → fatCopy l (view d.image) i = old)
    {r : Except Err Unit} (hf : flush o d = .ret (d', r)) (hx : getFAT o d' = .ret (d'', .ok x)) :
    x.length = l.fatSectors * 128 ∧
    ∀ k, k < l.fatSectors → sectors x k 1 = sectors old k 1 ∨ sectors x k 1 = sectors d.fat k 1 := by
  obtain ⟨N, R, G, hfl, hd, _, hs⟩ := flush_image L T hr hm hl hf
  have hin := G.inside
  have hsp := G.split
  have h0 : l.fatStart 0 = l.info + 1 := by unfold Layout.fatStart; omega
  have hRl := R.len
  have R' := R.step hs
  have G' : Good N l d'.geometry := by rw [hs.rest]; exact G
  obtain ⟨d2, r2, hg, _, _, hres⟩ := getFAT_spec L R' G'
  rw [hg] at hx
  cases hx
  rcases hres with ⟨⟨e, h⟩, _⟩ | ⟨h, e, _⟩ | ⟨h, _⟩
  · cases h
  · cases h
    refine ⟨length_fatCopy R' G' (by omega), fun k hk => ?_⟩
    have sub : ∀ v : Bytes, sectors (fatCopy l v 0) k 1 = sectors v (l.fatStart 0 + k) 1 := by
      intro v
      unfold fatCopy sectors
      apply List.ext_getElem?
      intro j
      rw [getElem?_slice, getElem?_slice, getElem?_slice]
      by_cases hj : j < 1 * 128
      · rw [if_pos hj, if_pos (by omega), if_pos hj]; congr 1; omega
      · rw [if_neg hj, if_neg hj]
    have c := fatCopy_splice (fat := d.fat) (i := 0) G R.len hfl (by omega)
    have hw := S d.image (d.fat ++ d.fat ++ d.fat) (l.fatStart 0) (by simp only [List.length_append]; omega)
      (by simp only [List.length_append]; omega) (l.fatStart 0 + k)
    rw [overwrite_inside (by simp only [List.length_append]; omega)] at hw
    have e1 : view (o.writeAt d.image (d.fat ++ d.fat ++ d.fat) (l.fatStart 0 * 128 : Nat)).1 = view d'.image := by rw [hd]
    rw [e1] at hw
    rw [sub, ← hold 0 (by omega), sub]
    rcases hw with hw | hw
    · exact .inl hw
    · right; rw [hw, ← sub, c]
  · cases h

/-- C140 on minifloppies, whose FAT is one sector: the whole statement holds. -/
theorem C140_minifloppy_partial {o : FileOps F} {view : F → Bytes} (L : LawfulFile o view) (T : Truncates o)
    (S : SectorWrites o view) {f0 : F} {d d' d'' : Drv F} (hr : Reachable o f0 d) (hm : d.isMounted = true)
    (hN : d.stat.totalBlocks = 640) {l : Layout} (hl : layout 640 = some l) {old x : Bytes}
    (hold : ∀ i, i < 3 → fatCopy l (view d.image) i = old)
    {r : Except Err Unit} (hf : flush o d = .ret (d', r)) (hx : getFAT o d' = .ret (d'', .ok x)) :
    x = old ∨ x = d.fat := by
  have hl' : layout d.stat.totalBlocks = some l := by rw [hN]; exact hl
  obtain ⟨N, R, G, hfl, _⟩ := flush_image L T hr hm hl' hf
  obtain ⟨h1, h2⟩ := C140_sectors_partial L T S hr hm hl' hold hf hx
  have ho : old.length = l.fatSectors * 128 := by rw [← hold 0 (by omega)]; exact length_fatCopy R G (by omega)
  have hs : l.fatSectors = 1 := by cases hl; rfl
  have all : ∀ z : Bytes, z.length = l.fatSectors * 128 → sectors z 0 1 = z := by
    intro z hz
    have e : 1 * 128 = z.length := by omega
    unfold sectors
    rw [e, Nat.zero_mul]; exact slice_all z
  have := h2 0 (by omega)
  rwa [all x h1, all old ho, all d.fat hfl] at this

/-! #### Files on which a write breaks off (for the refutation and the examples) -/

/-- A file on which writing data that starts with 1 over a 2 fails in the middle, leaving `cut` instead
of the data. -/
def breaking (cut : Bytes → Nat → Bytes → Bytes) : FileOps Bytes :=
  { memFile with
    writeAt := fun f buf off =>
      if off < 0 then (f, some 1)
      else if buf.head? = some 1 ∧ f[off.toNat]? = some 2 ∧ off.toNat + buf.length ≤ f.length then
        (splice f off.toNat (cut f off.toNat buf), some 9)
      else (overwrite f off.toNat buf, none) }

variable {cut : Bytes → Nat → Bytes → Bytes}

theorem breaking_lawful (hc : ∀ f off buf, (cut f off buf).length ≤ buf.length) : LawfulFile (breaking cut) id :=
  { memFile_lawful with
    write_ok := by
      intro f buf off h
      simp only [breaking] at h ⊢
      split at h
      · simp at h
      · split at h
        · simp at h
        · rename_i h1 h2; rw [if_neg h1, if_neg h2]; exact ⟨by omega, rfl⟩
    write_neg := by intro f buf off h; simp [breaking, h]
    write_fail := by
      intro f buf off h
      simp only [breaking] at h ⊢
      split at h
      · rename_i h1; rw [if_pos h1]; exact ⟨Nat.le_refl _, Nat.le_max_left _ _, fun _ _ _ => rfl⟩
      · split at h
        · rename_i h1 h2
          rw [if_neg h1, if_pos h2]
          have := hc f off.toNat buf
          simp only [id]
          rw [length_splice (by omega)]
          refine ⟨Nat.le_refl _, Nat.le_max_left _ _, fun k _ hk => ?_⟩
          rw [getElem?_splice (by omega)]
          split
          · rfl
          · rw [if_neg (by omega)]
        · simp at h }

theorem breaking_truncates : Truncates (breaking cut) := memFile_truncates

theorem breaking_readable : Readable (breaking cut) id := { seek := memFile_readable.seek, read := memFile_readable.read }

theorem breaking_format : FormatWritable (breaking cut) := by
  intro f buf off h hb
  simp only [breaking]
  rw [if_neg (by omega), if_neg]
  intro hc
  rw [hc.1] at hb
  rcases hb with hb | hb <;> exact absurd hb (by decide)

theorem format_breaking (hc : ∀ f off buf, (cut f off buf).length ≤ buf.length) {N : Nat} {l : Layout} (hl : layout N = some l) :
    ∃ d0, formatImage (breaking cut) (N * 128 : Nat) (newDriver []) = .ret (d0, .ok ()) ∧ Reachable (breaking cut) [] d0 := by
  obtain ⟨g0, hg0⟩ := getGeometry_of_layout hl
  have hN := N_le hg0
  rcases formatImage_spec (breaking_lawful hc) (size := (N * 128 : Nat)) (by omega) (by omega) (newDriver [])
      (fun n _ => truncates_resized (breaking_lawful hc) breaking_truncates _ n) with
    ⟨h, _⟩ | ⟨_, h, _⟩ | ⟨_, N', l', g, d', r, _, _, _, h, _, _, hw, _⟩
  · exact absurd h (by decide)
  · exact absurd rfl (h N (by rw [hl]; simp))
  · have h' := h
    rw [hw breaking_format] at h'
    refine ⟨d', h', .call (c := .format (N * 128 : Nat)) .new ⟨by omega, by omega⟩ ?_⟩
    show after _ = _; rw [h]; rfl

theorem write_breaking (hc : ∀ f off buf, (cut f off buf).length ≤ buf.length) {start : Nat} {data : Bytes} {d : Drv Bytes}
    (he : Enough id d) (h1 : data.length % 128 = 0) (h2 : start * 128 + data.length ≤ d.stat.totalBlocks * 128)
    (h : data.head? ≠ some 1 ∨ d.image[start * 128]? ≠ some 2) :
    ∃ d', writeDiskBlocks (breaking cut) start data d = .ret (d', .ok ()) ∧ ImgStep id d d' ∧
      d'.image = splice d.image (start * 128) data := by
  obtain ⟨d', s, ⟨e, h0, _⟩ | ⟨hr, hv⟩⟩ := write_inside (breaking_lawful hc) he h1 h2
  · simp only [breaking, Int.toNat_natCast] at h0
    rw [if_neg (by omega), if_neg (by rintro ⟨a, b, _⟩; exact h.elim (· a) (· b))] at h0
    simp at h0
  · exact ⟨d', hr, s, hv⟩

theorem head_three {n : Nat} {c : UInt8} (hn : 0 < n) :
    (List.replicate n c ++ List.replicate n c ++ List.replicate n c).head? = some c := by
  cases n with
  | zero => omega
  | succ n => simp [List.replicate_succ]

/-- A Flush that breaks off: the volume is formatted, a FAT of 1s is stored on it, it is mounted, a FAT
of 2s is stored on it, and Flush fails. -/
theorem broken_flush (hc : ∀ f off buf, (cut f off buf).length ≤ buf.length) {N : Nat} {l : Layout} (hl : layout N = some l) :
    ∃ d d', Reachable (breaking cut) [] d ∧ d.isMounted = true ∧ layout d.stat.totalBlocks = some l ∧
      d.stat.totalBlocks = N ∧ d.image.length = N * 128 ∧
      (∀ i, i < 3 → fatCopy l d.image i = List.replicate (l.fatSectors * 128) 2) ∧
      d.fat = List.replicate (l.fatSectors * 128) 1 ∧
      (∀ k, k < 3 * (l.fatSectors * 128) → d.image[l.fatStart 0 * 128 + k]? = some 2) ∧
      flush (breaking cut) d = .ret (d', .error (.file 9)) ∧
      d'.image = splice d.image (l.fatStart 0 * 128) (cut d.image (l.fatStart 0 * 128) (d.fat ++ d.fat ++ d.fat)) ∧
      Ready id N d' ∧ Good N l d'.geometry := by
  obtain ⟨d0, hd0, r0⟩ := format_breaking hc hl
  obtain ⟨R0, G0, m0, _, c0⟩ := format_fat (breaking_lawful hc) breaking_truncates hl hd0
  have hin := G0.inside
  have hsp := G0.split
  have hdt := G0.dirTrack_lt
  have hspf := G0.spf_le
  have hNle := G0.N_le
  have f0 : l.fatStart 0 = l.info + 1 := by unfold Layout.fatStart; omega
  have hfat : l.fatStart 0 < 2 ^ 64 := by omega
  have hR0 := R0.len
  obtain ⟨a, ha⟩ : ∃ a, a = l.fatSectors * 128 := ⟨_, rfl⟩
  obtain ⟨A, hA⟩ : ∃ A, A = List.replicate a (1 : UInt8) ++ List.replicate a 1 ++ List.replicate a 1 := ⟨_, rfl⟩
  obtain ⟨B, hB⟩ : ∃ B, B = List.replicate a (2 : UInt8) ++ List.replicate a 2 ++ List.replicate a 2 := ⟨_, rfl⟩
  have lA : A.length = 3 * a := by rw [hA]; simp only [List.length_append, List.length_replicate]; omega
  have lB : B.length = 3 * a := by rw [hB]; simp only [List.length_append, List.length_replicate]; omega
  -- the FAT of 1s
  have hdt0 : l.dirTrack ≠ 0 := by
    have h := hl
    unfold layout at h
    split at h
    · cases h; decide
    · split at h
      · cases h; decide
      · cases h
  have hb0 : d0.image[l.fatStart 0 * 128]? = some 0xff := by
    have := congrArg (fun z => z[0]?) (c0 0 (by omega))
    simp only [id, fatCopy, sectors, getElem?_slice] at this
    rw [if_pos (by omega), getElem?_newFat hdt, if_neg (by omega), if_pos (by omega)] at this
    exact this
  obtain ⟨d1, hd1, s1, v1⟩ := write_breaking hc (start := l.fatStart 0) (data := A) R0.enough
    (by omega) (by rw [R0.total]; omega) (.inr (by rw [hb0]; decide))
  have R1 := R0.step s1
  have G1 : Good N l d1.geometry := by rw [s1.rest]; exact G0
  have r1 : Reachable (breaking cut) [] d1 :=
    .call (c := .writeBlocks (l.fatStart 0) A) r0 ⟨hfat, by unfold maxInt; omega⟩ (by show after _ = _; rw [hd1]; rfl)
  have ones : ∀ i, i < 3 → fatCopy l d1.image i = List.replicate a 1 := by
    intro i hi
    rw [v1, hA]; exact fatCopy_splice (d := d0.image) G0 R0.len (by rw [List.length_replicate, ha]) hi
  -- mount
  have hm1 : d1.isMounted = false := by rw [s1.rest]; exact m0
  obtain ⟨d2, hd2, m2, R2, g2, fat2⟩ : ∃ d2, mount (breaking cut) d1 = .ret (d2, .ok ()) ∧ d2.isMounted = true ∧
      Ready id N d2 ∧ d2.geometry = d1.geometry ∧ d2.fat = List.replicate a 1 := by
    rcases mount_spec (breaking_lawful hc) R1 G1 with ⟨h, _⟩ | ⟨_, d2, r2, h, _, R2, g2, _, _, hres, _⟩
    · rw [hm1] at h; cases h
    · rcases hres with ⟨_, hA, _⟩ | ⟨_, _, c⟩ | ⟨rfl, m2, _, hf, _⟩
      · exact absurd breaking_readable hA
      · simp only [id] at c
        exact absurd ⟨by rw [ones 0 (by omega), ones 1 (by omega)], by rw [ones 0 (by omega), ones 2 (by omega)]⟩ c.1
      · exact ⟨d2, h, m2, R2, g2, hf.trans (ones 0 (by omega))⟩
  have r2 : Reachable (breaking cut) [] d2 := .call (c := .mount) r1 trivial (by show after _ = _; rw [hd2]; rfl)
  have G2 : Good N l d2.geometry := by rw [g2]; exact G1
  -- the FAT of 2s
  have hR2 := R2.len
  simp only [id] at hR2
  obtain ⟨d3, hd3, s3, v3⟩ := write_breaking hc (start := l.fatStart 0) (data := B) R2.enough
    (by omega) (by rw [R2.total]; omega) (.inl (by rw [hB, head_three (by omega)]; decide))
  have R3 := R2.step s3
  have hR3 := R3.len
  simp only [id] at hR3
  have G3 : Good N l d3.geometry := by rw [s3.rest]; exact G2
  have r3 : Reachable (breaking cut) [] d3 :=
    .call (c := .writeBlocks (l.fatStart 0) B) r2 ⟨hfat, by unfold maxInt; omega⟩ (by show after _ = _; rw [hd3]; rfl)
  have twos : ∀ i, i < 3 → fatCopy l d3.image i = List.replicate a 2 := by
    intro i hi
    rw [v3, hB]; exact fatCopy_splice (d := d2.image) G2 R2.len (by rw [List.length_replicate, ha]) hi
  have m3 : d3.isMounted = true := by rw [s3.rest]; exact m2
  have fat3 : d3.fat = List.replicate a 1 := by rw [s3.rest]; exact fat2
  have at3 : ∀ k, k < 3 * a → d3.image[l.fatStart 0 * 128 + k]? = some 2 := by
    intro k hk
    rw [v3, getElem?_splice_in (by omega) (by omega) (by omega), hB, List.replicate_append_replicate,
      List.replicate_append_replicate, List.getElem?_replicate, if_pos (by omega)]
  -- flush
  have hl3 : layout d3.stat.totalBlocks = some l := by rw [R3.total]; exact hl
  obtain ⟨⟨d4, rf⟩, hfl⟩ : ∃ p, flush (breaking cut) d3 = .ret p := by
    unfold flush
    rw [get_bind, G3.fats, fat3, repeatBytes_three, ← hA]
    obtain ⟨d', _, ⟨e, _, h⟩ | ⟨h, _⟩⟩ := write_inside (breaking_lawful hc) (start := l.fatStart 0)
      (data := A) R3.enough (by omega) (by rw [R3.total]; omega)
    · exact ⟨_, h⟩
    · exact ⟨_, h⟩
  obtain ⟨_, _, _, _, hd4, hok, s4⟩ := flush_image (breaking_lawful hc) breaking_truncates r3 m3 hl3 hfl
  have G4 : Good N l d4.geometry := by rw [s4.rest]; exact G3
  have hw : (breaking cut).writeAt d3.image (d3.fat ++ d3.fat ++ d3.fat) (l.fatStart 0 * 128 : Nat) =
      (splice d3.image (l.fatStart 0 * 128) (cut d3.image (l.fatStart 0 * 128) (d3.fat ++ d3.fat ++ d3.fat)), some 9) := by
    rw [fat3, ← hA]
    simp only [breaking, Int.toNat_natCast]
    rw [if_neg (by omega), if_pos ⟨by rw [hA, head_three (by omega)], at3 0 (by omega), by omega⟩]
  have hrf : rf = .error (.file 9) := by
    unfold flush at hfl
    rw [get_bind, G3.fats, repeatBytes_three] at hfl
    have hR := R3.total
    have hlen : (d3.fat ++ d3.fat ++ d3.fat).length = 3 * a := by rw [fat3, ← hA]; exact lA
    unfold writeDiskBlocks at hfl
    rw [if_neg (by omega)] at hfl
    simp only at hfl
    rw [u64_of_lt (by omega), if_neg (by omega), sector_off (by omega), hw] at hfl
    cases hfl; rfl
  subst hrf
  rw [ha] at twos fat3 at3
  exact ⟨d3, d4, r3, m3, hl3, R3.total, hR3, twos, fat3, at3, hfl, by rw [hd4, hw], R3.step s4, G4⟩

/-- What a write leaves that stores every other sector of the data, starting with the first. -/
def tear (f : Bytes) (off : Nat) (buf : Bytes) : Bytes :=
  (List.range buf.length).map fun j => if j / 128 % 2 = 0 then buf.getD j 0 else f.getD (off + j) 0

theorem length_tear (f : Bytes) (off : Nat) (buf : Bytes) : (tear f off buf).length = buf.length := by simp [tear]

theorem tear_sectors : SectorWrites (breaking tear) id := by
  intro f buf s h1 h2 k
  simp only [id] at *
  simp only [breaking, Int.toNat_natCast]
  rw [if_neg (by omega)]
  split
  · have hlt := length_tear f (s * 128) buf
    rw [overwrite_inside h2]
    by_cases hk : (k - s) % 2 = 1 ∨ k < s
    · left
      unfold sectors
      apply List.ext_getElem?
      intro j
      rw [getElem?_slice, getElem?_slice]
      split
      · rw [getElem?_splice (by omega)]
        split
        · rfl
        · split
          · rw [tear, List.getElem?_map, List.getElem?_range (by omega)]
            simp only [Option.map_some]
            rw [if_neg (by omega), List.getD_eq_getElem?_getD,
              show s * 128 + (k * 128 + j - s * 128) = k * 128 + j from by omega,
              List.getElem?_eq_getElem (by omega)]; rfl
          · rfl
      · rfl
    · right
      unfold sectors
      apply List.ext_getElem?
      intro j
      rw [getElem?_slice, getElem?_slice]
      split
      · rw [getElem?_splice (by omega), getElem?_splice (by omega), hlt]
        split
        · rfl
        · split
          · rw [tear, List.getElem?_map, List.getElem?_range (by omega)]
            simp only [Option.map_some]
            rw [if_pos (by omega), List.getD_eq_getElem?_getD, List.getElem?_eq_getElem (by omega)]; rfl
          · rfl
      · rfl
  · exact .inr rfl

theorem fatCopy_block {N : Nat} {l : Layout} {g : Geometry} (G : Good N l g) {v w : Bytes} (hv : v.length = N * 128)
    (hw : w.length = 3 * (l.fatSectors * 128)) {i : Nat} (hi : i < 3) :
    fatCopy l (splice v (l.fatStart 0 * 128) w) i = slice w (i * (l.fatSectors * 128)) (l.fatSectors * 128) := by
  have hsp := G.split
  have hin := G.inside
  have h0 : l.fatStart 0 = l.info + 1 := by unfold Layout.fatStart; omega
  have hmul : i * l.fatSectors ≤ 2 * l.fatSectors := Nat.mul_le_mul_right _ (by omega)
  have hfs : l.fatStart i * 128 = l.fatStart 0 * 128 + i * l.fatSectors * 128 := by
    unfold Layout.fatStart; omega
  unfold fatCopy sectors
  apply List.ext_getElem?
  intro k
  rw [getElem?_slice, getElem?_slice]
  by_cases hk : k < l.fatSectors * 128
  · rw [if_pos hk, if_pos hk, getElem?_splice (by omega), if_neg (by omega), if_pos (by omega)]
    congr 1; rw [← Nat.mul_assoc]; omega
  · rw [if_neg hk, if_neg hk]

/-- The bytes stored by the torn write. -/
def halves : Bytes := (List.range 768).map fun j => if j / 128 % 2 = 0 then 1 else 2

/-- C140 is false on floppies, whose FAT takes two sectors: if the first sector of each copy is stored
and the second is not, the three copies agree, and GetFAT returns half of the new FAT and half of the
old one. -/
theorem C140_refuted : ¬ C140_statement := by
  intro h
  have hc : ∀ f off buf, (tear f off buf).length ≤ buf.length := fun f off buf => Nat.le_of_eq (length_tear f off buf)
  have hl : layout 1898 = some ⟨73, 26, 34, 2⟩ := rfl
  generalize hl0 : (⟨73, 26, 34, 2⟩ : Layout) = l at hl
  have hfs : l.fatSectors = 2 := by rw [← hl0]
  obtain ⟨d3, d4, r3, m3, hl3, hN, hlen, twos, fat3, at3, hfl, v4, R4, G4⟩ := broken_flush hc hl
  rw [hfs] at twos fat3 at3
  have ht : tear d3.image (l.fatStart 0 * 128) (d3.fat ++ d3.fat ++ d3.fat) = halves := by
    unfold tear halves
    rw [fat3, List.replicate_append_replicate, List.replicate_append_replicate, List.length_replicate]
    apply List.map_congr_left
    intro j hj
    rw [List.mem_range] at hj
    split
    · rw [List.getD_eq_getElem?_getD, List.getElem?_replicate, if_pos (by omega)]; rfl
    · rw [List.getD_eq_getElem?_getD, at3 j (by omega)]; rfl
  rw [ht] at v4
  have mixed : ∀ i, i < 3 → fatCopy l d4.image i = List.replicate 128 1 ++ List.replicate 128 2 := by
    intro i hi
    rw [v4, fatCopy_block G4 hlen (by simp only [halves, List.length_map, List.length_range]; omega) hi, hfs]
    have hi' : i = 0 ∨ i = 1 ∨ i = 2 := by omega
    rcases hi' with rfl | rfl | rfl <;> decide +kernel
  obtain ⟨d5, r5, hg, _, _, hres⟩ := getFAT_spec (breaking_lawful hc) R4 G4
  rcases hres with ⟨_, hA⟩ | ⟨rfl, _⟩ | ⟨_, c⟩
  · exact absurd breaking_readable hA
  · simp only [id] at hg
    rw [mixed 0 (by omega)] at hg
    have := h Bytes (breaking tear) id (breaking_lawful hc) breaking_truncates tear_sectors [] d3 d4 d5 l _ _ _ r3 m3 hl3 twos hfl hg
    rw [fat3] at this
    exact absurd this (by decide +kernel)
  · simp only [id] at c
    exact absurd ⟨by rw [mixed 0 (by omega), mixed 1 (by omega)], by rw [mixed 0 (by omega), mixed 2 (by omega)]⟩ c

/-- The hypotheses of the sector theorems are met by a Flush that fails, on each kind of volume. -/
example {N : Nat} {l : Layout} (hl : layout N = some l) : LawfulFile (breaking tear) id ∧ Truncates (breaking tear) ∧
    SectorWrites (breaking tear) id ∧ ∃ d d', Reachable (breaking tear) [] d ∧ d.isMounted = true ∧ d.stat.totalBlocks = N ∧
      (∀ i, i < 3 → fatCopy l d.image i = List.replicate (l.fatSectors * 128) 2) ∧
      flush (breaking tear) d = .ret (d', .error (.file 9)) := by
  have hc : ∀ f off buf, (tear f off buf).length ≤ buf.length := fun f off buf => Nat.le_of_eq (length_tear f off buf)
  obtain ⟨d, d', h1, h2, _, h3, _, h4, _, _, h5, _⟩ := broken_flush hc hl
  exact ⟨breaking_lawful hc, breaking_truncates, tear_sectors, d, d', h1, h2, h3, h4, h5⟩

/-- The hypotheses of `C140_prefix_partial` are met by a Flush that fails after any number `t` of bytes. -/
example {N : Nat} {l : Layout} (hl : layout N = some l) (t : Nat) : ∃ o : FileOps Bytes, LawfulFile o id ∧ Truncates o ∧
    PrefixWrites o id ∧ ∃ d d', Reachable o [] d ∧ d.isMounted = true ∧ layout d.stat.totalBlocks = some l ∧
      (∀ i, i < 3 → fatCopy l d.image i = List.replicate (l.fatSectors * 128) 2) ∧
      flush o d = .ret (d', .error (.file 9)) ∧
      d'.image = splice d.image (l.fatStart 0 * 128) ((d.fat ++ d.fat ++ d.fat).take t) := by
  have hc : ∀ (f : Bytes) (off : Nat) (buf : Bytes), (buf.take t).length ≤ buf.length := fun _ _ buf => by rw [List.length_take]; omega
  obtain ⟨d, d', h1, h2, h3, _, _, h4, _, _, h5, h6, _⟩ := broken_flush (cut := fun _ _ buf => buf.take t) hc hl
  refine ⟨_, breaking_lawful hc, breaking_truncates, ?_, d, d', h1, h2, h3, h4, h5, h6⟩
  intro f buf off hoff
  simp only [breaking, id]
  rw [if_neg (by omega)]
  split
  · rename_i h
    refine ⟨min t buf.length, Nat.min_le_right _ _, ?_⟩
    rw [overwrite_inside (by rw [List.length_take]; omega), ← List.take_take, List.take_length]
  · exact ⟨buf.length, Nat.le_refl _, by rw [List.take_length]⟩

/-! ### C141: FormatImage -/

/-- C141: FormatImage of an image (on which Truncate works) stops after storing any part of what it
writes, or succeeds. Then the image has the size of the volume; for some `t`, the first `t` bytes of the
directory track are those of an empty volume (whose FAT marks two clusters as reserved and the others as
free), and every other byte is the old one (null where there was none). If it succeeds, `t` is the whole
track. -/
theorem C141_format_stops {o : FileOps F} {view : F → Bytes} (L : LawfulFile o view) (T : Truncates o)
    (P : PrefixWrites o view) {N : Nat} {l : Layout} (hl : layout N = some l) {d d' : Drv F} (hm : d.isMounted = false)
    {r : Except Err Unit} (hf : formatImage o (N * 128 : Nat) d = .ret (d', r)) :
    ∃ fat t, fat.length = l.fatSectors * 128 ∧
      (∀ c, c < fat.length → fat[c]? = some (if c = l.dirTrack ∨ c = l.dirTrack + 1 then 0xfe else 0xff)) ∧
      t ≤ l.spt * 128 ∧ (r = .ok () → t = l.spt * 128) ∧ (view d'.image).length = N * 128 ∧
      ∀ k, k < N * 128 → (view d'.image)[k]? =
        if l.dirStart * 128 ≤ k ∧ k < l.dirStart * 128 + t then (emptyVolume l N fat)[k]?
        else some ((view d.image)[k]?.getD 0) := by
  obtain ⟨d1, r1, t, h, R, G, ht, hv, hw⟩ := Crash.format_prefix L T P hl hm
  rw [h] at hf; cases hf
  have hin := G.inside
  have hdt := G.dirTrack_lt
  have hlt := length_newTrack G.dirents G.split (length_newFat l)
  have hlr := length_resized (view d.image) (N * 128)
  rw [hlt] at ht hw
  refine ⟨newFat l, t, length_newFat l, fun c hc => ?_, ht, hw, R.len, fun k hk => ?_⟩
  · rw [length_newFat] at hc
    rw [getElem?_newFat hdt]
    split
    · rfl
    · rfl
  · have hold : (resized (view d.image) (N * 128))[k]? = some ((view d.image)[k]?.getD 0) := by
      unfold resized
      rw [List.getElem?_append, List.length_take]
      split
      · rw [List.getElem?_take, if_pos hk, List.getElem?_eq_getElem (by omega)]; rfl
      · rw [List.getElem?_replicate, if_pos (by omega), List.getElem?_eq_none (by omega)]; rfl
    have hlk : ((newTrack l (newFat l)).take t).length = t := by rw [List.length_take]; omega
    rw [hv, getElem?_splice (by omega), hlk]
    by_cases h1 : l.dirStart * 128 ≤ k ∧ k < l.dirStart * 128 + t
    · rw [if_neg (by omega), if_pos h1.2, if_pos h1, List.getElem?_take, if_pos (by omega),
        ← splice_blank G.dirents G.split (Nat.le_of_lt hin) (length_newFat l),
        getElem?_splice_in (by rw [List.length_replicate]; omega) h1.1 (by omega)]
    · rw [if_neg h1]
      split
      · exact hold
      · rw [if_neg (by omega)]; exact hold

/-- C141: if the image already held a volume of the same size with three equal copies of a FAT, an
interrupted FormatImage leaves a volume on which GetFAT and Mount report an error, or find the old FAT, or
the FAT of an empty volume. -/
theorem C141_fat_after {o : FileOps F} {view : F → Bytes} (L : LawfulFile o view) (T : Truncates o)
    (P : PrefixWrites o view) {N : Nat} {l : Layout} (hl : layout N = some l) {d d' : Drv F} (hm : d.isMounted = false)
    (hlen : (view d.image).length = N * 128) {old : Bytes} (hold : ∀ i, i < 3 → fatCopy l (view d.image) i = old)
    {r : Except Err Unit} (hf : formatImage o (N * 128 : Nat) d = .ret (d', r)) :
    ∃ fat, (∀ c, c < l.fatSectors * 128 → fat[c]? = some (if c = l.dirTrack ∨ c = l.dirTrack + 1 then 0xfe else 0xff)) ∧
      fat.length = l.fatSectors * 128 ∧
      (∀ d'' x, getFAT o d' = .ret (d'', .ok x) → x = old ∨ x = fat) ∧
      (∀ d'' u, mount o d' = .ret (d'', .ok u) → d''.fat = old ∨ d''.fat = fat) := by
  obtain ⟨d1, r1, t, h, R, G, ht, hv, hw⟩ := Crash.format_prefix L T P hl hm
  rw [h] at hf; cases hf
  have hin := G.inside
  have hsp := G.split
  have hde := G.dirents
  have hdt := G.dirTrack_lt
  have hlf := length_newFat l
  have hlt := length_newTrack G.dirents G.split hlf
  have hres : resized (view d.image) (N * 128) = view d.image := by
    unfold resized; rw [← hlen, List.take_length, Nat.sub_self]; simp
  rw [hres] at hv
  have h0 : l.fatStart 0 = l.info + 1 := by unfold Layout.fatStart; omega
  -- the part of the write that reaches the FAT copies
  have key : fatCopy l (view d'.image) 0 = fatCopy l (view d'.image) 1 →
      fatCopy l (view d'.image) 0 = old ∨ fatCopy l (view d'.image) 0 = newFat l := by
    have h1 : l.fatStart 1 = l.info + 1 + l.fatSectors := by unfold Layout.fatStart; omega
    have hlk : ((newTrack l (newFat l)).take t).length = t := by rw [List.length_take]; omega
    intro e
    by_cases hc : (l.direntSectors + 1 + l.fatSectors) * 128 ≤ t
    · right
      unfold fatCopy sectors
      symm
      apply slice_eq_of_getElem? hlf
      intro k hk
      rw [hv, getElem?_splice (by omega), if_neg (by omega), if_pos (by omega), List.getElem?_take, if_pos (by omega)]
      unfold newTrack
      rw [List.getElem?_append_right (by simp only [List.length_append, List.length_replicate]; omega),
        List.append_assoc, List.getElem?_append_left (by simp only [List.length_append, List.length_replicate]; omega)]
      congr 1; simp only [List.length_append, List.length_replicate]; omega
    · left
      rw [e, ← hold 1 (by omega)]
      unfold fatCopy sectors
      apply List.ext_getElem?
      intro k
      rw [getElem?_slice, getElem?_slice]
      split
      · rw [hv, getElem?_splice (by omega), if_neg (by omega), if_neg (by omega)]
      · rfl
  refine ⟨newFat l, fun c hc => ?_, hlf, fun d'' x hx => ?_, fun d'' u hx => ?_⟩
  · rw [getElem?_newFat hdt]
    split
    · rfl
    · rfl
  · obtain ⟨d2, r2, hg, _, _, hres⟩ := getFAT_spec L R G
    rw [hg] at hx
    cases hx
    rcases hres with ⟨⟨e, h⟩, _⟩ | ⟨h, e, _⟩ | ⟨h, _⟩
    · cases h
    · cases h; exact key e
    · cases h
  · rcases mount_spec L R G with ⟨_, h⟩ | ⟨_, d2, r2, h, _, _, _, _, _, hres, _⟩
    · rw [h] at hx; cases hx
    · rw [h] at hx; cases hx
      rcases hres with ⟨⟨e, h⟩, _⟩ | ⟨h, _⟩ | ⟨_, _, ⟨e, _⟩, hf, _⟩
      · cases h
      · cases h
      · rw [hf]; exact key e

/-- A file on which every write fails after `t` bytes. -/
def cutting (t : Nat) : FileOps Bytes :=
  { memFile with writeAt := fun f buf off => if off < 0 then (f, some 1) else (overwrite f off.toNat (buf.take t), some 9) }

theorem cutting_lawful (t : Nat) : LawfulFile (cutting t) id :=
  { memFile_lawful with
    write_ok := by
      intro f buf off h
      simp only [cutting] at h
      split at h <;> simp at h
    write_neg := by intro f buf off h; simp [cutting, h]
    write_fail := by
      intro f buf off _
      simp only [cutting, id]
      split
      · exact ⟨Nat.le_refl _, Nat.le_max_left _ _, fun _ _ _ => rfl⟩
      · have hl := length_overwrite_le f (buf.take t) off.toNat
        have ht : (buf.take t).length ≤ buf.length := by rw [List.length_take]; omega
        refine ⟨hl.2, by simp only; omega, fun k hk hk2 => ?_⟩
        show (overwrite f off.toNat (buf.take t))[k]? = f[k]?
        unfold overwrite
        split
        · rfl
        · rw [getElem?_splice (by rw [List.length_append, List.length_replicate]; omega)]
          split
          · rw [List.getElem?_append_left hk]
          · rw [if_neg (by omega), List.getElem?_append_left hk] }

theorem cutting_prefix (t : Nat) : PrefixWrites (cutting t) id := by
  intro f buf off h
  refine ⟨min t buf.length, Nat.min_le_right _ _, ?_⟩
  simp only [cutting, id]
  rw [if_neg (by omega), ← List.take_take, List.take_length]

/-- The hypotheses of the C141 theorems are met by a FormatImage that fails after 5 bytes: the image
already held a volume with FAT copies filled with 7. -/
example : LawfulFile (cutting 5) id ∧ Truncates (cutting 5) ∧ PrefixWrites (cutting 5) id ∧
    (newDriver (List.replicate (640 * 128) 7)).isMounted = false ∧
    ∃ d' e, formatImage (cutting 5) (640 * 128 : Nat) (newDriver (List.replicate (640 * 128) 7)) = .ret (d', .error e) := by
  refine ⟨cutting_lawful 5, memFile_truncates, cutting_prefix 5, rfl, ?_⟩
  have h : (match formatImage (cutting 5) (640 * 128 : Nat) (newDriver (List.replicate (640 * 128) 7)) with
      | .ret (_, .error _) => true | _ => false) = true := by decide +kernel
  split at h
  · rename_i d e heq; exact ⟨d, e, heq⟩
  · cases h

end Disko.Fat8

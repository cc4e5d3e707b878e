import Verif.Fat8.Props12
import Verif.Fat8.Props6
/-! C157: repeating a call that failed because of the image file. -/
namespace Disko.Fat8
open Disko Disko.Fat8.Spec

variable {F : Type}

/-- Writing again over what was written. -/
theorem overwrite_onlyIn {w w' data : Bytes} {a : Nat} (h : a + data.length ≤ w.length)
    (hw : OnlyIn a data.length (overwrite w a data) w') : overwrite w' a data = overwrite w a data := by
  obtain ⟨h1, h2⟩ := hw
  rw [overwrite_inside h] at h1 h2 ⊢
  rw [length_splice (by omega)] at h1
  rw [overwrite_inside (by omega)]
  apply List.ext_getElem?
  intro k
  have hk := h2 k
  rw [getElem?_splice (by omega)] at hk
  rw [getElem?_splice (by omega), getElem?_splice (by omega)]
  by_cases k1 : k < a
  · rw [if_pos k1, if_pos k1, hk (.inl k1), if_pos k1]
  · by_cases k2 : k < a + data.length
    · rw [if_neg k1, if_neg k1, if_pos k2, if_pos k2]
    · rw [if_neg k1, if_neg k1, if_neg k2, if_neg k2, hk (.inr (by omega)), if_neg k1, if_neg k2]

theorem put_again {v v' : Volume} (hin : v.blocks * 128 ≤ v.image.length) {s : Nat} {data : Bytes}
    (h : Unwritten (s * 128) data.length (v.put s data) v') : v'.put s data = v.put s data := by
  obtain ⟨h1, h2, h3⟩ := h
  unfold Volume.put at h1 h2 h3
  by_cases hc : data.length % 128 = 0 ∧ s + data.length / 128 ≤ v.blocks
  · rw [if_pos hc] at h1 h2 h3
    simp only at h2 h3
    have e := overwrite_onlyIn (by omega) h3
    unfold Volume.put
    rw [if_pos hc]
    generalize v'.image = w' at h2 e
    subst h2
    simp only at e ⊢
    rw [if_pos hc, e]
  · rw [if_neg hc] at h1; cases h1

theorem put_done {v : Volume} {s : Nat} {data : Bytes} (h : (v.put s data).2 = .done) :
    (v.put s data).1 = { v with image := (v.put s data).1.image } := by
  unfold Volume.put at h ⊢
  split at h
  · rename_i hc; rw [if_pos hc]
  · cases h

theorem unwritten_rest {v v' : Volume} {a n s : Nat} {data : Bytes} (h : Unwritten a n (v.put s data) v') :
    v' = { v with image := v'.image } := by
  have h1 := put_done h.1
  have h2 := h.2.1
  rw [h1] at h2
  exact h2

theorem putCluster_again {v v' : Volume} (hin : v.blocks * 128 ≤ v.image.length) {c : Nat} {data : Bytes}
    (h : Unwritten ((c - 1) * v.spt * 128) data.length (v.putCluster c data) v') : v'.putCluster c data = v.putCluster c data := by
  unfold Volume.putCluster at h ⊢
  by_cases h1 : v.hasCluster c = false
  · rw [if_pos h1] at h; cases h.1
  · rw [if_neg h1] at h ⊢
    by_cases h2 : data.length ≠ v.spc * 128
    · rw [if_pos h2] at h; cases h.1
    · rw [if_neg h2] at h ⊢
      have hr := unwritten_rest h
      have e1 : v'.hasCluster c = v.hasCluster c := by rw [hr]; rfl
      have e2 : v'.spc = v.spc := by rw [hr]; rfl
      have e3 : v'.spt = v.spt := by rw [hr]; rfl
      rw [e1, e2, e3, if_neg h1, if_neg h2]
      exact put_again hin h

theorem length_formatted {N : Nat} {l : Layout} {g : Geometry} (G : Good N l g) (w : Bytes) : (formatted l N w).length = N * 128 := by
  have := G.inside; have := G.split
  rw [← formatted_eq G, length_splice, length_resized]
  rw [length_resized, length_newTrack G.dirents (by omega) (length_newFat l)]; omega

theorem formatted_onlyIn {N : Nat} {l : Layout} (hl : layout N = some l) {w w' : Bytes}
    (hw : OnlyIn (l.dirStart * 128) (l.spt * 128) (formatted l N w) w') : formatted l N w' = formatted l N w := by
  obtain ⟨g, hg⟩ := getGeometry_of_layout hl
  obtain ⟨l', G⟩ := good_of hg
  have : l' = l := by have := G.lay.symm.trans hl; simpa using this
  subst this
  obtain ⟨h1, h2⟩ := hw
  rw [length_formatted G] at h1
  have := G.inside; have := G.split
  have e : resized w' (N * 128) = w' := by
    unfold resized
    rw [List.take_of_length_le (by omega), h1]; simp
  have hlt := length_newTrack G.dirents (by omega) (length_newFat l')
  have hlr := length_resized w (N * 128)
  rw [← formatted_eq G, ← formatted_eq G, e]
  apply List.ext_getElem?
  intro k
  have hk := h2 k
  rw [← formatted_eq G, getElem?_splice (by omega), hlt] at hk
  rw [getElem?_splice (by omega), getElem?_splice (by omega), hlt]
  by_cases k1 : k < l'.dirStart * 128
  · rw [if_pos k1, if_pos k1, hk (.inl k1), if_pos k1]
  · by_cases k2 : k < l'.dirStart * 128 + l'.spt * 128
    · rw [if_neg k1, if_neg k1, if_pos k2, if_pos k2]
    · rw [if_neg k1, if_neg k1, if_neg k2, if_neg k2, hk (.inr (by omega)), if_neg k1, if_neg k2]

theorem readFAT_shape {v : Volume} {x : Option Layout} {fat : Bytes} : ({ v with shape := x, fat := fat } : Volume).readFAT = v.readFAT := rfl

/-- A call that was interrupted has, when it is repeated, the result it would have had. -/
theorem interrupted_again {v v' : Volume} (hin : v.blocks * 128 ≤ v.image.length) {a : Ask} (h : v.Interrupted a v') :
    v'.step a = v.step a := by
  cases a with
  | isValidCluster c => exact absurd h id
  | stat path => exact absurd h id
  | fsStat => exact absurd h id
  | call c =>
    cases c with
    | unmount => exact absurd h id
    | getFAT => rw [show v' = v from h.2]
    | readBlocks s n => rw [show v' = v from h.2]
    | readCluster c => rw [show v' = v from h.2]
    | readFile e i => rw [show v' = v from h.2]
    | writeBlocks s data => exact put_again hin h
    | writeCluster c data => exact putCluster_again hin h
    | writeFile e i data =>
      simp only [Volume.Interrupted, Volume.range, Volume.step] at h ⊢
      rcases hc : e.clusters[i]? with _ | c
      · rw [hc] at h; cases h.1
      · rw [hc] at h; exact putCluster_again hin h
    | flush =>
      simp only [Volume.Interrupted, Volume.range, Volume.step] at h ⊢
      rcases hs : v.shape with _ | l
      · rw [hs] at h
        simp only at h
        obtain ⟨_, h2, h3, h4⟩ := h
        have : v'.image = v.image := List.ext_getElem? fun k => h4 k (by omega)
        rw [this] at h2
        have : v' = v := h2
        rw [this, hs]
      · rw [hs] at h
        have e : 3 * v.fat.length = (v.fat ++ v.fat ++ v.fat).length := by simp only [List.length_append]; omega
        rw [e] at h
        have hr := unwritten_rest h
        have e1 : v'.shape = some l := by rw [hr]; exact hs
        have e2 : v'.fat = v.fat := by rw [hr]
        rw [e1, e2]
        exact put_again hin h
    | format size =>
      simp only [Volume.Interrupted, Volume.range, Volume.step] at h ⊢
      by_cases hm : v.mounted = true
      · rw [if_pos hm] at h; cases h.1
      rw [if_neg hm] at h ⊢
      by_cases hz : size % 128 ≠ 0
      · rw [if_pos hz] at h; cases h.1
      rw [if_neg hz] at h ⊢
      rcases hl : layout (size / 128).toNat with _ | l
      · rw [hl] at h; cases h.1
      · rw [hl] at h
        obtain ⟨_, h2, h3⟩ := h
        simp only at h2 h3 ⊢
        have e := formatted_onlyIn hl h3
        have e1 : v'.mounted = v.mounted := by rw [h2]
        rw [e1, if_neg hm, if_neg hz]
        rw [e]
        generalize v'.image = w' at h2
        subst h2
        rfl
    | mount =>
      obtain ⟨hm, rfl | ⟨l, hl, rfl | ⟨fat, hf, rfl⟩⟩⟩ := h
      · rfl
      · simp only [Volume.step]
        rw [if_neg (by simp [hm]), if_neg (by simp [hm]), hl]
        rfl
      · simp only [Volume.step]
        rw [if_neg (by simp [hm]), if_neg (by simp [hm]), hl, readFAT_shape, hf]

/-- The machine does not answer with errors of the file. -/
theorem step_not_file (v : Volume) (a : Ask) (e : Nat) : (v.step a).2 ≠ .failed (.file e) := by
  have hget : ∀ s n, v.get s n ≠ .failed (.file e) := by
    intro s n; unfold Volume.get; split <;> simp
  have hput : ∀ s data, (v.put s data).2 ≠ .failed (.file e) := by
    intro s data; unfold Volume.put; split <;> simp
  have hpc : ∀ c data, (v.putCluster c data).2 ≠ .failed (.file e) := by
    intro c data
    unfold Volume.putCluster
    split
    · simp
    · split
      · simp
      · exact hput _ _
  have hfat : v.readFAT ≠ .failed (.file e) := by
    unfold Volume.readFAT
    split
    · simp
    · split <;> simp
  cases a with
  | isValidCluster c => simp [Volume.step]
  | stat path => simp [Volume.step]
  | fsStat => simp [Volume.step]
  | call c =>
    cases c with
    | unmount => simp [Volume.step]
    | getFAT => exact hfat
    | readBlocks s n => exact hget _ _
    | readCluster c => simp only [Volume.step]; split; exact hget _ _; simp
    | readFile e i => simp only [Volume.step]; split; simp; exact hget _ _
    | writeBlocks s data => exact hput _ _
    | writeCluster c data => exact hpc _ _
    | writeFile e i data => simp only [Volume.step]; split; simp; exact hpc _ _
    | flush => simp only [Volume.step]; split; simp; exact hput _ _
    | format size =>
      simp only [Volume.step]
      split
      · simp
      · split
        · simp
        · split <;> simp
    | mount =>
      simp only [Volume.step]
      split
      · simp
      · split
        · simp
        · split
          · simp
          · exact hfat

theorem repeated_sim {o : FileOps F} {view : F → Bytes} (L : LawfulFile o view) (T : Truncates o) {a : Ask} (hf : a.Fits)
    {d d1 : Drv F} {x : Answer} (h : Repeated o a d d1 x) {v : Volume} (S : Sim view d v) :
    x = (v.step a).2 ∧ Sim view d1 (v.step a).1 := by
  induction h generalizing v with
  | once h hx =>
    obtain ⟨d2, ⟨h1, S1⟩ | ⟨_, e, v1, h1, _⟩⟩ := agrees_ask L T S a hf
    · rw [h] at h1; cases h1; exact ⟨rfl, S1⟩
    · rw [h] at h1; cases h1; exact absurd rfl (hx e)
  | again h _ ih =>
    obtain ⟨d2, ⟨h1, S1⟩ | ⟨_, e, v1, h1, hI, S1⟩⟩ := agrees_ask L T S a hf
    · rw [h] at h1
      simp only [Outcome.ret.injEq, Prod.mk.injEq] at h1
      obtain ⟨rfl, hx⟩ := h1
      exact absurd hx.symm (step_not_file v a _)
    · rw [h] at h1; cases h1
      have := ih S1
      rw [interrupted_again S.inside hI] at this
      exact this

/-- C157: on a file that may fail at any time, a call that is repeated until it does not fail because of the file has the answer that
it would have had at once if the file had not failed (`o'`), and leaves the same bytes in the file; and any calls that follow have the
same answers and leave the same bytes, too. -/
theorem C157_fat8_retry {o o' : FileOps F} {view : F → Bytes} (L : LawfulFile o view) (T : Truncates o) (L' : LawfulFile o' view)
    (T' : Truncates o') (R' : Readable o' view) (W' : Writable o') {f0 : F} (hlen : (view f0).length < 2 ^ 63)
    {p : List Ask} (hp : ∀ b ∈ p, b.Fits) {d d1 : Drv F} {xs : List Answer} (h : askAll o (newDriver f0) p = .ret (d, xs))
    {a : Ask} (ha : a.Fits) {x : Answer} (hr : Repeated o a d d1 x) :
    ∃ d', ask o' d a = .ret (d', x) ∧ view d'.image = view d1.image ∧
      ∀ q : List Ask, (∀ b ∈ q, b.Fits) → ∃ e1 e2 ys, askAll o' d1 q = .ret (e1, ys) ∧ askAll o' d' q = .ret (e2, ys) ∧
        view e1.image = view e2.image := by
  obtain ⟨d0, v, xs', h0, S, _⟩ := behaves_all L T p (sim_new hlen) hp
  rw [h] at h0; cases h0
  obtain ⟨hx, S1⟩ := repeated_sim L T ha hr S
  obtain ⟨d', ⟨h1, S'⟩ | ⟨hn, _⟩⟩ := agrees_ask L' T' S a ha
  · refine ⟨d', by rw [h1, hx], S'.image.trans S1.image.symm, fun q hq => ?_⟩
    obtain ⟨e1, k1, Q1⟩ := agrees_all L' T' R' W' q S1 hq
    obtain ⟨e2, k2, Q2⟩ := agrees_all L' T' R' W' q S' hq
    exact ⟨e1, e2, _, k1, k2, Q1.image.trans Q2.image.symm⟩
  · exact absurd ⟨R', W'⟩ hn

/-- C157 and C156_failing_file are not vacuous: on a file on which writing 1s over 2s fails at first, after storing half of them, a new
driver formats any of the volumes, fills sector 0 with 2s, and then needs two attempts to fill it with 1s. -/
example {N : Nat} {l : Layout} (hl : layout N = some l) :
    ∃ (p : List Ask) (d d1 d2 : Drv Bytes), (∀ b ∈ p, b.Fits) ∧
      askAll (breaking fun _ _ buf => buf.take 64) (newDriver []) p = .ret (d, [.done, .done]) ∧
      ask (breaking fun _ _ buf => buf.take 64) d (.call (.writeBlocks 0 (List.replicate 128 1))) = .ret (d1, .failed (.file 9)) ∧
      Repeated (breaking fun _ _ buf => buf.take 64) (.call (.writeBlocks 0 (List.replicate 128 1))) d d2 .done ∧
      d.image[64]? = some 2 ∧ d1.image[64]? = some 2 ∧ d2.image[64]? = some 1 := by
  have hc : ∀ (f : Bytes) (off : Nat) (buf : Bytes), (buf.take 64).length ≤ buf.length := by intro _ _ _; simp; omega
  have L := breaking_lawful hc
  obtain ⟨g, hg⟩ := getGeometry_of_layout hl
  obtain ⟨l', G⟩ := good_of hg
  have := G.N_le; have := G.inside; have := G.two
  have hd1 : (List.replicate 128 (1 : UInt8)).length = 128 := by simp
  have hd2 : (List.replicate 128 (2 : UInt8)).length = 128 := by simp
  obtain ⟨d0, h0, _⟩ := format_breaking hc hl
  have R0 : Ready id N d0 := by
    rcases formatImage_spec L (size := (N * 128 : Nat)) (by omega) (by omega) (newDriver [])
        (fun n _ => truncates_resized L breaking_truncates _ n) with
      ⟨h, _⟩ | ⟨_, h, _⟩ | ⟨_, N', _, _, d', r, hs, _, _, h, R, _⟩
    · exact absurd h (by decide)
    · exact absurd rfl (h N (by rw [hl]; simp))
    · rw [h0] at h; cases h
      have : N' = N := by omega
      exact this ▸ R
  obtain ⟨d, h2, s2, i2⟩ := write_breaking hc (start := 0) (data := List.replicate 128 2) R0.enough (by rw [hd2])
    (by rw [hd2, R0.total]; omega) (.inl (by simp [List.replicate_succ]))
  have R := R0.step s2
  have hl0 : d0.image.length = N * 128 := R0.len
  have hlen : d.image.length = N * 128 := R.len
  have hb : ∀ k, k < 128 → d.image[k]? = some 2 := by
    intro k hk
    rw [i2, getElem?_splice (by omega), if_neg (by omega), hd2, if_pos (by omega), List.getElem?_replicate, if_pos (by omega)]
  generalize hf1 : splice d.image 0 ((List.replicate 128 (1 : UInt8)).take 64) = f1
  have hw1 : writeDiskBlocks (breaking fun _ _ buf => buf.take 64) 0 (List.replicate 128 1) d =
      .ret ({ d with image := f1 }, .error (.file 9)) := by
    unfold writeDiskBlocks
    rw [hd1, if_neg (by omega)]
    simp only
    rw [u64_of_lt (by omega), R.total, if_neg (by omega), sector_off (by omega)]
    simp only [breaking]
    rw [if_neg (by omega), if_pos ⟨by simp [List.replicate_succ], hb _ (by omega), by rw [hd1]; simp only [Int.toNat_natCast]; omega⟩]
    simp only [Int.toNat_natCast, Nat.zero_mul]
    rw [hf1]
  have hb1 : ∀ k, f1[k]? = if k < 64 then some 1 else d.image[k]? := by
    intro k
    rw [← hf1, List.take_replicate, getElem?_splice (by omega), if_neg (by omega), List.length_replicate, List.getElem?_replicate]
    by_cases hk : k < 64
    · rw [if_pos (by omega), if_pos hk, if_pos (by omega)]
    · rw [if_neg (by omega), if_neg hk]
  have hlen1 : f1.length = N * 128 := by
    rw [← hf1, length_splice (by rw [List.length_take, hd1]; omega), hlen]
  have R1 : Ready id N { d with image := f1 } := ⟨R.geo, R.total, hlen1⟩
  obtain ⟨d2, h3, s3, i3⟩ := write_breaking hc (start := 0) (data := List.replicate 128 1) R1.enough (by rw [hd1])
    (by rw [hd1, R1.total]; omega) (.inr (by simp only; rw [hb1, if_pos (by omega)]; simp))
  refine ⟨[.call (.format (N * 128 : Nat)), .call (.writeBlocks 0 (List.replicate 128 2))], d, { d with image := f1 }, d2, ?_, ?_, ?_, ?_,
    hb _ (by omega), by simp only; rw [hb1, if_neg (by omega)]; exact hb _ (by omega), ?_⟩
  · intro b hb
    simp only [List.mem_cons, List.not_mem_nil, or_false] at hb
    rcases hb with rfl | rfl
    · exact ⟨by omega, by omega⟩
    · exact ⟨by omega, by rw [hd2]; decide⟩
  · simp only [askAll, ask, h0, h2, seen]
  · simp only [ask, hw1, seen]
  · refine .again (d1 := { d with image := f1 }) (e := 9) (by simp only [ask, hw1, seen]) (.once (by simp only [ask, h3, seen]) (by simp))
  · rw [i3, getElem?_splice (by simp only; omega), if_neg (by omega), hd1, if_pos (by omega), List.getElem?_replicate, if_pos (by omega)]

end Disko.Fat8

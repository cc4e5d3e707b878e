import Verif.Fat8.Machine
import Verif.Fat8.Run
import Verif.Fat8.Witness
import Verif.Fat8.Props2
/-! C156: a FAT8 driver is a simple machine. -/
namespace Disko.Fat8
open Disko Disko.Fat8.Spec

variable {F : Type}

/-! ### How a driver and the machine correspond -/

/-- The driver `d` is in the machine's state `v`. -/
structure Sim (view : F → Bytes) (d : Drv F) (v : Volume) : Prop where
  image : view d.image = v.image
  small : v.image.length < 2 ^ 63
  mounted : d.isMounted = v.mounted
  fat : d.fat = v.fat
  fatLen : v.fat.length ≤ 256
  dirents : d.dirents = []
  shape : (v.shape = none ∧ d.geometry = {}) ∨ ∃ l n, v.shape = some l ∧ Good n l d.geometry ∧ getGeometry n = .ok d.geometry
  state : (v.blocks = 0 ∧ d.stat = {} ∧ d.isMounted = false ∧ d.fat = []) ∨
    (Ready view v.blocks d ∧ ∃ l, v.shape = some l ∧ Good v.blocks l d.geometry ∧ d.stat = newStat v.blocks l)

theorem Sim.total {view : F → Bytes} {d : Drv F} {v : Volume} (S : Sim view d v) : d.stat.totalBlocks = v.blocks := by
  rcases S.state with ⟨h1, h2, _⟩ | ⟨R, _⟩
  · rw [h1, h2]
  · exact R.total

theorem Sim.blocks_le {view : F → Bytes} {d : Drv F} {v : Volume} (S : Sim view d v) : v.blocks ≤ 2002 := by
  rcases S.state with ⟨h1, _⟩ | ⟨_, l, _, G, _⟩
  · omega
  · exact G.N_le

theorem Sim.inside {view : F → Bytes} {d : Drv F} {v : Volume} (S : Sim view d v) : v.blocks * 128 ≤ v.image.length := by
  rcases S.state with ⟨h1, _⟩ | ⟨R, _⟩
  · omega
  · have := R.len; rw [S.image] at this; omega

/-- Another image of the same size. -/
theorem Sim.step {view : F → Bytes} {d : Drv F} {v : Volume} (S : Sim view d v) {f' : F} {w : Bytes} (hf : view f' = w)
    (hl : w.length = v.image.length) : Sim view { d with image := f' } { v with image := w } := by
  refine ⟨hf, by simp only; rw [hl]; exact S.small, S.mounted, S.fat, S.fatLen, S.dirents, S.shape, ?_⟩
  rcases S.state with h | ⟨R, h⟩
  · exact .inl h
  · refine .inr ⟨⟨R.geo, R.total, ?_⟩, h⟩
    have := R.len; rw [S.image] at this
    show (view f').length = _
    rw [hf, hl, this]

theorem Sim.same {view : F → Bytes} {d : Drv F} {v : Volume} (S : Sim view d v) {f' : F} (hf : view f' = view d.image) :
    Sim view { d with image := f' } v := S.step (w := v.image) (hf.trans S.image) rfl

/-- The call gives the machine's answer, and driver and machine still correspond; or it fails because the file did, and leaves
something that satisfies `I`. -/
def Agrees (o : FileOps F) (view : F → Bytes) (I : Volume → Prop) (x : Outcome (Drv F × Answer)) (y : Volume × Answer) : Prop :=
  ∃ d, (x = .ret (d, y.2) ∧ Sim view d y.1) ∨
    (¬ (Readable o view ∧ Writable o) ∧ ∃ (e : Nat) (v' : Volume), x = .ret (d, .failed (.file e)) ∧ I v' ∧ Sim view d v')

theorem Agrees.exact {o : FileOps F} {view : F → Bytes} {I : Volume → Prop} {x : Outcome (Drv F × Answer)} {y : Volume × Answer}
    {d : Drv F} (h : x = .ret (d, y.2)) (S : Sim view d y.1) : Agrees o view I x y := ⟨d, .inl ⟨h, S⟩⟩

theorem Agrees.fail {o : FileOps F} {view : F → Bytes} {I : Volume → Prop} {x : Outcome (Drv F × Answer)} {y : Volume × Answer}
    {d : Drv F} {e : Nat} {v' : Volume} (h : x = .ret (d, .failed (.file e))) (S : Sim view d v')
    (hn : ¬ (Readable o view ∧ Writable o)) (hI : I v') : Agrees o view I x y := ⟨d, .inr ⟨hn, e, v', h, hI, S⟩⟩

theorem Agrees.mono {o : FileOps F} {view : F → Bytes} {I J : Volume → Prop} {x : Outcome (Drv F × Answer)} {y : Volume × Answer}
    (h : Agrees o view I x y) (hi : ∀ v', I v' → J v') : Agrees o view J x y := by
  obtain ⟨d, h | ⟨hn, e, v', hx, hI, S⟩⟩ := h
  · exact ⟨d, .inl h⟩
  · exact ⟨d, .inr ⟨hn, e, v', hx, hi _ hI, S⟩⟩

/-- What an interrupted read leaves. -/
def Unread (v : Volume) (x : Answer) (v' : Volume) : Prop := (∃ b, x = .bytes b) ∧ v' = v

/-- What an interrupted write leaves. -/
def Unwritten (a n : Nat) (y : Volume × Answer) (v' : Volume) : Prop :=
  y.2 = .done ∧ v' = { y.1 with image := v'.image } ∧ OnlyIn a n y.1.image v'.image

/-! ### Blocks -/

theorem agrees_get {o : FileOps F} {view : F → Bytes} (L : LawfulFile o view) {d : Drv F} {v : Volume}
    (S : Sim view d v) {s n : Nat} (h : s + n < 2 ^ 56) :
    Agrees o view (Unread v (v.get s n)) (seen .bytes (readDiskBlocks o s n d)) (v, v.get s n) := by
  have ht := S.total
  have hin := S.inside
  unfold Volume.get
  rcases readDiskBlocks_spec L h d with ⟨h1, hr⟩ | ⟨h1, f', hv, ⟨e, h2, h3⟩ | ⟨_, hr⟩⟩
  · rw [hr, if_neg (by omega)]; exact .exact rfl S
  · refine .fail (v' := v) (congrArg _ h3) (S.same hv) (fun ⟨R, _⟩ => ?_) ⟨⟨_, if_pos (by omega)⟩, rfl⟩
    rw [R.read _ _ _ (by omega) (by rw [S.image, Int.toNat_natCast]; omega)] at h2
    cases h2
  · rw [hr, if_pos (by omega), S.image]; exact .exact rfl (S.same hv)

theorem agrees_put {o : FileOps F} {view : F → Bytes} (L : LawfulFile o view) {d : Drv F} {v : Volume}
    (S : Sim view d v) {s : Nat} {data : Bytes} (hs : s < 2 ^ 56) (hd : data.length ≤ maxInt) :
    Agrees o view (Unwritten (s * 128) data.length (v.put s data)) (seen (fun _ => .done) (writeDiskBlocks o s data d)) (v.put s data) := by
  have ht := S.total
  have hin := S.inside
  have hb := S.blocks_le
  unfold Volume.put
  by_cases h0 : data.length % 128 = 0
  · by_cases h : s + data.length / 128 ≤ v.blocks
    · have hlo : (overwrite v.image (s * 128) data).length = v.image.length := by
        rw [overwrite_inside (by omega), length_splice (by omega)]
      rw [if_pos ⟨h0, h⟩]
      rcases writeDiskBlocks_spec L (start := s) (by omega) hd d (by omega) with ⟨hn, _⟩ | ⟨_, h2, f', ⟨e, he, hr, hl1, hl2, hk⟩ | ⟨hr, hv⟩⟩
      · exact absurd ⟨h0, by omega⟩ hn
      · rw [S.image] at hl1 hl2 hk
        refine .fail (v' := { v with image := view f' }) (congrArg _ hr) (S.step rfl (by omega))
          (fun ⟨_, W⟩ => by rw [W _ _ _ (by omega)] at he; cases he) ⟨rfl, rfl, by simp only; omega, fun k hk' => ?_⟩
        simp only
        by_cases hkl : k < v.image.length
        · rw [hk k hkl hk', overwrite_inside (by omega), getElem?_splice (by omega)]
          rcases hk' with h | h
          · rw [if_pos h]
          · rw [if_neg (by omega), if_neg (by omega)]
        · rw [List.getElem?_eq_none (by omega), List.getElem?_eq_none (by omega)]
      · rw [hr]
        exact .exact rfl (S.step (hv.trans (by rw [S.image])) hlo)
    · rw [if_neg (fun k => h k.2)]
      refine .exact (d := d) ?_ S
      unfold maxInt at hd
      unfold writeDiskBlocks
      rw [if_neg (by omega)]
      simp only
      rw [u64_of_lt (by omega), if_pos (by omega)]; rfl
  · rw [if_neg (fun k => h0 k.1)]
    refine .exact (d := d) ?_ S
    unfold writeDiskBlocks
    rw [if_pos h0]; rfl

/-! ### Clusters -/

theorem Sim.valid {view : F → Bytes} {d : Drv F} {v : Volume} (S : Sim view d v) (c : Nat) : isValidCluster d c = v.hasCluster c := by
  unfold isValidCluster Volume.hasCluster
  rcases S.shape with ⟨h1, h2⟩ | ⟨l, n, h1, G, _⟩
  · rw [h1, h2]; simp; omega
  · rw [h1, G.clusters]; simp

theorem Sim.spc {view : F → Bytes} {d : Drv F} {v : Volume} (S : Sim view d v) :
    d.geometry.sectorsPerCluster = v.spc ∧ d.geometry.sectorsPerTrack = v.spt ∧ d.geometry.bytesPerCluster = v.spc * 128 ∧
    v.spc ≤ 2002 ∧ v.spt ≤ 2002 := by
  unfold Volume.spc Volume.spt
  rcases S.shape with ⟨h1, h2⟩ | ⟨l, n, h1, G, _⟩
  · rw [h1, h2]; simp
  · rw [h1]
    have := G.inside; have := G.N_le; have := G.two
    exact ⟨G.spc, G.spt, G.bpc, by simp only; omega, by simp only; omega⟩

theorem Sim.few {view : F → Bytes} {d : Drv F} {v : Volume} (S : Sim view d v) {c : Nat} (h : v.hasCluster c = true) : 1 ≤ c ∧ c < 255 := by
  unfold Volume.hasCluster at h
  rcases S.shape with ⟨h1, h2⟩ | ⟨l, n, h1, G, _⟩
  · rw [h1] at h; cases h
  · rw [h1] at h
    have := G.clusters_lt
    simp only [decide_eq_true_eq] at h
    omega

theorem mul_small {a b m n : Nat} (ha : a ≤ m) (hb : b ≤ n) : a * b ≤ m * n := Nat.mul_le_mul ha hb

theorem agrees_readCluster {o : FileOps F} {view : F → Bytes} (L : LawfulFile o view) {d : Drv F} {v : Volume}
    (S : Sim view d v) (c : Nat) : Agrees o view (Unread v (v.step (.call (.readCluster c))).2) (ask o d (.call (.readCluster c))) (v.step (.call (.readCluster c))) := by
  simp only [ask, Volume.step]
  unfold readAbsoluteCluster
  rw [get_bind, S.valid]
  by_cases h : v.hasCluster c = true
  · obtain ⟨h1, h2⟩ := S.few h
    obtain ⟨e1, _, _, b1, _⟩ := S.spc
    have hm := mul_small (show c - 1 ≤ 255 by omega) b1
    have e : u64 (u64sub c 1 * d.geometry.sectorsPerCluster) = (c - 1) * v.spc := by
      rw [e1, show u64sub c 1 = c - 1 by unfold u64sub; omega, u64_of_lt (by omega)]
    rw [h, if_neg (show ¬ ((!true) = true) by simp), if_pos (show true = true from rfl)]
    simp only [e]
    rw [e1]
    exact agrees_get L S (by omega)
  · rw [if_pos (show (!v.hasCluster c) = true by simpa using h), if_neg h]
    exact .exact rfl S

theorem agrees_putCluster {o : FileOps F} {view : F → Bytes} (L : LawfulFile o view) {d : Drv F} {v : Volume}
    (S : Sim view d v) (c : Nat) {data : Bytes} (hd : data.length ≤ maxInt) :
    Agrees o view (Unwritten ((c - 1) * v.spt * 128) data.length (v.putCluster c data)) (seen (fun _ => .done) (writeAbsoluteCluster o c data d)) (v.putCluster c data) := by
  unfold writeAbsoluteCluster Volume.putCluster
  rw [get_bind, S.valid]
  obtain ⟨e1, e2, e3, b1, b2⟩ := S.spc
  by_cases h : v.hasCluster c = true
  · obtain ⟨h1, h2⟩ := S.few h
    have hm := mul_small (show c - 1 ≤ 255 by omega) b2
    have e : u64 (u64sub c 1 * d.geometry.sectorsPerTrack) = (c - 1) * v.spt := by
      rw [e2, show u64sub c 1 = c - 1 by unfold u64sub; omega, u64_of_lt (by omega)]
    have e' : i64 (d.geometry.bytesPerCluster : Int) = (v.spc * 128 : Nat) := by
      rw [e3, i64_of_range (by omega) (by omega)]
    rw [h, if_neg (show ¬ ((!true) = true) by simp), e', if_neg (show ¬ (true = false) by simp)]
    by_cases hl : data.length = v.spc * 128
    · rw [if_neg (by omega), if_neg (by omega)]
      simp only [e]
      exact agrees_put L S (by omega) hd
    · rw [if_pos hl, if_pos (show (data.length : Int) ≠ (v.spc * 128 : Nat) by omega)]
      exact .exact rfl S
  · rw [if_pos (by simpa using h), if_pos (by simpa using h)]
    exact .exact rfl S

theorem agrees_readFile {o : FileOps F} {view : F → Bytes} (L : LawfulFile o view) {d : Drv F} {v : Volume}
    (S : Sim view d v) {e : DirectoryEntry} {i : Nat} (hf : (Ask.call (.readFile e i)).Fits) :
    Agrees o view (Unread v (v.step (.call (.readFile e i))).2) (ask o d (.call (.readFile e i))) (v.step (.call (.readFile e i))) := by
  obtain ⟨h1, h2, h3⟩ := hf
  simp only [ask, Volume.step]
  unfold readFileCluster
  unfold maxInt at h1 h2
  rw [get_bind, i64_of_range (by omega) (by omega)]
  obtain ⟨e1, e2, e3, b1, b2⟩ := S.spc
  rcases hc : e.clusters[i]? with _ | c
  · have := List.getElem?_eq_none_iff.1 hc
    rw [if_pos (by omega)]
    exact .exact rfl S
  · obtain ⟨hlt, rfl⟩ := List.getElem?_eq_some_iff.1 hc
    rw [if_neg (by omega)]
    have hsm := h3 _ (List.getElem_mem hlt)
    have hm := mul_small (Nat.le_of_lt hsm) b1
    simp only
    rw [e1, u64_of_lt (by omega)]
    exact agrees_get L S (by omega)

theorem agrees_writeFile {o : FileOps F} {view : F → Bytes} (L : LawfulFile o view) {d : Drv F} {v : Volume}
    (S : Sim view d v) {e : DirectoryEntry} {i : Nat} {data : Bytes} (hf : (Ask.call (.writeFile e i data)).Fits) :
    Agrees o view (Unwritten (v.range (.call (.writeFile e i data))).1 (v.range (.call (.writeFile e i data))).2 (v.step (.call (.writeFile e i data)))) (ask o d (.call (.writeFile e i data))) (v.step (.call (.writeFile e i data))) := by
  obtain ⟨h1, h2, h3, h4⟩ := hf
  simp only [ask, Volume.step, Volume.range]
  unfold writeFileCluster
  unfold maxInt at h1 h2
  rw [i64_of_range (by omega) (by omega)]
  rcases hc : e.clusters[i]? with _ | c
  · have := List.getElem?_eq_none_iff.1 hc
    rw [if_pos (by omega)]
    exact .exact rfl S
  · obtain ⟨hlt, rfl⟩ := List.getElem?_eq_some_iff.1 hc
    rw [if_neg (by omega)]
    exact agrees_putCluster L S _ h4

/-! ### The FAT -/

theorem agrees_getFAT {o : FileOps F} {view : F → Bytes} (L : LawfulFile o view) {d : Drv F} {v : Volume}
    (S : Sim view d v) : Agrees o view (fun v' => layout v.blocks ≠ none ∧ v' = v) (seen .bytes (getFAT o d)) (v, v.readFAT) := by
  unfold Volume.readFAT
  rcases S.state with ⟨h1, h2, _⟩ | ⟨Rd, l, hs, G, _⟩
  · rw [getFAT_fresh (by rw [h2]), h1]
    exact .exact rfl S
  · have hl0 := G.lay
    rw [G.lay]
    obtain ⟨d', r, hr, hst, hv, hres⟩ := getFAT_spec L Rd G
    have S' : Sim view d' v := by rw [hst.rest]; exact S.same hv
    rw [hr]
    rw [S.image] at hres
    rcases hres with ⟨⟨e, rfl⟩, hn⟩ | ⟨rfl, hc⟩ | ⟨rfl, hc⟩
    · exact .fail rfl S' (fun k => hn k.1) ⟨by simp, rfl⟩
    · simp only; rw [if_pos hc]; exact .exact rfl S'
    · simp only; rw [if_neg hc]; exact .exact rfl S'

theorem agrees_flush {o : FileOps F} {view : F → Bytes} (L : LawfulFile o view) {d : Drv F} {v : Volume}
    (S : Sim view d v) : Agrees o view (Unwritten (v.range (.call .flush)).1 (v.range (.call .flush)).2 (v.step (.call .flush))) (ask o d (.call .flush)) (v.step (.call .flush)) := by
  simp only [ask, Volume.step, Volume.range]
  unfold flush
  rw [get_bind, repeatBytes_three, S.fat]
  have hfl := S.fatLen
  rcases S.shape with ⟨h1, h2⟩ | ⟨l, n, h1, G, _⟩
  · rw [h1, h2]
    rcases S.state with ⟨h3, h4, h5, h6⟩ | ⟨_, l, hl, _⟩
    · rw [← S.fat, h6]
      have h := agrees_put L S (s := 0) (data := []) (by omega) (by unfold maxInt; simp)
      have hp : v.put 0 [] = (v, .done) := by simp [Volume.put, overwrite]
      rw [hp] at h
      exact h
    · rw [h1] at hl; cases hl
  · rw [h1, G.fats]
    have := G.inside; have := G.split; have := G.N_le
    have h := agrees_put L S (s := l.fatStart 0) (data := v.fat ++ v.fat ++ v.fat) (by unfold Layout.fatStart; omega)
      (by simp only [List.length_append]; unfold maxInt; omega)
    have e : (v.fat ++ v.fat ++ v.fat).length = 3 * v.fat.length := by simp only [List.length_append]; omega
    rw [e] at h
    exact h

/-! ### Formatting and mounting -/

theorem newFat_eq {N : Nat} {l : Layout} (h : layout N = some l) : newFat l = blankFAT l := by
  unfold layout at h
  split at h
  · cases h; decide +kernel
  · split at h
    · cases h; decide +kernel
    · cases h

theorem formatted_eq {N : Nat} {l : Layout} {g : Geometry} (G : Good N l g) (w : Bytes) :
    splice (resized w (N * 128)) (l.dirStart * 128) (newTrack l (newFat l)) = formatted l N w := by
  have hl := length_newFat l
  have := G.split; have := G.dirents; have := G.inside
  have hT : (newTrack l (newFat l)).length = l.spt * 128 := by
    unfold newTrack
    simp only [List.length_append, List.length_replicate, hl]
    unfold Layout.info at *
    omega
  have hr : resized w (N * 128) = (w ++ List.replicate (N * 128) 0).take (N * 128) := by
    unfold resized
    rw [List.take_append, List.take_replicate, Nat.min_eq_left (by omega)]
  unfold formatted splice
  rw [hT, ← hr, show l.dirStart * 128 + l.spt * 128 = (l.dirStart + l.spt) * 128 by omega]
  unfold newTrack blankTrack
  rw [newFat_eq G.lay]

theorem format_error {o : FileOps F} {size : Int} (h1 : -(2 ^ 63) ≤ size) (h2 : size < 2 ^ 63) {d : Drv F} (hm : d.isMounted = false) :
    (size % 128 ≠ 0 → formatImage o size d = .ret (d, .error .invalidArgument)) ∧
    (size % 128 = 0 → layout (size / 128).toNat = none → formatImage o size d = .ret (d, .error .badBlockCount)) := by
  unfold formatImage
  rw [get_bind, if_neg (by simp [hm])]
  refine ⟨fun h => ?_, fun h hl => ?_⟩
  · rw [if_pos (fun k => h (Int.emod_eq_zero_of_dvd (Int.dvd_of_tmod_eq_zero k)))]; rfl
  · rw [if_neg (by simpa using Int.tmod_eq_zero_of_dvd (Int.dvd_of_emod_eq_zero h))]
    have hg : getGeometry ((size % 2 ^ 64).toNat / 128) = .error .badBlockCount := by
      by_cases hs : 0 ≤ size
      · have e : (size % 2 ^ 64).toNat / 128 = (size / 128).toNat := by omega
        rw [e]
        exact getGeometry_none hl
      · refine getGeometry_none ?_
        unfold layout
        rw [if_neg (by omega), if_neg (by omega)]
    simp only [hg]
    exact bind_err rfl

/-- Only the image changed, not its size, and no byte before sector `lo` or from sector `hi` on; errors are those of the file. -/
structure Local (view : F → Bytes) (lo hi : Nat) (d d' : Drv F) {α : Type} (r : Except Err α) : Prop where
  img : ImgStep view d d'
  same : ∀ k, (k < lo * 128 ∨ hi * 128 ≤ k) → (view d'.image)[k]? = (view d.image)[k]?
  err : (∃ a, r = .ok a) ∨ ∃ e, r = .error (.file e)

theorem write_local {o : FileOps F} {view : F → Bytes} (L : LawfulFile o view) {lo hi start : Nat} {data : Bytes}
    {d : Drv F} (he : Enough view d) (h1 : data.length % 128 = 0) (h2 : lo ≤ start) (h3 : start * 128 + data.length ≤ hi * 128)
    (h4 : hi ≤ d.stat.totalBlocks) : ∃ d' r, writeDiskBlocks o start data d = .ret (d', r) ∧ Local view lo hi d d' r := by
  have := he.1
  have := he.2
  rcases writeDiskBlocks_spec L (start := start) (data := data) (by omega) (by unfold maxInt; omega) d he.1 with
    ⟨hn, _⟩ | ⟨_, _, f', ⟨e, h0, hr, h5, h6, h7⟩ | ⟨hr, hv⟩⟩
  · exact absurd ⟨h1, by omega⟩ hn
  · refine ⟨_, _, hr, .of_image (by omega), fun k hk => ?_, .inr ⟨e, rfl⟩⟩
    simp only
    by_cases hkl : k < (view d.image).length
    · exact h7 k hkl (by omega)
    · rw [List.getElem?_eq_none (by omega), List.getElem?_eq_none (by omega)]
  · rw [overwrite_inside (by omega)] at hv
    refine ⟨_, _, hr, .of_image (by rw [hv, length_splice (by omega)]), fun k hk => ?_, .inl ⟨(), rfl⟩⟩
    simp only
    rw [hv, getElem?_splice (by omega)]
    by_cases hk1 : k < start * 128
    · rw [if_pos hk1]
    · rw [if_neg hk1, if_neg (by omega)]

theorem Local.refl {view : F → Bytes} {lo hi : Nat} {d : Drv F} {α : Type} (a : α) : Local view lo hi d d (.ok a : Except Err α) :=
  ⟨.refl _ _, fun _ _ => rfl, .inl ⟨a, rfl⟩⟩

theorem local_bind {view : F → Bytes} {lo hi : Nat} {d : Drv F} {α β : Type} {m : M F α} {f : α → M F β}
    (h : ∃ d' r, m d = .ret (d', r) ∧ Local view lo hi d d' r)
    (hf : ∀ d' a, ImgStep view d d' → ∃ d'' r, f a d' = .ret (d'', r) ∧ Local view lo hi d' d'' r) :
    ∃ d' r, (m >>= f) d = .ret (d', r) ∧ Local view lo hi d d' r := by
  obtain ⟨d1, r1, h1, l1⟩ := h
  rcases l1.err with ⟨a, rfl⟩ | ⟨e, rfl⟩
  · obtain ⟨d2, r2, h2, l2⟩ := hf d1 a l1.img
    exact ⟨d2, r2, (bind_ok h1).trans h2, l1.img.trans l2.img, fun k hk => (l2.same k hk).trans (l1.same k hk), l2.err⟩
  · exact ⟨d1, _, bind_err h1, l1.img, l1.same, .inr ⟨e, rfl⟩⟩

theorem fill_local {o : FileOps F} {view : F → Bytes} (L : LawfulFile o view) {lo hi : Nat} (n i : Nat) {d : Drv F}
    (he : Enough view d) (h2 : lo ≤ i) (h3 : i + n ≤ hi) (h4 : hi ≤ d.stat.totalBlocks) :
    ∃ d' r, fillSectors o n i d = .ret (d', r) ∧ Local view lo hi d d' r := by
  induction n generalizing i d with
  | zero => exact ⟨d, _, rfl, .refl ()⟩
  | succ n ih =>
    unfold fillSectors
    refine local_bind (write_local L he (by simp) h2 (by rw [List.length_replicate]; omega) h4) (fun d' _ hs => ?_)
    exact ih (i + 1) (hs.enough he) (by omega) (by omega) (by rw [hs.rest]; exact h4)

/-- FormatImage writes nothing outside the directory track, and fails only if the file does. -/
theorem format_local {o : FileOps F} {view : F → Bytes} (L : LawfulFile o view) (T : Truncates o) {N : Nat} {l : Layout}
    (hl : layout N = some l) {d : Drv F} (hm : d.isMounted = false) :
    ∃ d' r, formatImage o (N * 128 : Nat) d = .ret (d', r) ∧ ((∃ a, r = .ok a) ∨ ∃ e, r = .error (.file e)) ∧
      ∀ k, (k < l.dirStart * 128 ∨ (l.dirStart + l.spt) * 128 ≤ k) →
        (view d'.image)[k]? = (resized (view d.image) (N * 128))[k]? := by
  obtain ⟨g, hg⟩ := getGeometry_of_layout hl
  obtain ⟨l', G⟩ := good_of hg
  have e2 : l' = l := by have := G.lay.symm.trans hl; simpa using this
  subst e2
  have hNle := G.N_le
  unfold formatImage
  rw [get_bind, if_neg (by simp [hm]), if_neg (by
    rw [show ((N * 128 : Nat) : Int) = (N : Int) * 128 from by omega, Int.mul_tmod_left]; simp)]
  simp only
  have hN : (((N * 128 : Nat) : Int) % 2 ^ 64).toNat / 128 = N := by omega
  rw [hN, hg, bind_ok (show orThrow (Except.ok g) d = _ from rfl), modify_bind, modify_bind]
  generalize hst : (FSStat.mk 128 N (u64 (u64sub g.totalTracks 1 * g.sectorsPerTrack))
      (u64 (u64sub g.totalTracks 1 * g.sectorsPerTrack)) 0
      (u64 (u64sub (u64sub g.sectorsPerTrack 1) (u64 (g.sectorsPerFAT * 3)) * 8)) 10) = st
  have htot : st.totalBlocks = N := by rw [← hst]
  have hfs : i64 (u64 (u64 (128 * g.trueTotalTracks) * g.sectorsPerTrack)) = (N * 128 : Nat) := by
    unfold getGeometry at hg
    split at hg
    · rename_i h; subst h; cases hg; decide +kernel
    · split at hg
      · rename_i h; subst h; cases hg; decide +kernel
      · split at hg
        · rename_i h; subst h; cases hg; decide +kernel
        · simp at hg
  rw [hfs]
  have hv1 := truncates_resized L T d.image (N * 128)
  generalize hf1 : (o.truncate d.image (N * 128 : Nat)).1 = f1 at *
  generalize hd1 : ({ ({ d with geometry := g, stat := st } : Drv F) with image := f1 } : Drv F) = d1
  have R1 : Ready view N d1 := by
    subst hd1
    exact ⟨hg, htot, by rw [hv1, length_resized]⟩
  have himg : view d1.image = resized (view d.image) (N * 128) := by rw [← hd1]; exact hv1
  have hin := G.inside
  have hsp := G.split
  have hde := G.dirents
  have hlf := length_newFat l'
  have hdt : g.directoryTrackStart / g.sectorsPerTrack = l'.dirTrack := by rw [G.dirStart, G.spt, G.dirTrack]
  have hdl := G.dirTrack_lt
  have hrep : (repeatBytes (newFat l') 3).length = 3 * (l'.fatSectors * 128) := by
    rw [repeatBytes_three]; simp only [List.length_append]; omega
  have hfat0 : g.fatsStart = l'.info + 1 := by rw [G.fats]; unfold Layout.fatStart; omega
  have main : ∀ {m : M F Unit}, (∃ d' r, m d1 = .ret (d', r) ∧ Local view l'.dirStart (l'.dirStart + l'.spt) d1 d' r) →
      ∃ d' r, m d1 = .ret (d', r) ∧ ((∃ a, r = .ok a) ∨ ∃ e, r = .error (.file e)) ∧
      ∀ k, (k < l'.dirStart * 128 ∨ (l'.dirStart + l'.spt) * 128 ≤ k) →
        (view d'.image)[k]? = (resized (view d.image) (N * 128))[k]? := by
    rintro m ⟨d', r, h, lc⟩
    exact ⟨d', r, h, lc.err, fun k hk => by rw [lc.same k hk, himg]⟩
  refine main (local_bind (fill_local L _ _ R1.enough (by rw [G.dirStart]; omega) (by rw [G.info, G.dirStart]; omega)
    (by rw [R1.total]; omega)) fun d2 _ s2 => ?_)
  have R2 := R1.step s2
  refine local_bind (write_local L R2.enough (by simp) (by rw [G.info]; omega)
    (by rw [G.info, List.length_replicate]; omega) (by rw [R2.total]; omega)) fun d3 _ s3 => ?_
  have R3 := R2.step s3
  rw [hdt, G.spf]
  have hset1 : (setByte (List.replicate (l'.fatSectors * 128) (0xff : UInt8)) l'.dirTrack 0xfe : M F Bytes) d3 =
      .ret (d3, .ok ((List.replicate (l'.fatSectors * 128) (0xff : UInt8)).set l'.dirTrack 0xfe)) := by
    unfold setByte; rw [if_pos (by rw [List.length_replicate]; omega)]; rfl
  rw [bind_ok hset1]
  have hset2 : (setByte ((List.replicate (l'.fatSectors * 128) (0xff : UInt8)).set l'.dirTrack 0xfe) (l'.dirTrack + 1) 0xfe
      : M F Bytes) d3 = .ret (d3, .ok (newFat l')) := by
    unfold setByte; rw [if_pos (by rw [List.length_set, List.length_replicate]; omega)]; rfl
  rw [bind_ok hset2]
  exact write_local L R3.enough (by rw [hrep]; omega) (by rw [hfat0]; omega) (by rw [hfat0, hrep]; omega) (by rw [R3.total]; omega)

theorem agrees_format {o : FileOps F} {view : F → Bytes} (L : LawfulFile o view) (T : Truncates o) {d : Drv F}
    {v : Volume} (S : Sim view d v) {size : Int} (hf : (Ask.call (.format size)).Fits) :
    Agrees o view (Unwritten (v.range (.call (.format size))).1 (v.range (.call (.format size))).2 (v.step (.call (.format size)))) (ask o d (.call (.format size))) (v.step (.call (.format size))) := by
  obtain ⟨h1, h2⟩ := hf
  simp only [ask, Volume.step]
  by_cases hm : d.isMounted = true
  · rw [if_pos (show v.mounted = true from S.mounted ▸ hm)]
    refine .exact (d := d) ?_ S
    unfold formatImage
    rw [get_bind, if_pos hm]; rfl
  have hm' : d.isMounted = false := by simpa using hm
  rw [if_neg (show ¬ v.mounted = true from S.mounted ▸ hm)]
  obtain ⟨k1, k2⟩ := format_error (o := o) h1 h2 hm'
  by_cases hz : size % 128 = 0
  · rw [if_neg (by omega)]
    rcases hl : layout (size / 128).toNat with _ | l
    · rw [k2 hz hl]; exact .exact rfl S
    · rcases formatImage_spec L h1 h2 d (fun n _ => truncates_resized L T d.image n) with ⟨h, _⟩ | ⟨_, hn, _⟩ |
        ⟨_, N, l', g, d', r, hs, G, hg, hr, R, hd, hw, hv⟩
      · rw [h] at hm'; cases hm'
      · obtain ⟨g0, hg0⟩ := getGeometry_of_layout hl
        have := N_le hg0
        have hpos : layout 0 = none := by decide
        have hne : (size / 128).toNat ≠ 0 := fun h => by rw [h, hpos] at hl; cases hl
        have hs : size = ((size / 128).toNat * 128 : Nat) := by omega
        exact absurd hs (hn _ (by rw [hl]; simp))
      · have hN : (size / 128).toNat = N := by omega
        rw [hN] at hl ⊢
        have hll : l' = l := by have := G.lay.symm.trans hl; simpa using this
        subst hll
        have hgeo : d'.geometry = g := by rw [hd]
        have hlen : (formatted l' N v.image).length = N * 128 := by
          have := G.inside
          rw [← formatted_eq G, length_splice, length_resized]
          rw [length_resized, length_newTrack G.dirents (by have := G.split; omega) (length_newFat l')]; omega
        have := G.N_le
        obtain ⟨d2, r2, hr2, herr, hloc⟩ := format_local L T hl hm'
        have hs' : size = (N * 128 : Nat) := hs
        rw [hs'] at hr ⊢
        rw [hr] at hr2
        simp only [Outcome.ret.injEq, Prod.mk.injEq] at hr2
        obtain ⟨rfl, rfl⟩ := hr2
        have mk : ∀ w, view d'.image = w → w.length = N * 128 →
            Sim view d' { v with image := w, blocks := N, shape := some l' } := fun w hw1 hw2 =>
          ⟨hw1, by simp only; omega, by rw [hd]; exact S.mounted, by rw [hd]; exact S.fat, S.fatLen,
            by rw [hd]; exact S.dirents, .inr ⟨l', N, rfl, hgeo ▸ G, R.geo⟩, .inr ⟨R, l', rfl, hgeo ▸ G, by rw [hd]⟩⟩
        rcases herr with ⟨⟨⟩, rfl⟩ | ⟨e, rfl⟩
        · rw [hr]
          exact .exact rfl (mk _ (by rw [hv rfl, formatted_eq G, S.image]) hlen)
        · refine .fail (congrArg _ hr) (mk (view d'.image) rfl R.len) (fun ⟨_, W⟩ => by have := hw (Writable.format W); cases this) ?_
          have hrg : v.range (.call (.format ((N * 128 : Nat) : Int))) = (l'.dirStart * 128, l'.spt * 128) := by
            simp only [Volume.range]; rw [show (((N * 128 : Nat) : Int) / 128).toNat = N by omega, hl]
          rw [hrg]
          refine ⟨rfl, rfl, by simp only; rw [hlen, R.len], fun k hk => ?_⟩
          simp only at hk ⊢
          rw [hloc k (by omega), S.image, ← formatted_eq G, getElem?_splice, length_newTrack G.dirents (by have := G.split; omega) (length_newFat l')]
          · rcases hk with h | h
            · rw [if_pos h]
            · rw [if_neg (by omega), if_neg (by omega)]
          · have := G.inside
            rw [length_resized]; omega
  · rw [if_pos hz, k1 hz]; exact .exact rfl S

theorem agrees_mount {o : FileOps F} {view : F → Bytes} (L : LawfulFile o view) {d : Drv F}
    {v : Volume} (S : Sim view d v) : Agrees o view (fun v' => v.mounted = false ∧ (v' = v ∨ ∃ l, layout (v.image.length / 128) = some l ∧
      (v' = { v with shape := some l } ∨ ∃ fat, v.readFAT = .bytes fat ∧ v' = { v with shape := some l, fat := fat })))
       (ask o d (.call .mount)) (v.step (.call .mount)) := by
  simp only [ask, Volume.step]
  by_cases hm : d.isMounted = true
  · rw [if_pos (show v.mounted = true from S.mounted ▸ hm)]
    refine .exact (d := d) ?_ S
    unfold mount
    rw [get_bind, if_pos hm]; rfl
  have hm' : d.isMounted = false := by simpa using hm
  rw [if_neg (show ¬ v.mounted = true from S.mounted ▸ hm)]
  rcases S.state with ⟨hb, hst, _, hfat⟩ | ⟨Rd, l, hsh, G, hst⟩
  · have hrf : v.readFAT = .failed .pastEnd := by unfold Volume.readFAT; rw [hb]; rfl
    rw [hrf]
    unfold mount
    rw [get_bind, if_neg hm, modify_bind]
    have hsv := L.seek_view d.image
    rcases hn : (o.seekEnd d.image).2 with e | n
    · exact .fail rfl (S.same hsv) (fun ⟨R, _⟩ => by obtain ⟨n, h⟩ := R.seek d.image; rw [hn] at h; cases h)
        ⟨by rw [← S.mounted]; exact hm', .inl rfl⟩
    have hok := L.seek_ok d.image n hn
    rw [S.image] at hok hsv
    have := S.small
    simp only
    have hdiv : ((v.image.length : Int) % 2 ^ 64).toNat / 128 = v.image.length / 128 := by omega
    rw [hok, hdiv]
    rcases hl : layout (v.image.length / 128) with _ | l
    · rw [getGeometry_none hl]
      exact .exact rfl (S.same (hsv.trans S.image.symm))
    · obtain ⟨g, hg⟩ := getGeometry_of_layout hl
      obtain ⟨l', G⟩ := good_of hg
      have : l' = l := by have := G.lay.symm.trans hl; simpa using this
      subst this
      rw [hg]
      simp only
      rw [modify_bind, bind_err (getFAT_fresh (by simp only; rw [hst]))]
      exact .exact rfl ⟨hsv, S.small, S.mounted, S.fat, S.fatLen, S.dirents, .inr ⟨l', _, rfl, G, hg⟩, .inl ⟨hb, hst, hm', hfat⟩⟩
  · have hlen := Rd.len
    rw [S.image] at hlen
    rw [show v.image.length / 128 = v.blocks by omega, G.lay]
    simp only
    have hv0 : ({ v with shape := some l } : Volume) = v := by rw [← hsh]
    unfold Volume.readFAT
    rw [G.lay]
    simp only
    rcases mount_spec L Rd G with ⟨h, _⟩ | ⟨_, d', r, hr, hv, R', g1, g2, g3, hres, hfat⟩
    · rw [h] at hm'; cases hm'
    rw [hr]
    rw [S.image] at hres hv hfat
    have hlf := length_fatCopy Rd G (i := 0) (by omega)
    rw [S.image] at hlf
    have := G.spf_le
    have hmv : v.mounted = false := by rw [← S.mounted]; exact hm'
    rcases hres with ⟨⟨e, rfl⟩, hn, hm2⟩ | ⟨rfl, hm2, hc, hfc⟩ | ⟨rfl, hm2, hc, hf2, _⟩
    · rcases hfat with hf2 | ⟨hf2, hc⟩
      · exact .fail (v' := v) rfl ⟨hv, S.small, by rw [hm2, hmv], by rw [hf2]; exact S.fat,
          S.fatLen, by rw [g2]; exact S.dirents, .inr ⟨l, _, hsh, by rw [g1]; exact G, R'.geo⟩,
          .inr ⟨R', l, hsh, by rw [g1]; exact G, by rw [g3, hst]⟩⟩ (fun k => hn k.1) ⟨hmv, .inl rfl⟩
      · exact .fail (v' := { v with shape := some l, fat := fatCopy l v.image 0 }) rfl ⟨hv, S.small,
          by simp only; rw [hm2, hmv], hf2, by simp only; rw [hlf]; omega, by rw [g2]; exact S.dirents,
          .inr ⟨l, _, rfl, by rw [g1]; exact G, R'.geo⟩,
          .inr ⟨⟨R'.geo, R'.total, R'.len⟩, l, rfl, by rw [g1]; exact G, by rw [g3, hst]⟩⟩ (fun k => hn k.1)
          ⟨hmv, .inr ⟨l, rfl, .inr ⟨_, if_pos hc, rfl⟩⟩⟩
    · rw [if_neg hc]
      simp only
      rw [hv0]
      exact .exact rfl ⟨hv, S.small, by rw [hm2, ← S.mounted, hm'], by rw [hfc]; exact S.fat, S.fatLen, by rw [g2]; exact S.dirents,
        .inr ⟨l, _, hsh, by rw [g1]; exact G, R'.geo⟩, .inr ⟨R', l, hsh, by rw [g1]; exact G, by rw [g3, hst]⟩⟩
    · rw [if_pos hc]
      simp only
      exact .exact rfl ⟨hv, S.small, hm2, hf2, by simp only; rw [hlf]; omega, by rw [g2]; exact S.dirents,
        .inr ⟨l, _, rfl, by rw [g1]; exact G, R'.geo⟩, .inr ⟨⟨R'.geo, R'.total, R'.len⟩, l, rfl, by rw [g1]; exact G, by rw [g3, hst]⟩⟩

/-! ### Programs -/

theorem agrees_ask {o : FileOps F} {view : F → Bytes} (L : LawfulFile o view) (T : Truncates o) {d : Drv F} {v : Volume}
    (S : Sim view d v) (a : Ask) (hf : a.Fits) : Agrees o view (v.Interrupted a) (ask o d a) (v.step a) := by
  cases a with
  | isValidCluster c => simp only [ask, Volume.step]; rw [S.valid]; exact .exact rfl S
  | stat path =>
    refine .exact (d := d) ?_ S
    simp only [ask, Volume.step, stat]
    rw [S.dirents]; rfl
  | fsStat =>
    refine .exact (d := d) ?_ S
    simp only [ask, Volume.step, fsStat]
    unfold spaceOf
    rcases S.state with ⟨h1, h2, _⟩ | ⟨_, l, _, G, h⟩
    · rw [h1, h2]; rfl
    · rw [G.lay, h]; rfl
  | call c =>
    cases c with
    | format size => exact (agrees_format L T S hf).mono fun _ h => h
    | mount => exact (agrees_mount L S).mono fun _ h => h
    | unmount =>
      refine .exact (d := { d with isMounted := false }) rfl ⟨S.image, S.small, rfl, S.fat, S.fatLen, S.dirents, S.shape, ?_⟩
      rcases S.state with ⟨h1, h2, _, h4⟩ | ⟨Rd, h⟩
      · exact .inl ⟨h1, h2, rfl, h4⟩
      · exact .inr ⟨⟨Rd.geo, Rd.total, Rd.len⟩, h⟩
    | flush => exact (agrees_flush L S).mono fun _ h => h
    | getFAT => exact (agrees_getFAT L S).mono fun _ h => h
    | readBlocks s n => exact (agrees_get L S hf).mono fun _ h => h
    | writeBlocks s data => exact (agrees_put L S hf.1 hf.2).mono fun _ h => h
    | readCluster c => exact (agrees_readCluster L S c).mono fun _ h => h
    | writeCluster c data => exact (agrees_putCluster L S c hf.2).mono fun _ h => h
    | readFile e i => exact (agrees_readFile L S hf).mono fun _ h => h
    | writeFile e i data => exact (agrees_writeFile L S hf).mono fun _ h => h

theorem agrees_all {o : FileOps F} {view : F → Bytes} (L : LawfulFile o view) (T : Truncates o) (R : Readable o view)
    (W : Writable o) (p : List Ask) {d : Drv F} {v : Volume} (S : Sim view d v) (hf : ∀ a ∈ p, a.Fits) :
    ∃ d', askAll o d p = .ret (d', (v.run p).2) ∧ Sim view d' (v.run p).1 := by
  induction p generalizing d v with
  | nil => exact ⟨d, rfl, S⟩
  | cons a rest ih =>
    obtain ⟨d1, ⟨h1, S1⟩ | ⟨hn, _⟩⟩ := agrees_ask L T S a (hf a (by simp))
    · obtain ⟨d2, h2, S2⟩ := ih S1 (fun b hb => hf b (by simp [hb]))
      refine ⟨d2, ?_, S2⟩
      simp only [askAll, h1, h2, Volume.run]
    · exact absurd ⟨R, W⟩ hn

theorem behaves_all {o : FileOps F} {view : F → Bytes} (L : LawfulFile o view) (T : Truncates o) (p : List Ask) {d : Drv F}
    {v : Volume} (S : Sim view d v) (hf : ∀ a ∈ p, a.Fits) :
    ∃ d' v' xs, askAll o d p = .ret (d', xs) ∧ Sim view d' v' ∧ v.Behaves p v' xs := by
  induction p generalizing d v with
  | nil => exact ⟨d, v, [], rfl, S, .nil⟩
  | cons a rest ih =>
    obtain ⟨d1, ⟨h1, S1⟩ | ⟨_, e, v1, h1, hI, S1⟩⟩ := agrees_ask L T S a (hf a (by simp))
    · obtain ⟨d2, v2, xs, h2, S2, B⟩ := ih S1 (fun b hb => hf b (by simp [hb]))
      exact ⟨d2, v2, _, by simp only [askAll, h1, h2], S2, .served B⟩
    · obtain ⟨d2, v2, xs, h2, S2, B⟩ := ih S1 (fun b hb => hf b (by simp [hb]))
      exact ⟨d2, v2, .failed (.file e) :: xs, by simp only [askAll, h1, h2], S2, .failed hI B⟩

theorem sim_new {view : F → Bytes} {f0 : F} (h : (view f0).length < 2 ^ 63) : Sim view (newDriver f0) { image := view f0 } :=
  ⟨rfl, h, rfl, rfl, by simp, rfl, .inl ⟨rfl, rfl⟩, .inl ⟨rfl, rfl, rfl, rfl⟩⟩

/-- C156: on an image file that does not fail, whatever it holds, every program that uses a new driver gets the answers of the machine
that starts with the bytes of the file, and leaves the machine's bytes in the file; no call panics. -/
theorem C156_fat8_machine {o : FileOps F} {view : F → Bytes} (L : LawfulFile o view) (T : Truncates o) (R : Readable o view)
    (W : Writable o) {f0 : F} (hlen : (view f0).length < 2 ^ 63) (p : List Ask) (hf : ∀ a ∈ p, a.Fits) :
    ∃ d, askAll o (newDriver f0) p = .ret (d, (Volume.run { image := view f0 } p).2) ∧
      view d.image = (Volume.run { image := view f0 } p).1.image := by
  obtain ⟨d, h, S⟩ := agrees_all L T R W p (sim_new hlen) hf
  exact ⟨d, h, S.image⟩

/-- C156 for a file that may fail at any time (but can be truncated): every program gets, call by call, the machine's answer or an
error of the file, and what is left in the latter case is the machine's state except for the bytes that were being written. -/
theorem C156_failing_file {o : FileOps F} {view : F → Bytes} (L : LawfulFile o view) (T : Truncates o) {f0 : F}
    (hlen : (view f0).length < 2 ^ 63) (p : List Ask) (hf : ∀ a ∈ p, a.Fits) :
    ∃ d v xs, askAll o (newDriver f0) p = .ret (d, xs) ∧ view d.image = v.image ∧ Volume.Behaves { image := view f0 } p v xs := by
  obtain ⟨d, v, xs, h, S, B⟩ := behaves_all L T p (sim_new hlen) hf
  exact ⟨d, v, xs, h, S.image, B⟩

/-- The three copies of the FAT of a formatted image. -/
theorem fatCopy_formatted {N : Nat} {l : Layout} {g : Geometry} (G : Good N l g) (w : Bytes) {i : Nat} (hi : i < 3) :
    fatCopy l (formatted l N w) i = blankFAT l := by
  rw [← formatted_eq G]
  have hl := length_newFat l
  have hr := length_resized w (N * 128)
  have := G.split; have := G.dirents; have := G.inside
  unfold newTrack
  have h := splice_splice_adjacent (d := resized w (N * 128)) (v := List.replicate (l.direntSectors * 128) 0xff ++ List.replicate 128 0)
    (w := newFat l ++ newFat l ++ newFat l) (a := l.dirStart * 128) (by
      simp only [List.length_append, List.length_replicate]; omega)
  rw [← h]
  have e : l.dirStart * 128 + (List.replicate (l.direntSectors * 128) (0xff : UInt8) ++ List.replicate 128 0).length = l.fatStart 0 * 128 := by
    simp only [List.length_append, List.length_replicate]; unfold Layout.fatStart; omega
  rw [e, fatCopy_splice G ?_ hl hi, newFat_eq G.lay]
  rw [length_splice (by simp only [List.length_append, List.length_replicate]; omega), hr]

/-- C156 is not vacuous: a file in memory satisfies the hypotheses; and for every image the program below formats, mounts, is refused
a second Mount and FormatImage, reads the FAT, unmounts, and is refused a volume of 641 sectors. -/
example (w : Bytes) (hw : w.length < 2 ^ 63) :
    ∃ d, askAll memFile (newDriver w) [.call .getFAT, .call (.format 81920), .call .mount, .call .mount, .call (.format 81920), .call .getFAT,
        .call .unmount, .call (.format 82048), .call (.writeFile ⟨[80], 0, true, 0⟩ 0 (List.replicate 1024 7)), .isValidCluster 81, .fsStat] =
      .ret (d, [.failed .pastEnd, .done, .done, .failed .alreadyInProgress, .failed .busy, .bytes (blankFAT ⟨40, 16, 17, 1⟩), .done,
        .failed .badBlockCount, .failed .ioFailed, .bool false, .space ⟨128, 640, 624, 624, 0, 96, 10⟩]) := by
  have hl : layout 640 = some ⟨40, 16, 17, 1⟩ := rfl
  obtain ⟨g, hg⟩ := getGeometry_of_layout hl
  obtain ⟨l, G⟩ := good_of hg
  have : l = ⟨40, 16, 17, 1⟩ := by have := G.lay.symm.trans hl; simpa using this
  subst this
  have hlen : (formatted ⟨40, 16, 17, 1⟩ 640 w).length = 81920 := by
    rw [← formatted_eq G, length_splice, length_resized]
    rw [length_resized]; simp [-List.reduceReplicate, newTrack, newFat, Layout.dirStart, Layout.direntSectors]
  have h0 := fatCopy_formatted G w (i := 0) (by omega)
  have h1 := fatCopy_formatted G w (i := 1) (by omega)
  have h2 := fatCopy_formatted G w (i := 2) (by omega)
  obtain ⟨d, h, _⟩ := C156_fat8_machine memFile_lawful memFile_truncates memFile_readable memFile_writable (f0 := w) hw
    [.call .getFAT, .call (.format 81920), .call .mount, .call .mount, .call (.format 81920), .call .getFAT,
        .call .unmount, .call (.format 82048), .call (.writeFile ⟨[80], 0, true, 0⟩ 0 (List.replicate 1024 7)), .isValidCluster 81, .fsStat]
    (by simp [-List.reduceReplicate, Ask.Fits, maxInt])
  refine ⟨d, h.trans ?_⟩
  have e1 : layout (Int.toNat (81920 / 128)) = some ⟨40, 16, 17, 1⟩ := rfl
  have e2 : layout 641 = none := rfl
  have e3 : layout 0 = none := rfl
  have e4 : Int.toNat (81920 / 128) = 640 := rfl
  have e5 : layout (81920 / 128) = some ⟨40, 16, 17, 1⟩ := rfl
  set_option maxRecDepth 10000 in
  simp [-List.reduceReplicate, Volume.run, Volume.step, Volume.readFAT, Volume.putCluster, Volume.hasCluster, Volume.spc, Volume.spt, Volume.put, spaceOf,
    hl, e3, e1, e2, e4, e5, hlen, h0, h1, h2, Layout.clusters, Layout.spc, Layout.direntSectors, id]

end Disko.Fat8

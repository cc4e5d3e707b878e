import Verif.Fat8.Lemmas
/-! Invariants of a FAT8 driver, and what the calls do under them. -/
namespace Disko.Fat8
open Disko Disko.Fat8.Spec

variable {F : Type}

/-- What holds of every driver that exists (if Truncate works). -/
structure Inv (view : F → Bytes) (d : Drv F) : Prop where
  dirents : d.dirents = []
  geo : d.geometry = {} ∨ ∃ n, getGeometry n = .ok d.geometry
  fatLen : d.fat.length ≤ 256
  state : (d.stat = {} ∧ d.isMounted = false ∧ d.fat = [] ∧ d.freeClusters = []) ∨ ∃ N, Ready view N d
  mounted : d.isMounted = true → d.fat.length = d.geometry.sectorsPerFAT * 128

theorem Inv.enough {view : F → Bytes} {d : Drv F} (I : Inv view d) : Enough view d := by
  rcases I.state with ⟨h, _⟩ | ⟨N, R⟩
  · unfold Enough; rw [h]; exact ⟨by decide, by simp⟩
  · exact R.enough

theorem Inv.step {view : F → Bytes} {d d' : Drv F} (I : Inv view d) (hs : ImgStep view d d') : Inv view d' := by
  have hr := hs.rest
  refine ⟨?_, ?_, ?_, ?_, ?_⟩
  · rw [hr]; exact I.dirents
  · rw [hr]; exact I.geo
  · rw [hr]; exact I.fatLen
  · rcases I.state with h | ⟨N, R⟩
    · left; rw [hr]; exact h
    · exact .inr ⟨N, R.step hs⟩
  · rw [hr]; exact I.mounted

theorem Inv.ready {view : F → Bytes} {d : Drv F} (I : Inv view d) (hm : d.isMounted = true) :
    ∃ N, Ready view N d := by
  rcases I.state with ⟨_, h, _⟩ | h
  · rw [hm] at h; simp at h
  · exact h

theorem fatsStart_lt {d : Drv F} {view : F → Bytes} (I : Inv view d) : d.geometry.fatsStart < 2 ^ 64 := by
  rcases I.geo with h | ⟨n, h⟩
  · rw [h]; decide
  · obtain ⟨l, G⟩ := good_of h
    rw [G.fats]
    have := G.inside; have := G.split; have := G.N_le
    unfold Layout.fatStart; omega

theorem after_ret {α : Type} {x : Outcome (Drv F × Except Err α)} {d' : Drv F} (h : after x = .ret d') :
    ∃ r, x = .ret (d', r) := by
  unfold after at h
  split at h
  · cases h; exact ⟨_, rfl⟩
  · simp at h
  · simp at h

/-- A call that reads or writes blocks. -/
def Plain (view : F → Bytes) (α : Type) (m : M F α) : Prop :=
  ∀ d d' r, Inv view d → m d = .ret (d', r) → ImgStep view d d'

theorem plain_bind {view : F → Bytes} {α β : Type} {m : M F α} {f : α → M F β} (h : Plain view α m)
    (hf : ∀ a, Plain view β (f a)) : Plain view β (m >>= f) := by
  intro d d' r I hr
  rcases hm : m d with ⟨d1, e | a⟩ | _ | _
  · rw [bind_err hm] at hr; cases hr; exact h _ _ _ I hm
  · rw [bind_ok hm] at hr
    have s := h _ _ _ I hm
    exact s.trans (hf a _ _ _ (I.step s) hr)
  · rw [Fat8.bind_panic hm] at hr; simp at hr
  · change M.bind m f d = _ at hr
    unfold M.bind at hr; rw [hm] at hr; simp at hr

theorem plain_get {view : F → Bytes} {β : Type} {f : Drv F → M F β}
    (hf : ∀ d, Inv view d → ∀ d' r, f d d = .ret (d', r) → ImgStep view d d') : Plain view β (get >>= f) := by
  intro d d' r I hr
  rw [get_bind] at hr
  exact hf d I d' r hr

theorem plain_throw {view : F → Bytes} {α : Type} (e : Err) : Plain view α (throw e) := by
  intro d d' r I hr; cases hr; exact .refl _ _

theorem plain_pure {view : F → Bytes} {α : Type} (a : α) : Plain view α (pure a) := by
  intro d d' r I hr; cases hr; exact .refl _ _

theorem plain_panic {view : F → Bytes} {α : Type} : Plain view α panic := by
  intro d d' r I hr; simp [Fat8.panic] at hr

theorem plain_read {o : FileOps F} {view : F → Bytes} (L : LawfulFile o view) (s n : Nat) :
    Plain view Bytes (readDiskBlocks o s n) := fun _ _ _ _ hr => (read_imgStep L hr).1

theorem plain_write {o : FileOps F} {view : F → Bytes} (L : LawfulFile o view) {s : Nat} {data : Bytes}
    (hs : s < 2 ^ 64) (hd : data.length ≤ maxInt) : Plain view Unit (writeDiskBlocks o s data) := by
  intro d d' r I hr
  obtain ⟨d1, r1, h1, s1⟩ := write_imgStep L hs hd I.enough
  rw [h1] at hr; cases hr; exact s1

theorem plain_readCluster {o : FileOps F} {view : F → Bytes} (L : LawfulFile o view) (c : Nat) :
    Plain view Bytes (readAbsoluteCluster o c) := by
  unfold readAbsoluteCluster
  refine plain_get fun d I d' r hr => ?_
  split at hr
  · exact plain_throw _ _ _ _ I hr
  · exact plain_read L _ _ _ _ _ I hr

theorem plain_writeCluster {o : FileOps F} {view : F → Bytes} (L : LawfulFile o view) (c : Nat) {data : Bytes}
    (hd : data.length ≤ maxInt) : Plain view Unit (writeAbsoluteCluster o c data) := by
  unfold writeAbsoluteCluster
  refine plain_get fun d I d' r hr => ?_
  split at hr
  · exact plain_throw _ _ _ _ I hr
  · split at hr
    · exact plain_throw _ _ _ _ I hr
    · exact plain_write L (Nat.mod_lt _ (by decide)) hd _ _ _ I hr

theorem plain_getFAT {o : FileOps F} {view : F → Bytes} (L : LawfulFile o view) : Plain view Bytes (getFAT o) := by
  unfold getFAT
  refine plain_get fun d I d' r hr => ?_
  refine (plain_bind (plain_read L _ _) fun a => plain_bind (plain_read L _ _) fun b =>
    plain_bind (plain_read L _ _) fun c => ?_) d d' r I hr
  split
  · exact plain_throw _
  · split
    · exact plain_throw _
    · exact plain_pure _

theorem plain_flush {o : FileOps F} {view : F → Bytes} (L : LawfulFile o view) : Plain view Unit (flush o) := by
  unfold flush
  refine plain_get fun d I d' r hr => ?_
  refine plain_write L (fatsStart_lt I) ?_ _ _ _ I hr
  rw [repeatBytes_three]
  simp only [List.length_append]
  have := I.fatLen
  unfold maxInt; omega

theorem plain_readFile {o : FileOps F} {view : F → Bytes} (L : LawfulFile o view) (e : DirectoryEntry) (i : Nat) :
    Plain view Bytes (readFileCluster o e i) := by
  unfold readFileCluster
  refine plain_get fun d I d' r hr => ?_
  split at hr
  · exact plain_throw _ _ _ _ I hr
  · rcases hc : e.clusters[i]? with _ | c
    · rw [hc] at hr; exact plain_panic _ _ _ I hr
    · rw [hc] at hr; exact plain_read L _ _ _ _ _ I hr

theorem plain_writeFile {o : FileOps F} {view : F → Bytes} (L : LawfulFile o view) (e : DirectoryEntry) (i : Nat)
    {data : Bytes} (hd : data.length ≤ maxInt) : Plain view Unit (writeFileCluster o e i data) := by
  unfold writeFileCluster
  split
  · exact plain_throw _
  · split
    · exact plain_panic
    · exact plain_writeCluster L _ hd

theorem inv_format {o : FileOps F} {view : F → Bytes} (L : LawfulFile o view) (T : Truncates o) {size : Int}
    (h1 : -(2 ^ 63) ≤ size) (h2 : size < 2 ^ 63) {d d' : Drv F} {r : Except Err Unit} (I : Inv view d)
    (hr : formatImage o size d = .ret (d', r)) : Inv view d' := by
  rcases formatImage_spec L h1 h2 d (fun n _ => truncates_resized L T d.image n) with ⟨_, h⟩ | ⟨_, _, e, h⟩ | ⟨hm, N, l, g, d1, r1, _, G, hg, h, R, hd, _⟩
  · rw [h] at hr; cases hr; exact I
  · rw [h] at hr; cases hr; exact I
  · rw [h] at hr; cases hr
    refine ⟨?_, .inr ⟨N, ?_⟩, ?_, .inr ⟨N, R⟩, ?_⟩
    · rw [hd]; exact I.dirents
    · exact R.geo
    · rw [hd]; exact I.fatLen
    · rw [hd]; intro h; rw [hm] at h; simp at h

theorem length_fatCopy {view : F → Bytes} {N : Nat} {l : Layout} {d : Drv F} (R : Ready view N d)
    (G : Good N l d.geometry) {i : Nat} (hi : i < 3) : (fatCopy l (view d.image) i).length = l.fatSectors * 128 := by
  unfold fatCopy sectors
  have hin := G.inside
  have hsp := G.split
  have : i * l.fatSectors ≤ 2 * l.fatSectors := Nat.mul_le_mul_right _ (by omega)
  rw [length_slice_of_le]
  rw [R.len]; unfold Layout.fatStart; omega

theorem inv_mount {o : FileOps F} {view : F → Bytes} (L : LawfulFile o view) {d d' : Drv F} {r : Except Err Unit}
    (I : Inv view d) (hr : mount o d = .ret (d', r)) : Inv view d' := by
  rcases I.state with ⟨h1, h2, h3, h4⟩ | ⟨N, R⟩
  · obtain ⟨f', g, e, h, hv, hg⟩ := mount_fresh L (d := d) (by rw [h1]) h2
    rw [h] at hr; cases hr
    refine ⟨I.dirents, ?_, I.fatLen, .inl ⟨h1, h2, h3, h4⟩, ?_⟩
    · rcases hg with rfl | hg
      · exact I.geo
      · exact .inr hg
    · intro h; simp [h2] at h
  · obtain ⟨l, G⟩ := good_of R.geo
    rcases mount_spec L R G with ⟨_, h⟩ | ⟨hm, d1, r1, h, hv, R1, g1, g2, g3, hres, hfat⟩
    · rw [h] at hr; cases hr; exact I
    · rw [h] at hr; cases hr
      have hlf := length_fatCopy R G (i := 0) (by omega)
      have := G.spf_le
      refine ⟨by rw [g2]; exact I.dirents, .inr ⟨N, R1.geo⟩, ?_, .inr ⟨N, R1⟩, ?_⟩
      · rcases hfat with e | e
        · rw [e]; exact I.fatLen
        · rw [e.1, hlf]; omega
      · intro hm'
        rcases hres with ⟨_, _, h⟩ | ⟨_, h, _⟩ | ⟨_, _, _, hf, _⟩
        · rw [hm'] at h; simp at h
        · rw [hm'] at h; simp at h
        · rw [hf, hlf, g1, G.spf]

/-- Every driver that exists satisfies the invariant. -/
theorem reachable_inv {o : FileOps F} {view : F → Bytes} (L : LawfulFile o view) (T : Truncates o) {f0 : F} {d : Drv F}
    (h : Reachable o f0 d) : Inv view d := by
  induction h with
  | new => exact ⟨rfl, .inl rfl, by simp [newDriver], .inl ⟨rfl, rfl, rfl, rfl⟩, by simp [newDriver]⟩
  | @call d d' c _ hv hs I =>
    cases c with
    | format size => obtain ⟨r, hr⟩ := after_ret hs; exact inv_format L T hv.1 hv.2 I hr
    | mount => obtain ⟨r, hr⟩ := after_ret hs; exact inv_mount L I hr
    | unmount =>
      change after (unmount d) = _ at hs
      obtain ⟨r, hr⟩ := after_ret hs
      cases hr
      refine ⟨I.dirents, I.geo, I.fatLen, ?_, by simp⟩
      rcases I.state with ⟨h1, _, h3⟩ | ⟨N, R⟩
      · exact .inl ⟨h1, rfl, h3⟩
      · exact .inr ⟨N, R.geo, R.total, R.len⟩
    | flush => obtain ⟨r, hr⟩ := after_ret hs; exact I.step (plain_flush L _ _ _ I hr)
    | getFAT => obtain ⟨r, hr⟩ := after_ret hs; exact I.step (plain_getFAT L _ _ _ I hr)
    | readBlocks s n => obtain ⟨r, hr⟩ := after_ret hs; exact I.step (plain_read L _ _ _ _ _ I hr)
    | writeBlocks s data => obtain ⟨r, hr⟩ := after_ret hs; exact I.step (plain_write L hv.1 hv.2 _ _ _ I hr)
    | readCluster c => obtain ⟨r, hr⟩ := after_ret hs; exact I.step (plain_readCluster L _ _ _ _ I hr)
    | writeCluster c data => obtain ⟨r, hr⟩ := after_ret hs; exact I.step (plain_writeCluster L _ hv.2 _ _ _ I hr)
    | readFile e i =>
      change after (readFileCluster o e i d) = _ at hs
      obtain ⟨r, hr⟩ := after_ret hs; exact I.step (plain_readFile L _ _ _ _ _ I hr)
    | writeFile e i data =>
      change after (writeFileCluster o e i data d) = _ at hs
      obtain ⟨r, hr⟩ := after_ret hs; exact I.step (plain_writeFile L _ _ hv.2.2.2 _ _ _ I hr)

/-- Once a driver has been formatted successfully its volume is ready. -/
theorem reachable_ready {o : FileOps F} {view : F → Bytes} (L : LawfulFile o view) (T : Truncates o) {f0 : F} {d : Drv F}
    (h : Reachable o f0 d) (hb : d.stat.totalBlocks ≠ 0) : ∃ N l, Ready view N d ∧ Good N l d.geometry := by
  rcases (reachable_inv L T h).state with ⟨h1, _⟩ | ⟨N, R⟩
  · rw [h1] at hb; exact absurd rfl hb
  · obtain ⟨l, G⟩ := good_of R.geo
    exact ⟨N, l, R, G⟩

end Disko.Fat8

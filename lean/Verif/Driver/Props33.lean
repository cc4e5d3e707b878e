import Verif.Driver.Props25
/-! C123, exactly what leaks: for every implementation, path and state. -/
namespace Disko.Driver
open Disko Spec BlockCache

variable {σ H α β : Type}

namespace Spec

/-- Of the handles the call gets, it leaves open the one the file `f` holds, and no other: whether it succeeds or fails. -/
def LeavesOpen (m : M (Lives σ) α) (t : Lives σ) (f : File (Tagged H)) : Prop :=
  ∀ t' r, m t = .ret (t', r) → ∀ k, Leaked t t' k ↔ ∃ h, f.objectHandle.inner = some (h, some k)

/-- The call gets the same handles as the other, which went from `t` to `t1`; it closes them all but for at most one, and that is the only difference. -/
def ClosesAllButOne (m : M (Lives σ) α) (t t1 : Lives σ) : Prop :=
  ∀ t' r, m t = .ret (t', r) → t'.issued = t1.issued ∧ (∀ k, k ∈ t1.closed ↔ k ∈ t'.closed ∨ Leaked t t' k) ∧ ∀ j k, Leaked t t' j → Leaked t t' k → j = k

/-- Handles that have been closed were given out before. -/
def Sane (t : Lives σ) : Prop := ∀ k ∈ t.closed, k < t.issued

end Spec

namespace Mortal

theorem leaked_still {t t1 t' : Lives σ} (h : Still t1 t') (k : Nat) : Leaked t t' k ↔ Leaked t t1 k := by
  unfold Leaked
  rw [h.1, h.2]

theorem tag_iff {e : Ext (Tagged H)} {k : Nat} : tag e = some k ↔ ∃ h, e.inner = some (h, some k) := by
  unfold tag
  rcases e with ⟨_ | ⟨h, _ | j⟩, p⟩
  · exact ⟨fun h => (by cases h), fun ⟨h, hh⟩ => (by cases hh)⟩
  · exact ⟨fun h => (by cases h), fun ⟨h, hh⟩ => (by cases hh)⟩
  · exact ⟨fun h => (by cases h; exact ⟨_, rfl⟩), fun ⟨h, hh⟩ => (by cases hh; rfl)⟩

section
variable (cfg : Cfg) (I : Impl σ H) (mf : MountFlags) (wd : Str) (g : Garbage σ H)

local notation "d" => md cfg I mf wd g

/-- After a lookup, the handle found is open, and no other of those given out since. -/
theorem found_leaks (hk : cfg.keepHandle = true) {n : Nat} {p : Str} {t t1 : Lives σ} (hi : Lives.Inv t) {e : Ext (Tagged H)} (h : getFollow d n p t = .ret (t1, .ok e)) :
    (∀ k, Leaked t t1 k ↔ tag e = some k) ∧ Lives.Inv t1 ∧ Live t1 e ∧ Step (New t) t t1 := by
  obtain ⟨s1, j1, o⟩ := (follow_safe cfg I mf wd g g n t p hi).2 _ _ h
  have o := o e rfl
  obtain ⟨_, _, h3⟩ := (resolve_tidy cfg I mf wd g hk n).2.1 p _ _ _ h
  refine ⟨fun k => ⟨fun hl => ?_, fun hl => ⟨(o.held k hl).1, o.live k hl⟩⟩, j1, o.live, s1⟩
  rcases h3 k (.inl ⟨hl.1, hl.2.1⟩) with h | ⟨a, ha, hw⟩
  · exact absurd h hl.2.2
  · cases ha; exact hw

theorem lost_leaks (hk : cfg.keepHandle = true) {n : Nat} {p : Str} {t t1 : Lives σ} {er : Err} (h : getFollow d n p t = .ret (t1, .error er)) (k : Nat) : ¬ Leaked t t1 k := fun hl => by
  obtain ⟨_, _, h3⟩ := (resolve_tidy cfg I mf wd g hk n).2.1 p _ _ _ h
  rcases h3 k (.inl ⟨hl.1, hl.2.1⟩) with h | ⟨a, ha, hw⟩
  · exact hl.2.2 h
  · cases ha

theorem newFile_still {t t' : Lives σ} {e : Ext (Tagged H)} {flags : Flags.IOFlags} {r : Except Err (File (Tagged H))} (h : newFile d e flags t = .ret (t', r)) : Still t t' := by
  have P := still_pre (σ := σ)
  rcases e with ⟨_ | x, p⟩
  · unfold newFile M.andThen statOf Ext.method at h; cases h
  · unfold newFile at h
    rw [andThen_ok (a := (d).impl.stat t x) (s' := t) rfl] at h
    simp only [Ext.method] at h
    rcases hc : BlockCache.new (Stream.toUint ((d).impl.stat t x).blockSize) (Stream.toUint ((d).impl.stat t x).numBlocks) with c | _ | _
    · rw [hc] at h
      simp only at h
      have hfr := Stream.new_frame (R := fun t t' : Lives σ => Still t t') P.refl (backendOf (d).impl x) ((d).impl.stat t x).size ⟨c, t⟩ flags fun _ s => still_use s x _
      rcases hn : Stream.new (backendOf (d).impl x) ((d).impl.stat t x).size ⟨c, t⟩ flags with ⟨o, e⟩ | _ | _
      · have hx := hfr _ hn
        rw [hn] at h
        rcases o with _ | y <;> rcases e with _ | er
        · simp only at h; cases h
        · simp only at h; cases h; exact P.refl _
        · simp only at h; cases h; exact hx y rfl
        · simp only at h; cases h; exact hx y rfl
      · rw [hn] at h; cases h
      · rw [hn] at h; cases h
    · rw [hc] at h; cases h
    · rw [hc] at h; cases h

theorem optional_still {f : Tagged H → Option (Lives σ → Lives σ × Option Err)} (hf : ∀ h m, f h = some m → ∀ t, Still t (m t).1) (e : Ext (Tagged H)) {t t' : Lives σ} {r : Except Err Unit}
    (h : optionalCall d e f t = .ret (t', r)) : Still t t' := by
  unfold optionalCall at h
  rcases he : e.optional (d).cfg f with _ | m
  · rw [he] at h; cases h; exact .refl _
  · rw [he] at h
    obtain ⟨x, hx, hm⟩ := optional_tag he
    have := hf x m hm t
    simp only [M.callE] at h
    rcases e2 : m t with ⟨t2, _ | er⟩ <;> rw [e2] at h this <;> cases h <;> exact this

theorem chmod_still (mode : FileMode) (h : Tagged H) (m : Lives σ → Lives σ × Option Err)
    (hm : ((mortal I g).chmod h).map (fun m s => m s mode) = some m) (t : Lives σ) : Still t (m t).1 := by
  have hm : ((I.chmod h.1).map fun f (t : Lives σ) m => (t.use h (f t.s m).1, (f t.s m).2)).map (fun m s => m s mode) = some m := hm
  rcases e : I.chmod h.1 with _ | q
  · rw [e] at hm; cases hm
  · rw [e] at hm; cases hm; exact still_use t h _

theorem chown_still (u v : Int) (h : Tagged H) (m : Lives σ → Lives σ × Option Err)
    (hm : ((mortal I g).chown h).map (fun m s => m s u v) = some m) (t : Lives σ) : Still t (m t).1 := by
  have hm : ((I.chown h.1).map fun f (t : Lives σ) u v => (t.use h (f t.s u v).1, (f t.s u v).2)).map (fun m s => m s u v) = some m := hm
  rcases e : I.chown h.1 with _ | q
  · rw [e] at hm; cases hm
  · rw [e] at hm; cases hm; exact still_use t h _

theorem chtimes_still (a b c a' b' : Time) (h : Tagged H) (m : Lives σ → Lives σ × Option Err)
    (hm : ((mortal I g).chtimes h).map (fun m s => m s a b c a' b') = some m) (t : Lives σ) : Still t (m t).1 := by
  have hm : ((I.chtimes h.1).map fun f (t : Lives σ) a b c e v => (t.use h (f t.s a b c e v).1, (f t.s a b c e v).2)).map (fun m s => m s a b c a' b') = some m := hm
  rcases e : I.chtimes h.1 with _ | q
  · rw [e] at hm; cases hm
  · rw [e] at hm; cases hm; exact still_use t h _

/-- What Open found. -/
theorem open_lookup {n : Nat} {p : Str} {t t1 : Lives σ} {f : File (Tagged H)} (h : open_ d n p t = .ret (t1, .ok f)) :
    ∃ t0, getFollow d n (normalizePath wd p) t = .ret (t0, .ok f.objectHandle) := by
  unfold open_ openFile at h
  simp only [show Flags.requiresWritePerm Flags.O_RDONLY = false by decide, Bool.false_and, Bool.false_eq_true, if_false] at h
  unfold M.either at h
  rcases e : getFollow d n (normalizePath (d).workingDirPath p) t with ⟨t0, er | o⟩ | _ | _
  · rw [e] at h
    simp only [show Flags.create Flags.O_RDONLY = false by decide, Bool.and_false, Bool.false_eq_true, if_false] at h
    cases h
  · rw [e] at h
    simp only at h
    refine ⟨t0, ?_⟩
    rw [andThen_ok (a := o) (s' := t0) rfl] at h
    unfold M.andThen at h
    rcases e1 : statOf d o t0 with ⟨t2, er | st⟩ | _ | _
    · rw [e1] at h; cases h
    · rw [e1] at h
      simp only at h
      split at h
      · cases h
      · rw [(newFile_spec d o _ h).2.2 f rfl]; exact e
    · rw [e1] at h; cases h
    · rw [e1] at h; cases h
  · rw [e] at h; cases h
  · rw [e] at h; cases h

/-- Opening what is there. -/
theorem openFile_still {n : Nat} {p : Str} {flags : Flags.IOFlags} {perm : FileMode} {t t0 t1 : Lives σ} {o : Ext (Tagged H)} {r : Except Err (File (Tagged H))}
    (hw : (Flags.requiresWritePerm flags && !canWrite mf) = false)
    (he : getFollow d n (normalizePath wd p) t = .ret (t0, .ok o)) (h : openFile d n p flags perm t = .ret (t1, r)) : Still t0 t1 ∧ ∀ f, r = .ok f → f.objectHandle = o := by
  unfold openFile at h
  simp only [show (d).mountFlags = mf from rfl, hw, Bool.false_eq_true, if_false, show (d).workingDirPath = wd from rfl] at h
  unfold M.either at h
  rw [he] at h
  simp only at h
  rw [andThen_ok (a := o) (s' := t0) rfl] at h
  unfold M.andThen at h
  rcases e1 : statOf d o t0 with ⟨t2, er | st⟩ | _ | _
  · have := ((Keeps.statOf still_pre d o : Keeps _ (fun _ => True) _) _ _ _ e1).1
    rw [e1] at h; cases h; exact ⟨this, fun f hf => by cases hf⟩
  · have k := ((Keeps.statOf still_pre d o : Keeps _ (fun _ => True) _) _ _ _ e1).1
    rw [e1] at h
    simp only at h
    split at h
    · cases h; exact ⟨k, fun f hf => by cases hf⟩
    · exact ⟨k.trans (newFile_still cfg I mf wd g h), (newFile_spec d o _ h).2.2⟩
  · rw [e1] at h; cases h
  · rw [e1] at h; cases h

theorem fileClose_still {f : File (Tagged H)} {t t' : Lives σ} {r : Except Err (File (Tagged H))} (h : f.close d t = .ret (t', r)) : Still t t' := by
  unfold File.close Ext.method at h
  have P := still_pre (σ := σ)
  rcases hx : f.objectHandle.inner with _ | x
  · rw [hx] at h; cases h
  · rw [hx] at h
    simp only at h
    rcases h2 : Stream.sync (backendOf (d).impl x) (f.streamIn t) with ⟨y, e⟩ | _ | _
    · have k := Stream.sync_frame P.refl P.trans (backendOf (d).impl x) (fun s _ _ => still_use s x _) (fun s _ _ => still_use s x _) (f.streamIn t) _ h2
      rw [h2] at h
      rcases e with _ | e <;> cases h <;> exact k
    · rw [h2] at h; cases h
    · rw [h2] at h; cases h

theorem writeFile_still {n : Nat} {p : Str} {data : Bytes} {perm : FileMode} {t t0 t1 : Lives σ} {o : Ext (Tagged H)} {r : Except Err Unit} (hw : canWrite mf = true)
    (he : getFollow d n (normalizePath wd p) t = .ret (t0, .ok o)) (h : writeFile d n p data perm t = .ret (t1, r)) : Still t0 t1 := by
  unfold writeFile M.andThen at h
  have P := still_pre (σ := σ)
  rcases e1 : openFile d n p (Flags.O_WRONLY ||| Flags.O_CREATE ||| Flags.O_TRUNC) perm t with ⟨t2, er | f⟩ | _ | _
  · rw [e1] at h; cases h
    exact (openFile_still cfg I mf wd g (by rw [hw]; simp) he e1).1
  · have k := (openFile_still cfg I mf wd g (by rw [hw]; simp) he e1).1
    rw [e1] at h
    simp only [Ext.method] at h
    rcases hx : f.objectHandle.inner with _ | x
    · rw [hx] at h; cases h
    · rw [hx] at h
      simp only at h
      rcases h1 : Stream.write (backendOf (d).impl x) (f.streamIn t2) data with ⟨y, c, e⟩ | _ | _
      · have k1 := Stream.write_frame P.refl P.trans (backendOf (d).impl x) (fun s i buf => still_use s x _) (fun s i buf => still_use s x _) (fun s n => still_use s x _) (f.streamIn t2) data _ h1
        rw [h1] at h
        simp only at h
        rcases h2 : Stream.sync (backendOf (d).impl x) y with ⟨z, e'⟩ | _ | _
        · have k2 := Stream.sync_frame P.refl P.trans (backendOf (d).impl x) (fun s i buf => still_use s x _) (fun s i buf => still_use s x _) _ _ h2
          rw [h2] at h
          simp only at h
          cases h
          exact k.trans (P.trans k1 k2)
        · rw [h2] at h; cases h
        · rw [h2] at h; cases h
      · rw [h1] at h; cases h
      · rw [h1] at h; cases h
  · rw [e1] at h; cases h
  · rw [e1] at h; cases h

/-- A lookup that does not follow links, of anything but the root directory, leaves open the newest handle. -/
theorem nofollow_newest (hk : cfg.keepHandle = true) {n : Nat} {p : Str} (hp : ¬ (p = str! "/" ∨ p = [])) {t t1 : Lives σ} {e : Ext (Tagged H)} (h : getNoFollow d n p t = .ret (t1, .ok e)) :
    ∃ k, tag e = some k ∧ t1.issued = k + 1 := by
  rcases n with _ | n
  · rw [getNoFollow] at h; cases h
  rw [getNoFollow, if_neg hp] at h
  unfold M.andThen at h
  rcases e1 : getFollow d n (Path.splitLast p).1 t with ⟨t2, er | parent⟩ | _ | _
  · rw [e1] at h; cases h
  · rw [e1] at h
    simp only [M.deferred] at h
    unfold M.either at h
    simp only at h
    rcases e2 : statOf d parent t2 with ⟨t3, er | st⟩ | _ | _
    · rw [e2] at h
      simp only at h
      rcases e3 : closeOf d parent t3 with ⟨t4, u⟩ | _ | _ <;> rw [e3] at h <;> cases h
    · rw [e2] at h
      simp only at h
      by_cases hd : (!st.isDir) = true
      · simp only [hd, if_true, M.fail] at h
        rcases e3 : closeOf d parent t3 with ⟨t4, u⟩ | _ | _ <;> rw [e3] at h <;> cases h
      · rw [if_neg hd] at h
        rcases e3 : getExtObjectInDir d (Path.splitLast p).2 parent t3 with ⟨t4, r⟩ | _ | _
        · rw [e3] at h
          simp only at h
          rcases e4 : closeOf d parent t4 with ⟨t5, u⟩ | _ | _
          · rw [e4] at h
            cases h
            have hc := (close_does cfg I mf wd g e4).1
            unfold getExtObjectInDir Ext.method at e3
            rcases hx : parent.inner with _ | x
            · rw [hx] at e3; cases e3
            · rw [hx] at e3
              have hg : (d).impl.getObject t3 (Path.splitLast p).2 x = (t3.use x (I.getObject t3.s (Path.splitLast p).2 x.1).1).issue (I.getObject t3.s (Path.splitLast p).2 x.1).2 := rfl
              unfold M.andThen M.call at e3
              simp only [hg] at e3
              rcases e5 : (I.getObject t3.s (Path.splitLast p).2 x.1).2 with er | y
              · rw [e5] at e3; cases e3
              · rw [e5] at e3
                simp only [Lives.issue, M.ok] at e3
                cases e3
                refine ⟨t3.issued, ?_, ?_⟩
                · unfold tag wrapObjectHandle
                  rw [show (d).cfg = cfg from rfl, hk]
                  rfl
                · rw [hc]; rfl
          · rw [e4] at h; cases h
          · rw [e4] at h; cases h
        · rw [e3] at h; cases h
        · rw [e3] at h; cases h
    · rw [e2] at h; cases h
    · rw [e2] at h; cases h
  · rw [e1] at h; cases h
  · rw [e1] at h; cases h

end

end Mortal
open Mortal

section
variable (cfg : Cfg) (I : Impl σ H) (mf : MountFlags) (g : Garbage σ H) (fuel : Nat)

/-- A call that finds an object and then leaves it alone. -/
theorem leavesOpen_of (hk : cfg.keepHandle = true) (wd : Str) {t t1 : Lives σ} (hs : Sane t) {p : Str} {f : File (Tagged H)} (ho : open_ (md cfg I mf wd g) fuel p t = .ret (t1, .ok f))
    {m : M (Lives σ) α} (hm : ∀ t0 t' r, getFollow (md cfg I mf wd g) fuel (normalizePath wd p) t = .ret (t0, .ok f.objectHandle) → m t = .ret (t', r) → Still t0 t') : LeavesOpen m t f := by
  intro t' r hr k
  obtain ⟨t0, e0⟩ := open_lookup cfg I mf wd g ho
  rw [leaked_still (hm t0 t' r e0 hr), (found_leaks cfg I mf wd g hk hs e0).1 k, tag_iff]

theorem md_mk (wd : Str) : (⟨cfg, mortal I g, mf, wd⟩ : Drv (Lives σ) (Tagged H)) = md cfg I mf wd g := rfl
theorem md_wd (wd : Str) : (md cfg I mf wd g).workingDirPath = wd := rfl

/-- C123, what leaks, exactly: whatever the implementation and whatever has happened before, if Open(path) would succeed and give a file with the handle k, then
Chmod, Chown and Chtimes of the path each leave exactly one handle open, k, and so do opening the file and closing it, and WriteFile on a volume
that is not mounted read-only; all of them also when they fail. -/
theorem C123_leak_exact_partial (hk : cfg.keepHandle = true) (wd : Str) (t : Lives σ) (hs : Sane t) (p : Str) (t1 : Lives σ) (f : File (Tagged H))
    (ho : open_ ⟨cfg, mortal I g, mf, wd⟩ fuel p t = .ret (t1, .ok f)) :
    (∀ mode, LeavesOpen (chmod ⟨cfg, mortal I g, mf, wd⟩ fuel p mode) t f) ∧
    (∀ u v, LeavesOpen (chown ⟨cfg, mortal I g, mf, wd⟩ fuel p u v) t f) ∧
    (∀ a m, LeavesOpen (chtimes ⟨cfg, mortal I g, mf, wd⟩ fuel p a m) t f) ∧
    LeavesOpen (M.andThen (open_ ⟨cfg, mortal I g, mf, wd⟩ fuel p) fun f => f.close ⟨cfg, mortal I g, mf, wd⟩) t f ∧
    (Writable mf → ∀ data perm, LeavesOpen (writeFile ⟨cfg, mortal I g, mf, wd⟩ fuel p data perm) t f) := by
  simp only [md_mk] at ho ⊢
  refine ⟨fun mode => leavesOpen_of cfg I mf g fuel hk wd hs ho fun t0 t' r e0 hr => ?_, fun u v => leavesOpen_of cfg I mf g fuel hk wd hs ho fun t0 t' r e0 hr => ?_,
    fun a m => leavesOpen_of cfg I mf g fuel hk wd hs ho fun t0 t' r e0 hr => ?_, leavesOpen_of cfg I mf g fuel hk wd hs ho fun t0 t' r e0 hr => ?_,
    fun hw data perm => leavesOpen_of cfg I mf g fuel hk wd hs ho fun t0 t' r e0 hr => writeFile_still cfg I mf wd g ((canWrite_iff mf).mpr hw) e0 hr⟩
  · rw [chmod, md_wd, andThen_ok e0] at hr
    exact optional_still cfg I mf wd g (chmod_still I g mode) _ hr
  · rw [chown, md_wd, andThen_ok e0] at hr
    exact optional_still cfg I mf wd g (chown_still I g u v) _ hr
  · rw [chtimes, md_wd, andThen_ok e0] at hr
    exact optional_still cfg I mf wd g (chtimes_still I g _ _ _ _ _) _ hr
  · rw [andThen_ok ho] at hr
    exact (openFile_still cfg I mf wd g (by rw [show Flags.requiresWritePerm Flags.O_RDONLY = false by decide]; rfl) e0 ho).1.trans (fileClose_still cfg I mf wd g hr)

/-- C123, what leaks, of files and directories: when Stat(path) succeeds, Chmod, Chown and Chtimes of the path, whether they succeed or fail, get the same handles
as Stat and close them all but for the one of the object itself (the root directory has none). -/
theorem C123_leak_stat_partial (hk : cfg.keepHandle = true) (wd : Str) (t : Lives σ) (hs : Sane t) (p : Str) (t1 : Lives σ) (st : FileStat)
    (ho : stat ⟨cfg, mortal I g, mf, wd⟩ fuel p t = .ret (t1, .ok st)) :
    (∀ mode, ClosesAllButOne (chmod ⟨cfg, mortal I g, mf, wd⟩ fuel p mode) t t1) ∧
    (∀ u v, ClosesAllButOne (chown ⟨cfg, mortal I g, mf, wd⟩ fuel p u v) t t1) ∧
    (∀ a m, ClosesAllButOne (chtimes ⟨cfg, mortal I g, mf, wd⟩ fuel p a m) t t1) := by
  simp only [md_mk] at ho ⊢
  unfold stat M.andThen at ho
  rw [md_wd] at ho
  rcases e0 : getFollow (md cfg I mf wd g) fuel (normalizePath wd p) t with ⟨t0, er | e⟩ | _ | _
  · rw [e0] at ho; cases ho
  · rw [e0] at ho
    simp only [M.deferred] at ho
    unfold M.either at ho
    simp only at ho
    have key : t1.issued = t0.issued ∧ ∀ k, k ∈ t1.closed ↔ k ∈ t0.closed ∨ tag e = some k := by
      rcases e2 : statOf (md cfg I mf wd g) e t0 with ⟨t2, r2⟩ | _ | _
      · have ks := ((Keeps.statOf still_pre (md cfg I mf wd g) e : Keeps _ (fun _ => True) _) _ _ _ e2).1
        rw [e2] at ho
        simp only at ho
        rcases e3 : closeOf (md cfg I mf wd g) e t2 with ⟨t3, r3⟩ | _ | _
        · rw [e3] at ho
          cases ho
          have := close_does cfg I mf wd g e3
          rw [ks.1, ks.2] at this
          exact this
        · rw [e3] at ho; cases ho
        · rw [e3] at ho; cases ho
      · rw [e2] at ho; cases ho
      · rw [e2] at ho; cases ho
    have fin : ∀ t', Still t0 t' → t'.issued = t1.issued ∧ (∀ k, k ∈ t1.closed ↔ k ∈ t'.closed ∨ Leaked t t' k) ∧ ∀ j k, Leaked t t' j → Leaked t t' k → j = k := by
      intro t' ks
      have hl := (found_leaks cfg I mf wd g hk hs e0).1
      refine ⟨ks.1.trans key.1.symm, fun k => ?_, fun j k hj hk => ?_⟩
      · rw [key.2 k, ks.2, leaked_still ks, hl k]
      · rw [leaked_still ks, hl] at hj hk
        rw [hj] at hk
        cases hk
        rfl
    refine ⟨fun mode t' r hr => fin t' ?_, fun u v t' r hr => fin t' ?_, fun a m t' r hr => fin t' ?_⟩
    · rw [chmod, md_wd, andThen_ok e0] at hr
      exact optional_still cfg I mf wd g (chmod_still I g mode) _ hr
    · rw [chown, md_wd, andThen_ok e0] at hr
      exact optional_still cfg I mf wd g (chown_still I g u v) _ hr
    · rw [chtimes, md_wd, andThen_ok e0] at hr
      exact optional_still cfg I mf wd g (chtimes_still I g _ _ _ _ _) _ hr
  · rw [e0] at ho; cases ho
  · rw [e0] at ho; cases ho

/-- C123 for Lchown: when it succeeds on anything but the root directory, it leaves exactly one handle open, the last it got. -/
theorem C123_lchown_leak_partial (hk : cfg.keepHandle = true) (wd : Loc) (hwd : IsLoc wd) (t : Lives σ) (hs : Sane t) (p : Str) (hp : normalizePath (render wd) p ≠ str! "/") (u v : Int) (t' : Lives σ)
    (h : lchown ⟨cfg, mortal I g, mf, render wd⟩ fuel p u v t = .ret (t', .ok ())) : ∀ k, Leaked t t' k ↔ t'.issued = k + 1 := by
  intro j
  simp only [md_mk] at h
  unfold lchown M.andThen at h
  rw [md_wd] at h
  rcases e1 : getNoFollow (md cfg I mf (render wd) g) fuel (normalizePath (render wd) p) t with ⟨t1, er | e⟩ | _ | _
  · rw [e1] at h; cases h
  · rw [e1] at h
    have ks := optional_still cfg I mf (render wd) g (chown_still I g u v) _ h
    obtain ⟨s1, j1, o⟩ := (nofollow_safe cfg I mf (render wd) g g fuel t _ hs).2 _ _ e1
    have o := o e rfl
    obtain ⟨_, _, h3⟩ := (resolve_tidy cfg I mf (render wd) g hk fuel).1 _ _ _ _ e1
    obtain ⟨k, hk1, hk2⟩ := nofollow_newest cfg I mf (render wd) g hk (fun hc => hc.elim hp fun h0 => by
      have := (C61_canonical wd p hwd)
      obtain ⟨l, _, hl⟩ := this
      rw [h0] at hl
      cases l <;> cases hl) e1
    rw [leaked_still ks, ks.1, hk2]
    constructor
    · intro hl
      rcases h3 j (.inl ⟨hl.1, hl.2.1⟩) with h | ⟨a, ha, hw⟩
      · exact absurd h hl.2.2
      · cases ha; rw [hk1] at hw; cases hw; rfl
    · intro hj
      have : j = k := by omega
      subst this
      exact ⟨(o.held j hk1).1, o.live j hk1⟩
  · rw [e1] at h; cases h
  · rw [e1] at h; cases h

/-- C123 for Link: when it succeeds, it leaves open the handle of the old file and that of the new link, the last it got. -/
theorem C123_link_leak_partial (hk : cfg.keepHandle = true) (wd : Str) (t : Lives σ) (hs : Sane t) (old new_ : Str) (t1 : Lives σ) (f : File (Tagged H))
    (ho : open_ ⟨cfg, mortal I g, mf, wd⟩ fuel old t = .ret (t1, .ok f)) (t' : Lives σ) (h : link ⟨cfg, mortal I g, mf, wd⟩ fuel old new_ t = .ret (t', .ok ())) :
    ∃ j, t'.issued = j + 1 ∧ Leaked t t' j ∧ ∀ x k, f.objectHandle.inner = some (x, some k) → Leaked t t' k ∧ k ≠ j := by
  simp only [md_mk] at ho h
  obtain ⟨t0, e0⟩ := open_lookup cfg I mf wd g ho
  obtain ⟨l0, j0, o0, s0⟩ := found_leaks cfg I mf wd g hk hs e0
  unfold link at h
  have hh : (md cfg I mf wd g).impl.createHardLink =
      I.createHardLink.map fun f t o p n => ((t.use o t.s).use p (f t.s o.1 p.1 n).1).issue (f t.s o.1 p.1 n).2 := rfl
  rw [hh] at h
  rcases hl : I.createHardLink with _ | q
  · rw [hl] at h; cases h
  rw [hl] at h
  simp only [Option.map_some] at h
  rw [md_wd, andThen_ok e0] at h
  unfold M.either at h
  rcases e1 : getFollow (md cfg I mf wd g) fuel (normalizePath wd new_) t0 with ⟨t2, er | e⟩ | _ | _
  · rw [e1] at h
    simp only at h
    have s1 := ((follow_safe cfg I mf wd g g fuel t0 _ j0).2 _ _ e1)
    unfold M.andThen at h
    rcases e2 : getFollow (md cfg I mf wd g) fuel (Path.splitLast (normalizePath wd new_)).1 t2 with ⟨t3, er | e⟩ | _ | _
    · rw [e2] at h; cases h
    · rw [e2] at h
      have s2 := ((follow_safe cfg I mf wd g g fuel t2 _ s1.2.1).2 _ _ e2)
      simp only [Ext.method] at h
      rcases ha : f.objectHandle.inner with _ | a
      · rw [ha] at h; cases h
      rcases hb : e.inner with _ | b
      · rw [ha, hb] at h; cases h
      rw [ha, hb] at h
      simp only [M.call] at h
      rcases e3 : (q t3.s a.1 b.1 (Path.splitLast (normalizePath wd new_)).2).2 with er | y
      · rw [e3] at h; cases h
      · rw [e3] at h
        simp only [Lives.issue, M.ok] at h
        cases h
        refine ⟨t3.issued, rfl, ⟨Nat.le_trans s0.more (Nat.le_trans s1.1.more s2.1.more), Nat.lt_succ_self _, fun hm => Nat.lt_irrefl _ (s2.2.1 _ hm)⟩, fun x k hx => ?_⟩
        have htag : tag f.objectHandle = some k := tag_iff.mpr ⟨x, by rw [ha]; exact hx⟩
        have l3 := (o0.stepNew s1.1).stepNew s2.1 k htag
        exact ⟨⟨((l0 k).mpr htag).1, Nat.lt_succ_of_lt l3.1, l3.2⟩, by omega⟩
    · rw [e2] at h; cases h
    · rw [e2] at h; cases h
  · rw [e1] at h; cases h
  · rw [e1] at h; cases h
  · rw [e1] at h; cases h

end

/-- Opening "c" gives the handle 0, which Chmod leaves open. -/
example : (match open_ (new keeping (mortal linked liar) 31) 19 (str! "c") (.start ()) with
    | .ret (_, .ok f) => decide (f.objectHandle.inner.map (·.2) = some (some 0))
    | _ => false) = true ∧ Sane (.start () : Lives Unit) ∧ leakedBy (chmod (new keeping (mortal linked liar) 31) 19 (str! "c") 0o644) (.start ()) = some [0] :=
  ⟨by decide +kernel, fun k hk => (nomatch hk), by decide +kernel⟩

/-- Opening "a", a link to "c" over "b", gives the handle 2; WriteFile leaves that one open. -/
example : (match open_ (new keeping (mortal linked liar) 31) 19 (str! "a") (.start ()) with
    | .ret (_, .ok f) => decide (f.objectHandle.inner.map (·.2) = some (some 2))
    | _ => false) = true ∧ leakedBy (writeFile (new keeping (mortal linked liar) 31) 19 (str! "a") [1] 0o644) (.start ()) = some [2] := by decide +kernel

/-- Stat of the directory "d" closes its handle, Chmod does not. -/
example : (match stat (new passing (mortal store liar) 31) 19 (str! "/d") (.start nested) with
    | .ret (t, .ok _) => decide (t.issued = 1 ∧ t.closed = [0])
    | _ => false) = true ∧ leakedBy (chmod (new passing (mortal store liar) 31) 19 (str! "/d") 0o755) (.start nested) = some [0] := by decide +kernel

/-- `linked`, with owners that can be changed. -/
def owned : Impl Unit Nat := { linkable with chown := fun _ => some fun s _ _ => (s, none) }

/-- Lchown of the link "a" and Link of "c" succeed. -/
example : (match lchown (new passing (mortal owned liar) 31) 19 (str! "a") 1 2 (.start ()) with
    | .ret (t', .ok ()) => decide (t'.issued = 1 ∧ t'.closed = [] ∧ normalizePath (str! "/") (str! "a") ≠ str! "/")
    | _ => false) = true := by decide +kernel
example : (match link (new keeping (mortal owned liar) 31) 19 (str! "c") (str! "z") (.start ()) with
    | .ret (t', .ok ()) => decide (t'.issued = 2 ∧ t'.closed = [])
    | _ => false) = true := by decide +kernel

end Disko.Driver

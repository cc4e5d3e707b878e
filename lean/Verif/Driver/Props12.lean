import Verif.Driver.Opening
/-! C91-C93: opening and creating files. -/
namespace Disko.Driver
open Disko Spec

variable {σ H α β : Type}

namespace Spec

/-- The open file is on the object of `h`, has this size and these flags, and is positioned at the start. -/
def OpenOn (f : File H) (h : H) (size : Int) (flags : Flags.IOFlags) : Prop :=
  f.objectHandle.inner = some h ∧ f.size = size ∧ f.position = 0 ∧ f.ioFlags = flags

/-- The mount allows what the flags ask for. -/
def Allowed (mf : MountFlags) (flags : Flags.IOFlags) : Prop := Writable mf ∨ ¬ WriteIntent flags
/-- O_TRUNC (bit 10). -/
def TruncIntent (flags : Flags.IOFlags) : Prop := flags.getLsbD 10 = true

end Spec

theorem noTrunc {flags : Flags.IOFlags} (h : ¬ TruncIntent flags) : Flags.truncate flags = false := by
  rcases e : Flags.truncate flags with _ | _
  · rfl
  · exact absurd ((truncate_iff flags).mp e) h

/-! ### Opening what exists -/

section
variable (d : Drv σ H) (hd : d.cfg.keepHandle = true) (Q : Quiet d.impl) (wd : Loc) (hwd : IsLoc wd) (hw : d.workingDirPath = render wd)
  (s : σ) (hr : RootIsDir d.impl s) (p : Str) (l : Loc) (hm : Means wd p l) (flags : Flags.IOFlags) (perm : FileMode) (ha : Allowed d.mountFlags flags)
include hd Q hwd hw hr hm ha

theorem open_found {l' : Loc} {h : H} (hf : Found d.impl s l l' h) (hfile : (d.impl.stat s h).isFile = true) {s' : σ} {r : Except Err (File H)}
    (hn : newFile d ⟨some h, render l'⟩ flags s = .ret (s', r)) : Gives (openFile d · p flags perm) s s' r := by
  obtain ⟨N, hN⟩ := follow_found d hd Q hr hf
  refine ⟨N, fun fuel hfu => ?_⟩
  simp only [openFile, not_refused d ha, Bool.false_eq_true, if_false]
  rw [hw, (normalize_means hwd hm).1, either_ret (hN fuel hfu), andThen_ok (a := ⟨some h, render l'⟩) (s' := s) rfl,
    andThen_ok (a := d.impl.stat s h) (s' := s) rfl, hfile]
  exact hn

theorem open_notFile {l' : Loc} {h : H} (hf : Found d.impl s l l' h) (hfile : (d.impl.stat s h).isFile = false) :
    Gives (openFile d · p flags perm) s s (.error .isADirectory) := by
  obtain ⟨N, hN⟩ := follow_found d hd Q hr hf
  refine ⟨N, fun fuel hfu => ?_⟩
  simp only [openFile, not_refused d ha, Bool.false_eq_true, if_false]
  rw [hw, (normalize_means hwd hm).1, either_ret (hN fuel hfu), andThen_ok (a := ⟨some h, render l'⟩) (s' := s) rfl,
    andThen_ok (a := d.impl.stat s h) (s' := s) rfl, hfile]
  rfl

theorem open_missing {e : Err} (hmi : Missing d.impl s l e) (hc : ¬ CreateIntent flags ∨ e.isNotFound = false) :
    Gives (openFile d · p flags perm) s s (.error e) := by
  obtain ⟨N, hN⟩ := follow_missing d hd Q hr hmi
  refine ⟨N, fun fuel hfu => ?_⟩
  simp only [openFile, not_refused d ha, Bool.false_eq_true, if_false]
  rw [hw, (normalize_means hwd hm).1, either_ret (hN fuel hfu)]
  have : (e.isNotFound && Flags.create flags) = false := by
    rcases hc with hc | hc
    · rw [← create_iff, Bool.not_eq_true] at hc; rw [hc, Bool.and_false]
    · rw [hc]; rfl
  simp only [this, Bool.false_eq_true, if_false]
  rfl

/-- What OpenFile does when the end of the links is missing and O_CREATE is given: CreateObject for the name the caller gave (which need not be missing). -/
theorem open_create {n : Str} (hl : l = [n]) {e : Err} (hmi : Missing d.impl s l e) (hc : CreateIntent flags) (he : e.isNotFound = true) :
    (∀ s' e', d.impl.createObject s n (d.impl.getRootDirectory s) perm = (s', .error e') → Gives (openFile d · p flags perm) s s' (.error e')) ∧
    (∀ s' h', d.impl.createObject s n (d.impl.getRootDirectory s) perm = (s', .ok h') →
      ((d.impl.stat s' h').isFile = false → Gives (openFile d · p flags perm) s s' (.error .isADirectory)) ∧
      ((d.impl.stat s' h').isFile = true → ∀ s'' r, newFile d ⟨some h', render [n]⟩ flags s' = .ret (s'', r) → Gives (openFile d · p flags perm) s s'' r)) := by
  subst hl
  obtain ⟨N, hN⟩ := follow_missing d hd Q hr hmi
  have hn : IsName n := (normalize_means hwd hm).2 n (by simp)
  have hcr : (e.isNotFound && Flags.create flags) = true := by rw [he, (create_iff flags).mpr hc]; rfl
  have hstart : ∀ fuel, N + 2 ≤ fuel → openFile d fuel p flags perm s =
      (M.andThen (M.deferred (closeOf d ⟨some (d.impl.getRootDirectory s), str! "/"⟩) (createExtObject d n ⟨some (d.impl.getRootDirectory s), str! "/"⟩ perm)) fun object =>
        M.andThen (statOf d object) fun st => if !st.isFile then M.fail .isADirectory else newFile d object flags) s := by
    intro fuel hfu
    obtain ⟨f, rfl⟩ : ∃ f, fuel = f + 2 := ⟨fuel - 2, by omega⟩
    simp only [openFile, not_refused d ha, Bool.false_eq_true, if_false]
    rw [hw, (normalize_means hwd hm).1, either_ret (hN (f + 2) (by omega))]
    simp only [hcr, if_true, createMissing]
    rw [split_one hn]
    have : M.andThen (getFollow d (f + 2) (str! "/")) (fun parent => M.deferred (closeOf d parent) (createExtObject d n parent perm)) s =
        M.deferred (closeOf d ⟨some (d.impl.getRootDirectory s), str! "/"⟩) (createExtObject d n ⟨some (d.impl.getRootDirectory s), str! "/"⟩ perm) s :=
      andThen_ok (keep_root_follow d hd hr.2 f)
    unfold M.andThen at this ⊢
    simp only [this]
  have hjoin : Path.join (str! "/") n = render [n] := join_root hn
  refine ⟨fun s' e' h => ⟨N + 2, fun fuel hfu => ?_⟩, fun s' h' h => ?_⟩
  · refine (hstart fuel hfu).trans ?_
    rw [andThen_err]
    refine deferred_close d Q ?_
    unfold createExtObject
    simp only [Ext.method]
    exact andThen_err (by simp only [M.call, h])
  · have hbody : M.deferred (closeOf d ⟨some (d.impl.getRootDirectory s), str! "/"⟩) (createExtObject d n ⟨some (d.impl.getRootDirectory s), str! "/"⟩ perm) s =
        .ret (s', .ok ⟨some h', render [n]⟩) := by
      refine deferred_close d Q ?_
      unfold createExtObject
      simp only [Ext.method]
      rw [andThen_ok (a := h') (s' := s') (by simp only [M.call, h]), keep_wrap d hd, hjoin]
      rfl
    refine ⟨fun hfile => ⟨N + 2, fun fuel hfu => ?_⟩, fun hfile s'' r hnf => ⟨N + 2, fun fuel hfu => ?_⟩⟩ <;>
      refine (hstart fuel hfu).trans ?_ <;> rw [andThen_ok hbody, andThen_ok (a := d.impl.stat s' h') (s' := s') rfl, hfile]
    · rfl
    · exact hnf

/-! ### C91: creating -/

/-- C91, when wrapObjectHandle keeps the handle, on any implementation: opening a regular file that exists, without O_TRUNC, changes nothing and gives a file on
that object, at the start, with its size. -/
theorem C91_existing_partial (l' : Loc) (h : H) (b t : Nat) (hf : Found d.impl s l l' h) (hfile : (d.impl.stat s h).isFile = true)
    (hfit : SizesFit (d.impl.stat s h) b t) (hnt : ¬ TruncIntent flags) :
    ∃ f, Gives (openFile d · p flags perm) s s (.ok f) ∧ OpenOn f h (d.impl.stat s h).size flags :=
  ⟨_, open_found d hd Q wd hwd hw s hr p l hm flags perm ha hf hfile (newFile_open d hfit _ flags (noTrunc hnt)), rfl, rfl, rfl, rfl⟩

/-- C91: an object that is not a regular file is not opened. -/
theorem C91_not_a_file_partial (l' : Loc) (h : H) (hf : Found d.impl s l l' h) (hfile : (d.impl.stat s h).isFile = false) :
    Gives (openFile d · p flags perm) s s (.error .isADirectory) := open_notFile d hd Q wd hwd hw s hr p l hm flags perm ha hf hfile

/-- C91: without O_CREATE, or if the implementation gives another reason than that it is not found, a missing file is not created. -/
theorem C91_missing_partial (e : Err) (hmi : Missing d.impl s l e) (hc : ¬ CreateIntent flags ∨ ¬ SaysNotFound e) :
    Gives (openFile d · p flags perm) s s (.error e) :=
  open_missing d hd Q wd hwd hw s hr p l hm flags perm ha hmi (hc.imp id fun h => Bool.eq_false_iff.mpr fun h' => h ((isNotFound_iff e).mp h'))

/-- C91: with O_CREATE a file missing from the root (or a link in the root that leads nowhere) is created by one CreateObject with its name and `perm`, and opened, without
further changes. -/
theorem C91_created_partial (n : Str) (hl : l = [n]) (e : Err) (hmi : Missing d.impl s l e) (he : SaysNotFound e)
    (hc : CreateIntent flags) (hnt : ¬ TruncIntent flags) (s' : σ) (h' : H) (b t : Nat)
    (hcr : d.impl.createObject s n (d.impl.getRootDirectory s) perm = (s', .ok h')) (hfile : (d.impl.stat s' h').isFile = true) (hfit : SizesFit (d.impl.stat s' h') b t) :
    ∃ f, Gives (openFile d · p flags perm) s s' (.ok f) ∧ OpenOn f h' (d.impl.stat s' h').size flags := by
  refine ⟨_, (((open_create d hd Q wd hwd hw s hr p l hm flags perm ha hl hmi hc ((isNotFound_iff e).mpr he)).2 s' h' hcr).2 hfile _ _
    (newFile_open d hfit _ flags (noTrunc hnt))), rfl, rfl, rfl, rfl⟩

/-- C91: if CreateObject fails, its error is returned; if what it made is not a regular file, it stays, and the error is ErrIsADirectory. -/
theorem C91_not_created_partial (n : Str) (hl : l = [n]) (e : Err) (hmi : Missing d.impl s l e) (he : SaysNotFound e) (hc : CreateIntent flags) (s' : σ) :
    (∀ e', d.impl.createObject s n (d.impl.getRootDirectory s) perm = (s', .error e') → Gives (openFile d · p flags perm) s s' (.error e')) ∧
    (∀ h', d.impl.createObject s n (d.impl.getRootDirectory s) perm = (s', .ok h') → (d.impl.stat s' h').isFile = false →
      Gives (openFile d · p flags perm) s s' (.error .isADirectory)) :=
  have := open_create d hd Q wd hwd hw s hr p l hm flags perm ha hl hmi hc ((isNotFound_iff e).mpr he)
  ⟨this.1 s', fun h' hcr => (this.2 s' h' hcr).1⟩

end

/-- C91, what it says: of a path whose directory exists but that does not exist itself, OpenFile with O_CREATE makes a regular file, and nothing else, and opens it;
without O_CREATE it says ErrNotFound and changes nothing. -/
def C91_statement (cfg : Cfg) : Prop :=
  ∀ (σ H : Type) (impl : Impl σ H) (kind : σ → Loc → Option Kind) (loc : H → Loc) (mf : MountFlags) (wd : Loc) (s : σ) (p : Str) (l : Loc) (n : Str) (flags : Flags.IOFlags) (perm : FileMode),
    Volume impl kind loc → (∀ s h, kind s (loc h) = some .file → ∃ b t, SizesFit (impl.stat s h) b t) → IsLoc wd → Means wd p (l ++ [n]) → Allowed mf flags → ¬ TruncIntent flags →
    kind s l = some .dir → kind s (l ++ [n]) = none →
    (CreateIntent flags → ∃ s' f h, Gives (openFile ⟨cfg, impl, mf, render wd⟩ · p flags perm) s s' (.ok f) ∧ f.objectHandle.inner = some h ∧ loc h = l ++ [n] ∧
      ∀ l', kind s' l' = if l' = l ++ [n] then some .file else kind s l') ∧
    (¬ CreateIntent flags → Gives (openFile ⟨cfg, impl, mf, render wd⟩ · p flags perm) s s (.error .notFound))

section
variable {impl : Impl σ H} {kind : σ → Loc → Option Kind} {loc : H → Loc} (V : Volume impl kind loc) (hsz : ∀ s h, kind s (loc h) = some .file → ∃ b t, SizesFit (impl.stat s h) b t)
    (cfg : Cfg) (hk : cfg.keepHandle = true) (mf : MountFlags) (wd : Loc) (hwd : IsLoc wd) (s : σ) (p : Str) (n : Str) (hm : Means wd p [n]) (flags : Flags.IOFlags) (perm : FileMode)
    (ha : Allowed mf flags) (hnt : ¬ TruncIntent flags) (hne : kind s [n] = none)
include V hsz hk hwd hm ha hnt hne

/-- C91 in a volume, when wrapObjectHandle keeps the handle, for a path in the root and permissions without type bits. -/
theorem C91_volume_partial (hperm : kindOf perm = .file) :
    (CreateIntent flags → ∃ s' f h, Gives (openFile ⟨cfg, impl, mf, render wd⟩ · p flags perm) s s' (.ok f) ∧ f.objectHandle.inner = some h ∧ loc h = [n] ∧
      ∀ l', kind s' l' = if l' = [n] then some .file else kind s l') ∧
    (¬ CreateIntent flags → Gives (openFile ⟨cfg, impl, mf, render wd⟩ · p flags perm) s s (.error .notFound)) := by
  have hn : IsName n := (normalize_means hwd hm).2 n (by simp)
  obtain ⟨h1, h2⟩ := V.root s
  have hmi : (impl.getObject s n (impl.getRootDirectory s)).2 = .error .notFound := V.missing s n _ (by rw [h1]; exact h2) hn (by rw [h1]; exact hne)
  constructor
  · intro hc
    obtain ⟨s', h', hcr, hloc, hs'⟩ := V.create s (impl.getRootDirectory s) n perm (by rw [h1]; exact h2) hn (by rw [h1]; exact hne)
    rw [h1, List.nil_append] at hloc hs'
    have hkf : kind s' (loc h') = some .file := by rw [hloc, hs', if_pos rfl, hperm]
    obtain ⟨b, t, hfit⟩ := hsz s' h' hkf
    obtain ⟨f, hf1, hf2⟩ := C91_created_partial (⟨cfg, impl, mf, render wd⟩ : Drv σ H) hk V.toQuiet wd hwd rfl s (volume_root V s) p [n] hm flags perm ha n rfl .notFound
      (.entry hn (.zero n) hmi) .itself hc hnt s' h' b t
      hcr ((V.stat s' h' _ hkf).2.1.mpr rfl) hfit
    exact ⟨s', f, h', hf1, hf2.1, hloc, by rw [← hperm]; exact hs'⟩
  · intro hc
    exact C91_missing_partial (⟨cfg, impl, mf, render wd⟩ : Drv σ H) hk V.toQuiet wd hwd rfl s (volume_root V s) p [n] hm flags perm ha .notFound (.entry hn (.zero n) hmi) (.inl hc)

end

theorem store_sizes : ∀ (s : Store) (h : Loc), kindAt s.1 h = some .file → ∃ b t, SizesFit (store.stat s h) b t :=
  fun _ _ _ => ⟨4, 0, by decide, by decide, rfl, rfl, Int.le_refl 0, Int.le_refl 0, by decide⟩

example : Allowed 3 (Flags.O_RDWR ||| Flags.O_CREATE) ∧ CreateIntent (Flags.O_RDWR ||| Flags.O_CREATE) ∧ ¬ TruncIntent (Flags.O_RDWR ||| Flags.O_CREATE) ∧ kindOf 0x1a4 = .file ∧
    kindAt sample.1 [str! "new"] = none := by
  unfold Allowed Writable WriteIntent CreateIntent TruncIntent; decide

/-- A name that is missing from the sample volume; errors that are ErrNotFound, and one that is not. -/
example : Missing store sample [str! "new"] .notFound ∧ SaysNotFound .notFound ∧ SaysNotFound (.ioFailed (.cache (.fetchFailed 3 (.other 2)))) ∧ ¬ SaysNotFound .notADirectory :=
  ⟨.entry (by decide) (.zero _) (store_volume.missing sample (str! "new") [] rfl (by decide) (by decide)), .itself, .wrappedReading 3, fun h => nomatch h⟩

/-- C91 is false even with the wrapper repaired: the type bits of `perm` are passed on, so that with ModeDir in it a directory is made, and reported as an error. -/
theorem C91_refuted : ¬ C91_statement passing := by
  intro h
  have hm : Means [] (str! "/new") [str! "new"] := .inl ⟨⟨_, rfl⟩, by decide⟩
  obtain ⟨s', f, x, h1, _⟩ := (h Store Loc store (fun s => kindAt s.1) id 3 [] sample (str! "/new") [] (str! "new") Flags.O_CREATE Flags.ModeDir store_volume store_sizes isLoc_nil
    hm (.inl (by unfold Writable; decide)) (by unfold TruncIntent; decide) rfl (by decide)).1 (by unfold CreateIntent; decide)
  obtain ⟨s2, h2, hcr, hloc, hs2⟩ := store_volume.create sample [] (str! "new") Flags.ModeDir rfl (by decide) (by decide)
  have hd2 : kindAt s2.1 h2 = some .dir := (congrArg _ hloc).trans ((hs2 _).trans (by decide))
  have hst := (store_volume.stat s2 h2 _ hd2).2.1
  have := ((open_create (⟨passing, store, 3, render []⟩ : Drv _ _) rfl store_volume.toQuiet [] isLoc_nil rfl sample (volume_root store_volume sample) (str! "/new") _ hm Flags.O_CREATE
    Flags.ModeDir (.inl (by unfold Writable; decide)) rfl (.entry (by decide) (.zero _) (store_volume.missing sample (str! "new") [] rfl (by decide) (by decide))) (by unfold CreateIntent; decide) rfl).2 s2 h2 hcr).1
      (Bool.eq_false_iff.mpr fun h => by cases hst.mp h)
  cases (gives_unique h1 this).2

/-- ... and no file is ever made in a directory of the root: the call does not return. -/
theorem C91_refuted_deep (cfg : Cfg) : ¬ C91_statement cfg := by
  intro h
  have hloc : IsLoc ([str! "d"] ++ [str! "new"]) := by decide
  obtain ⟨N, h1⟩ := (h Store Loc store (fun s => kindAt s.1) id 3 [] sample (render ([str! "d"] ++ [str! "new"])) [str! "d"] (str! "new") 0 0 store_volume store_sizes isLoc_nil
    (means_render hloc []) (.inl (by unfold Writable; decide)) (by unfold TruncIntent; decide) (by decide) (by decide)).2 (by unfold CreateIntent; decide)
  have h1 := h1 N (by omega)
  simp only [openFile, show (Flags.requiresWritePerm 0 && !canWrite 3) = false by decide, Bool.false_eq_true, if_false] at h1
  rw [normalize_canonical hloc, either_timeout] at h1
  · cases h1
  · exact (never_deep _ [str! "d"] (by simp) (by decide) _ N).2

/-! ### C92: exclusive creation -/

/-- C92, what it says: OpenFile with O_CREATE and O_EXCL, and so Create, fails with ErrExists if there is an object of that name, and changes nothing. -/
def C92_statement (cfg : Cfg) : Prop :=
  ∀ (σ H : Type) (impl : Impl σ H) (kind : σ → Loc → Option Kind) (loc : H → Loc) (mf : MountFlags) (wd : Loc) (s : σ) (p : Str) (n : Str) (k : Kind) (flags : Flags.IOFlags) (perm : FileMode),
    Volume impl kind loc → (∀ s h, kind s (loc h) = some .file → ∃ b t, SizesFit (impl.stat s h) b t) → IsLoc wd → Means wd p [n] → Allowed mf flags → CreateIntent flags →
    flags.getLsbD 11 = true → kind s [n] = some k → Gives (openFile ⟨cfg, impl, mf, render wd⟩ · p flags perm) s s (.error .exists_)

/-- C92, what the code does when wrapObjectHandle keeps the handle, in any volume: O_EXCL is ignored: an existing file is opened, and Create gives it for writing. -/
theorem C92_ignored_partial {impl : Impl σ H} {kind : σ → Loc → Option Kind} {loc : H → Loc} (V : Volume impl kind loc) (hsz : ∀ s h, kind s (loc h) = some .file → ∃ b t, SizesFit (impl.stat s h) b t)
    (cfg : Cfg) (hk : cfg.keepHandle = true) (mf : MountFlags) (hmf : Writable mf) (wd : Loc) (hwd : IsLoc wd) (s : σ) (p : Str) (n : Str) (hm : Means wd p [n]) (hkf : kind s [n] = some .file) :
    ∃ f h, Gives (create ⟨cfg, impl, mf, render wd⟩ · p) s s (.ok f) ∧ loc h = [n] ∧ OpenOn f h (impl.stat s h).size (Flags.O_RDWR ||| Flags.O_CREATE ||| Flags.O_EXCL) := by
  have hn : IsName n := (normalize_means hwd hm).2 n (by simp)
  obtain ⟨h, hf, hh⟩ := volume_found V hn hkf (by simp)
  have hkh : kind s (loc h) = some .file := by rw [hh]; exact hkf
  obtain ⟨b, t, hfit⟩ := hsz s h hkh
  obtain ⟨f, h1, h2⟩ := C91_existing_partial (⟨cfg, impl, mf, render wd⟩ : Drv σ H) hk V.toQuiet wd hwd rfl s (volume_root V s) p [n] hm (Flags.O_RDWR ||| Flags.O_CREATE ||| Flags.O_EXCL) 0 (.inl hmf)
    [n] h b t hf ((V.stat s h _ hkh).2.1.mpr rfl) hfit (by unfold TruncIntent; decide)
  exact ⟨f, h, h1, hh, h2⟩

example : Writable 3 ∧ kindAt sample.1 [str! "f"] = some .file := by unfold Writable; decide

/-- C92 is false even with the wrapper repaired. -/
theorem C92_refuted : ¬ C92_statement passing := by
  intro h
  have hm : Means [] (str! "/f") [str! "f"] := .inl ⟨⟨_, rfl⟩, by decide⟩
  have h1 := h Store Loc store (fun s => kindAt s.1) id 3 [] sample (str! "/f") (str! "f") .file (Flags.O_RDWR ||| Flags.O_CREATE ||| Flags.O_EXCL) 0 store_volume store_sizes isLoc_nil hm
    (.inl (by unfold Writable; decide)) (by unfold CreateIntent; decide) (by decide) (by decide)
  obtain ⟨f, x, h2, _⟩ := C92_ignored_partial store_volume store_sizes passing rfl 3 (by unfold Writable; decide) [] isLoc_nil sample (str! "/f") (str! "f") hm (by decide)
  cases (gives_unique h1 h2).2

end Disko.Driver

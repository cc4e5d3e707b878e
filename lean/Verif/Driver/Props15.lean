import Verif.Driver.Props14
/-! C97: changing attributes.  C98: mount flags. -/
namespace Disko.Driver
open Disko Spec

variable {σ H α β : Type}

namespace Spec
/-- What a Go function that returns only an error returned. -/
def returned : Option Err → Except Err Unit
  | none => .ok ()
  | some e => .error e

/-- The permission bits of a mode: the nine lowest. -/
def permBits (m : FileMode) : FileMode := m &&& 0o777#32
end Spec

theorem callE_ret (f : σ → σ × Option Err) (s : σ) : M.callE f s = .ret ((f s).1, returned (f s).2) := by
  unfold M.callE
  rcases f s with ⟨s', _ | e⟩ <;> rfl

/-! ### C97: Chmod, Chown, Lchown, Chtimes -/

/-- C97, what it says of Chmod: the implementation's Chmod is called once for the object the path leads to, with nothing but the permission bits of
`mode` (api.go:332-333). -/
def C97_statement (cfg : Cfg) : Prop :=
  ∀ (σ H : Type) (impl : Impl σ H) (mf : MountFlags) (wd : Loc) (s : σ) (p : Str) (l l' : Loc) (h : H) (mode : FileMode) (m : σ → FileMode → σ × Option Err),
    Still impl → RootIsDir impl s → IsLoc wd → Means wd p l → Found impl s l l' h → impl.chmod h = some m →
    Gives (chmod ⟨cfg, impl, mf, render wd⟩ · p mode) s (m s (permBits mode)).1 (returned (m s (permBits mode)).2)

section
variable (d : Drv σ H) (hd : d.cfg.keepHandle = true) (Q : Quiet d.impl) (wd : Loc) (hwd : IsLoc wd) (hw : d.workingDirPath = render wd)
  (s : σ) (hr : RootIsDir d.impl s) (p : Str)
include hd Q hwd hw hr

section
variable (l l' : Loc) (hm : Means wd p l) (h : H) (hf : Found d.impl s l l' h)
include hm hf

/-- C97, when the handle is kept but not its optional methods, and in general if the object has no such method: ErrNotImplemented, and nothing changes. -/
theorem C97_unsupported_partial :
    (d.cfg.passOptional = false ∨ d.impl.chmod h = none → ∀ mode, Gives (chmod d · p mode) s s (.error .notImplemented)) ∧
    (d.cfg.passOptional = false ∨ d.impl.chown h = none → ∀ uid gid, Gives (chown d · p uid gid) s s (.error .notImplemented)) ∧
    (d.cfg.passOptional = false ∨ d.impl.chtimes h = none → ∀ atime mtime, Gives (chtimes d · p atime mtime) s s (.error .notImplemented)) := by
  have key : ∀ {α : Type} {f : H → Option α} {g : α → σ → σ × Option Err}, d.cfg.passOptional = false ∨ f h = none →
      optionalCall d ⟨some h, render l'⟩ (fun h => (f h).map g) s = .ret (s, .error .notImplemented) := by
    intro α f g hno
    unfold optionalCall Ext.optional
    rcases hno with hno | hno
    · rw [hno]; rfl
    · rcases d.cfg.passOptional with _ | _
      · rfl
      · simp only [if_true, Option.bind_some, hno]; rfl
  refine ⟨fun hno mode => ?_, fun hno uid gid => ?_, fun hno a m => ?_⟩
  · exact gives_found d hd Q hr hwd hw hm hf (gives_const (key hno))
  · exact gives_found d hd Q hr hwd hw hm hf (gives_const (key hno))
  · exact gives_found d hd Q hr hwd hw hm hf (gives_const (key hno))

variable (hpo : d.cfg.passOptional = true)
include hpo

/-- C97, with the wrapper repaired: Chmod is one call of the object's Chmod, with the mode as it was given. -/
theorem C97_chmod_partial (m : σ → FileMode → σ × Option Err) (hc : d.impl.chmod h = some m) (mode : FileMode) :
    Gives (chmod d · p mode) s (m s mode).1 (returned (m s mode).2) := by
  refine gives_found d hd Q hr hwd hw hm hf (gives_const ?_)
  unfold optionalCall Ext.optional
  simp only [hpo, if_true, Option.bind_some, hc, Option.map_some]
  exact callE_ret _ s

/-- C97, with the wrapper repaired: Chown is one call of the object's Chown. -/
theorem C97_chown_partial (m : σ → Int → Int → σ × Option Err) (hc : d.impl.chown h = some m) (uid gid : Int) :
    Gives (chown d · p uid gid) s (m s uid gid).1 (returned (m s uid gid).2) := by
  refine gives_found d hd Q hr hwd hw hm hf (gives_const ?_)
  unfold optionalCall Ext.optional
  simp only [hpo, if_true, Option.bind_some, hc, Option.map_some]
  exact callE_ret _ s

/-- C97, with the wrapper repaired: Chtimes is one call of the object's Chtimes; the times that the file system does not record, and those that
Chtimes does not set, are UndefinedTimestamp, the others as given (guarantees of api.go:306-314). -/
theorem C97_chtimes_partial (m : σ → Time → Time → Time → Time → Time → σ × Option Err) (hc : d.impl.chtimes h = some m) (atime mtime a' m' : Time)
    (ha : a' = if d.impl.features.hasAccessedTime = true then atime else undefinedTimestamp)
    (hmt : m' = if d.impl.features.hasModifiedTime = true then mtime else undefinedTimestamp) :
    Gives (chtimes d · p atime mtime) s (m s undefinedTimestamp a' m' undefinedTimestamp undefinedTimestamp).1
      (returned (m s undefinedTimestamp a' m' undefinedTimestamp undefinedTimestamp).2) := by
  subst ha hmt
  refine gives_found d hd Q hr hwd hw hm hf (gives_const ?_)
  unfold optionalCall Ext.optional
  simp only [hpo, if_true, Option.bind_some, hc, Option.map_some]
  exact callE_ret _ s

end

omit hd Q hr hwd hw in
/-- C97: UndefinedTimestamp is Go's zero time, the beginning of the year 1 (as many nanoseconds before 1970 as the 1969 years have that lie between, by the Gregorian calendar); so no
time from 1970 on is taken for it. -/
theorem C97_undefined : undefinedTimestamp = -((((List.range 1969).map fun y => if (y + 1) % 4 = 0 ∧ ((y + 1) % 100 ≠ 0 ∨ (y + 1) % 400 = 0) then 366 else 365).sum * 86400 * 10 ^ 9 : Nat) : Int) ∧
    ∀ t : Time, 0 ≤ t → t ≠ undefinedTimestamp := by
  refine ⟨by decide +kernel, fun t ht h => ?_⟩
  rw [h] at ht
  exact absurd ht (by decide)

/-- C97: a missing object gives the lookup's error. -/
theorem C97_missing_partial (l : Loc) (hm : Means wd p l) (e : Err) (hmi : Missing d.impl s l e) (mode : FileMode) (uid gid : Int) (atime mtime : Time) :
    Gives (chmod d · p mode) s s (.error e) ∧ Gives (chown d · p uid gid) s s (.error e) ∧ Gives (chtimes d · p atime mtime) s s (.error e) :=
  ⟨gives_missing d hd Q hr hwd hw hm hmi, gives_missing d hd Q hr hwd hw hm hmi, gives_missing d hd Q hr hwd hw hm hmi⟩

/-- C97: Lchown is about the object with that name in the root itself, whether it is a link or not. -/
theorem C97_lchown_partial (n : Str) (hm : Means wd p [n]) (uid gid : Int) :
    (∀ e, (d.impl.getObject s n (d.impl.getRootDirectory s)).2 = .error e → Gives (lchown d · p uid gid) s s (.error e)) ∧
    (∀ h, InRoot d.impl s n h →
      (d.cfg.passOptional = false ∨ d.impl.chown h = none → Gives (lchown d · p uid gid) s s (.error .notImplemented)) ∧
      (∀ m, d.cfg.passOptional = true → d.impl.chown h = some m → Gives (lchown d · p uid gid) s (m s uid gid).1 (returned (m s uid gid).2))) := by
  obtain ⟨hnorm, hloc⟩ := normalize_means hwd hm
  have hn : IsName n := hloc n (by simp)
  refine ⟨fun e he => ⟨3, fun fuel hfu => ?_⟩, fun h hi => ⟨fun hno => ⟨3, fun fuel hfu => ?_⟩, fun m hpo hc => ⟨3, fun fuel hfu => ?_⟩⟩⟩
  all_goals
    obtain ⟨f, rfl⟩ : ∃ f, fuel = f + 3 := ⟨fuel - 3, by omega⟩
    simp only [lchown]
    rw [hw, hnorm]
  · rw [andThen_err]
    rw [keep_one d hd Q hr hn f, he]; rfl
  · rw [andThen_ok (keep_one_ok d hd Q hr hn hi f)]
    unfold optionalCall Ext.optional
    rcases hno with hno | hno
    · rw [hno]; rfl
    · rcases d.cfg.passOptional with _ | _
      · rfl
      · simp only [if_true, Option.bind_some, hno]; rfl
  · rw [andThen_ok (keep_one_ok d hd Q hr hn hi f)]
    unfold optionalCall Ext.optional
    simp only [hpo, if_true, Option.bind_some, hc, Option.map_some]
    exact callE_ret _ s

end

/-- C97: File.Chmod and File.Chown call the methods of the file's object, and say ErrNotSupported if there are none. -/
theorem C97_file (d : Drv σ H) (f : File H) (s : σ) (mode : FileMode) (uid gid : Int) :
    (d.cfg.passOptional = false → f.chmod d mode s = .ret (s, .error .notSupported) ∧ f.chown d uid gid s = .ret (s, .error .notSupported)) ∧
    (d.cfg.passOptional = true → ∀ h, f.objectHandle.inner = some h →
      (d.impl.chmod h = none → f.chmod d mode s = .ret (s, .error .notSupported)) ∧
      (∀ m, d.impl.chmod h = some m → f.chmod d mode s = .ret ((m s mode).1, returned (m s mode).2)) ∧
      (d.impl.chown h = none → f.chown d uid gid s = .ret (s, .error .notSupported)) ∧
      (∀ m, d.impl.chown h = some m → f.chown d uid gid s = .ret ((m s uid gid).1, returned (m s uid gid).2))) := by
  unfold File.chmod File.chown Ext.optional
  refine ⟨fun hpo => ?_, fun hpo h hi => ?_⟩
  · rw [hpo]; exact ⟨rfl, rfl⟩
  · simp only [hpo, if_true, hi, Option.bind_some]
    refine ⟨fun hc => ?_, fun m hc => ?_, fun hc => ?_, fun m hc => ?_⟩ <;> rw [hc]
    · rfl
    · exact callE_ret _ s
    · rfl
    · exact callE_ret _ s

/-- A file "f" with mode 0644. -/
def oneFile : List Obj := [⟨str! "f", 0o644, []⟩]
theorem oneFile_found : Found (flat 4) oneFile [str! "f"] [str! "f"] (some (str! "f")) := .entry (k := 0) (name_of (by decide)) (.zero _) rfl (by decide)
theorem oneFile_means : Means [] (str! "/f") [str! "f"] := .inl ⟨⟨_, rfl⟩, by decide⟩

/-- C97 is false even with the wrapper repaired: Chmod passes on type bits, so that here it makes a file a directory; -/
theorem C97_refuted : ¬ C97_statement passing := by
  intro h
  have h1 := h (List Obj) (Option Str) (flat 4) 3 [] oneFile (str! "/f") _ _ (some (str! "f")) Flags.ModeDir _ (flat_still 4) (flat_root 4 _) isLoc_nil oneFile_means oneFile_found rfl
  have h2 := C97_chmod_partial (⟨passing, flat 4, 3, render []⟩ : Drv _ _) rfl (flat_still 4).toQuiet [] isLoc_nil rfl oneFile (flat_root 4 _) (str! "/f") _ _ oneFile_means
    (some (str! "f")) oneFile_found rfl _ rfl Flags.ModeDir
  have := (gives_unique h1 h2).1
  revert this
  decide +kernel

/-- the object becomes a directory: -/
example : ((flat 4).stat [⟨str! "f", Flags.ModeDir, []⟩] (some (str! "f"))).isDir = true := by decide

/-- ... and when the handle is only kept, Chmod never does anything. -/
theorem C97_refuted_keeping : ¬ C97_statement keeping := by
  intro h
  have h1 := h (List Obj) (Option Str) (flat 4) 3 [] oneFile (str! "/f") _ _ (some (str! "f")) 0o600 _ (flat_still 4) (flat_root 4 _) isLoc_nil oneFile_means oneFile_found rfl
  have h2 := (C97_unsupported_partial (⟨keeping, flat 4, 3, render []⟩ : Drv _ _) rfl (flat_still 4).toQuiet [] isLoc_nil rfl oneFile (flat_root 4 _) (str! "/f") _ _ oneFile_means
    (some (str! "f")) oneFile_found).1 (.inl rfl) 0o600
  have := (gives_unique h1 h2).2
  revert this
  decide +kernel

example : Missing (flat 4) oneFile [str! "g"] .notFound := .entry (k := 0) (name_of (by decide)) (.zero _) rfl

/-! ### C98: mount flags -/

/-- The same driver with other mount flags. -/
def Drv.mounted (d : Drv σ H) (mf : MountFlags) : Drv σ H := { d with mountFlags := mf }

section
variable (d : Drv σ H) (mf : MountFlags)

theorem resolve_mounted : ∀ n : Nat,
    getNoFollow (d.mounted mf) n = getNoFollow d n ∧ getFollow (d.mounted mf) n = getFollow d n ∧ followLoop (d.mounted mf) n = followLoop d n ∧
    resolveSymlink (d.mounted mf) n = resolveSymlink d n ∧ symlinkLoop (d.mounted mf) n = symlinkLoop d n
  | 0 => by
    refine ⟨?_, ?_, ?_, ?_, ?_⟩
    · funext p; rw [getNoFollow, getNoFollow]
    · funext p; rw [getFollow, getFollow]
    · funext p; rw [followLoop, followLoop]
    · funext p; rw [resolveSymlink, resolveSymlink]
    · funext c p; rw [symlinkLoop, symlinkLoop]
  | n + 1 => by
    obtain ⟨i1, i2, i3, i4, i5⟩ := resolve_mounted n
    refine ⟨?_, ?_, ?_, ?_, ?_⟩
    · funext p; rw [getNoFollow, getNoFollow, i2]; rfl
    · funext p; rw [getFollow, getFollow, i1, i3]
    · funext p; rw [followLoop, followLoop, i3, i4]; rfl
    · funext p; rw [resolveSymlink, resolveSymlink, i5]; rfl
    · funext c p; rw [symlinkLoop, symlinkLoop, i1, i5]; rfl

theorem mkdirAll_mounted : ∀ n : Nat, mkdirAll (d.mounted mf) n = mkdirAll d n
  | 0 => by funext p m; rw [mkdirAll, mkdirAll]
  | n + 1 => by
    funext p m
    rw [mkdirAll, mkdirAll, mkdirAll_mounted n, (resolve_mounted d mf n).2.1]; rfl

theorem removeLoop_mounted (r : Ext H → M σ Unit) (dir : Ext H) : ∀ ns : List Str, removeLoop (d.mounted mf) r dir ns = removeLoop d r dir ns
  | [] => by rw [removeLoop, removeLoop]
  | n :: ns => by rw [removeLoop, removeLoop, removeLoop_mounted r dir ns]; rfl

theorem removeDirectory_mounted : ∀ n : Nat, removeDirectory (d.mounted mf) n = removeDirectory d n
  | 0 => by funext e; rw [removeDirectory, removeDirectory]
  | n + 1 => by
    funext e
    rw [removeDirectory, removeDirectory, removeDirectory_mounted n]
    simp only [removeLoop_mounted]
    rfl

/-- C98, what the code does, in every configuration: the mount flags make no difference to these calls, whatever their arguments and the state. -/
theorem C98_ignored_partial (fuel : Nat) (p q : Str) (perm : FileMode) (uid gid : Int) (atime mtime : Time) :
    remove (d.mounted mf) fuel p = remove d fuel p ∧ removeAll (d.mounted mf) fuel p = removeAll d fuel p ∧
    mkdir (d.mounted mf) fuel p perm = mkdir d fuel p perm ∧ mkdirAll (d.mounted mf) fuel p perm = mkdirAll d fuel p perm ∧
    truncate (d.mounted mf) fuel p = truncate d fuel p ∧ link (d.mounted mf) fuel p q = link d fuel p q ∧
    chmod (d.mounted mf) fuel p perm = chmod d fuel p perm ∧ chown (d.mounted mf) fuel p uid gid = chown d fuel p uid gid ∧
    lchown (d.mounted mf) fuel p uid gid = lchown d fuel p uid gid ∧ chtimes (d.mounted mf) fuel p atime mtime = chtimes d fuel p atime mtime ∧
    readFile (d.mounted mf) fuel p = readFile d fuel p ∧ stat (d.mounted mf) fuel p = stat d fuel p := by
  obtain ⟨i1, i2, i3, i4, i5⟩ := resolve_mounted d mf fuel
  refine ⟨?_, ?_, ?_, ?_, ?_, ?_, ?_, ?_, ?_, ?_, ?_, ?_⟩
  · unfold remove; rw [i2]; rfl
  · unfold removeAll; rw [i2, removeDirectory_mounted]; rfl
  · unfold mkdir; simp only; rw [i2]; rfl
  · rw [mkdirAll_mounted]
  · unfold truncate; rw [i2]; rfl
  · unfold link; rw [i2]; rfl
  · unfold chmod; rw [i2]; rfl
  · unfold chown; rw [i2]; rfl
  · unfold lchown; rw [i1]; rfl
  · unfold chtimes; rw [i2]; rfl
  · unfold readFile; rw [i2]; rfl
  · unfold stat; rw [i2]; rfl

end

/-- C98, what it says: without write permission nothing changes the file system; without delete permission (which implies it) nothing is removed. -/
def C98_statement (cfg : Cfg) : Prop :=
  ∀ (σ H : Type) (impl : Impl σ H) (mf : MountFlags) (wd : Loc) (fuel : Nat) (s s' : σ) (p : Str) (perm : FileMode) (r : Except Err Unit),
    Still impl → IsLoc wd → ¬ Writable mf →
    (remove ⟨cfg, impl, mf, render wd⟩ fuel p s = .ret (s', r) → s' = s) ∧
    (truncate ⟨cfg, impl, mf, render wd⟩ fuel p s = .ret (s', r) → s' = s) ∧
    (mkdir ⟨cfg, impl, mf, render wd⟩ fuel p perm s = .ret (s', r) → s' = s) ∧
    (∀ data, writeFile ⟨cfg, impl, mf, render wd⟩ fuel p data perm s = .ret (s', r) → s' = s)

/-- C98 holds of WriteFile: it is refused, in every configuration. -/
theorem C98_writeFile (d : Drv σ H) (hmf : ¬ Writable d.mountFlags) (fuel : Nat) (p : Str) (data : Bytes) (perm : FileMode) (s : σ) :
    writeFile d fuel p data perm s = .ret (s, .error .readOnlyFileSystem) := by
  unfold writeFile
  rw [andThen_err (C64_refused_partial _ _ _ _ _ _ hmf (by unfold WriteIntent; decide))]

/-- C98 holds of Create as well. -/
theorem C98_create (d : Drv σ H) (hmf : ¬ Writable d.mountFlags) (fuel : Nat) (p : Str) (s : σ) : create d fuel p s = .ret (s, .error .readOnlyFileSystem) :=
  C64_refused_partial _ _ _ _ _ _ hmf (by unfold WriteIntent; decide)

example : ¬ Writable 1 := by unfold Writable; decide

/-- C98 is false of the code, even when the handle is kept: Remove on a read-only mount removes. -/
theorem C98_refuted : ¬ C98_statement keeping := by
  intro h
  have h1 := (h (List Obj) (Option Str) (flat 4) 1 [] 9 oneFile [] (str! "/f") 0 (.ok ()) (flat_still 4) isLoc_nil (by unfold Writable; decide)).1 (by decide +kernel)
  cases h1

end Disko.Driver

import Verif.Driver.Props10
/-! C89, C90: Mkdir and MkdirAll. -/
namespace Disko.Driver
open Disko Spec

variable {σ H α β : Type}

namespace Spec

/-- Bit `i` of an os.FileMode is one of the type bits (os.ModeType: directory, symbolic link, named pipe, socket, device,
character device, irregular). -/
def TypeBit (i : Nat) : Prop := i = 31 ∨ i = 27 ∨ i = 25 ∨ i = 24 ∨ i = 26 ∨ i = 21 ∨ i = 19

/-- `mode` is `perm` as the mode of a directory: of the type bits it has the directory's and no other, and its other bits are
those of `perm`. -/
def DirectoryMode (perm mode : FileMode) : Prop :=
  mode.getLsbD 31 = true ∧ (∀ i, TypeBit i → i ≠ 31 → mode.getLsbD i = false) ∧ (∀ i, ¬ TypeBit i → mode.getLsbD i = perm.getLsbD i)

end Spec

theorem typeMask (i : Nat) : (Flags.ModeType).getLsbD i = true ↔ TypeBit i := by
  unfold TypeBit
  by_cases h : i < 32
  · have key : ∀ j : Fin 32, (Flags.ModeType).getLsbD j = true ↔ (j.val = 31 ∨ j.val = 27 ∨ j.val = 25 ∨ j.val = 24 ∨ j.val = 26 ∨ j.val = 21 ∨ j.val = 19) := by decide
    exact key ⟨i, h⟩
  · rw [BitVec.getLsbD_of_ge _ _ (by omega)]
    constructor
    · intro h; cases h
    · omega

theorem dirBit (i : Nat) : (Flags.ModeDir).getLsbD i = true ↔ i = 31 := by
  by_cases h : i < 32
  · have key : ∀ j : Fin 32, (Flags.ModeDir).getLsbD j = true ↔ j.val = 31 := by decide
    exact key ⟨i, h⟩
  · rw [BitVec.getLsbD_of_ge _ _ (by omega)]
    constructor
    · intro h; cases h
    · omega

theorem dirPerm_spec (perm mode : FileMode) : DirectoryMode perm mode ↔ mode = dirPerm perm := by
  have hd : DirectoryMode perm (dirPerm perm) := by
    unfold dirPerm
    refine ⟨?_, fun i h1 h2 => ?_, fun i h1 => ?_⟩
    · rw [BitVec.getLsbD_or, (dirBit 31).mpr rfl, Bool.or_true]
    · rw [BitVec.getLsbD_or, BitVec.getLsbD_and, BitVec.getLsbD_not, (typeMask i).mpr h1,
        show Flags.ModeDir.getLsbD i = false from Bool.eq_false_iff.mpr fun h => h2 ((dirBit i).mp h)]
      simp
    · rw [BitVec.getLsbD_or, BitVec.getLsbD_and, BitVec.getLsbD_not,
        show Flags.ModeType.getLsbD i = false from Bool.eq_false_iff.mpr fun h => h1 ((typeMask i).mp h),
        show Flags.ModeDir.getLsbD i = false from Bool.eq_false_iff.mpr fun h => h1 ((dirBit i).mp h ▸ .inl rfl)]
      by_cases h : i < 32
      · simp [h]
      · rw [BitVec.getLsbD_of_ge _ _ (by omega)]; simp
  refine ⟨fun h => ?_, fun h => h ▸ hd⟩
  apply BitVec.eq_of_getLsbD_eq
  intro i _
  by_cases ht : TypeBit i
  · by_cases h31 : i = 31
    · subst h31; rw [h.1, hd.1]
    · rw [h.2.1 i ht h31, hd.2.1 i ht h31]
  · rw [h.2.2 i ht, hd.2.2 i ht]

example : DirectoryMode 0x1ed 0x800001ed := (dirPerm_spec _ _).mpr (by decide)

theorem dirPerm_kind (perm : FileMode) : kindOf (dirPerm perm) = .dir := by
  unfold kindOf
  rw [((dirPerm_spec perm _).mpr rfl).1]; rfl

/-! ### C89: Mkdir -/

/-- C89, what it says: in an existing directory where there is nothing of that name, Mkdir makes a directory and nothing else; where there is
something, it fails and changes nothing. -/
def C89_statement (cfg : Cfg) : Prop :=
  ∀ (σ H : Type) (impl : Impl σ H) (kind : σ → Loc → Option Kind) (loc : H → Loc) (mf : MountFlags) (wd : Loc) (s : σ) (p : Str) (l : Loc) (n : Str) (perm : FileMode),
    Volume impl kind loc → IsLoc wd → Means wd p (l ++ [n]) → kind s l = some .dir →
    (kind s (l ++ [n]) = none → ∃ s', Gives (mkdir ⟨cfg, impl, mf, render wd⟩ · p perm) s s' (.ok ()) ∧
      ∀ l', kind s' l' = if l' = l ++ [n] then some .dir else kind s l') ∧
    (kind s (l ++ [n]) ≠ none → ∃ e, Gives (mkdir ⟨cfg, impl, mf, render wd⟩ · p perm) s s (.error e))

theorem split_one {n : Str} (hn : IsName n) : Path.splitLast (render [n]) = (str! "/", n) := by
  have := splitLast_render [] hn
  rw [List.nil_append, if_pos rfl] at this
  exact this

theorem createAndClose_ret (d : Drv σ H) (Q : Quiet d.impl) (n : Str) (h : H) (q : Str) (perm : FileMode) (s : σ) :
    createAndClose d n ⟨some h, q⟩ perm s = .ret ((d.impl.createObject s n h perm).1, (d.impl.createObject s n h perm).2.map fun _ => ()) := by
  unfold createAndClose
  simp only [Ext.method, M.andThen, M.call]
  rcases d.impl.createObject s n h perm with ⟨s', e | h'⟩
  · rfl
  · simp only [M.either, M.callE, Q.close]; rfl

section
variable (d : Drv σ H) (hd : d.cfg.keepHandle = true) (Q : Quiet d.impl) (wd : Loc) (hwd : IsLoc wd) (hw : d.workingDirPath = render wd)
  (s : σ) (hr : RootIsDir d.impl s) (p : Str) (n : Str) (hm : Means wd p [n]) (perm mode : FileMode) (hmode : DirectoryMode perm mode)
include hd Q hwd hw hr hm hmode

/-- C89, when wrapObjectHandle keeps the handle, on any implementation: for a path in the root directory Mkdir is exactly one call of CreateObject in
the root, with the name and a mode that is a directory's with the rest of `perm`; its error is returned.  (It is called even if the
object exists: `C89_refuted`.) -/
theorem C89_call_partial : Gives (mkdir d · p perm) s (d.impl.createObject s n (d.impl.getRootDirectory s) mode).1
    ((d.impl.createObject s n (d.impl.getRootDirectory s) mode).2.map fun _ => ()) := by
  obtain ⟨hnorm, hloc⟩ := normalize_means hwd hm
  have hn : IsName n := hloc n (by simp)
  rw [(dirPerm_spec perm mode).mp hmode]
  refine ⟨2, fun fuel hfu => ?_⟩
  obtain ⟨f, rfl⟩ : ∃ f, fuel = f + 2 := ⟨fuel - 2, by omega⟩
  simp only [mkdir]
  rw [hw, hnorm, split_one hn, andThen_ok (keep_root_follow d hd hr.2 f)]
  have hbody : (M.andThen (statOf d ⟨some (d.impl.getRootDirectory s), str! "/"⟩) fun st =>
      if !st.isDir then M.fail .notADirectory else createAndClose d n ⟨some (d.impl.getRootDirectory s), str! "/"⟩ (dirPerm perm)) s =
      .ret ((d.impl.createObject s n (d.impl.getRootDirectory s) (dirPerm perm)).1, (d.impl.createObject s n (d.impl.getRootDirectory s) (dirPerm perm)).2.map fun _ => ()) := by
    rw [andThen_ok (a := d.impl.stat s (d.impl.getRootDirectory s)) (s' := s) rfl, hr.1]
    exact createAndClose_ret d Q _ _ _ _ _
  exact deferred_close d Q hbody

end

example : Means [] (str! "/a") [str! "a"] ∧ DirectoryMode 0x1ed 0x800001ed ∧ RootIsDir growing [] :=
  ⟨.inl ⟨⟨_, rfl⟩, by decide⟩, (dirPerm_spec _ _).mpr (by decide), ⟨by decide, by decide⟩⟩

section
variable {impl : Impl σ H} {kind : σ → Loc → Option Kind} {loc : H → Loc} (V : Volume impl kind loc) (cfg : Cfg) (hc : cfg.keepHandle = true) (mf : MountFlags) (wd : Loc)
    (hwd : IsLoc wd) (s : σ) (p : Str) (n : Str) (hm : Means wd p [n]) (perm : FileMode)
include V hc hwd hm

/-- C89 in a volume, when wrapObjectHandle keeps the handle: where there is nothing of that name in the root, Mkdir makes a directory and nothing else. -/
theorem C89_volume_partial (hk : kind s [n] = none) :
    ∃ s', Gives (mkdir ⟨cfg, impl, mf, render wd⟩ · p perm) s s' (.ok ()) ∧ ∀ l', kind s' l' = if l' = [n] then some .dir else kind s l' := by
  have hn : IsName n := (normalize_means hwd hm).2 n (by simp)
  obtain ⟨h1, h2⟩ := V.root s
  obtain ⟨s', h', hcr, _, hs'⟩ := V.create s (impl.getRootDirectory s) n (dirPerm perm) (by rw [h1]; exact h2) hn (by rw [h1]; exact hk)
  refine ⟨s', ?_, fun l' => ?_⟩
  · have := C89_call_partial (⟨cfg, impl, mf, render wd⟩ : Drv σ H) hc V.toQuiet wd hwd rfl s (volume_root V s) p n hm perm _ ((dirPerm_spec perm _).mpr rfl)
    simp only [hcr] at this
    exact this
  · rw [hs', h1, dirPerm_kind]; rfl

end

example : kindAt sample.1 [str! "new"] = none ∧ Means [] (str! "/new/../new/") [str! "new"] := ⟨by decide, .inl ⟨⟨_, rfl⟩, by decide⟩⟩

/-- An implementation that, relying on the guarantee that CreateObject is not called for an object that exists, does not check, and returns the
object there is. -/
def trusting : Impl Store Loc :=
  { store with createObject := fun s n h mode => if kindAt s.1 (h ++ [n]) = none then store.createObject s n h mode else (s, .ok (h ++ [n])) }

theorem trusting_volume : Volume trusting (fun s => kindAt s.1) id where
  getObject := store_volume.getObject
  close := store_volume.close
  read := store_volume.read
  list := store_volume.list
  root := store_volume.root
  found := store_volume.found
  missing := store_volume.missing
  stat := store_volume.stat
  listing := store_volume.listing
  unlink := store_volume.unlink
  create s h n mode h1 h2 h3 := by
    simp only [trusting]
    rw [if_pos (by exact h3)]
    exact store_volume.create s h n mode h1 h2 h3
  same := store_volume.same
  bounded := store_volume.bounded
  parents := store_volume.parents
  names := store_volume.names

/-- C89 is false even with the wrapper repaired: Mkdir calls CreateObject for an object that exists, so that, on an implementation that trusts
the guarantee not to, it reports having made a directory where there is a file. -/
theorem C89_refuted : ¬ C89_statement passing := by
  intro h
  obtain ⟨e, h1⟩ := (h Store Loc trusting (fun s => kindAt s.1) id 3 [] sample (str! "/f") [] (str! "f") 0 trusting_volume isLoc_nil (.inl ⟨⟨_, rfl⟩, by decide⟩) rfl).2 (by decide)
  have h2 := C89_call_partial (⟨passing, trusting, 3, render []⟩ : Drv _ _) rfl trusting_volume.toQuiet [] isLoc_nil rfl sample (volume_root trusting_volume sample) (str! "/f")
    (str! "f") (.inl ⟨⟨_, rfl⟩, by decide⟩) 0 _ ((dirPerm_spec 0 _).mpr rfl)
  have h3 := (gives_unique h1 h2).2
  have h4 : (trusting.createObject sample (str! "f") (trusting.getRootDirectory sample) (dirPerm 0)).2.map (fun _ => ()) = .ok () := by decide +kernel
  simp only at h3
  rw [h4] at h3
  cases h3

/-- Whatever wrapObjectHandle does: for a path of two or more components the parent is never found. -/
theorem never_parent (d : Drv σ H) (l : Loc) (hne : l ≠ []) {n : Str} (hn : IsName n) (s : σ) (fuel : Nat) :
    getFollow d fuel (Path.splitLast (render (l ++ [n]))).1 s = .timeout := by
  rw [splitLast_render l hn, if_neg hne]
  refine (never_slash d _ ?_ s fuel).2
  obtain ⟨r, e⟩ := render_absolute l
  rw [e]; simp

/-- C89, whatever wrapObjectHandle does: Mkdir of a path of two or more components never returns. -/
theorem C89_deep (d : Drv σ H) (wd : Loc) (hwd : IsLoc wd) (hw : d.workingDirPath = render wd) (s : σ) (p : Str) (l : Loc) (n : Str) (hm : Means wd p (l ++ [n]))
    (hne : l ≠ []) (perm : FileMode) (fuel : Nat) : mkdir d fuel p perm s = .timeout := by
  obtain ⟨hnorm, hloc⟩ := normalize_means hwd hm
  simp only [mkdir]
  rw [hw, hnorm]
  exact andThen_timeout (never_parent d l hne (hloc n (by simp)) s fuel)

/-- ... so a directory in a directory is never made. -/
theorem C89_refuted_deep (cfg : Cfg) : ¬ C89_statement cfg := by
  intro h
  have hloc : IsLoc ([str! "d"] ++ [str! "new"]) := by decide
  obtain ⟨s', ⟨N, h1⟩, _⟩ := (h Store Loc store (fun s => kindAt s.1) id 3 [] sample (render ([str! "d"] ++ [str! "new"])) [str! "d"] (str! "new") 0 store_volume isLoc_nil
    (means_render hloc []) (by decide)).1 (by decide)
  have h1 := h1 N (by omega)
  simp only at h1
  rw [C89_deep _ [] isLoc_nil rfl sample _ [str! "d"] (str! "new") (means_render hloc []) (by simp)] at h1
  cases h1

/-- Mkdir of the root asks the implementation to create an object with an empty name in it, when wrapObjectHandle keeps the handle. -/
theorem C89_root (d : Drv σ H) (hd : d.cfg.keepHandle = true) (Q : Quiet d.impl) (s : σ) (hr : RootIsDir d.impl s) (perm mode : FileMode) (hmode : DirectoryMode perm mode) :
    Gives (mkdir d · (str! "/") perm) s (d.impl.createObject s [] (d.impl.getRootDirectory s) mode).1
      ((d.impl.createObject s [] (d.impl.getRootDirectory s) mode).2.map fun _ => ()) := by
  rw [(dirPerm_spec perm mode).mp hmode]
  refine ⟨2, fun fuel hfu => ?_⟩
  obtain ⟨f, rfl⟩ : ∃ f, fuel = f + 2 := ⟨fuel - 2, by omega⟩
  simp only [mkdir]
  rw [show normalizePath d.workingDirPath (str! "/") = str! "/" from (C61_absolute_partial d.workingDirPath (str! "/") ⟨[], rfl⟩).trans (by decide),
    show Path.splitLast (str! "/") = (str! "/", []) by decide, andThen_ok (keep_root_follow d hd hr.2 f)]
  have hbody : (M.andThen (statOf d ⟨some (d.impl.getRootDirectory s), str! "/"⟩) fun st =>
      if !st.isDir then M.fail .notADirectory else createAndClose d [] ⟨some (d.impl.getRootDirectory s), str! "/"⟩ (dirPerm perm)) s =
      .ret ((d.impl.createObject s [] (d.impl.getRootDirectory s) (dirPerm perm)).1, (d.impl.createObject s [] (d.impl.getRootDirectory s) (dirPerm perm)).2.map fun _ => ()) := by
    rw [andThen_ok (a := d.impl.stat s (d.impl.getRootDirectory s)) (s' := s) rfl, hr.1]
    exact createAndClose_ret d Q _ _ _ _ _
  exact deferred_close d Q hbody

/-! ### C90: MkdirAll -/

/-- C90, what it says: MkdirAll makes the directory and all missing directories above it, and nothing else; if the directory is there already, it succeeds and changes nothing. -/
def C90_statement (cfg : Cfg) : Prop :=
  ∀ (σ H : Type) (impl : Impl σ H) (kind : σ → Loc → Option Kind) (loc : H → Loc) (mf : MountFlags) (wd : Loc) (s : σ) (p : Str) (l : Loc) (perm : FileMode),
    Volume impl kind loc → IsLoc wd → Means wd p l → (∀ l', l' <+: l → kind s l' = none ∨ kind s l' = some .dir) →
    ∃ s', Gives (mkdirAll ⟨cfg, impl, mf, render wd⟩ · p perm) s s' (.ok ()) ∧ ∀ l', kind s' l' = if l' <+: l then some .dir else kind s l'

section
variable (d : Drv σ H) (hd : d.cfg.keepHandle = true) (Q : Quiet d.impl) (wd : Loc) (hwd : IsLoc wd) (hw : d.workingDirPath = render wd)
  (s : σ) (hr : RootIsDir d.impl s) (p : Str) (n : Str) (hm : Means wd p [n]) (perm mode : FileMode) (hmode : DirectoryMode perm mode)
include hd Q hwd hw hr hm hmode

/-- C90, when wrapObjectHandle keeps the handle, on any implementation: for a path in the root directory MkdirAll is the same one call of
CreateObject as Mkdir, also if the directory exists. -/
theorem C90_call_partial : Gives (mkdirAll d · p perm) s (d.impl.createObject s n (d.impl.getRootDirectory s) mode).1
    ((d.impl.createObject s n (d.impl.getRootDirectory s) mode).2.map fun _ => ()) := by
  obtain ⟨hnorm, hloc⟩ := normalize_means hwd hm
  have hn : IsName n := hloc n (by simp)
  rw [(dirPerm_spec perm mode).mp hmode]
  refine ⟨3, fun fuel hfu => ?_⟩
  obtain ⟨f, rfl⟩ : ∃ f, fuel = f + 3 := ⟨fuel - 3, by omega⟩
  simp only
  rw [mkdirAll]
  rw [hw, hnorm, split_one hn, either_ret (keep_root_follow d hd hr.2 f)]
  exact deferred_close d Q (createAndClose_ret d Q _ _ _ _ _)

end

/-- C90 in a volume, when wrapObjectHandle keeps the handle: a directory that is not there is made in the root, and nothing else. -/
theorem C90_volume_partial {impl : Impl σ H} {kind : σ → Loc → Option Kind} {loc : H → Loc} (V : Volume impl kind loc) (cfg : Cfg) (hc : cfg.keepHandle = true) (mf : MountFlags)
    (wd : Loc) (hwd : IsLoc wd) (s : σ) (p : Str) (n : Str) (hm : Means wd p [n]) (perm : FileMode) (hk : kind s [n] = none) :
    ∃ s', Gives (mkdirAll ⟨cfg, impl, mf, render wd⟩ · p perm) s s' (.ok ()) ∧ ∀ l', kind s' l' = if l' = [n] then some .dir else kind s l' := by
  obtain ⟨s', h1, h2⟩ := C89_volume_partial V cfg hc mf wd hwd s p n hm perm hk
  refine ⟨s', ?_, h2⟩
  have h3 := C89_call_partial (⟨cfg, impl, mf, render wd⟩ : Drv σ H) hc V.toQuiet wd hwd rfl s (volume_root V s) p n hm perm _ ((dirPerm_spec perm _).mpr rfl)
  have h4 := C90_call_partial (⟨cfg, impl, mf, render wd⟩ : Drv σ H) hc V.toQuiet wd hwd rfl s (volume_root V s) p n hm perm _ ((dirPerm_spec perm _).mpr rfl)
  obtain ⟨e1, e2⟩ := gives_unique h3 h1
  rw [e1, e2] at h4
  exact h4

/-- C90, whatever wrapObjectHandle does: for a path of two or more components MkdirAll never returns. -/
theorem C90_deep (d : Drv σ H) (wd : Loc) (hwd : IsLoc wd) (hw : d.workingDirPath = render wd) (s : σ) (p : Str) (l : Loc) (n : Str) (hm : Means wd p (l ++ [n]))
    (hne : l ≠ []) (perm : FileMode) (fuel : Nat) : mkdirAll d fuel p perm s = .timeout := by
  obtain ⟨hnorm, hloc⟩ := normalize_means hwd hm
  cases fuel with
  | zero => rw [mkdirAll]
  | succ fuel =>
    rw [mkdirAll]
    rw [hw, hnorm]
    exact either_timeout (never_parent d l hne (hloc n (by simp)) s fuel)

/-- So C90 is false: missing directories above are not made. -/
theorem C90_refuted_deep (cfg : Cfg) : ¬ C90_statement cfg := by
  intro h
  have hloc : IsLoc ([str! "x"] ++ [str! "y"]) := by decide
  have hpre : ∀ l', l' <+: [str! "x", str! "y"] → l' = [] ∨ l' = [str! "x"] ∨ l' = [str! "x", str! "y"] := by
    intro l' h
    rcases l' with _ | ⟨a, _ | ⟨b, l'⟩⟩
    · exact .inl rfl
    · rw [List.cons_prefix_cons] at h
      rw [h.1]; exact .inr (.inl rfl)
    · rw [List.cons_prefix_cons, List.cons_prefix_cons, List.prefix_nil] at h
      rw [h.1, h.2.1, h.2.2]; exact .inr (.inr rfl)
  obtain ⟨s', ⟨N, h1⟩, _⟩ := h Store Loc store (fun s => kindAt s.1) id 3 [] sample (render ([str! "x"] ++ [str! "y"])) [str! "x", str! "y"] 0 store_volume isLoc_nil
    (means_render hloc []) (fun l' hl => by rcases hpre l' hl with rfl | rfl | rfl <;> decide)
  have h1 := h1 N (by omega)
  simp only at h1
  rw [C90_deep _ [] isLoc_nil rfl sample _ [str! "x"] (str! "y") (means_render hloc []) (by simp)] at h1
  cases h1

/-- C90 is also false of a directory that exists: CreateObject is called for it, and here fails. -/
theorem C90_refuted : ¬ C90_statement passing := by
  intro h
  obtain ⟨s', h1, _⟩ := h Store Loc store (fun s => kindAt s.1) id 3 [] sample (str! "/d") [str! "d"] 0 store_volume isLoc_nil (.inl ⟨⟨_, rfl⟩, by decide⟩) (by
    intro l' hl
    rcases l' with _ | ⟨a, l'⟩
    · right; decide
    · rw [List.cons_prefix_cons, List.prefix_nil] at hl
      rw [hl.1, hl.2]; right; decide)
  have h2 := C90_call_partial (⟨passing, store, 3, render []⟩ : Drv _ _) rfl store_volume.toQuiet [] isLoc_nil rfl sample (volume_root store_volume sample) (str! "/d")
    (str! "d") (.inl ⟨⟨_, rfl⟩, by decide⟩) 0 _ ((dirPerm_spec 0 _).mpr rfl)
  have h3 := (gives_unique h1 h2).2
  have h4 : (store.createObject sample (str! "d") (store.getRootDirectory sample) (dirPerm 0)).2.map (fun _ => ()) = .error (.foreign 1) := by decide +kernel
  simp only at h3
  rw [h4] at h3
  cases h3

end Disko.Driver

import Verif.Driver.Props12
/-! C93-C96: truncating, hard links, O_NOFOLLOW, changing attributes. -/
namespace Disko.Driver
open Disko Spec

variable {σ H α β : Type}

/-! ### C93: O_TRUNC and Truncate -/

section
variable (d : Drv σ H) (hd : d.cfg.keepHandle = true) (Q : Quiet d.impl) (wd : Loc) (hwd : IsLoc wd) (hw : d.workingDirPath = render wd)
  (s : σ) (hr : RootIsDir d.impl s) (p : Str) (l : Loc) (hm : Means wd p l)
include hd Q hwd hw hr hm

/-- C93, when wrapObjectHandle keeps the handle, on any implementation: opening a regular file with O_TRUNC and write permission (without O_SYNC, bit 13) resizes
it to 0 bytes and does nothing else, and gives a file of size 0 on it; an error of Resize is returned. -/
theorem C93_open_partial (flags : Flags.IOFlags) (perm : FileMode) (ha : Writable d.mountFlags) (l' : Loc) (h : H) (b t : Nat) (hf : Found d.impl s l l' h)
    (hfile : (d.impl.stat s h).isFile = true) (hfit : SizesFit (d.impl.stat s h) b t) (ht : TruncIntent flags) (hwr : flags.getLsbD 0 ≠ flags.getLsbD 1) (hsy : flags.getLsbD 13 = false) :
    (∀ s', d.impl.resize s h 0 = (s', none) → ∃ f, Gives (openFile d · p flags perm) s s' (.ok f) ∧ OpenOn f h 0 flags) ∧
    (∀ s' e, d.impl.resize s h 0 = (s', some e) → Gives (openFile d · p flags perm) s s' (.error (.stream (.cache (.resizeFailed e))))) := by
  have h1 : Flags.truncate flags = true := (truncate_iff flags).mpr ht
  have h2 : Flags.write flags = true := by
    unfold Flags.write
    rw [show Flags.O_ACCMODE = 3 from rfl, Flags.and_three]
    revert hwr
    cases flags.getLsbD 0 <;> cases flags.getLsbD 1 <;> decide
  have h3 : Flags.synchronous flags = false := by
    rcases e : Flags.synchronous flags with _ | _
    · rfl
    · unfold Flags.synchronous at e
      rw [bne_iff_ne] at e
      rw [(Flags.and_bit flags 13 (by decide)).mp e] at hsy
      cases hsy
  exact ⟨fun s' hrs => ⟨_, open_found d hd Q wd hwd hw s hr p l hm flags perm (.inl ha) hf hfile (newFile_trunc d hfit _ flags h1 h2 h3 hrs), rfl, rfl, rfl, rfl⟩,
    fun s' e hrs => open_found d hd Q wd hwd hw s hr p l hm flags perm (.inl ha) hf hfile (newFile_trunc_fails d hfit _ flags h1 h2 hrs)⟩

/-- C93: Truncate resizes what the path leads to, unless it is a directory, to 0 bytes and does nothing else; an error of Resize is returned. -/
theorem C93_truncate_partial (l' : Loc) (h : H) (hf : Found d.impl s l l' h) (hdir : (d.impl.stat s h).isDir = false) :
    Gives (truncate d · p) s (d.impl.resize s h 0).1 (match (d.impl.resize s h 0).2 with | none => .ok () | some e => .error (.stream (.cache (.resizeFailed e)))) := by
  refine gives_found d hd Q hr hwd hw hm hf (gives_const (deferred_close d Q ?_))
  rw [andThen_ok (a := d.impl.stat s h) (s' := s) rfl, hdir]
  simp only [Bool.false_eq_true, if_false, resizeOf, Ext.method]
  rcases d.impl.resize s h 0 with ⟨s', _ | e⟩ <;> rfl

/-- C93: a directory is not truncated. -/
theorem C93_directory_partial (l' : Loc) (h : H) (hf : Found d.impl s l l' h) (hdir : (d.impl.stat s h).isDir = true) :
    Gives (truncate d · p) s s (.error .isADirectory) := by
  refine gives_found d hd Q hr hwd hw hm hf (gives_const (deferred_close d Q ?_))
  rw [andThen_ok (a := d.impl.stat s h) (s' := s) rfl, hdir]; rfl

/-- C93: a missing object gives the lookup's error. -/
theorem C93_missing_partial (e : Err) (hmi : Missing d.impl s l e) : Gives (truncate d · p) s s (.error e) := gives_missing d hd Q hr hwd hw hm hmi

end

/-- C93, what it says of Truncate: whatever it is and wherever it is, an existing file is resized to 0 bytes, and nothing else happens. -/
def C93_statement (cfg : Cfg) : Prop :=
  ∀ (σ H : Type) (impl : Impl σ H) (mf : MountFlags) (wd : Loc) (s s' : σ) (p : Str) (l : Loc) (h : H), Quiet impl → IsLoc wd → Means wd p l → At impl s l h →
    (impl.stat s h).isFile = true → impl.resize s h 0 = (s', none) → Gives (truncate ⟨cfg, impl, mf, render wd⟩ · p) s s' (.ok ())

/-- C93 is false even with the wrapper repaired: of a file in a directory of the root the call does not return. -/
theorem C93_refuted_deep (cfg : Cfg) : ¬ C93_statement cfg := by
  intro h
  have hloc : IsLoc ([str! "d"] ++ [str! "f"]) := by decide
  have hat : At store sample ([] ++ [str! "d"] ++ [str! "f"]) ([] ++ [str! "d"] ++ [str! "f"]) :=
    .down (.down (.root (by decide +kernel)) (by decide +kernel) (by rfl) (by decide +kernel)) (by decide +kernel) (by rfl) (by decide +kernel)
  obtain ⟨N, h1⟩ := h Store Loc store 3 [] sample sample (render ([str! "d"] ++ [str! "f"])) ([str! "d"] ++ [str! "f"]) _ store_volume.toQuiet isLoc_nil (means_render hloc []) hat
    (by decide +kernel) rfl
  have h1 := h1 N (by omega)
  simp only [truncate] at h1
  rw [normalize_canonical hloc, andThen_timeout] at h1
  · cases h1
  · exact (never_deep _ [str! "d"] (by simp) (by decide) _ N).2

/-- A file "c" with two bytes: O_TRUNC empties it. -/
example : Found (flat 4) relative [str! "c"] [str! "c"] (some (str! "c")) ∧ ((flat 4).stat relative (some (str! "c"))).isFile = true ∧
    SizesFit ((flat 4).stat relative (some (str! "c"))) 4 1 ∧ TruncIntent 0x401 ∧ ((flat 4).resize relative (some (str! "c")) 0).2 = none :=
  ⟨.entry (k := 0) (name_of (by decide)) (.zero _) rfl (by decide), by decide, by unfold SizesFit; decide, by unfold TruncIntent; decide, by decide⟩

/-! ### C94: Link -/

/-- C94, what it says: Link refuses directories, and refuses names in use; in both cases nothing changes. -/
def C94_statement (cfg : Cfg) : Prop :=
  ∀ (σ H : Type) (impl : Impl σ H) (mf : MountFlags) (wd : Loc) (s : σ) (p q : Str) (l : Loc) (h : H) (n : Str),
    Still impl → RootIsDir impl s → IsLoc wd → Means wd p l → At impl s l h → Means wd q [n] →
    ((impl.stat s h).isDir = true → ∃ e, Gives (link ⟨cfg, impl, mf, render wd⟩ · p q) s s (.error e)) ∧
    ((∃ x, InRoot impl s n x) → ∃ e, Gives (link ⟨cfg, impl, mf, render wd⟩ · p q) s s (.error e))

/-- C94: without an implementation of hard links every call is refused, whatever the configuration. -/
theorem C94_unsupported (d : Drv σ H) (h : d.impl.createHardLink = none) (fuel : Nat) (p q : Str) (s : σ) : link d fuel p q s = .ret (s, .error .notSupported) := by
  unfold link; rw [h]; rfl

section
variable (d : Drv σ H) (hd : d.cfg.keepHandle = true) (Q : Quiet d.impl) (wd : Loc) (hwd : IsLoc wd) (hw : d.workingDirPath = render wd)
  (s : σ) (hr : RootIsDir d.impl s) (p q : Str) (l l2 : Loc) (hm : Means wd p l) (hm2 : Means wd q l2)
  (linker : σ → H → H → Str → σ × Except Err H) (hl : d.impl.createHardLink = some linker)
include hd Q hwd hw hr hm hl

/-- C94: if the old name is missing, the lookup's error is returned and nothing changes. -/
theorem C94_missing_partial (e : Err) (hmi : Missing d.impl s l e) : Gives (link d · p q) s s (.error e) := by
  have := gives_missing d hd Q hr hwd hw hm hmi (α := Unit) (body := fun fuel old => M.either (getFollow d fuel (normalizePath d.workingDirPath q)) fun
      | .ok _ => M.fail .exists_
      | .error _ => M.andThen (getFollow d fuel (Path.splitLast (normalizePath d.workingDirPath q)).1) fun parent => old.method fun o => parent.method fun p =>
        M.andThen (M.call (linker · o p (Path.splitLast (normalizePath d.workingDirPath q)).2)) fun _ => M.ok ())
  obtain ⟨N, hN⟩ := this
  refine ⟨N, fun fuel hfu => ?_⟩
  have := hN fuel hfu
  simp only [link, hl]
  exact this

include hm2

/-- C94: if something is found under the new name, ErrExists, and nothing changes. -/
theorem C94_exists_partial (l' l2' : Loc) (h h2 : H) (hf : Found d.impl s l l' h) (hf2 : Found d.impl s l2 l2' h2) : Gives (link d · p q) s s (.error .exists_) := by
  obtain ⟨N, hN⟩ := follow_found d hd Q hr hf
  obtain ⟨K, hK⟩ := follow_found d hd Q hr hf2
  refine ⟨max N K, fun fuel hfu => ?_⟩
  simp only [link, hl]
  rw [hw, (normalize_means hwd hm).1, andThen_ok (hN fuel (by omega)), (normalize_means hwd hm2).1, either_ret (hK fuel (by omega))]
  rfl

/-- C94: if nothing is found under the new name in the root, a hard link to what the old path leads to is made there by one call of CreateHardLink, whose error is
returned.  (Nothing else is checked: `C94_refuted`, `C94_refuted_dangling`.) -/
theorem C94_call_partial (n : Str) (hn2 : l2 = [n]) (l' : Loc) (h : H) (e : Err) (hf : Found d.impl s l l' h) (hmi : Missing d.impl s l2 e) :
    Gives (link d · p q) s (linker s h (d.impl.getRootDirectory s) n).1 ((linker s h (d.impl.getRootDirectory s) n).2.map fun _ => ()) := by
  obtain ⟨N, hN⟩ := follow_found d hd Q hr hf
  obtain ⟨K, hK⟩ := follow_missing d hd Q hr hmi
  obtain ⟨hnorm, hloc⟩ := normalize_means hwd hm2
  have hn : IsName n := hloc n (by rw [hn2]; simp)
  refine ⟨max N K + 2, fun fuel hfu => ?_⟩
  obtain ⟨f, rfl⟩ : ∃ f, fuel = f + 2 := ⟨fuel - 2, by omega⟩
  simp only [link, hl]
  rw [hw, (normalize_means hwd hm).1, andThen_ok (hN (f + 2) (by omega)), hnorm, either_ret (hK (f + 2) (by omega))]
  simp only
  rw [hn2, split_one hn, andThen_ok (keep_root_follow d hd hr.2 f)]
  simp only [Ext.method, M.andThen, M.call]
  rcases linker s h (d.impl.getRootDirectory s) n with ⟨s', e | h'⟩ <;> rfl

end

/-- "c" gets the second name "b". -/
example : Gives (link ⟨keeping, flat 4, 3, render []⟩ · (str! "/c") (str! "/b")) relative (relative ++ [⟨str! "b", 0, str! "hi"⟩]) (.ok ()) :=
  C94_call_partial (⟨keeping, flat 4, 3, render []⟩ : Drv _ _) rfl (flat_still 4).toQuiet [] isLoc_nil rfl relative (flat_root 4 _) (str! "/c") (str! "/b") [str! "c"] [str! "b"]
    (.inl ⟨⟨_, rfl⟩, by decide⟩) (.inl ⟨⟨_, rfl⟩, by decide⟩) _ rfl (str! "b") rfl [str! "c"] (some (str! "c")) .notFound (.entry (k := 0) (name_of (by decide)) (.zero _) rfl (by decide))
    (.entry (name_of (by decide)) (.zero _) rfl)

/-- A directory "d", and a link "l" to "/x", which does not exist. -/
def oddNames : List Obj := [⟨str! "d", Flags.ModeDir, []⟩, ⟨str! "l", Flags.ModeSymlink, str! "/x"⟩, ⟨str! "f", 0, str! "hi"⟩]

theorem oddNames_link : LinksTo (flat 4) oddNames (str! "l") (str! "x") :=
  ⟨some (str! "l"), str! "/x", rfl, by decide,
    flat_contents 4 (by omega) oddNames (str! "l") ⟨str! "l", Flags.ModeSymlink, str! "/x"⟩ (by decide) (by decide) (by decide), ⟨_, rfl⟩, by decide⟩

/-- C94 is false when wrapObjectHandle keeps the handle: a directory gets a second name, against the guarantee to CreateHardLink. -/
theorem C94_refuted : ¬ C94_statement keeping := by
  intro h
  have hm : Means [] (str! "/d") ([] ++ [str! "d"]) := .inl ⟨⟨_, rfl⟩, by decide⟩
  have hm2 : Means [] (str! "/e") [str! "e"] := .inl ⟨⟨_, rfl⟩, by decide⟩
  obtain ⟨e, h1⟩ := (h (List Obj) (Option Str) (flat 4) 3 [] oddNames (str! "/d") (str! "/e") ([] ++ [str! "d"]) (some (str! "d")) (str! "e") (flat_still 4) (flat_root 4 _) isLoc_nil
    hm (.down (.root (by decide)) (by decide) rfl (by decide)) hm2).1 (by decide)
  have h2 := C94_call_partial (⟨keeping, flat 4, 3, render []⟩ : Drv _ _) rfl (flat_still 4).toQuiet [] isLoc_nil rfl oddNames (flat_root 4 _) (str! "/d") (str! "/e") [str! "d"] [str! "e"]
    hm hm2 _ rfl (str! "e") rfl [str! "d"] (some (str! "d")) .notFound (.entry (k := 0) (name_of (by decide)) (.zero _) rfl (by decide)) (.entry (name_of (by decide)) (.zero _) rfl)
  cases (gives_unique h1 h2).2

/-- ... and under the name of a link that leads nowhere a second object is made, against the guarantee to CreateHardLink. -/
theorem C94_refuted_dangling : ¬ C94_statement keeping := by
  intro h
  have hm : Means [] (str! "/f") ([] ++ [str! "f"]) := .inl ⟨⟨_, rfl⟩, by decide⟩
  have hm2 : Means [] (str! "/l") [str! "l"] := .inl ⟨⟨_, rfl⟩, by decide⟩
  obtain ⟨e, h1⟩ := (h (List Obj) (Option Str) (flat 4) 3 [] oddNames (str! "/f") (str! "/l") ([] ++ [str! "f"]) (some (str! "f")) (str! "l") (flat_still 4) (flat_root 4 _) isLoc_nil
    hm (.down (.root (by decide)) (by decide) rfl (by decide)) hm2).2 ⟨some (str! "l"), rfl⟩
  have h2 := C94_call_partial (⟨keeping, flat 4, 3, render []⟩ : Drv _ _) rfl (flat_still 4).toQuiet [] isLoc_nil rfl oddNames (flat_root 4 _) (str! "/f") (str! "/l") [str! "f"] [str! "l"]
    hm hm2 _ rfl (str! "l") rfl [str! "f"] (some (str! "f")) .notFound (.entry (k := 0) (name_of (by decide)) (.zero _) rfl (by decide))
    (.entry (name_of (by decide)) (.succ oddNames_link (.zero _)) rfl)
  cases (gives_unique h1 h2).2

/-! ### C95: O_NOFOLLOW -/

/-- C95, what it says: OpenFile with O_NOFOLLOW (bit 20) of a symbolic link fails and changes nothing. -/
def C95_statement (cfg : Cfg) : Prop :=
  ∀ (σ H : Type) (impl : Impl σ H) (mf : MountFlags) (wd : Loc) (s : σ) (p : Str) (n : Str) (h : H) (flags : Flags.IOFlags) (perm : FileMode),
    Still impl → RootIsDir impl s → IsLoc wd → Means wd p [n] → InRoot impl s n h → (impl.stat s h).isSymlink = true → flags.getLsbD 20 = true →
    ∃ e, Gives (openFile ⟨cfg, impl, mf, render wd⟩ · p flags perm) s s (.error e)

/-- A link "a" to "/c", and a file "c". -/
def absolute : List Obj := [⟨str! "a", Flags.ModeSymlink, str! "/c"⟩, ⟨str! "c", 0, str! "hi"⟩]

theorem absolute_link : LinksTo (flat 4) absolute (str! "a") (str! "c") :=
  ⟨some (str! "a"), str! "/c", rfl, by decide,
    flat_contents 4 (by omega) absolute (str! "a") ⟨str! "a", Flags.ModeSymlink, str! "/c"⟩ (by decide) (by decide) (by decide), ⟨_, rfl⟩, by decide⟩

theorem absolute_found : Found (flat 4) absolute [str! "a"] [str! "c"] (some (str! "c")) :=
  .entry (name_of (by decide)) (.succ absolute_link (.zero _)) rfl (by decide)

/-- C95 is false when wrapObjectHandle keeps the handle: the flag is ignored. -/
theorem C95_refuted : ¬ C95_statement keeping := by
  intro h
  have hm : Means [] (str! "/a") [str! "a"] := .inl ⟨⟨_, rfl⟩, by decide⟩
  obtain ⟨e, h1⟩ := h (List Obj) (Option Str) (flat 4) 3 [] absolute (str! "/a") (str! "a") (some (str! "a")) Flags.O_NOFOLLOW 0 (flat_still 4) (flat_root 4 _) isLoc_nil hm rfl (by decide) (by decide)
  obtain ⟨f, h2, _⟩ := C91_existing_partial (⟨keeping, flat 4, 3, render []⟩ : Drv _ _) rfl (flat_still 4).toQuiet [] isLoc_nil rfl absolute (flat_root 4 _) (str! "/a") [str! "a"] hm Flags.O_NOFOLLOW 0
    (.inl (by unfold Writable; decide)) [str! "c"] (some (str! "c")) 4 1 absolute_found (by decide) (by unfold SizesFit; decide) (by unfold TruncIntent; decide)
  cases (gives_unique h1 h2).2

/-- The flags that decide how a file is opened. -/
theorem noFollow_flags (flags : Flags.IOFlags) : Flags.write (flags ||| Flags.O_NOFOLLOW) = Flags.write flags ∧ Flags.truncate (flags ||| Flags.O_NOFOLLOW) = Flags.truncate flags ∧
    Flags.synchronous (flags ||| Flags.O_NOFOLLOW) = Flags.synchronous flags ∧ Flags.create (flags ||| Flags.O_NOFOLLOW) = Flags.create flags := by
  have key : ∀ m : Flags.IOFlags, Flags.O_NOFOLLOW &&& m = 0 → (flags ||| Flags.O_NOFOLLOW) &&& m = flags &&& m := by
    intro m h
    apply BitVec.eq_of_getLsbD_eq
    intro i _
    have := congrArg (·.getLsbD i) h
    rw [BitVec.getLsbD_and, show (0 : Flags.IOFlags).getLsbD i = false from BitVec.getLsbD_zero] at this
    simp only [BitVec.getLsbD_and, BitVec.getLsbD_or, Bool.and_or_distrib_right, this, Bool.or_false]
  unfold Flags.write Flags.truncate Flags.synchronous Flags.create
  rw [key Flags.O_ACCMODE (by decide), key Flags.O_TRUNC (by decide), key Flags.O_SYNC (by decide), key Flags.O_CREATE (by decide)]
  exact ⟨rfl, rfl, rfl, rfl⟩

theorem sync_flags (b : BlockCache.Backend σ) (x : Stream.Stm σ) (g : Flags.IOFlags) (y : Stream.Stm σ) (e : Option Stream.SErr)
    (h : Stream.sync b x = .ret (y, e)) : Stream.sync b { x with flags := g } = .ret ({ y with flags := g }, e) := by
  unfold Stream.sync at h ⊢
  simp only
  rcases hf : BlockCache.flush b x.st with ⟨st', e' | u⟩ | _ | _
  · rw [hf] at h; simp only [Outcome.bind_ret, Outcome.pure_eq] at h ⊢; cases h; rfl
  · rw [hf] at h; simp only [Outcome.bind_ret, Outcome.pure_eq] at h ⊢; cases h; rfl
  · rw [hf] at h; cases h
  · rw [hf] at h; cases h

theorem truncate_flags (b : BlockCache.Backend σ) (x : Stream.Stm σ) (g : Flags.IOFlags) (n : Int) (y : Stream.Stm σ) (e : Option Stream.SErr)
    (hw : Flags.write g = Flags.write x.flags) (hs : Flags.synchronous g = Flags.synchronous x.flags)
    (h : Stream.truncate b x n = .ret (y, e)) : Stream.truncate b { x with flags := g } n = .ret ({ y with flags := g }, e) := by
  unfold Stream.truncate at h ⊢
  simp only [hw, hs]
  split
  · rename_i h1
    rw [if_pos h1] at h; simp only [Outcome.pure_eq] at h ⊢; cases h; rfl
  · rename_i h1
    rw [if_neg h1] at h
    split
    · rename_i h2
      rw [if_pos h2] at h; simp only [Outcome.pure_eq] at h ⊢; cases h; rfl
    · rename_i h2
      rw [if_neg h2] at h
      rcases h3 : x.st.c.getMinBlocksForSize (Stream.toUint n) with k | _ | _
      · rw [h3] at h
        simp only [Outcome.bind_ret] at h ⊢
        rcases h4 : BlockCache.resize b x.st k with ⟨st', e' | u⟩ | _ | _
        · rw [h4] at h; simp only [Outcome.bind_ret, Outcome.pure_eq] at h ⊢; cases h; rfl
        · rw [h4] at h; simp only [Outcome.bind_ret, Outcome.pure_eq] at h ⊢
          split
          · rename_i h5
            rw [if_pos h5] at h
            exact sync_flags b _ g y e h
          · rename_i h5
            rw [if_neg h5] at h
            cases h; rfl
        · rw [h4] at h; cases h
        · rw [h4] at h; cases h
      · rw [h3] at h; cases h
      · rw [h3] at h; cases h

theorem newFile_flags (d : Drv σ H) (e : Ext H) (flags : Flags.IOFlags) (s s' : σ) (r : Except Err (File H)) (h : newFile d e flags s = .ret (s', r)) :
    newFile d e (flags ||| Flags.O_NOFOLLOW) s = .ret (s', r.map fun f => { f with ioFlags := flags ||| Flags.O_NOFOLLOW }) := by
  obtain ⟨hw, ht, hs, _⟩ := noFollow_flags flags
  rcases e with ⟨_ | x, p⟩
  · unfold newFile M.andThen statOf Ext.method at h; cases h
  · unfold newFile at h ⊢
    rw [andThen_ok (a := d.impl.stat s x) (s' := s) rfl] at h ⊢
    simp only [Ext.method] at h ⊢
    rcases hc : BlockCache.new (Stream.toUint (d.impl.stat s x).blockSize) (Stream.toUint (d.impl.stat s x).numBlocks) with c | _ | _
    · rw [hc] at h
      simp only at h ⊢
      rcases hn : Stream.new (backendOf d.impl x) (d.impl.stat s x).size ⟨c, s⟩ flags with ⟨o, e⟩ | _ | _
      · have key : Stream.new (backendOf d.impl x) (d.impl.stat s x).size ⟨c, s⟩ (flags ||| Flags.O_NOFOLLOW) = .ret (o.map (fun y => { y with flags := flags ||| Flags.O_NOFOLLOW }), e) := by
          unfold Stream.new at hn ⊢
          rw [ht]
          split
          · rename_i h1
            rw [if_pos h1] at hn; simp only [Outcome.pure_eq] at hn ⊢; cases hn; rfl
          · rename_i h1
            rw [if_neg h1] at hn
            simp only at hn ⊢
            split
            · rename_i h2
              rw [if_pos h2] at hn
              rcases h3 : Stream.truncate (backendOf d.impl x) ⟨(d.impl.stat s x).size, 0, ⟨c, s⟩, flags⟩ 0 with ⟨y, e3⟩ | _ | _
              · rw [h3] at hn
                simp only [Outcome.bind_ret, Outcome.pure_eq] at hn ⊢
                have := truncate_flags (backendOf d.impl x) ⟨(d.impl.stat s x).size, 0, ⟨c, s⟩, flags⟩ (flags ||| Flags.O_NOFOLLOW) 0 y e3 hw hs h3
                simp only at this
                rw [this]
                cases hn; rfl
              · rw [h3] at hn; cases hn
              · rw [h3] at hn; cases hn
            · rename_i h2
              rw [if_neg h2] at hn
              simp only [Outcome.pure_eq] at hn ⊢
              cases hn; rfl
        rw [hn] at h
        rw [key]
        rcases o with _ | y <;> rcases e with _ | er
        · simp only at h; cases h
        · simp only [Option.map] at h ⊢; cases h; rfl
        · simp only [Option.map] at h ⊢; cases h; rfl
        · simp only [Option.map] at h ⊢; cases h; rfl
      · rw [hn] at h; cases h
      · rw [hn] at h; cases h
    · rw [hc] at h; cases h
    · rw [hc] at h; cases h

theorem openTail_flags (d : Drv σ H) (flags : Flags.IOFlags) (m : M σ (Ext H)) {s1 s' : σ} {r : Except Err (File H)}
    (h : M.andThen m (fun object => M.andThen (statOf d object) fun st => if !st.isFile then M.fail .isADirectory else newFile d object flags) s1 = .ret (s', r)) :
    M.andThen m (fun object => M.andThen (statOf d object) fun st => if !st.isFile then M.fail .isADirectory else newFile d object (flags ||| Flags.O_NOFOLLOW)) s1 =
      .ret (s', r.map fun f => { f with ioFlags := flags ||| Flags.O_NOFOLLOW }) := by
  unfold M.andThen at h ⊢
  rcases hmm : m s1 with ⟨s2, e | o⟩ | _ | _
  · rw [hmm] at h; cases h; rfl
  · rw [hmm] at h
    simp only at h ⊢
    rcases hst : statOf d o s2 with ⟨s3, e | st⟩ | _ | _
    · rw [hst] at h; cases h; rfl
    · rw [hst] at h
      simp only at h ⊢
      split
      · rename_i h2
        rw [if_pos h2] at h; cases h; rfl
      · rename_i h2
        rw [if_neg h2] at h
        exact newFile_flags d o flags s3 s' r h
    · rw [hst] at h; cases h
    · rw [hst] at h; cases h
  · rw [hmm] at h; cases h
  · rw [hmm] at h; cases h

/-- C95, what the code does, in every configuration: O_NOFOLLOW makes no difference to which object is opened, to what changes, or to the error: it is only kept
in the flags of the file. -/
theorem C95_ignored_partial (d : Drv σ H) (fuel : Nat) (p : Str) (flags : Flags.IOFlags) (perm : FileMode) (s s' : σ) (r : Except Err (File H))
    (h : openFile d fuel p flags perm s = .ret (s', r)) :
    openFile d fuel p (flags ||| Flags.O_NOFOLLOW) perm s = .ret (s', r.map fun f => { f with ioFlags := flags ||| Flags.O_NOFOLLOW }) := by
  obtain ⟨hw, ht, hs, hc⟩ := noFollow_flags flags
  unfold openFile Flags.requiresWritePerm at h ⊢
  simp only [hw, ht, hc] at h ⊢
  split
  · rename_i h1
    rw [if_pos h1] at h; cases h; rfl
  · rename_i h1
    rw [if_neg h1] at h
    unfold M.either at h ⊢
    rcases hg : getFollow d fuel (normalizePath d.workingDirPath p) s with ⟨s1, r1⟩ | _ | _
    · rw [hg] at h
      simp only at h ⊢
      exact openTail_flags d flags _ h
    · rw [hg] at h; cases h
    · rw [hg] at h; cases h

example : failedWith (openFile ⟨passing, flat 4, 1, str! "/"⟩ 9 (str! "/c") Flags.O_RDWR 0 relative) .readOnlyFileSystem = true := by decide +kernel

end Disko.Driver

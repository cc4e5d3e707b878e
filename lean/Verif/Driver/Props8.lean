import Verif.Driver.Props7
/-! C83-C86: the working directory, Lstat, Readlink, relative links. -/
namespace Disko.Driver
open Disko Spec

variable {σ H α β : Type}

/-! ### Errors that are ErrNotFound -/

theorem berr_two {e : BlockCache.BErr} (h : berrIsNotFound e = true) : e = .other 2 := by
  unfold berrIsNotFound at h
  split at h
  · rfl
  · cases h

theorem isNotFound_iff (e : Err) : e.isNotFound = true ↔ SaysNotFound e := by
  constructor
  · intro h
    unfold Err.isNotFound at h
    split at h
    · exact .itself
    · unfold serrIsNotFound at h
      split at h
      · rw [berr_two h]; exact .reading _
      · rw [berr_two h]; exact .writing _
      · rw [berr_two h]; exact .resizing
      · cases h
    · unfold serrIsNotFound at h
      split at h
      · rw [berr_two h]; exact .wrappedReading _
      · rw [berr_two h]; exact .wrappedWriting _
      · rw [berr_two h]; exact .wrappedResizing
      · cases h
    · cases h
  · intro h
    cases h <;> rfl

/-! ### C83: the working directory -/

/-- Whenever the call succeeds its result satisfies `Q`. -/
def Post (Q : α → Prop) (m : M σ α) : Prop := ∀ s s' a, m s = .ret (s', .ok a) → Q a

theorem Post.andThen {Q : β → Prop} {m : M σ α} {f : α → M σ β} {Q' : α → Prop} (h : Post Q' m) (hf : ∀ a, Q' a → Post Q (f a)) :
    Post Q (M.andThen m f) := by
  intro s s' b h1
  unfold M.andThen at h1
  rcases e : m s with ⟨s1, er | a⟩ | _ | _
  · rw [e] at h1; cases h1
  · rw [e] at h1; exact hf a (h _ _ _ e) _ _ _ h1
  · rw [e] at h1; cases h1
  · rw [e] at h1; cases h1
theorem Post.ok {Q : α → Prop} {a : α} (h : Q a) : Post Q (M.ok a : M σ α) := by intro s s' b h1; cases h1; exact h
theorem Post.fail {Q : α → Prop} {e : Err} : Post Q (M.fail e : M σ α) := by intro s s' b h1; cases h1
theorem Post.ite {Q : α → Prop} {p : Prop} [Decidable p] {m k : M σ α} (h : p → Post Q m) (hk : ¬ p → Post Q k) : Post Q (if p then m else k) := by
  by_cases hp : p
  · rw [if_pos hp]; exact h hp
  · rw [if_neg hp]; exact hk hp
theorem Post.top (m : M σ α) : Post (fun _ => True) m := fun _ _ _ _ => trivial
theorem Post.timeout {Q : α → Prop} : Post Q (fun _ => .timeout : M σ α) := by intro s s' r h; cases h
theorem Post.deferred {Q : α → Prop} {c : M σ Unit} {m : M σ α} (h : Post Q m) : Post Q (M.deferred c m) := by
  intro s s' a h1
  unfold M.deferred M.either at h1
  rcases e : m s with ⟨s1, r1⟩ | _ | _
  · rw [e] at h1
    simp only at h1
    rcases e2 : c s1 with ⟨s2, r2⟩ | _ | _
    · rw [e2] at h1; cases h1; exact h _ _ _ e
    · rw [e2] at h1; cases h1
    · rw [e2] at h1; cases h1
  · rw [e] at h1; cases h1
  · rw [e] at h1; cases h1
theorem Post.method {Q : α → Prop} {e : Ext H} {f : H → M σ α} (h : ∀ x, Post Q (f x)) : Post Q (e.method f) := by
  unfold Ext.method
  split
  · intro s s' a h1; cases h1
  · exact h _
theorem Post.either {Q : β → Prop} {m : M σ α} {f : Except Err α → M σ β} {Q' : α → Prop} (h : Post Q' m) (hf : ∀ a, Q' a → Post Q (f (.ok a)))
    (he : ∀ e, Post Q (f (.error e))) : Post Q (M.either m f) := by
  intro s s' b h1
  unfold M.either at h1
  rcases e : m s with ⟨s1, er | a⟩ | _ | _
  · rw [e] at h1; exact he er _ _ _ h1
  · rw [e] at h1; exact hf a (h _ _ _ e) _ _ _ h1
  · rw [e] at h1; cases h1
  · rw [e] at h1; cases h1

theorem join_canonical {l : Loc} (hl : IsLoc l) {n : Str} (hn : IsName n) : Path.join (render l) n = render (l ++ [n]) := by
  have := join_clean_rel (l := l) (cs := [n]) (by simp) hl (by simpa using isComp_of_isName hn)
  rw [show Path.joinSlash [n] = n from rfl, List.foldl_cons, List.foldl_nil, goTo_name (isComp_of_isName hn) hn.notDotDot] at this
  exact this

section
variable (d : Drv σ H) {wd : Loc} (hwd : IsLoc wd) (hw : d.workingDirPath = render wd)
include hwd hw

/-- Path resolution gives objects their canonical paths. -/
theorem resolve_canonical : ∀ n : Nat,
    (∀ l, IsLoc l → Post (fun e : Ext H => Canonical e.absolutePath) (getNoFollow d n (render l))) ∧
    (∀ l, IsLoc l → Post (fun e : Ext H => Canonical e.absolutePath) (getFollow d n (render l))) ∧
    (∀ e : Ext H, Canonical e.absolutePath → Post (fun e : Ext H => Canonical e.absolutePath) (followLoop d n e)) ∧
    (∀ e : Ext H, Canonical e.absolutePath → Post (fun e : Ext H => Canonical e.absolutePath) (resolveSymlink d n e)) ∧
    (∀ c (e : Ext H), Post (fun e : Ext H => Canonical e.absolutePath) (symlinkLoop d n c e))
  | 0 => ⟨fun l _ => by rw [getNoFollow]; exact Post.timeout, fun l _ => by rw [getFollow]; exact Post.timeout,
      fun e _ => by rw [followLoop]; exact Post.timeout, fun e _ => by rw [resolveSymlink]; exact Post.timeout,
      fun c e => by rw [symlinkLoop]; exact Post.timeout⟩
  | n + 1 => by
    obtain ⟨i1, i2, i3, i4, i5⟩ := resolve_canonical n
    refine ⟨fun l hl => ?_, fun l hl => ?_, fun e he => ?_, fun e he => ?_, fun c e => ?_⟩
    · rcases loc_cases l with rfl | ⟨l', x, rfl⟩
      · rw [getNoFollow, if_pos (.inl rfl)]
        intro s s' a h; cases h
        exact ⟨[], isLoc_nil, rfl⟩
      · have hx : IsName x := hl x (by simp)
        by_cases hl' : l' = []
        · subst hl'
          rw [List.nil_append]
          have hsp : Path.splitLast (render [x]) = (str! "/", x) := by
            have := splitLast_render [] hx
            rw [List.nil_append, if_pos rfl] at this
            exact this
          have hne := render_ne_root [] hx
          rw [List.nil_append] at hne
          rw [getNoFollow, if_neg hne, hsp]
          refine Post.andThen (i2 [] isLoc_nil) fun e ⟨le, hle, ee⟩ => Post.deferred <| Post.andThen (Post.top _) fun st _ =>
            Post.ite (fun _ => Post.fail) fun _ => Post.method fun q => Post.andThen (Post.top _) fun h _ => Post.ok ?_
          show Canonical (Path.join e.absolutePath x)
          rw [ee, join_canonical hle hx]
          exact ⟨_, fun y hy => (by
            rw [List.mem_append, List.mem_singleton] at hy
            rcases hy with hy | rfl
            · exact hle y hy
            · exact hx), rfl⟩
        · intro s s' a h
          rw [(never_deep d l' hl' hx s (n + 1)).1] at h
          cases h
    · rw [getFollow]
      exact Post.andThen (i1 l hl) fun e he => i3 e he
    · rw [followLoop]
      exact Post.andThen (Post.top _) fun st _ => Post.ite (fun _ => Post.ok he) fun _ => Post.andThen (Post.deferred (i4 e he)) fun e' he' => i3 e' he'
    · rw [resolveSymlink]
      exact Post.andThen (Post.top _) fun st _ => Post.ite (fun _ => Post.ok he) fun _ => i5 _ _
    · rw [symlinkLoop]
      refine Post.andThen (Post.top _) fun text _ => Post.ite (fun _ => Post.fail) fun _ => ?_
      obtain ⟨l, hl, el⟩ := C61_canonical wd text hwd
      rw [hw, el]
      exact Post.andThen (i1 l hl) fun e' he' => Post.andThen (Post.top _) fun st _ => Post.ite (fun _ => Post.ok he') fun _ => i5 _ _

theorem follow_canonical (fuel : Nat) (p : Str) : Post (fun e : Ext H => Canonical e.absolutePath) (getFollow d fuel (normalizePath d.workingDirPath p)) := by
  obtain ⟨l, hl, el⟩ := C61_canonical wd p hwd
  rw [hw, el]
  exact (resolve_canonical d hwd hw fuel).2.1 l hl

theorem newFile_handle (e : Ext H) (flags : Flags.IOFlags) : Post (fun f : File H => f.objectHandle = e) (newFile d e flags) :=
  fun _ _ f h => (newFile_spec d e flags h).2.2 f rfl

theorem openFile_canonical (fuel : Nat) (p : Str) (flags : Flags.IOFlags) (perm : FileMode) :
    Post (fun f : File H => Canonical f.objectHandle.absolutePath) (openFile d fuel p flags perm) := by
  obtain ⟨l, hl, el⟩ := C61_canonical wd p hwd
  have hlast : ∀ e : Ext H, Canonical e.absolutePath → Post (fun f : File H => Canonical f.objectHandle.absolutePath)
      (M.andThen (statOf d e) fun st => if (!st.isFile) = true then M.fail .isADirectory else newFile d e flags) := fun e he =>
    Post.andThen (Post.top _) fun st _ => Post.ite (fun _ => Post.fail) fun _ s s' f hf => by rw [newFile_handle d hwd hw e flags s s' f hf]; exact he
  unfold openFile
  rw [hw, el]
  simp only
  refine Post.ite (fun _ => Post.fail) fun _ => Post.either ((resolve_canonical d hwd hw fuel).2.1 l hl) (fun e he => ?_) (fun er => ?_)
  · exact Post.andThen (Post.ok he) hlast
  · refine Post.andThen (Q' := fun e : Ext H => Canonical e.absolutePath) ?_ hlast
    simp only
    refine Post.ite (fun _ => ?_) fun _ => Post.fail
    unfold createMissing
    rcases loc_cases l with rfl | ⟨l', x, rfl⟩
    · rw [show Path.splitLast (render []) = (str! "/", []) from by decide]
      refine Post.andThen ((resolve_canonical d hwd hw fuel).2.1 [] isLoc_nil) fun e ⟨le, hle, ee⟩ => Post.deferred <| Post.method fun q =>
        Post.andThen (Post.top _) fun h _ => Post.ok ?_
      show Canonical (Path.join e.absolutePath [])
      rw [ee]
      refine ⟨le, hle, ?_⟩
      unfold Path.join
      obtain ⟨r, hr⟩ := render_absolute le
      rw [if_neg (by rw [hr]; simp), if_pos rfl, clean_abs ⟨r, hr⟩, walk_render hle]
    · have hx : IsName x := hl x (by simp)
      rw [splitLast_render l' hx]
      by_cases hl' : l' = []
      · rw [if_pos hl']
        refine Post.andThen ((resolve_canonical d hwd hw fuel).2.1 [] isLoc_nil) fun e ⟨le, hle, ee⟩ => Post.deferred <| Post.method fun q =>
          Post.andThen (Post.top _) fun h _ => Post.ok ?_
        show Canonical (Path.join e.absolutePath x)
        rw [ee, join_canonical hle hx]
        exact ⟨_, fun y hy => (by
          rw [List.mem_append, List.mem_singleton] at hy
          rcases hy with hy | rfl
          · exact hle y hy
          · exact hx), rfl⟩
      · rw [if_neg hl']
        intro s s' a h
        have hne : render l' ≠ [] := by
          obtain ⟨r, e⟩ := render_absolute l'
          rw [e]; simp
        rw [andThen_timeout (never_slash d _ hne s fuel).2] at h
        cases h

end

namespace Spec
/-- The working directories a driver can have: "/" to begin with, and then whatever Chdir, or Chdir of a
file that the driver opened at some time, sets it to, with any operations in between. -/
inductive WorksIn (cfg : Cfg) (impl : Impl σ H) (mf : MountFlags) : Str → Prop where
  | start : WorksIn cfg impl mf (getwd (new cfg impl mf))
  | chdir {wd wd' p : Str} {fuel : Nat} {s s' : σ} (h : WorksIn cfg impl mf wd)
      (hc : chdir ⟨cfg, impl, mf, wd⟩ fuel p s = .ret (s', .ok wd')) : WorksIn cfg impl mf wd'
  | fchdir {wd0 wd wd' p : Str} {fuel : Nat} {s0 s1 s s' : σ} {flags : Flags.IOFlags} {perm : FileMode} {f f' : File H}
      (h0 : WorksIn cfg impl mf wd0) (ho : openFile ⟨cfg, impl, mf, wd0⟩ fuel p flags perm s0 = .ret (s1, .ok f))
      (hf : f'.objectHandle = f.objectHandle) (h : WorksIn cfg impl mf wd)
      (hc : f'.chdir ⟨cfg, impl, mf, wd⟩ s = .ret (s', .ok wd')) : WorksIn cfg impl mf wd'
end Spec

theorem chdirToObject_path (d : Drv σ H) (e : Ext H) : Post (fun p => p = e.absolutePath) (chdirToObject d e) :=
  Post.andThen (Post.top _) fun _ _ => Post.ite (fun _ => Post.fail) fun _ => Post.ok rfl

/-- C83: whatever was done before, on any file system and in every configuration of the code, Getwd returns
a canonical absolute path. -/
theorem C83_canonical (cfg : Cfg) (impl : Impl σ H) (mf : MountFlags) (wd : Str) (h : WorksIn cfg impl mf wd) :
    Canonical (getwd ⟨cfg, impl, mf, wd⟩) := by
  induction h with
  | start => exact ⟨[], isLoc_nil, rfl⟩
  | chdir h hc ih =>
    obtain ⟨l, hl, e⟩ := ih
    exact Post.andThen (follow_canonical _ hl e _ _) (fun x hx => Post.deferred fun s s' a h => by
      rw [chdirToObject_path _ _ _ _ _ h]; exact hx) _ _ _ hc
  | fchdir h0 ho hf h hc ih0 ih =>
    obtain ⟨l, hl, e⟩ := ih0
    have := chdirToObject_path _ _ _ _ _ hc
    show Canonical _
    rw [getwd, this, hf]
    exact openFile_canonical _ hl e _ _ _ _ _ _ _ ho

example : WorksIn keeping tiny 3 (str! "/a") :=
  .chdir (p := str! "x/../a") (fuel := 9) (s := ()) (s' := ()) .start (by decide +kernel)

section
variable (d : Drv σ H)

/-- C83: Chdir succeeds exactly when Stat says that there is a directory; on anything else it fails with
ErrNotADirectory, and it passes the errors of Stat on. -/
theorem C83_chdir_iff_directory (hp : Quiet d.impl) (fuel : Nat) (p : Str) (s s' : σ) :
    ((∃ wd', chdir d fuel p s = .ret (s', .ok wd')) ↔ ∃ st, stat d fuel p s = .ret (s', .ok st) ∧ st.isDir = true) ∧
    (chdir d fuel p s = .ret (s', .error .notADirectory) ↔
      (∃ st, stat d fuel p s = .ret (s', .ok st) ∧ st.isDir = false) ∨ stat d fuel p s = .ret (s', .error .notADirectory)) ∧
    (∀ e, e ≠ .notADirectory → (chdir d fuel p s = .ret (s', .error e) ↔ stat d fuel p s = .ret (s', .error e))) := by
  unfold chdir stat
  rcases e : getFollow d fuel (normalizePath d.workingDirPath p) s with ⟨s1, er | ⟨_ | h, q⟩⟩ | _ | _
  · rw [andThen_err e, andThen_err e]
    simp
  · rw [andThen_ok e, andThen_ok e]
    have h1 : M.deferred (closeOf d ⟨none, q⟩) (chdirToObject d ⟨none, q⟩) s1 = .panic := rfl
    have h2 : M.deferred (closeOf d ⟨none, q⟩) (statOf d ⟨none, q⟩) s1 = .panic := rfl
    rw [h1, h2]
    simp
  · rw [andThen_ok e, andThen_ok e]
    have h2 : M.deferred (closeOf d ⟨some h, q⟩) (statOf d ⟨some h, q⟩) s1 = .ret (s1, .ok (d.impl.stat s1 h)) := deferred_close d hp rfl
    have h1 : M.deferred (closeOf d ⟨some h, q⟩) (chdirToObject d ⟨some h, q⟩) s1 =
        .ret (s1, if (d.impl.stat s1 h).isDir then .ok q else .error .notADirectory) := by
      refine deferred_close d hp ?_
      unfold chdirToObject
      rw [andThen_ok (a := d.impl.stat s1 h) (s' := s1) rfl]
      rcases (d.impl.stat s1 h).isDir with _ | _ <;> rfl
    rw [h1, h2]
    rcases hdir : (d.impl.stat s1 h).isDir with _ | _
    · simp only [Bool.false_eq_true, if_false]
      refine ⟨⟨fun ⟨_, h⟩ => (by cases h), fun ⟨st, h, hst⟩ => ?_⟩, ⟨fun h => ?_, fun h => ?_⟩, fun e hne => ⟨fun h => ?_, fun h => (by cases h)⟩⟩
      · cases h; rw [hdir] at hst; cases hst
      · cases h; exact .inl ⟨_, rfl, hdir⟩
      · rcases h with ⟨_, h, _⟩ | h
        · cases h; rfl
        · cases h
      · cases h; exact absurd rfl hne
    · simp only [if_true]
      refine ⟨⟨fun ⟨_, h⟩ => ?_, fun ⟨st, h, hst⟩ => ?_⟩, ⟨fun h => (by cases h), fun h => ?_⟩, fun e hne => ⟨fun h => (by cases h), fun h => (by cases h)⟩⟩
      · cases h; exact ⟨_, rfl, hdir⟩
      · cases h; exact ⟨_, rfl⟩
      · rcases h with ⟨_, h, h2⟩ | h
        · cases h; rw [hdir] at h2; cases h2
        · cases h
  · rw [andThen_panic e, andThen_panic e]; simp
  · rw [andThen_timeout e, andThen_timeout e]; simp

example : Quiet tiny ∧ chdir ⟨keeping, tiny, 3, str! "/"⟩ 9 (str! "a") () = .ret ((), .ok (str! "/a"))
    ∧ chdir ⟨keeping, linked, 3, str! "/"⟩ 19 (str! "a") () = .ret ((), .error .notADirectory) :=
  ⟨tiny_quiet, by decide +kernel, by decide +kernel⟩

variable (hd : d.cfg.keepHandle = true) (Q : Quiet d.impl) (wd : Loc) (hwd : IsLoc wd) (hw : d.workingDirPath = render wd)
  (s : σ) (hr : RootIsDir d.impl s) (p : Str) (l : Loc) (hm : Means wd p l)
include hd Q hwd hw hr hm

/-- C83, when wrapObjectHandle keeps the handle: after Chdir to a directory in the root, or a link to one, the working
directory is the canonical path of the directory itself. -/
theorem C83_reaches_root_entries (l' : Loc) (h : H) (hf : Found d.impl s l l' h) (hdir : (d.impl.stat s h).isDir = true) :
    Gives (chdir d · p) s s (.ok (render l')) := by
  refine gives_found d hd Q hr hwd hw hm hf (gives_const (deferred_close d Q ?_))
  unfold chdirToObject
  rw [andThen_ok (a := d.impl.stat s h) (s' := s) rfl, hdir]; rfl

end

example : Found tiny () [str! "a"] [str! "a"] 1 ∧ (tiny.stat () 1).isDir = true ∧ RootIsDir tiny () :=
  ⟨.entry (k := 0) (name_of (by decide)) (.zero _) rfl (by decide), by decide, ⟨by decide, by decide⟩⟩

/-! ### C84: Lstat -/

/-- C84, what it says, for the names in the root directory: Lstat describes the object with that name itself. -/
def C84_statement (cfg : Cfg) : Prop :=
  ∀ (σ H : Type) (impl : Impl σ H) (mf : MountFlags) (s : σ) (n : Str) (h : H),
    Quiet impl → RootIsDir impl s → IsName n → InRoot impl s n h →
    ((impl.stat s h).isSymlink = true → ∃ t, ContentsAre impl s h t) →
    Gives (lstat ⟨cfg, impl, mf, str! "/"⟩ · (render [n])) s s (.ok (impl.stat s h))

section
variable (d : Drv σ H) (hd : d.cfg.keepHandle = true) (Q : Quiet d.impl) (wd : Loc) (hwd : IsLoc wd) (hw : d.workingDirPath = render wd)
  (s : σ) (hr : RootIsDir d.impl s) (p : Str) (l : Loc) (hm : Means wd p l)
include hd Q hwd hw hr hm

/-- C84, what Lstat does when wrapObjectHandle keeps the handle: it describes the object at the end of the chain of
links; so it is right on objects that are not links. -/
theorem C84_end_of_chain_partial (l' : Loc) (h : H) (hf : Found d.impl s l l' h) :
    Gives (lstat d · p) s s (.ok (d.impl.stat s h)) := by
  have hp : normalizePath d.workingDirPath p = render l := by rw [hw]; exact (normalize_means hwd hm).1
  have hlast : ∀ (e0 : Ext H) (h0 : H) (fuel : Nat), e0.inner = some h0 → resolveSymlink d fuel e0 s = .ret (s, .ok ⟨some h, render l'⟩) →
      M.deferred (closeOf d e0) (M.andThen (resolveSymlink d fuel e0) fun realObject =>
        M.deferred (closeOf d realObject) (statOf d realObject)) s = .ret (s, .ok (d.impl.stat s h)) := by
    rintro ⟨_, q⟩ h0 fuel rfl hres
    refine deferred_close d Q ?_
    rw [andThen_ok hres]
    exact deferred_close d Q rfl
  cases hf with
  | root =>
    refine ⟨2, fun fuel hfu => ?_⟩
    obtain ⟨f, rfl⟩ : ∃ f, fuel = f + 2 := ⟨fuel - 2, by omega⟩
    simp only [lstat]
    rw [hp, show render [] = str! "/" from rfl, andThen_ok (keep_root d hd _)]
    refine hlast _ _ _ rfl ?_
    rw [resolveSymlink, andThen_ok (a := d.impl.stat s (d.impl.getRootDirectory s)) (s' := s) rfl, hr.2]; rfl
  | entry hn hf hi hns =>
    rename_i k n m
    refine ⟨k + 7, fun fuel hfuel => ?_⟩
    have hno : ¬ ∃ m', LinksTo d.impl s m m' := by
      rintro ⟨m', h', t, hi', hsym, _⟩
      rw [inRoot_unique d hi' hi, hns] at hsym
      cases hsym
    simp only [lstat]
    rw [hp]
    cases hf with
    | zero =>
      obtain ⟨f, rfl⟩ : ∃ f, fuel = f + 3 := ⟨fuel - 3, by omega⟩
      rw [andThen_ok (keep_one_ok d hd Q hr hn hi f)]
      refine hlast _ _ _ rfl ?_
      rw [resolveSymlink, andThen_ok (a := d.impl.stat s h) (s' := s) rfl, hns]; rfl
    | succ hl hf' =>
      rename_i k n'
      obtain ⟨f, rfl⟩ : ∃ f, fuel = k + 5 + f := ⟨fuel - (k + 5), by omega⟩
      obtain ⟨h0, t, hi0, hsym, hrest⟩ := id hl
      rw [andThen_ok (show getNoFollow d (k + 5 + f) (render [n]) s = _ by
        rw [show k + 5 + f = k + 2 + f + 3 by omega]; exact keep_one_ok d hd Q hr hn hi0 _)]
      refine hlast _ _ _ rfl ?_
      rw [show k + 5 + f = k + 4 + f + 1 by omega, resolveSymlink, andThen_ok (a := d.impl.stat s h0) (s' := s) rfl, hsym]
      refine loop_chain d hd Q hr hi hns k (render [n]) f hi0 hl hf' ?_
      rintro j x hx rfl
      exact no_return d hno (k + 1) (.succ hl hf') j (.succ hl hx)

end

/-- C84 is false when wrapObjectHandle keeps the handle: Lstat of a link describes what the link leads to. -/
theorem C84_refuted : ¬ C84_statement keeping := by
  intro h
  have h1 := h Unit Nat linked 3 () (str! "a") 97 linked_quiet linked_root (name_of (by decide)) rfl (fun _ => ⟨_, linked_contents (by decide)⟩)
  have h2 := C84_end_of_chain_partial ⟨keeping, linked, 3, render []⟩ rfl linked_quiet [] isLoc_nil rfl () linked_root (render [str! "a"]) [str! "a"]
    (means_render (isLoc_one (name_of (by decide))) []) _ 99 found_a
  exact absurd (gives_unique h1 h2).2 (by decide)

/-- ... and of the code as shipped. -/
theorem C84_refuted_shipped : ¬ C84_statement shipped := by
  intro h
  obtain ⟨N, h1⟩ := h Unit Nat linked 3 () (str! "c") 99 linked_quiet linked_root (name_of (by decide)) rfl (fun _ => ⟨_, linked_contents (by decide)⟩)
  exact (C62_shipped_partial ⟨shipped, linked, 3, render []⟩ rfl [] isLoc_nil rfl () N _).2.1 ⟨_, h1 N (by omega)⟩

/-! ### C85: Readlink -/

/-- C85, what it says, for the names in the root directory. -/
def C85_statement (cfg : Cfg) : Prop :=
  ∀ (σ H : Type) (impl : Impl σ H) (mf : MountFlags) (s : σ) (n : Str) (h : H) (t : Bytes),
    Quiet impl → RootIsDir impl s → IsName n → InRoot impl s n h → ContentsAre impl s h t →
    Gives (readlink ⟨cfg, impl, mf, str! "/"⟩ · (render [n])) s s
      (if impl.features.hasSymbolicLinks = false then .error .notSupported
       else if (impl.stat s h).isSymlink = true then .ok t else .error .invalidArgument)

section
variable (d : Drv σ H)

/-- C85: without symbolic links in the file system Readlink refuses at once. -/
theorem C85_unsupported (hs : d.impl.features.hasSymbolicLinks = false) (fuel : Nat) (p : Str) (s : σ) :
    readlink d fuel p s = .ret (s, .error .notSupported) := by
  unfold readlink; rw [hs]; rfl

variable (hd : d.cfg.keepHandle = true) (Q : Quiet d.impl) (wd : Loc) (hwd : IsLoc wd) (hw : d.workingDirPath = render wd)
  (s : σ) (hr : RootIsDir d.impl s) (p : Str) (n : Str) (hn : IsName n) (hm : Means wd p [n]) (hs : d.impl.features.hasSymbolicLinks = true)
include hd Q hwd hw hr hm hs hn

/-- C85, when wrapObjectHandle keeps the handle, for a name in the root directory under any spelling of the path:
Readlink returns the text of the link, without following it. -/
theorem C85_text_partial (h : H) (t : Bytes) (hi : InRoot d.impl s n h) (hl : (d.impl.stat s h).isSymlink = true) (ht : ContentsAre d.impl s h t) :
    Gives (readlink d · p) s s (.ok t) := by
  refine ⟨3, fun fuel hfu => ?_⟩
  obtain ⟨f, rfl⟩ : ∃ f, fuel = f + 3 := ⟨fuel - 3, by omega⟩
  simp only [readlink]
  rw [hs, hw, (normalize_means hwd hm).1]
  simp only [Bool.not_true, Bool.false_eq_true, if_false]
  rw [andThen_ok (keep_one_ok d hd Q hr hn hi f)]
  refine deferred_close d Q ?_
  rw [andThen_ok (a := d.impl.stat s h) (s' := s) rfl, hl]
  exact keep_contents d ht _

/-- C85: on anything but a link, ErrInvalidArgument. -/
theorem C85_not_a_link_partial (h : H) (hi : InRoot d.impl s n h) (hl : (d.impl.stat s h).isSymlink = false) :
    Gives (readlink d · p) s s (.error .invalidArgument) := by
  refine ⟨3, fun fuel hfu => ?_⟩
  obtain ⟨f, rfl⟩ : ∃ f, fuel = f + 3 := ⟨fuel - 3, by omega⟩
  simp only [readlink]
  rw [hs, hw, (normalize_means hwd hm).1]
  simp only [Bool.not_true, Bool.false_eq_true, if_false]
  rw [andThen_ok (keep_one_ok d hd Q hr hn hi f)]
  refine deferred_close d Q ?_
  rw [andThen_ok (a := d.impl.stat s h) (s' := s) rfl, hl]; rfl

/-- C85: if there is no such object, the implementation's error. -/
theorem C85_missing_partial (e : Err) (hi : (d.impl.getObject s n (d.impl.getRootDirectory s)).2 = .error e) :
    Gives (readlink d · p) s s (.error e) := by
  refine ⟨3, fun fuel hfu => ?_⟩
  obtain ⟨f, rfl⟩ : ∃ f, fuel = f + 3 := ⟨fuel - 3, by omega⟩
  simp only [readlink]
  rw [hs, hw, (normalize_means hwd hm).1]
  simp only [Bool.not_true, Bool.false_eq_true, if_false]
  rw [andThen_err (e := e) (s' := s)]
  rw [keep_one d hd Q hr hn f, hi]; rfl

end

/-- A link, a file, and nothing. -/
example : Gives (readlink ⟨keeping, linked, 3, render []⟩ · (str! "//a")) () () (.ok (str! "/b")) ∧
    Gives (readlink ⟨keeping, linked, 3, render []⟩ · (str! "//c")) () () (.error .invalidArgument) ∧
    Gives (readlink ⟨keeping, linked, 3, render []⟩ · (str! "//q")) () () (.error .notFound) :=
  ⟨C85_text_partial _ rfl linked_quiet [] isLoc_nil rfl () linked_root _ (str! "a") (name_of (by decide)) (.inl ⟨⟨_, rfl⟩, by decide⟩) rfl 97 _ rfl (by decide)
    (linked_contents (by decide)),
   C85_not_a_link_partial _ rfl linked_quiet [] isLoc_nil rfl () linked_root _ (str! "c") (name_of (by decide)) (.inl ⟨⟨_, rfl⟩, by decide⟩) rfl 99 rfl (by decide),
   C85_missing_partial _ rfl linked_quiet [] isLoc_nil rfl () linked_root _ (str! "q") (name_of (by decide)) (.inl ⟨⟨_, rfl⟩, by decide⟩) rfl _ rfl⟩

/-- C85 is false of the code as shipped: Readlink of an object in the root panics. -/
theorem C85_refuted : ¬ C85_statement shipped := by
  intro h
  obtain ⟨N, h1⟩ := h Unit Nat linked 3 () (str! "a") 97 _ linked_quiet linked_root (name_of (by decide)) rfl (linked_contents (by decide))
  have h1 := h1 N (by omega)
  simp only [readlink] at h1
  rw [show linked.features.hasSymbolicLinks = true from rfl, normalize_canonical (isLoc_one (name_of (by decide)))] at h1
  simp only [Bool.not_true, Bool.false_eq_true, if_false] at h1
  exact absurd ⟨_, h1⟩ (not_returns_andThen (shipped_noFollow _ rfl (isLoc_one (name_of (by decide))) (by simp) N ()))

end Disko.Driver

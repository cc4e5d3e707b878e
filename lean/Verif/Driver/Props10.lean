import Verif.Driver.Flat
/-! C88-C92: relative links, Mkdir, MkdirAll, creating files, Link. -/
namespace Disko.Driver
open Disko Spec

variable {σ H α β : Type}

/-! ### C88: relative links -/

/-- C88, what it says of a link in the root directory: a relative link is relative to the directory it is in. -/
def C88_statement (cfg : Cfg) : Prop :=
  ∀ (σ H : Type) (impl : Impl σ H) (mf : MountFlags) (wd : Loc) (s : σ) (n m : Str) (h hm : H) (t : Bytes),
    Quiet impl → RootIsDir impl s → IsLoc wd → IsName n → InRoot impl s n h → (impl.stat s h).isSymlink = true → ContentsAre impl s h t →
    ¬ Absolute t → walk [] t = [m] → m ≠ n → InRoot impl s m hm → (impl.stat s hm).isSymlink = false →
    Gives (stat ⟨cfg, impl, mf, render wd⟩ · (render [n])) s s (.ok (impl.stat s hm))

section
variable (d : Drv σ H) (hd : d.cfg.keepHandle = true) (Q : Quiet d.impl) (wd : Loc) (hwd : IsLoc wd) (hw : d.workingDirPath = render wd)
  (s : σ) (hr : RootIsDir d.impl s) (p : Str) (n : Str) (hn : IsName n) (hm : Means wd p [n])
include hd Q hwd hw hr hm hn

/-- C88, what the code does when wrapObjectHandle keeps the handle: the text of a link in the root, relative or not, is read like a path given by the
caller: from the working directory.  So a relative link is right if the working directory is the root. -/
theorem C88_from_working_directory_partial (m : Str) (h hm' : H) (t : Bytes) (hi : InRoot d.impl s n h) (hsym : (d.impl.stat s h).isSymlink = true)
    (ht : ContentsAre d.impl s h t) (hmt : Means wd t [m]) (hmn : m ≠ n) (him : InRoot d.impl s m hm') (hns : (d.impl.stat s hm').isSymlink = false) :
    Gives (stat d · p) s s (.ok (d.impl.stat s hm')) := by
  obtain ⟨hnorm, hloc⟩ := normalize_means hwd hmt
  have hmname : IsName m := hloc m (by simp)
  refine ⟨9, fun fuel hfu => ?_⟩
  obtain ⟨f, rfl⟩ : ∃ f, fuel = f + 3 + 4 := ⟨fuel - 7, by omega⟩
  simp only [stat]
  rw [show normalizePath d.workingDirPath p = render [n] by rw [hw]; exact (normalize_means hwd hm).1]
  have hloop : symlinkLoop d (f + 3 + 1) [render [n]] ⟨some h, render [n]⟩ s = .ret (s, .ok ⟨some hm', render [m]⟩) := by
    rw [symlinkLoop, andThen_ok (deferred_close d Q (keep_contents d ht _))]
    rw [hw, hnorm, if_neg, andThen_ok (keep_one_ok d hd Q hr hmname him f), andThen_ok (a := d.impl.stat s hm') (s' := s) rfl, hns]
    · rfl
    · rw [List.mem_singleton]
      intro e
      exact hmn (by simpa [render] using e)
  rw [andThen_ok (follow_link d hd Q hr hn hi hsym hloop (by
    intro x hx; cases hx; exact ⟨_, _, rfl, hns⟩))]
  exact deferred_close d Q rfl

end

/-- A link "a" with the text "c", and a file "c". -/
def relative : List Obj := [⟨str! "a", Flags.ModeSymlink, str! "c"⟩, ⟨str! "c", 0, str! "hi"⟩]

theorem relative_contents : ContentsAre (flat 4) relative (some (str! "a")) (str! "c") :=
  flat_contents 4 (by omega) relative (str! "a") ⟨str! "a", Flags.ModeSymlink, str! "c"⟩ (by decide) (by decide) (by decide)

theorem rel_c : ¬ Absolute (str! "c") := fun ⟨_, h⟩ => absurd h (by simp [sep])

/-- From the root the link is right. -/
example : Gives (stat ⟨keeping, flat 4, 3, render []⟩ · (str! "a")) relative relative (.ok ((flat 4).stat relative (some (str! "c")))) :=
  C88_from_working_directory_partial _ rfl (flat_still 4).toQuiet [] isLoc_nil rfl relative (flat_root 4 _) (str! "a") (str! "a") (name_of (by decide))
    (.inr ⟨fun ⟨_, h⟩ => absurd h (by simp [sep]), ⟨[], isLoc_nil, by decide⟩, by decide⟩) (str! "c") (some (str! "a")) (some (str! "c")) (str! "c") (by rfl) (by decide)
    relative_contents (.inr ⟨rel_c, ⟨[], isLoc_nil, by decide⟩, by decide⟩) (by decide) (by rfl) (by decide)

/-- C88 is false when wrapObjectHandle keeps the handle: from the directory "/d" the link "/a" to "c" leads to "/d/c". -/
theorem C88_refuted : ¬ C88_statement keeping := by
  intro h
  obtain ⟨N, h1⟩ := h (List Obj) (Option Str) (flat 4) 3 [str! "d"] relative (str! "a") (str! "c") (some (str! "a")) (some (str! "c")) (str! "c")
    (flat_still 4).toQuiet (flat_root 4 _) (isLoc_one (name_of (by decide))) (name_of (by decide)) rfl (by decide) relative_contents rel_c (by decide) (by decide)
    rfl (by decide)
  have h1 := h1 (N + 9) (by omega)
  simp only [stat] at h1
  rw [normalize_canonical (isLoc_one (name_of (by decide)))] at h1
  rw [andThen_timeout] at h1
  · cases h1
  · show getFollow _ (N + 5 + 4) _ _ = _
    rw [getFollow, show N + 5 + 3 = N + 5 + 3 from rfl,
      andThen_ok (keep_one_ok (⟨keeping, flat 4, 3, render [str! "d"]⟩ : Drv _ _) rfl (flat_still 4).toQuiet (flat_root 4 relative) (x := str! "a") (h := some (str! "a")) (name_of (by decide)) rfl (N + 5)),
      followLoop, andThen_ok (a := (flat 4).stat relative (some (str! "a"))) (s' := relative) rfl]
    simp only [show ((flat 4).stat relative (some (str! "a"))).isSymlink = true from by decide, Bool.not_true, Bool.false_eq_true, if_false]
    refine andThen_timeout ?_
    unfold M.deferred
    refine either_timeout ?_
    rw [resolveSymlink, andThen_ok (a := (flat 4).stat relative (some (str! "a"))) (s' := relative) rfl]
    simp only [show ((flat 4).stat relative (some (str! "a"))).isSymlink = true from by decide, Bool.not_true, Bool.false_eq_true, if_false]
    rw [symlinkLoop, andThen_ok (deferred_close _ (flat_still 4).toQuiet (keep_contents _ relative_contents _))]
    simp only
    rw [show normalizePath (render [str! "d"]) (str! "c") = render [str! "d", str! "c"] from by decide, if_neg (by decide)]
    exact andThen_timeout (never_deep _ [str! "d"] (by simp) (name_of (by decide)) _ _).1

end Disko.Driver

import Verif.Driver.Props
import Verif.Driver.Lemmas
import Verif.Driver.Spec
/-! C62: path resolution. -/
namespace Disko.Driver
open Disko Spec

variable {σ H : Type}

/-- C62, what it says, through Stat: the object at a location is found at its path. -/
def C62_statement (cfg : Cfg) : Prop :=
  ∀ (σ H : Type) (impl : Impl σ H) (mf : MountFlags) (wd : Str) (s : σ) (l : Loc) (h : H),
    Quiet impl → IsLoc l → At impl s l h →
    ∃ fuel, stat ⟨cfg, impl, mf, wd⟩ fuel (render l) s = .ret (s, .ok (impl.stat s h))

/-! ### A file system to try things on: "/" and the directory "/a", with an empty file "/a/b" -/

/-- A stat with the given mode and size, of an object with blocks of 4 bytes. -/
def statWith (mode : FileMode) (size : Int) (blocks : Int) (inode : Nat) : FileStat :=
  { FileStat.zero with modeFlags := mode, size := size, blockSize := 4, numBlocks := blocks, inodeNumber := inode }

/-- Handles are numbers: 0 is "/", 1 is "/a", 2 is "/a/b". -/
def tiny : Impl Unit Nat where
  features := ⟨true, true, true⟩
  getRootDirectory _ := 0
  getObject s n h :=
    (s, if h = 0 ∧ n = str! "a" then .ok 1 else if h = 1 ∧ n = str! "b" then .ok 2 else .error .notFound)
  createObject s _ _ _ := (s, .error .notImplemented)
  createHardLink := some fun s _ _ _ => (s, .error .notImplemented)
  stat _ h := if h = 2 then statWith 0 3 1 2 else statWith Flags.ModeDir 0 0 h
  name _ h := if h = 0 then [] else if h = 1 then str! "a" else str! "b"
  sameAs _ a b := a = b
  resize s _ _ := (s, none)
  readBlocks s _ _ buf := (s, buf.map fun _ => 7, none)
  writeBlocks s _ _ _ := (s, none)
  unlink s _ := (s, none)
  close s _ := (s, none)
  listDir h := if h = 0 then some fun s => (s, .ok [str! ".", str! "a"]) else if h = 1 then some fun s => (s, .ok [str! "b"]) else none
  chmod _ := some fun s _ => (s, none)
  chown _ := some fun s _ _ => (s, none)
  chtimes _ := some fun s _ _ _ _ _ => (s, none)

theorem tiny_quiet : Quiet tiny := ⟨fun _ _ _ => rfl, fun _ _ => rfl⟩

theorem tiny_root : At tiny () [] 0 := .root (by decide)
theorem tiny_a : At tiny () [str! "a"] 1 := .down (n := str! "a") tiny_root (by decide) (by decide) (by decide)
theorem tiny_b : At tiny () [str! "a", str! "b"] 2 := .down (n := str! "b") tiny_a (by decide) (by decide) (by decide)

theorem isLoc_ab : IsLoc [str! "a", str! "b"] := by
  intro n hn
  simp only [List.mem_cons, List.not_mem_nil, or_false] at hn
  rcases hn with rfl | rfl <;> exact ⟨by decide, by decide, by decide, by decide⟩

/-! ### As shipped -/

section shipped
variable (d : Drv σ H) (hd : d.cfg = shipped) (wd : Loc) (hw : IsLoc wd) (hwd : d.workingDirPath = render wd)
include hd hw hwd

theorem shipped_path (fuel : Nat) (p : Str) (s : σ) : ¬ Returns (getFollow d fuel (normalizePath d.workingDirPath p) s) := by
  obtain ⟨l, hl, e⟩ := C61_canonical wd p hw
  rw [hwd, e]
  exact shipped_follow d hd hl fuel s

theorem shipped_parent (fuel : Nat) (p : Str) (s : σ) :
    ¬ Returns (getFollow d fuel (Path.splitLast (normalizePath d.workingDirPath p)).1 s) := by
  obtain ⟨l, hl, e⟩ := C61_canonical wd p hw
  rw [hwd, e]
  rcases loc_cases l with rfl | ⟨l', n, rfl⟩
  · exact shipped_root d hd fuel s
  · rw [splitLast_render l' (hl n (by simp))]
    by_cases hl' : l' = []
    · rw [if_pos hl']; exact shipped_root d hd fuel s
    · rw [if_neg hl']
      have : render l' ≠ [] := by
        obtain ⟨r, e⟩ := render_absolute l'
        rw [e]; simp
      rw [(never_slash d _ this s fuel).2]
      exact not_returns_timeout

/-- C62: as shipped no operation on a path ever returns, on any file system and for any path, be
the object there or not: it panics, or recurses without end.  (`fuel` bounds the recursion; the
claim holds for every bound.) -/
theorem C62_shipped_partial (s : σ) (fuel : Nat) (p : Str) :
    ¬ Returns (stat d fuel p s) ∧ ¬ Returns (lstat d fuel p s) ∧ ¬ Returns (chdir d fuel p s) ∧
    ¬ Returns (readFile d fuel p s) ∧ ¬ Returns (readDir d fuel p s) ∧ ¬ Returns (remove d fuel p s) ∧
    ¬ Returns (removeAll d fuel p s) ∧ ¬ Returns (truncate d fuel p s) ∧
    (∀ mode, ¬ Returns (chmod d fuel p mode s)) ∧ (∀ u g, ¬ Returns (chown d fuel p u g s)) ∧
    (∀ a m, ¬ Returns (chtimes d fuel p a m s)) ∧
    (∀ perm, ¬ Returns (mkdir d fuel p perm s)) ∧ (∀ perm, ¬ Returns (mkdirAll d fuel p perm s)) := by
  have h := fun fuel => shipped_path d hd wd hw hwd fuel p s
  have hp := fun fuel => shipped_parent d hd wd hw hwd fuel p s
  refine ⟨not_returns_andThen (h _), ?_, not_returns_andThen (h _), not_returns_andThen (h _), not_returns_andThen (h _),
    not_returns_andThen (h _), not_returns_andThen (h _), not_returns_andThen (h _), fun _ => not_returns_andThen (h _),
    fun _ _ => not_returns_andThen (h _), fun _ _ => not_returns_andThen (h _), fun _ => not_returns_andThen (hp _), ?_⟩
  · -- Lstat
    obtain ⟨l, hl, e⟩ := C61_canonical wd p hw
    unfold lstat
    rw [hwd, e]
    by_cases hne : l = []
    · rw [hne]
      cases fuel with
      | zero =>
        refine not_returns_andThen ?_
        rw [getNoFollow]; exact not_returns_timeout
      | succ fuel =>
        rw [andThen_ok (a := wrapObjectHandle d.cfg (some (d.impl.getRootDirectory s)) (str! "/")) (s' := s) (by
          rw [show render [] = str! "/" from rfl, getNoFollow, if_pos (.inl rfl)])]
        refine not_returns_deferred (not_returns_andThen ?_)
        rw [resolveSymlink]
        refine not_returns_andThen ?_
        rw [hd]; exact not_returns_panic
    · exact not_returns_andThen (shipped_noFollow d hd hl hne fuel s)
  · intro perm
    cases fuel with
    | zero => rw [mkdirAll]; exact not_returns_timeout
    | succ fuel => rw [mkdirAll]; exact not_returns_either (hp _)

/-- C62, the operations that can return as shipped, and all they can return. -/
theorem C62_shipped_errors_partial (s : σ) (fuel : Nat) (p : Str) (r : σ × Except Err Unit) (u g : Int)
    (rf : σ × Except Err (File H)) (flags : Flags.IOFlags) (perm : FileMode) (old : Str) (rl : σ × Except Err Bytes) :
    (lchown d fuel p u g s = .ret r → r = (s, .error .notImplemented)) ∧
    (openFile d fuel p flags perm s = .ret rf → rf = (s, .error .readOnlyFileSystem)) ∧
    (link d fuel old p s = .ret r → r = (s, .error .notSupported)) ∧
    (readlink d fuel p s = .ret rl → rl = (s, .error .notSupported)) := by
  refine ⟨?_, ?_, ?_, ?_⟩
  · intro h
    obtain ⟨l, hl, e⟩ := C61_canonical wd p hw
    unfold lchown at h
    rw [hwd, e] at h
    by_cases hne : l = []
    · cases fuel with
      | zero =>
        rw [andThen_timeout (by rw [getNoFollow])] at h
        cases h
      | succ fuel =>
        rw [hne, andThen_ok (a := wrapObjectHandle d.cfg (some (d.impl.getRootDirectory s)) (str! "/")) (s' := s) (by
          rw [show render [] = str! "/" from rfl, getNoFollow, if_pos (.inl rfl)])] at h
        simp only [optionalCall, Ext.optional, hd, shipped] at h
        cases h
        rfl
    · exact absurd ⟨_, h⟩ (not_returns_andThen (shipped_noFollow d hd hl hne fuel s))
  · intro h
    unfold openFile at h
    split at h
    · simp only [M.fail] at h; cases h; rfl
    · exact absurd ⟨_, h⟩ (not_returns_either (shipped_path d hd wd hw hwd fuel p s))
  · intro h
    unfold link at h
    rcases hc : d.impl.createHardLink with _ | linker
    · rw [hc] at h; simp only [M.fail] at h; cases h; rfl
    · rw [hc] at h
      exact absurd ⟨_, h⟩ (not_returns_andThen (shipped_path d hd wd hw hwd fuel old s))
  · intro h
    obtain ⟨l, hl, e⟩ := C61_canonical wd p hw
    unfold readlink at h
    rw [hwd, e] at h
    split at h
    · simp only [M.fail] at h; cases h; rfl
    · by_cases hne : l = []
      · cases fuel with
        | zero =>
          rw [andThen_timeout (by rw [getNoFollow])] at h
          cases h
        | succ fuel =>
          rw [hne, andThen_ok (a := wrapObjectHandle d.cfg (some (d.impl.getRootDirectory s)) (str! "/")) (s' := s) (by
            rw [show render [] = str! "/" from rfl, getNoFollow, if_pos (.inl rfl)])] at h
          refine absurd ⟨_, h⟩ (not_returns_deferred (not_returns_andThen ?_))
          rw [hd]; exact not_returns_panic
      · exact absurd ⟨_, h⟩ (not_returns_andThen (shipped_noFollow d hd hl hne fuel s))

end shipped

example : (new shipped tiny 3).cfg = shipped ∧ IsLoc [] ∧ (new shipped tiny 3).workingDirPath = render [] := ⟨rfl, isLoc_nil, rfl⟩
/-- Lchown can return. -/
example : lchown (new shipped tiny 3) 5 (str! "/") 0 0 () = .ret ((), .error .notImplemented) := by decide +kernel
/-- OpenFile for writing can return on a read-only mount. -/
example : (openFile (new shipped tiny 1) 5 (str! "/a") Flags.O_RDWR 0 ()) = .ret ((), .error .readOnlyFileSystem) := by decide +kernel

/-- C62 is false of the code as shipped: even the root is not found. -/
theorem C62_refuted : ¬ C62_statement shipped := by
  intro h
  obtain ⟨fuel, h⟩ := h Unit Nat tiny 3 (str! "/") () [] 0 tiny_quiet isLoc_nil tiny_root
  exact (C62_shipped_partial ⟨shipped, tiny, 3, str! "/"⟩ rfl [] isLoc_nil rfl () fuel _).1 ⟨_, h⟩

/-! ### With the handle kept -/

/-- C62 is still false when wrapObjectHandle keeps the handle: a path of two components is its
parent's path with a trailing slash, which is its own parent. -/
theorem C62_refuted_keeping : ¬ C62_statement keeping := by
  intro h
  obtain ⟨fuel, h⟩ := h Unit Nat tiny 3 (str! "/") () [str! "a", str! "b"] 2 tiny_quiet isLoc_ab tiny_b
  unfold stat at h
  rw [normalize_canonical isLoc_ab, andThen_timeout] at h
  · cases h
  · exact (never_deep _ [str! "a"] (by simp) (n := str! "b") ⟨by decide, by decide, by decide, by decide⟩ () fuel).2

/-- C62, whatever wrapObjectHandle does: a path of two or more components is never resolved. -/
theorem C62_deep_partial (d : Drv σ H) (l : Loc) (n : Str) (hl : IsLoc (l ++ [n])) (hne : l ≠ []) (s : σ) (fuel : Nat) :
    stat d fuel (render (l ++ [n])) s = .timeout := by
  unfold stat
  rw [normalize_canonical hl, andThen_timeout]
  exact (never_deep _ l hne (hl n (by simp)) s fuel).2

example : IsLoc ([str! "a"] ++ [str! "b"]) := isLoc_ab

end Disko.Driver

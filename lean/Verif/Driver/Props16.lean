import Verif.Driver.Props15
/-! C99: SameFile.  C100: what os.FileInfo and os.DirEntry show. -/
namespace Disko.Driver
open Disko Spec

variable {σ H α β : Type}

/-! ### C99 -/

/-- C99, what it says: of two objects that exist, SameFile tells whether they are the same object (as the implementation's SameAs does). -/
def C99_statement : Prop :=
  ∀ (σ H : Type) (impl : Impl σ H) (kind : σ → Loc → Option Kind) (loc : H → Loc) (s : σ) (h1 h2 : H),
    Volume impl kind loc → kind s (loc h1) ≠ none → kind s (loc h2) ≠ none →
    sameFile (impl.stat s h1) (impl.stat s h2) = impl.sameAs s h1 h2

/-- C99: SameFile is an equivalence relation. -/
theorem C99_equivalence :
    (∀ a, sameFile a a = true) ∧ (∀ a b, sameFile a b = sameFile b a) ∧
    (∀ a b c, sameFile a b = true → sameFile b c = true → sameFile a c = true) := by
  refine ⟨fun a => by simp [sameFile], fun a b => ?_, fun a b c h1 h2 => ?_⟩
  · unfold sameFile; exact Bool.eq_iff_iff.mpr (by simp only [beq_iff_eq]; exact eq_comm)
  · simp only [sameFile, beq_iff_eq] at *; exact h1.trans h2

/-- C99 for an implementation whose inode numbers identify its objects.  Missing: file systems without inode numbers, such as FAT. -/
theorem C99_partial (impl : Impl σ H) (s : σ) (h1 h2 : H)
    (hi : (impl.stat s h1).inodeNumber = (impl.stat s h2).inodeNumber ↔ impl.sameAs s h1 h2 = true) :
    sameFile (impl.stat s h1) (impl.stat s h2) = impl.sameAs s h1 h2 := by
  unfold sameFile
  exact Bool.eq_iff_iff.mpr (by simp only [beq_iff_eq]; exact hi)

/-- In the flat implementation the inode number is the first byte of the name. -/
example : ((flat 4).stat [⟨str! "f", 0, []⟩, ⟨str! "g", 0, []⟩] (some (str! "f"))).inodeNumber =
      ((flat 4).stat [⟨str! "f", 0, []⟩, ⟨str! "g", 0, []⟩] (some (str! "g"))).inodeNumber ↔
    (flat 4).sameAs [⟨str! "f", 0, []⟩, ⟨str! "g", 0, []⟩] (some (str! "f")) (some (str! "g")) = true := by decide +kernel

/-- C99 is false: on a file system without inode numbers all files are the same. -/
theorem C99_refuted : ¬ C99_statement := by
  intro h
  have := h Store Loc store (fun s => kindAt s.1) id sample [str! "f"] [str! "d"] store_volume (by decide) (by decide)
  revert this
  decide +kernel

/-- SameFile also does not look at the device. -/
theorem C99_device_ignored (a b : FileStat) (n m : Nat) : sameFile { a with deviceID := n } { b with deviceID := m } = sameFile a b := rfl

/-! ### C100 -/

namespace Spec
/-- The type bits of a mode (fs.ModeType: directory, symbolic link, named pipe, socket, device, character device, irregular). -/
def typeBits (m : FileMode) : FileMode := m &&& 0x8f280000#32

/-- What an os.FileInfo or os.DirEntry shows for an object with this name and this information: os.DirEntry's Type is the type bits only. -/
structure Describes (x : Shown) (name : Str) (st : FileStat) : Prop where
  name : x.name = name
  isDir : x.isDir = st.modeFlags.getLsbD 31
  type : x.type = typeBits st.modeFlags
  mode : x.mode = st.modeFlags
  size : x.size = st.size
  modTime : x.modTime = st.lastModified
  sys : x.sys = st
end Spec

/-- C100, what it says: an entry of a directory, and File.Stat, describe the object. -/
def C100_statement : Prop :=
  (∀ e : DirEntry, Describes e.shown e.name e.stat) ∧
  ∀ (st : FileStat) (l : Loc) (n : Str), IsLoc (l ++ [n]) → Describes (fileInfoShown st (render (l ++ [n]))) n st

theorem isDir_bit (m : FileMode) : Flags.isDir m = m.getLsbD 31 ∧ (m &&& Flags.ModeDir != 0) = m.getLsbD 31 := by
  have h : (m &&& Flags.ModeDir != 0) = m.getLsbD 31 := by
    rw [show Flags.ModeDir = BitVec.twoPow 32 31 by decide, BitVec.and_twoPow]
    rcases m.getLsbD 31 <;> decide
  exact ⟨h, h⟩

theorem takeWhile_all {p : UInt8 → Bool} {l : List UInt8} {x : UInt8} {r : List UInt8} (h : ∀ y ∈ l, p y = true) (hx : p x = false) :
    (l ++ x :: r).takeWhile p = l := by
  induction l with
  | nil => simp [hx]
  | cons a l ih =>
    rw [List.cons_append, List.takeWhile_cons, h a (by simp)]
    simp only [if_true]
    rw [ih fun y hy => h y (by simp [hy])]

/-- path.Base of the canonical path of an object is its name; -/
theorem pathBase_render {l : Loc} {n : Str} (h : IsLoc (l ++ [n])) : pathBase (render (l ++ [n])) = n := by
  have hn : IsName n := h n (by simp)
  have hr : render (l ++ [n]) = (l.flatMap fun n => sep :: n) ++ (sep :: n) := by
    unfold render
    rw [if_neg (by simp)]
    simp
  obtain ⟨b, n', hb⟩ : ∃ b n', n.reverse = b :: n' := by
    rcases e : n.reverse with _ | ⟨b, n'⟩
    · exact absurd (List.reverse_eq_nil_iff.mp e) hn.nonempty
    · exact ⟨b, n', rfl⟩
  have hbs : b ≠ Path.slash := by
    rintro rfl
    exact hn.noSlash (List.mem_reverse.mp (hb ▸ List.mem_cons_self))
  have hrev : (render (l ++ [n])).reverse = n.reverse ++ sep :: (l.flatMap fun n => sep :: n).reverse := by
    rw [hr]; simp
  have hne : render (l ++ [n]) ≠ [] := by
    intro e; rw [e] at hrev; simp at hrev
  unfold pathBase
  rw [if_neg hne]
  have h1 : ((render (l ++ [n])).reverse.dropWhile (· = Path.slash)) = (render (l ++ [n])).reverse := by
    rw [hrev, hb, List.cons_append, List.dropWhile_cons]
    simp [hbs]
  simp only [h1, List.reverse_reverse]
  have h2 : (render (l ++ [n])).reverse.takeWhile (· ≠ Path.slash) = n.reverse := by
    rw [hrev]
    refine takeWhile_all (fun y hy => ?_) (by decide)
    have : y ≠ Path.slash := by rintro rfl; exact hn.noSlash (List.mem_reverse.mp hy)
    simpa using this
  rw [h2, List.reverse_reverse, if_neg hn.nonempty]

/-- C100, everything but Type, which returns the whole mode.  (Missing: that.) -/
theorem C100_partial :
    (∀ e : DirEntry, Describes { e.shown with type := typeBits e.shown.type } e.name e.stat) ∧
    (∀ (st : FileStat) (l : Loc) (n : Str), IsLoc (l ++ [n]) →
      Describes { fileInfoShown st (render (l ++ [n])) with type := typeBits (fileInfoShown st (render (l ++ [n]))).type } n st) ∧
    (∀ st, (fileInfoShown st (render [])).name = str! "/") :=
  ⟨fun _ => ⟨rfl, (isDir_bit _).1, rfl, rfl, rfl, rfl, rfl⟩, fun _ _ _ h => ⟨pathBase_render h, (isDir_bit _).2, rfl, rfl, rfl, rfl, rfl⟩, fun _ => (by decide +kernel : pathBase (render []) = str! "/")⟩

example : IsLoc ([str! "d"] ++ [str! "f"]) ∧ (fileInfoShown (statWith 0o644 5 2 9) (render ([str! "d"] ++ [str! "f"]))).name = str! "f" := by decide +kernel

/-- C100 is false: Type of a file with mode 0644 is 0644. -/
theorem C100_refuted : ¬ C100_statement := by
  intro h
  have := (h.1 ⟨str! "f", statWith 0o644 0 0 0⟩).type
  revert this
  decide +kernel

/-- The method Stat of an entry (disko.DirectoryEntry, api.go:599-602) always panics. -/
theorem C100_stat_panics (e : DirEntry) : e.statMethod = .panic := rfl

/-! ### File.Stat of an open file -/

/-- C100 says of File.Stat too that it shows the information of the object as it is at the time of the call: -/
def C100_fresh_statement (cfg : Cfg) : Prop :=
  ∀ (σ H : Type) (impl : Impl σ H) (mf : MountFlags) (wd : Loc) (s s' : σ) (p : Str) (l l' : Loc) (h : H) (flags : Flags.IOFlags) (f : File H),
    Still impl → RootIsDir impl s → IsLoc wd → Means wd p l → Found impl s l l' h →
    Gives (openFile ⟨cfg, impl, mf, render wd⟩ · p flags 0) s s' (.ok f) → f.stat.sys = impl.stat s' h

section
variable (d : Drv σ H) (hd : d.cfg.keepHandle = true) (Q : Quiet d.impl) (wd : Loc) (hwd : IsLoc wd) (hw : d.workingDirPath = render wd)
  (s : σ) (hr : RootIsDir d.impl s) (p : Str) (l l' : Loc) (hm : Means wd p l) (flags : Flags.IOFlags) (perm : FileMode) (ha : Allowed d.mountFlags flags)
  (h : H) (b t : Nat) (hf : Found d.impl s l l' h) (hfile : (d.impl.stat s h).isFile = true) (hfit : SizesFit (d.impl.stat s h) b t)
include hd Q hwd hw hr hm ha hf hfile hfit

/-- C100, when wrapObjectHandle keeps the handle: File.Stat shows the information the object had just before the file was opened; its Name is the name of
the object the path leads to. -/
theorem C100_opened_partial :
    (¬ TruncIntent flags → ∃ f, Gives (openFile d · p flags perm) s s (.ok f) ∧ f.stat.sys = d.impl.stat s h ∧ f.stat.name = pathBase (render l')) ∧
    (TruncIntent flags → Flags.write flags = true → Flags.synchronous flags = false → ∀ s', d.impl.resize s h 0 = (s', none) →
      ∃ f, Gives (openFile d · p flags perm) s s' (.ok f) ∧ f.size = 0 ∧ f.stat.sys = d.impl.stat s h ∧ f.stat.size = (d.impl.stat s h).size) :=
  ⟨fun hnt => ⟨_, open_found d hd Q wd hwd hw s hr p l hm flags perm ha hf hfile (newFile_open d hfit _ flags (noTrunc hnt)), rfl, rfl⟩,
   fun ht hwr hs s' hrs => ⟨_, open_found d hd Q wd hwd hw s hr p l hm flags perm ha hf hfile (newFile_trunc d hfit _ flags ((truncate_iff flags).mpr ht) hwr hs hrs), rfl, rfl, rfl⟩⟩

end

/-- A file of five bytes. -/
def fiveBytes : List Obj := [⟨str! "f", 0o644, [1, 2, 3, 4, 5]⟩]
theorem fiveBytes_found : Found (flat 4) fiveBytes [str! "f"] [str! "f"] (some (str! "f")) := .entry (k := 0) (name_of (by decide)) (.zero _) rfl (by decide)

/-- C100 is false of File.Stat even with the wrapper repaired: a file opened with O_TRUNC is said to have five bytes still. -/
theorem C100_refuted_fresh : ¬ C100_fresh_statement passing := by
  intro h
  have hfit : SizesFit ((flat 4).stat fiveBytes (some (str! "f"))) 4 2 := by unfold SizesFit; decide +kernel
  obtain ⟨f, h1, h2, h3, h4⟩ := (C100_opened_partial (⟨passing, flat 4, 3, render []⟩ : Drv _ _) rfl (flat_still 4).toQuiet [] isLoc_nil rfl fiveBytes (flat_root 4 _) (str! "/f") _ _
    oneFile_means (Flags.O_RDWR ||| Flags.O_TRUNC) 0 (.inl (by unfold Writable; decide)) (some (str! "f")) 4 2 fiveBytes_found (by decide +kernel) hfit).2 (by unfold TruncIntent; decide) (by decide) (by decide)
    _ rfl
  have := h (List Obj) (Option Str) (flat 4) 3 [] fiveBytes _ (str! "/f") _ _ (some (str! "f")) _ f (flat_still 4) (flat_root 4 _) isLoc_nil oneFile_means fiveBytes_found h1
  rw [h3] at this
  exact absurd (congrArg (·.size) this) (by decide +kernel)

end Disko.Driver

import Verif.Fat.Props2
/-! C119, C120: SameFile and TimeToTimespec. -/
namespace Disko.Fat
open Disko

/-! ### C119 -/

/-- **C119**: SameFile says whether two entries that the driver returned are the same file, that is, begin at the same cluster. -/
def C119_statement : Prop := ∀ a b : Dirent, sameFile a.sys b.sys = .ret (decide (a.firstCluster = b.firstCluster))

/-- SameFile panics on every pair of the driver's own entries, and on every FileInfo that is not about a Dirent. -/
theorem C119_always_panics (a : Dirent) (x : Sys) : sameFile a.sys x = .panic ∧ sameFile x a.sys = .panic := by
  refine ⟨rfl, ?_⟩
  cases x <;> rfl

theorem C119_refuted : ¬ C119_statement := by
  intro h
  have := h Dirent.zero Dirent.zero
  rw [(C119_always_panics _ _).1] at this
  cases this

/-- **C119 (partial)**: for FileInfos whose Sys() is the entry itself it compares first clusters. -/
theorem C119_dirents_partial (a b : Dirent) : sameFile (.dirent a) (.dirent b) = .ret (decide (a.firstCluster = b.firstCluster)) := by
  show Outcome.ret (a.firstCluster == b.firstCluster) = _
  congr 1

/-- Even then two different empty files (they begin at cluster 0) are the same file. -/
theorem C119_empty_files (n m : Str) (hne : n ≠ m) :
    ({ Dirent.zero with name := n } : Dirent) ≠ { Dirent.zero with name := m } ∧
    sameFile (.dirent { Dirent.zero with name := n }) (.dirent { Dirent.zero with name := m }) = .ret true :=
  ⟨fun h => hne (congrArg Dirent.name h), rfl⟩

example : sameFile (.dirent { Dirent.zero with firstCluster := 3 }) (.dirent { Dirent.zero with firstCluster := 4 }) = .ret false := rfl

/-! ### C120 -/

/-- The timespec is the moment `t`, in the normal form that the kernel asks for. -/
def IsMoment (ts : Timespec) (t : Int) : Prop := ts.sec * 1000000000 + ts.nsec = t ∧ 0 ≤ ts.nsec ∧ ts.nsec < 1000000000

/-- **C120**: TimeToTimespec gives the same moment. -/
def C120_statement : Prop := ∀ t : Int, IsMoment (timeToTimespec t) t

theorem nsec_moment (n : Int) : IsMoment (nsecToTimespec n) n := by
  unfold IsMoment nsecToTimespec
  simp only
  have h := Int.mul_tdiv_add_tmod n 1000000000
  have h2 := Int.tmod_lt_of_pos n (show (0 : Int) < 1000000000 by decide)
  have h3 := Int.lt_tmod_of_pos n (show (0 : Int) < 1000000000 by decide)
  split <;> simp only <;> omega

/-- **C120 (partial)**: for the times an int64 of nanoseconds can hold (1677 to 2262). -/
theorem C120_range_partial (t : Int) : IsMoment (timeToTimespec t) t ↔ -(2 ^ 63) ≤ t ∧ t < 2 ^ 63 := by
  have h := nsec_moment (unixNano t)
  unfold timeToTimespec
  constructor
  · intro h'
    have : unixNano t = t := by
      have a := h.1
      have b := h'.1
      rw [a] at b; exact b
    rw [← this]
    unfold unixNano i64
    rw [Int.bmod_def]; omega
  · rintro ⟨a, b⟩
    have : unixNano t = t := i64_of_range a b
    rw [this] at h ⊢
    exact h

/-- **C120 (partial)**: in particular for every moment a FAT timestamp can mean: 1980-01-01 is 315532800 seconds after 1970, and the year 2108 begins
4354819200 seconds after 1970; a day is added on both sides for the time zone. -/
theorem C120_fat_partial (t : Int) (h1 : (315532800 - 86400) * 1000000000 ≤ t) (h2 : t < (4354819200 + 86400) * 1000000000) :
    IsMoment (timeToTimespec t) t :=
  (C120_range_partial t).2 (by omega)

/-- C120 is false: for Go's zero time, the year 1. -/
theorem C120_refuted : ¬ C120_statement := by
  intro h
  have := (C120_range_partial zeroTime).1 (h zeroTime)
  revert this; decide

example : timeToTimespec (-1) = ⟨-1, 999999999⟩ ∧ timeToTimespec 1600000000000000007 = ⟨1600000000, 7⟩ := by decide

end Disko.Fat

import Verif.Fat.Props2
/-! C131: making directory entries from raw ones; also which headers are accepted (C50) and which times can be read (C57). -/
namespace Disko.Fat
open Disko

/-! ### C131 -/

/-- `field` holds `text`, padded on the right with blanks to `width` bytes. -/
def Padded (width : Nat) (text field : Bytes) : Prop :=
  text.length ≤ width ∧ field = text ++ List.replicate (width - text.length) 32 ∧ text.getLast? ≠ some 32

/-- The name of an entry as users write it: a dot before the extension, if there is one. -/
def shown (base ext : Bytes) : Bytes := if ext = [] then base else base ++ 46 :: ext

/-- The first character that the on-disk name stands for: 0xE5 marks a deleted entry, whose first character is kept in the byte
after the NT flags, and 0x05 stands for 0xE5. -/
def firstChar (c kept : UInt8) : UInt8 := if c = 0xE5 then kept else if c = 0x05 then 0xE5 else c

/-- The moment that on-disk date and time fields name (C75), as this code counts it. -/
def moment (cal : Calendar) (date time : UInt16) (hundredths : UInt8) : Time :=
  cal.date (fatYear date) (fatMonth date) (fatDay date) (time.toNat / 2048) (time.toNat / 32 % 64)
    (time.toNat % 32 * 2 + hundredths.toNat / 100) (time.toNat * 10000 % 65536)

/-- The calendar gives the date back. -/
def GivesBack (cal : Calendar) (date : UInt16) : Prop :=
  ∀ m, m = cal.date (fatYear date) (fatMonth date) (fatDay date) 0 0 0 0 →
    cal.year m = fatYear date ∧ cal.month m = fatMonth date ∧ cal.day m = fatDay date

/-- What the entry `d` made from `raw` on a volume with clusters of `bpc` bytes should be. -/
structure Described (cal : Calendar) (bpc : Nat) (raw : RawDirent) (c : UInt8) (base ext : Bytes) (mode : FileMode) (d : Dirent) : Prop where
  name : d.name = shown (firstChar c raw.createdTimeMillis :: base) ext
  deleted : d.isDeleted = true ↔ c = 0xE5
  cluster : d.firstCluster.toNat = raw.firstClusterHigh.toNat * 65536 + raw.firstClusterLow.toNat
  inode : d.stat.inodeNumber = raw.firstClusterHigh.toNat * 65536 + raw.firstClusterLow.toNat
  size : d.size = raw.fileSize.toNat ∧ d.stat.size = raw.fileSize.toNat
  flags : d.attributeFlags = raw.attributeFlags.toNat ∧ d.ntReserved = raw.ntReserved.toNat
  mode : d.mode = mode ∧ d.stat.modeFlags = mode
  links : d.stat.nlinks = 1
  clusterSize : d.stat.blockSize = bpc
  /-- The number of clusters is the least that holds the file. -/
  enough : (raw.fileSize.toNat : Int) ≤ d.stat.numBlocks * bpc ∧ (d.stat.numBlocks - 1) * bpc < raw.fileSize.toNat ∧ 0 ≤ d.stat.numBlocks
  accessed : d.stat.lastAccessed = cal.date (fatYear raw.lastAccessedDate) (fatMonth raw.lastAccessedDate) (fatDay raw.lastAccessedDate) 0 0 0 0
  modified : d.stat.lastModified = moment cal raw.lastModifiedDate raw.lastModifiedTime 0
  /-- A deleted entry's first byte took the place of the hundredths: its time of creation is 1970. -/
  created : d.stat.createdAt = if c = 0xE5 then 0 else moment cal raw.createdDate raw.createdTime raw.createdTimeMillis
  /-- The first second of the year 1. -/
  notDeletedAt : d.stat.deletedAt = -62135596800 * 1000000000

/-- C131: from a raw entry NewDirentFromRaw makes the entry it describes (in the calendar of some time zone, which gives back at least
the first 28 days of every month). -/
def C131_statement : Prop :=
  ∃ cal : Calendar, (∀ v, 1 ≤ fatMonth v → fatMonth v ≤ 12 → 1 ≤ fatDay v → fatDay v ≤ 28 → GivesBack cal v) ∧
    ∀ (bs : BootSector) (raw : RawDirent) (c : UInt8) (base ext : Bytes), 0 < bs.bytesPerCluster →
    Padded 8 (c :: base) raw.name → Padded 3 ext raw.extension → c ≠ 0 → raw.createdTimeMillis < 200 →
    GivesBack cal raw.lastModifiedDate → GivesBack cal raw.createdDate →
    ∃ d, newDirentFromRaw bs raw = .ret (.ok d) ∧ Described cal bs.bytesPerCluster raw c base ext (attrFlagsToFileMode raw.attributeFlags.toBitVec) d

/-! ### Helpers -/
namespace DirentLemmas

theorem dropWhile_replicate (n : Nat) (r : Bytes) : (List.replicate n 32 ++ r).dropWhile (· = 32) = r.dropWhile (· = (32 : UInt8)) := by
  induction n with
  | zero => rfl
  | succ n ih => rw [List.replicate_succ, List.cons_append, List.dropWhile_cons_of_pos (by decide)]; exact ih

theorem dropWhile_self {l : Bytes} (h : l.head? ≠ some 32) : l.dropWhile (· = (32 : UInt8)) = l := by
  cases l with
  | nil => rfl
  | cons a l => rw [List.dropWhile_cons_of_neg]; simpa using h

theorem trim_padded {w : Nat} {text field : Bytes} (h : Padded w text field) : trimRight field = text := by
  unfold trimRight
  rw [h.2.1, List.reverse_append, List.reverse_replicate, dropWhile_replicate, dropWhile_self, List.reverse_reverse]
  rw [List.head?_reverse]; exact h.2.2

theorem join16 (hi lo : UInt16) : (hi.toUInt32 <<< 16 ||| lo.toUInt32).toNat = hi.toNat * 65536 + lo.toNat := by
  have h1 := hi.toNat_lt
  have h2 := lo.toNat_lt
  rw [UInt32.toNat_or, UInt32.toNat_shiftLeft]
  show (hi.toUInt32.toNat <<< 16) % 2 ^ 32 ||| lo.toUInt32.toNat = _
  rw [UInt16.toNat_toUInt32, UInt16.toNat_toUInt32, Nat.shiftLeft_eq, Nat.mod_eq_of_lt (by omega), Nat.mul_comm]
  exact (Nat.two_pow_add_eq_or_of_lt (i := 16) h2 hi.toNat).symm

end DirentLemmas
open DirentLemmas

/-- Every field of `w` bytes holds exactly one text, so the theorems below cover every entry. -/
theorem C131_every_field (w : Nat) (field : Bytes) (h : field.length = w) : ∃ text, Padded w text field ∧ ∀ t, Padded w t field → t = text := by
  subst h
  have key : ∀ r : Bytes, ∃ n, r = List.replicate n 32 ++ r.dropWhile (· = (32 : UInt8)) ∧ (r.dropWhile (· = (32 : UInt8))).head? ≠ some 32 := by
    intro r
    induction r with
    | nil => exact ⟨0, rfl, by simp⟩
    | cons a r ih =>
      by_cases ha : a = 32
      · obtain ⟨n, h1, h2⟩ := ih
        rw [List.dropWhile_cons_of_pos (by simpa using ha)]
        refine ⟨n + 1, ?_, h2⟩
        rw [List.replicate_succ, List.cons_append, ← h1, ha]
      · rw [List.dropWhile_cons_of_neg (by simpa using ha)]
        exact ⟨0, rfl, by simpa using ha⟩
  refine ⟨trimRight field, ?_, fun t ht => (trim_padded ht).symm⟩
  obtain ⟨n, h1, h2⟩ := key field.reverse
  have h3 : field = trimRight field ++ List.replicate n 32 := by
    have := congrArg List.reverse h1
    rw [List.reverse_reverse, List.reverse_append, List.reverse_replicate] at this
    exact this
  have hl := congrArg List.length h3
  rw [List.length_append, List.length_replicate] at hl
  refine ⟨by omega, ?_, ?_⟩
  · rw [show field.length - (trimRight field).length = n by omega]; exact h3
  · unfold trimRight; rw [List.getLast?_reverse]; exact h2

/-- C131 fails for every entry: the time zone is missing (C75). -/
theorem C131_always_panics (bs : BootSector) (raw : RawDirent) : newDirentFromRaw bs raw = .panic := rfl

/-- An entry for a file of 600 bytes named A, of 28 July 2020, noon. -/
def exRaw : RawDirent :=
  { name := 65 :: List.replicate 7 32, extension := List.replicate 3 32, attributeFlags := 0, ntReserved := 0, createdTimeMillis := 150,
    createdTime := 0x6000, createdDate := 0x50FC, lastAccessedDate := 0x50FC, firstClusterHigh := 1, lastModifiedTime := 0x6001,
    lastModifiedDate := 0x50FC, firstClusterLow := 2, fileSize := 600 }

theorem C131_refuted : ¬ C131_statement := by
  rintro ⟨cal, hg, h⟩
  have hv := hg 0x50FC (by decide) (by decide) (by decide) (by decide)
  obtain ⟨d, h1, _⟩ := h exampleBoot exRaw 65 [] [] (by decide) ⟨by decide, by decide, by decide⟩ ⟨by decide, by decide, by decide⟩ (by decide)
    (by decide) hv hv
  rw [C131_always_panics] at h1
  cases h1

/-- C131, with a time zone supplied to time.Date, and however attributes are mapped to modes: every raw entry that is in use or deleted
becomes the entry it describes. -/
theorem C131_entry_partial (cfg : Cfg) (cal : Calendar) (hcal : cfg.cal = some cal) (bs : BootSector) (raw : RawDirent) (c : UInt8) (base ext : Bytes)
    (hb : 0 < bs.bytesPerCluster) (hn : Padded 8 (c :: base) raw.name) (he : Padded 3 ext raw.extension) (hc : c ≠ 0)
    (hh : raw.createdTimeMillis < 200 ∨ c = 0xE5) (hm : GivesBack cal raw.lastModifiedDate) (hcr : GivesBack cal raw.createdDate) :
    ∃ d, newDirentFromRawIn cfg bs raw = .ret (.ok d) ∧ Described cal bs.bytesPerCluster raw c base ext (cfg.modeOf raw.attributeFlags.toBitVec) d := by
  have hhead : raw.name.head? = some c := by rw [hn.2.1]; rfl
  have hname : direntName raw = .ret (.ok (shown (firstChar c raw.createdTimeMillis :: base) ext)) := by
    unfold direntName
    simp only
    rw [trim_padded hn, trim_padded he]
    simp only
    rw [if_neg hc]
    unfold shown firstChar
    by_cases h1 : c = 0xE5
    · simp only [h1, if_true]
    · by_cases h2 : c = 5
      · subst h2; rfl
      · simp only [h1, h2, if_false]
  unfold newDirentFromRawIn
  rw [hcal, C75_timestamp_partial cal _ _ _ hm (by decide), C75_date_partial, hname, hhead]
  simp only [Outcome.bind]
  rw [if_neg (by omega)]
  have hcre : (if (some c == some (0xE5 : UInt8)) = true then Outcome.ret unixEpoch
      else timestampFromPartsIn (some cal) raw.createdDate raw.createdTime raw.createdTimeMillis) =
      .ret (if c = 0xE5 then unixEpoch else moment cal raw.createdDate raw.createdTime raw.createdTimeMillis) := by
    by_cases h5 : c = 0xE5
    · subst h5; rfl
    · rw [if_neg (by simpa using h5), if_neg h5]
      rcases hh with hh | hh
      · exact C75_timestamp_partial cal _ _ _ hcr hh
      · exact absurd hh h5
  rw [hcre]
  simp only [R.andThen]
  refine ⟨_, rfl, ?_⟩
  refine ⟨rfl, by simp, join16 _ _, join16 _ _, ⟨rfl, rfl⟩, ⟨rfl, rfl⟩, ⟨rfl, rfl⟩, rfl, rfl, ?_, rfl, rfl, rfl, rfl⟩
  show (raw.fileSize.toNat : Int) ≤ ((if raw.fileSize.toNat % bs.bytesPerCluster ≠ 0 then raw.fileSize.toNat / bs.bytesPerCluster + 1
      else raw.fileSize.toNat / bs.bytesPerCluster : Nat) : Int) * _ ∧ (((if raw.fileSize.toNat % bs.bytesPerCluster ≠ 0 then raw.fileSize.toNat / bs.bytesPerCluster + 1
      else raw.fileSize.toNat / bs.bytesPerCluster : Nat) : Int) - 1) * _ < _ ∧ (0 : Int) ≤ ((if raw.fileSize.toNat % bs.bytesPerCluster ≠ 0 then
      raw.fileSize.toNat / bs.bytesPerCluster + 1 else raw.fileSize.toNat / bs.bytesPerCluster : Nat) : Int)
  generalize raw.fileSize.toNat = s
  generalize bs.bytesPerCluster = B at hb
  have h1 := Nat.div_add_mod s B
  have h2 := Nat.mod_lt s hb
  generalize s % B = r at h1 h2
  have h3 : ((s / B : Nat) : Int) * B = ((B * (s / B) : Nat) : Int) := by rw [Int.natCast_mul, Int.mul_comm]
  generalize s / B = q at h1 h3
  split
  · have : (((q + 1 : Nat) : Int) - 1) = q := by omega
    rw [this, Int.natCast_add, Int.add_mul]
    omega
  · rw [Int.sub_mul]
    omega

/-- C131, the mark of the end of a directory: "not found", for any entry whose name begins with 0. -/
theorem C131_end_mark_partial (cfg : Cfg) (cal : Calendar) (hcal : cfg.cal = some cal) (bs : BootSector) (raw : RawDirent) (base : Bytes)
    (hb : 0 < bs.bytesPerCluster) (hn : Padded 8 (0 :: base) raw.name) : newDirentFromRawIn cfg bs raw = .ret (.error .notFound) := by
  have hname : direntName raw = .ret (.error .notFound) := by
    unfold direntName
    simp only
    rw [trim_padded hn]
    rfl
  have hhead : raw.name.head? = some 0 := by rw [hn.2.1]; rfl
  unfold newDirentFromRawIn
  rw [hcal, hname, hhead, C75_date_partial]
  simp only [timestampFromPartsIn, C75_date_partial, timeDate, Outcome.bind, bind]
  rw [if_neg (by omega)]
  rfl

/-- C131: an entry with a blank name, or on a volume with clusters of no bytes, panics, however decoding is repaired. -/
theorem C131_panics (cfg : Cfg) (cal : Calendar) (hcal : cfg.cal = some cal) (bs : BootSector) (raw : RawDirent)
    (h : bs.bytesPerCluster = 0 ∨ raw.name = List.replicate 8 32) : newDirentFromRawIn cfg bs raw = .panic := by
  unfold newDirentFromRawIn
  rw [hcal, C75_date_partial]
  simp only [timestampFromPartsIn, C75_date_partial, timeDate, Outcome.bind, bind]
  split
  · rfl
  · rename_i hb
    rcases h with h | h
    · exact absurd h hb
    · have : direntName raw = .panic := by unfold direntName; rw [h]; rfl
      rw [this, h]
      rfl

/-- With the toy calendar, the entry above is a file of 600 bytes that takes two clusters; deleted, its name begins with the byte kept. -/
example : (match newDirentFromRawIn ⟨some toyCalendar, newRawDirentFromBytes, attrFlagsToFileMode⟩ exampleBoot exRaw with
    | .ret (.ok d) => d.name == [65] && d.firstCluster == 65538 && d.stat.numBlocks == 2 && d.stat.createdAt == 20200728120001000000000
    | _ => false) = true := by decide +kernel
example : GivesBack toyCalendar 0x50FC := by intro m hm; subst hm; decide
example : direntName { exRaw with name := 0xE5 :: 66 :: List.replicate 6 32, extension := [84, 88, 32] } = .ret (.ok [150, 66, 46, 84, 88]) := by decide
example : Padded 8 [65, 32, 66] [65, 32, 66, 32, 32, 32, 32, 32] := ⟨by decide, by decide, by decide⟩

/-! ### C50: exactly which headers are accepted -/

/-- The root directory's sectors and the clusters, as common.go:101-106 counts them (C51 says how far this is from the specification). -/
def countedRoot (raw : RawBPB) : Nat := (raw.rootEntryCount * 32 + (raw.bytesPerSector - 1)).toNat / raw.bytesPerSector.toNat
/-- clusters; if the reserved sectors are more than all the others together, the 64-bit difference wraps around and there are very many -/
def countedClusters (raw : RawBPB) (f32 : UInt32) : Nat :=
  (((totSec raw : Int) - raw.reservedSectors.toNat + raw.numFATs.toNat * fatSz raw f32 + countedRoot raw) % 2 ^ 64).toNat / raw.sectorsPerCluster.toNat

/-- C50, after the header has been read: a header is accepted exactly if the sector size is one of four, the cluster size is a power of
two, a cluster is at most 32 kB, and a volume counted as FAT32 has no root directory of fixed size. -/
theorem C50_accepted_iff_partial (raw : RawBPB) (f32 : UInt32) :
    (∃ bs, bootSectorOf raw f32 = .ret (.ok bs)) ↔
      raw.bytesPerSector.toNat ∈ [512, 1024, 2048, 4096] ∧ (∃ k < 8, raw.sectorsPerCluster.toNat = 2 ^ k) ∧
      raw.bytesPerSector.toNat * raw.sectorsPerCluster.toNat ≤ 32768 ∧
      (65525 ≤ countedClusters raw f32 → countedRoot raw = 0) := by
  have b1 := raw.bytesPerSector.toNat_lt
  have b2 := raw.sectorsPerCluster.toNat_lt
  have hmul : raw.bytesPerSector.toNat * raw.sectorsPerCluster.toNat < 2 ^ 64 :=
    calc raw.bytesPerSector.toNat * raw.sectorsPerCluster.toNat ≤ 65536 * 256 := Nat.mul_le_mul (by omega) (by omega)
      _ < 2 ^ 64 := by decide
  have hS : (raw.bytesPerSector = 512 ∨ raw.bytesPerSector = 1024 ∨ raw.bytesPerSector = 2048 ∨ raw.bytesPerSector = 4096) ↔
      raw.bytesPerSector.toNat ∈ [512, 1024, 2048, 4096] := by
    simp only [← UInt16.toNat_inj, List.mem_cons, List.not_mem_nil, or_false]; rfl
  have hC : (raw.sectorsPerCluster = 1 ∨ raw.sectorsPerCluster = 2 ∨ raw.sectorsPerCluster = 4 ∨ raw.sectorsPerCluster = 8 ∨
      raw.sectorsPerCluster = 16 ∨ raw.sectorsPerCluster = 32 ∨ raw.sectorsPerCluster = 64 ∨ raw.sectorsPerCluster = 128) ↔
      ∃ k < 8, raw.sectorsPerCluster.toNat = 2 ^ k := by
    constructor
    · exact u8cases
    · rintro ⟨k, hk, e⟩
      simp only [← UInt8.toNat_inj, e]
      match k, hk with
      | 0, _ => decide
      | 1, _ => decide
      | 2, _ => decide
      | 3, _ => decide
      | 4, _ => decide
      | 5, _ => decide
      | 6, _ => decide
      | 7, _ => decide
  by_cases hb : raw.bytesPerSector = 0
  · have : ¬ raw.bytesPerSector.toNat ∈ [512, 1024, 2048, 4096] := by rw [hb]; decide
    have e : bootSectorOf raw f32 = .panic := ((C50_panics_iff_partial raw f32).1).mpr (.inl hb)
    rw [e]
    exact ⟨(fun ⟨_, h⟩ => by cases h), fun h => absurd h.1 this⟩
  by_cases hs : raw.sectorsPerCluster = 0
  · have : ¬ ∃ k < 8, raw.sectorsPerCluster.toNat = 2 ^ k := by rw [← hC, hs]; decide
    have e : bootSectorOf raw f32 = .panic := ((C50_panics_iff_partial raw f32).1).mpr (.inr hs)
    rw [e]
    exact ⟨(fun ⟨_, h⟩ => by cases h), fun h => absurd h.2.1 this⟩
  have hroot : ((raw.rootEntryCount * 32 + (raw.bytesPerSector - 1)) / raw.bytesPerSector).toNat = countedRoot raw := by
    rw [UInt16.toNat_div]; rfl
  have hrlt : countedRoot raw < 65536 := by
    rw [← hroot]; exact UInt16.toNat_lt _
  have hF : fatSz raw f32 < 2 ^ 32 := perFAT_lt raw f32
  have hfat := fatSectors_lt raw (fatSz raw f32) hF
  have htot : totSec raw < 2 ^ 32 := by
    unfold totSec
    have h1 := raw.totalSectors16.toNat_lt
    have h2 := raw.totalSectors32.toNat_lt
    split <;> omega
  have hcl : u64 (u64 (u64sub (pickTotalSectors raw) raw.reservedSectors.toNat + u64 (raw.numFATs.toNat * pickSectorsPerFAT raw f32)) + countedRoot raw) /
      raw.sectorsPerCluster.toNat = countedClusters raw f32 := by
    have e1 : pickTotalSectors raw = totSec raw := rfl
    have e2 : pickSectorsPerFAT raw f32 = fatSz raw f32 := rfl
    rw [e1, e2]
    unfold countedClusters u64 u64sub
    have h16 := raw.reservedSectors.toNat_lt
    congr 1
    have hcast : ((raw.numFATs.toNat * fatSz raw f32 : Nat) : Int) = (raw.numFATs.toNat : Int) * (fatSz raw f32 : Int) := by simp
    rw [← hcast]
    generalize raw.numFATs.toNat * fatSz raw f32 = X at *
    generalize raw.reservedSectors.toNat = Y at *
    omega
  unfold bootSectorOf
  simp only
  rw [if_neg hb, if_neg hs, hroot, hcl, u64_of_lt hmul]
  have hv : (determineFATVersion (countedClusters raw f32) = 32) ↔ 65525 ≤ countedClusters raw f32 := (C49_version _).2.2
  rw [← hS, ← hC]
  by_cases h1 : (raw.bytesPerSector = 512 ∨ raw.bytesPerSector = 1024 ∨ raw.bytesPerSector = 2048 ∨ raw.bytesPerSector = 4096)
  · rw [if_neg (not_not_intro h1)]
    by_cases h2 : (raw.sectorsPerCluster = 1 ∨ raw.sectorsPerCluster = 2 ∨ raw.sectorsPerCluster = 4 ∨ raw.sectorsPerCluster = 8 ∨
      raw.sectorsPerCluster = 16 ∨ raw.sectorsPerCluster = 32 ∨ raw.sectorsPerCluster = 64 ∨ raw.sectorsPerCluster = 128)
    · rw [if_neg (not_not_intro h2)]
      by_cases h3 : determineFATVersion (countedClusters raw f32) = 32 ∧ countedRoot raw ≠ 0
      · rw [if_pos h3]
        exact ⟨(fun ⟨_, h⟩ => by cases h), fun h => absurd (h.2.2.2 (hv.mp h3.1)) h3.2⟩
      · rw [if_neg h3]
        have h3' : 65525 ≤ countedClusters raw f32 → countedRoot raw = 0 := fun hx =>
          Classical.byContradiction fun hr => h3 ⟨hv.mpr hx, hr⟩
        by_cases h4 : raw.bytesPerSector.toNat * raw.sectorsPerCluster.toNat > 32768
        · rw [if_pos h4]
          exact ⟨(fun ⟨_, h⟩ => by cases h), fun h => absurd h.2.2.1 (by omega)⟩
        · rw [if_neg h4]
          exact ⟨fun _ => ⟨h1, h2, by omega, h3'⟩, fun _ => ⟨_, rfl⟩⟩
    · rw [if_pos h2]
      exact ⟨(fun ⟨_, h⟩ => by cases h), fun h => absurd h.2.1 h2⟩
  · rw [if_pos h1]
    exact ⟨(fun ⟨_, h⟩ => by cases h), fun h => absurd h.1 h1⟩

/-- The largest clusters. -/
example : ∃ bs, bootSectorOf { floppy with sectorsPerCluster := 64 } 0 = .ret (.ok bs) ∧ bs.bytesPerCluster = 32768 := ⟨_, rfl, by decide⟩
example : bootSectorOf { floppy with sectorsPerCluster := 128 } 0 = .ret (.error .corrupted) := by decide
/-- More reserved sectors than sectors: counted as FAT32 with 2^64 sectors or so, and refused because of its root directory; accepted without one. -/
example : bootSectorOf { floppy with reservedSectors := 4000 } 0 = .ret (.error .corrupted) ∧ countedClusters { floppy with reservedSectors := 4000 } 0 = 2 ^ 64 - 1088 := by
  decide +kernel

/-! ### C57: which times can be read -/

/-- C57: the creation time can be read exactly from entries that are not deleted, the deletion time exactly from those that are; a creation
time set is read back, and any time set leaves the other times as they were. -/
theorem C57_getters_partial (epoch : Time) (d : Dirent) (t : Time) :
    ((d.getCreatedAt = .ok t) ↔ d.isDeleted = false ∧ d.stat.createdAt = t) ∧ ((∃ e, d.getCreatedAt = .error e) ↔ d.isDeleted = true) ∧
    ((d.getDeletedAt = .ok t) ↔ d.isDeleted = true ∧ d.stat.deletedAt = t) ∧ ((∃ e, d.getDeletedAt = .error e) ↔ d.isDeleted = false) ∧
    (epoch ≤ t → d.isDeleted = false → (d.setCreatedAt epoch t).1.getCreatedAt = .ok t) ∧
    (epoch ≤ t → (d.setLastAccessedAt epoch t).1.getLastAccessedAt = t ∧ (d.setLastAccessedAt epoch t).1.getLastModifiedAt = d.getLastModifiedAt ∧
      (d.setLastAccessedAt epoch t).1.getCreatedAt = d.getCreatedAt) ∧
    (epoch ≤ t → (d.setLastModifiedAt epoch t).1.getLastModifiedAt = t ∧ (d.setLastModifiedAt epoch t).1.getLastAccessedAt = d.getLastAccessedAt ∧
      (d.setLastModifiedAt epoch t).1.getCreatedAt = d.getCreatedAt) := by
  have hs := C57_setters_partial epoch d t
  refine ⟨?_, ?_, ?_, ?_, fun h hd => ?_, fun h => ?_, fun h => ?_⟩
  · unfold Dirent.getCreatedAt; cases d.isDeleted <;> simp
  · unfold Dirent.getCreatedAt; cases d.isDeleted <;> simp
  · unfold Dirent.getDeletedAt; cases d.isDeleted <;> simp
  · unfold Dirent.getDeletedAt; cases d.isDeleted <;> simp
  · rw [hs.2.2.2.1 h hd]; unfold Dirent.getCreatedAt; simp [hd]
  · rw [hs.2.1 h]; exact ⟨rfl, rfl, rfl⟩
  · rw [hs.2.2.1 h]; exact ⟨rfl, rfl, rfl⟩

example : (Dirent.setCreatedAt 0 Dirent.zero 7).1.getCreatedAt = .ok 7 := by rfl

end Disko.Fat

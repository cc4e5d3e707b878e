import Verif.Disks.Props
/-! C60: which column of the table fills which field of a geometry. -/
namespace Disko.Disks
open Disko

namespace Spec

/-- The number a string of decimal digits stands for. -/
def value : List Char → Nat
  | [] => 0
  | c :: cs => (c.toNat - '0'.toNat) * 10 ^ cs.length + value cs

/-- `s` is a number in decimal (leading zeros allowed) that fits 64 bits, `n`. -/
def Decimal (s : List Char) (n : Nat) : Prop := s ≠ [] ∧ (∀ c ∈ s, '0' ≤ c ∧ c ≤ '9') ∧ value s = n ∧ n < 2 ^ 64

/-- The record's field in the column called `col` is `s`; or there is no such column, and `s` is empty. -/
def Text (header record : List Str) (col s : Str) : Prop :=
  (∃ i : Nat, header[i]? = some col ∧ record[i]? = some s) ∨ (col ∉ header ∧ s = [])

/-- The record's field in the column called `col` is the number `n`; or there is no such column, and `n` is 0. -/
def Number (header record : List Str) (col : Str) (n : Nat) : Prop :=
  (∃ (i : Nat) (s : Str), header[i]? = some col ∧ record[i]? = some s ∧ Decimal s n) ∨ (col ∉ header ∧ n = 0)

/-- Every field of the geometry is what the record has in the column of that name. -/
structure Fills (header record : List Str) (g : DiskGeometry) : Prop where
  name : Text header record (str! "name") g.name
  slug : Text header record (str! "slug") g.slug
  firstYearAvailable : Number header record (str! "first_year_available") g.firstYearAvailable
  formFactor : Text header record (str! "form_factor") g.formFactor
  isRemovable : Number header record (str! "is_removable") g.isRemovable
  bitsPerAddressUnit : Number header record (str! "bits_per_address_unit") g.bitsPerAddressUnit
  addressUnitsPerSector : Number header record (str! "address_units_per_sector") g.addressUnitsPerSector
  sectorsPerTrack : Number header record (str! "sectors_per_track") g.sectorsPerTrack
  totalDataTracks : Number header record (str! "total_data_tracks") g.totalDataTracks
  hiddenTracks : Number header record (str! "hidden_tracks") g.hiddenTracks
  heads : Number header record (str! "heads") g.heads
  notes : Text header record (str! "notes") g.notes

/-- The rest of the predefined table (disk-geometries.csv): slug, name, year, form factor, removable or not. -/
def labels : List (Str × Str × Nat × Str × Nat) :=
  [(str! "ibm_23fd", str! "IBM 23FD", 1971, str! "8\"", 1),
   (str! "ibm_33fd_242k", str! "IBM 33FD (242K)", 1973, str! "8\"", 1),
   (str! "ibm_33fd_284k", str! "IBM 33FD (284K)", 1973, str! "8\"", 1),
   (str! "ibm_33fd_303k", str! "IBM 33FD (303K)", 1973, str! "8\"", 1),
   (str! "ibm_43fd_492k", str! "IBM 43FD (492K)", 1976, str! "8\"", 1),
   (str! "ibm_43fd_568k", str! "IBM 43FD (568K)", 1976, str! "8\"", 1),
   (str! "ibm_53fd_985k", str! "IBM 53FD (985K)", 1977, str! "8\"", 1),
   (str! "ibm_53fd_1136k", str! "IBM 53FD (1136K)", 1977, str! "8\"", 1),
   (str! "ibm_53fd_1212k", str! "IBM 53FD (1212kB)", 1977, str! "8\"", 1),
   (str! "dec_rx01", str! "DEC RX01", 1975, str! "8\"", 1),
   (str! "dec_rx02", str! "DEC RX02", 1978, str! "8\"", 1),
   (str! "rk05", str! "DEC RK05", 1974, str! "19\"", 1),
   (str! "ibm_3740", str! "IBM 3740", 1973, str! "8\"", 1),
   (str! "msdos_8in_ss_sd", str! "MS-DOS 8\" SS SD", 1981, str! "8\"", 1),
   (str! "msdos_8in_ds_sd", str! "MS-DOS 8\" DS SD", 1981, str! "8\"", 1),
   (str! "msdos_8in_ss_dd", str! "MS-DOS 8\" SS DD", 1981, str! "8\"", 1),
   (str! "msdos_8in_ds_dd", str! "MS-DOS 8\" DS DD", 1981, str! "8\"", 1),
   (str! "msdos_514in_ss_dd_8", str! "MS-DOS 5 1/4\" SS DD 160K", 1981, str! "5 1/4\"", 1),
   (str! "msdos_514in_ds_dd_8", str! "MS-DOS 5 1/4\" DS DD 320K", 1981, str! "5 1/4\"", 1),
   (str! "msdos_514in_ss_dd_9", str! "MS-DOS 5 1/4\" SS DD 180K", 1981, str! "5 1/4\"", 1),
   (str! "msdos_514in_ds_dd_9", str! "MS-DOS 5 1/4\" DS DD 360K", 1981, str! "5 1/4\"", 1),
   (str! "msdos_514in_ss_qd", str! "MS-DOS 5 1/4\" SS QD", 1981, str! "5 1/4\"", 1),
   (str! "msdos_514in_ds_qd", str! "MS-DOS 5 1/4\" DS QD", 1981, str! "5 1/4\"", 1),
   (str! "msdos_514in_ds_hd", str! "MS-DOS 5 1/4\" DS HD", 1981, str! "5 1/4\"", 1),
   (str! "msdos_312in_ss_dd_8", str! "MS-DOS 3 1/2\" SS DD 320K", 1983, str! "3 1/2\"", 1),
   (str! "msdos_312in_ss_dd_9", str! "MS-DOS 3 1/2\" SS DD 360K", 1983, str! "3 1/2\"", 1),
   (str! "msdos_312in_ds_dd_8", str! "MS-DOS 3 1/2\" DS DD 640K", 1984, str! "3 1/2\"", 1),
   (str! "msdos_312in_ds_dd_9", str! "MS-DOS 3 1/2\" DS DD 720K", 1984, str! "3 1/2\"", 1),
   (str! "msdos_312in_ds_hd_18", str! "MS-DOS 3 1/2\" DS HD 1440K", 1986, str! "3 1/2\"", 1),
   (str! "msdos_312in_ds_hd_21_80", str! "MS-DOS 3 1/2\" DS HD 1680K", 1986, str! "3 1/2\"", 1),
   (str! "msdos_312in_ds_hd_21_82", str! "MS-DOS 3 1/2\" DS HD 1720K", 1986, str! "3 1/2\"", 1),
   (str! "msdos_312in_ds_ed", str! "MS-DOS 3 1/2\" DS ED", 1986, str! "3 1/2\"", 1),
   (str! "st_506", str! "ST-506", 1980, str! "", 0),
   (str! "St_412", str! "ST-412", 1981, str! "", 0)]

end Spec
open Spec

/-! ### Numbers -/

/-- One digit more. -/
def digit (acc : Option Nat) (c : Char) : Option Nat :=
  match acc with
  | none => none
  | some n => if '0' ≤ c ∧ c ≤ '9' then some (n * 10 + (c.toNat - 48)) else none

theorem digits_fold : ∀ (s : List Char) (a : Nat), s.foldl digit (some a) =
    if ∀ c ∈ s, '0' ≤ c ∧ c ≤ '9' then some (a * 10 ^ s.length + value s) else none
  | [], a => by simp [value]
  | c :: s, a => by
    rw [List.foldl_cons]
    simp only [digit]
    by_cases hc : '0' ≤ c ∧ c ≤ '9'
    · rw [if_pos hc, digits_fold s]
      by_cases hs : ∀ d ∈ s, '0' ≤ d ∧ d ≤ '9'
      · rw [if_pos hs, if_pos (by intro d hd; exact (List.mem_cons.mp hd).elim (fun e => e ▸ hc) (hs d))]
        have : '0'.toNat = 48 := rfl
        simp only [value, this, List.length_cons, Nat.pow_succ]
        congr 1
        rw [Nat.add_mul, Nat.mul_assoc, Nat.mul_comm 10, Nat.add_assoc]
      · rw [if_neg hs, if_neg (fun h => hs fun d hd => h d (List.mem_cons_of_mem _ hd))]
    · rw [if_neg hc, if_neg (fun h => hc (h c List.mem_cons_self))]
      clear hc
      induction s with
      | nil => rfl
      | cons d s ih => rw [List.foldl_cons]; exact ih

theorem parseUint_iff {s : Str} {n : Nat} : parseUint s = some n ↔ Decimal s n := by
  unfold parseUint Decimal
  by_cases hs : s = []
  · simp [hs]
  rw [if_neg hs]
  show (match s.foldl digit (some 0) with
    | some n => if n < 2 ^ 64 then some n else none
    | none => none) = some n ↔ _
  rw [digits_fold s 0]
  by_cases hd : ∀ c ∈ s, '0' ≤ c ∧ c ≤ '9'
  · rw [if_pos hd]
    simp only [Nat.zero_mul, Nat.zero_add]
    by_cases hv : value s < 2 ^ 64
    · rw [if_pos hv]
      constructor
      · intro h; cases h; exact ⟨hs, hd, rfl, hv⟩
      · rintro ⟨_, _, rfl, _⟩; rfl
    · rw [if_neg hv]
      constructor
      · intro h; cases h
      · rintro ⟨_, _, rfl, h⟩; exact absurd h hv
  · rw [if_neg hd]
    constructor
    · intro h; cases h
    · rintro ⟨_, h, _⟩; exact absurd h hd

/-! ### Columns -/

theorem column_none : ∀ {header record : List Str} {col : Str}, record.length = header.length →
    (column header record col = none ↔ col ∉ header)
  | [], _, col, _ => by simp [column]
  | h :: hs, [], col, hl => by simp at hl
  | h :: hs, r :: rs, col, hl => by
    have ih := column_none (header := hs) (record := rs) (col := col) (by simpa using hl)
    unfold column at ih ⊢
    rw [List.zip_cons_cons, List.find?_cons]
    by_cases e : h = col
    · simp [e]
    · simp only [e, decide_false]
      rw [ih]
      simp [Ne.symm e]

theorem column_some : ∀ {header record : List Str} {col s : Str}, record.length = header.length → header.Nodup →
    (column header record col = some s ↔ ∃ i : Nat, header[i]? = some col ∧ record[i]? = some s)
  | [], _, col, s, _, _ => by simp [column]
  | h :: hs, [], col, s, hl, _ => by simp at hl
  | h :: hs, r :: rs, col, s, hl, hn => by
    obtain ⟨hh, hn'⟩ := List.nodup_cons.mp hn
    have ih := column_some (header := hs) (record := rs) (col := col) (s := s) (by simpa using hl) hn'
    unfold column at ih ⊢
    rw [List.zip_cons_cons, List.find?_cons]
    by_cases e : h = col
    · subst e
      simp only [decide_true, Option.map_some, Option.some.injEq]
      constructor
      · rintro rfl; exact ⟨0, rfl, rfl⟩
      · rintro ⟨_ | i, h1, h2⟩
        · simpa using h2
        · exact absurd (List.mem_of_getElem? (by simpa using h1)) hh
    · simp only [e, decide_false]
      rw [ih]
      constructor
      · rintro ⟨i, h1, h2⟩; exact ⟨i + 1, by simpa using h1, by simpa using h2⟩
      · rintro ⟨_ | i, h1, h2⟩
        · simp at h1; exact absurd h1 e
        · exact ⟨i, by simpa using h1, by simpa using h2⟩

section
variable {header record : List Str} (hl : record.length = header.length) (hn : header.Nodup)
include hl hn

theorem text_iff {col s : Str} : (column header record col).getD [] = s ↔ Text header record col s := by
  unfold Text
  rw [← column_none hl, ← column_some hl hn]
  cases hc : column header record col <;> simp [eq_comm]

theorem number_iff {col : Str} {n : Nat} :
    (match column header record col with | some s => parseUint s | none => some 0) = some n ↔ Number header record col n := by
  unfold Number
  cases hc : column header record col with
  | none =>
    have := (column_none hl).mp hc
    simp only [Option.some.injEq]
    constructor
    · rintro rfl; exact .inr ⟨this, rfl⟩
    · rintro (⟨i, s, h, _⟩ | ⟨_, h⟩)
      · exact absurd (List.mem_of_getElem? h) this
      · exact h.symm
  | some s =>
    obtain ⟨i, h1, h2⟩ := (column_some hl hn).mp hc
    simp only
    rw [parseUint_iff]
    constructor
    · intro h; exact .inl ⟨i, s, h1, h2, h⟩
    · rintro (⟨j, s', h1', h2', h⟩ | ⟨h, _⟩)
      · have : column header record col = some s' := (column_some hl hn).mpr ⟨j, h1', h2'⟩
        rw [hc] at this
        cases this
        exact h
      · exact absurd (List.mem_of_getElem? h1) h

end

/-- **C60**: a record decodes to a geometry exactly if every field of the geometry is what the record has in the column of that name,
whatever the order of the columns is and whichever there are; so a record is refused exactly if one of the numbers is not one. -/
theorem C60_columns (header record : List Str) (hl : record.length = header.length) (hn : header.Nodup) (g : DiskGeometry) :
    decodeRow header record = some g ↔ Fills header record g := by
  have T := @text_iff header record hl hn
  have N := @number_iff header record hl hn
  constructor
  · intro h
    unfold decodeRow at h
    simp only [Option.pure_def, Option.bind_eq_bind, Option.bind_some, Option.bind_eq_some_iff] at h
    obtain ⟨a1, h1, a2, h2, a3, h3, a4, h4, a5, h5, a6, h6, a7, h7, a8, h8, e⟩ := h
    cases e
    exact ⟨T.mp rfl, T.mp rfl, N.mp h1, T.mp rfl, N.mp h2, N.mp h3, N.mp h4, N.mp h5, N.mp h6, N.mp h7, N.mp h8, T.mp rfl⟩
  · intro h
    obtain ⟨name, slug, a, ff, b, c, d, e, f, g', i, notes⟩ := g
    obtain ⟨h1, h2, h3, h4, h5, h6, h7, h8, h9, h10, h11, h12⟩ := h
    have t1 := T.mpr h1; have t2 := T.mpr h2; have t4 := T.mpr h4; have t12 := T.mpr h12
    have n3 := N.mpr h3; have n5 := N.mpr h5; have n6 := N.mpr h6; have n7 := N.mpr h7; have n8 := N.mpr h8; have n9 := N.mpr h9
    have n10 := N.mpr h10; have n11 := N.mpr h11
    unfold decodeRow
    simp only [Option.pure_def, Option.bind_eq_bind, Option.bind_some, Option.bind_eq_some_iff]
    refine ⟨_, n3, _, n5, _, n6, _, n7, _, n8, _, n9, _, n10, _, n11, ?_⟩
    simp only at t1 t2 t4 t12
    rw [t1, t2, t4, t12]

/-- Non-vacuity: columns in another order and with most of them missing. -/
example : ([str! "heads", str! "slug"] : List Str).Nodup ∧ decodeRow [str! "heads", str! "slug"] [str! "012", str! "x"] =
    some ⟨[], str! "x", 0, [], 0, 0, 0, 0, 0, 0, 12, []⟩ ∧ decodeRow [str! "heads", str! "slug"] [str! "1x", str! "x"] = none ∧
    decodeRow [str! "heads"] [[]] = none ∧ decodeRow [str! "heads"] [str! "18446744073709551616"] = none := by decide +kernel

/-- The shipped header has every column once. -/
example : (match csvRecords rawCSV with | some (h :: rs) => decide (h.Nodup ∧ h.length = 12 ∧ rs.length = 34) | _ => false) = true := by decide +kernel

/-! ### The rest of the table -/

/-- What a geometry is called. -/
def label (g : DiskGeometry) : Str × Str × Nat × Str × Nat := (g.slug, g.name, g.firstYearAvailable, g.formFactor, g.isRemovable)

instance : DecidableEq (Str × Str × Nat × Str × Nat) :=
  have : DecidableEq (Nat × Str × Nat) := inferInstance
  inferInstance

theorem rawCSV_labels : (match csvRecords rawCSV with
    | some (header :: records) => decide ((records.map (fun r => (decodeRow header r).map label) : List (Option (Str × Str × Nat × Str × Nat))) = labels.map some)
    | _ => false) = true := by decide +kernel

/-- **C60**: the predefined geometries have the listed names, years and form factors. -/
theorem C60_labels : ∃ t, init rawCSV = .ret t ∧ (∀ slug g, getPredefined t slug = some g → label g ∈ labels) ∧
    (∀ row ∈ labels, ∃ g, getPredefined t row.1 = some g ∧ label g = row) := by
  obtain ⟨t, header, records, h1, h2, _⟩ := init_rawCSV
  obtain ⟨rows, e1, _, e3⟩ := C60_lookup_exact rawCSV header records t h2 h1
  have h3 := rawCSV_labels
  rw [h2] at h3
  have h3 := of_decide_eq_true h3
  have hrows : rows.map label = labels := by
    have : records.map (fun r => (decodeRow header r).map label) = (records.map (decodeRow header)).map (Option.map label) := by
      rw [List.map_map]; rfl
    rw [this, e1, List.map_map] at h3
    have e : (Option.map label ∘ some) = (some ∘ label) := rfl
    rw [e, ← List.map_map] at h3
    exact (List.map_inj_right (fun _ _ h => Option.some.inj h)).mp h3
  refine ⟨t, h1, fun slug g h => hrows ▸ List.mem_map_of_mem ((e3 slug g).mp h).1, fun row hrow => ?_⟩
  rw [← hrows] at hrow
  obtain ⟨g, hg, rfl⟩ := List.mem_map.mp hrow
  exact ⟨g, (e3 _ g).mpr ⟨hg, rfl⟩, rfl⟩

end Disko.Disks

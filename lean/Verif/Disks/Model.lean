import Verif.Base.Go
/-!
Model of /repo/disks/disks.go: DiskGeometry, the embedded table, its decoding at package
initialization, and the lookup.

* encoding/csv and csvutil are libraries; what is modelled of them is what this table exercises:
  fields separated by '|', quoted fields with doubled quotes, every record as long as the header,
  columns matched to struct fields by the header's names, unsigned decimal integers.
* `uint` is 64 bits wide; a Go string is a list of characters here.
-/
namespace Disko.Disks
open Disko

/-- Go's string. -/
abbrev Str := List Char

/-- `str! "abc"` is the list of the characters of "abc" (so that the kernel computes with lists
rather than with UTF-8 byte arrays). -/
macro "str! " s:str : term => do
  let cs : Array (Lean.TSyntax `term) := s.getString.toList.toArray.map fun c => Lean.Syntax.mkCharLit c
  `(([$cs,*] : List Char))

/-- disks.go:33-57, type DiskGeometry. -/
structure DiskGeometry where
  name : Str
  slug : Str
  firstYearAvailable : Nat
  formFactor : Str
  isRemovable : Nat
  bitsPerAddressUnit : Nat
  addressUnitsPerSector : Nat
  sectorsPerTrack : Nat
  totalDataTracks : Nat
  hiddenTracks : Nat
  heads : Nat
  notes : Str
deriving DecidableEq

/-- disks.go:61-69, TotalSizeBytes: the products are 64-bit unsigned, the division is signed and
truncates towards zero. -/
def DiskGeometry.totalSizeBytes (g : DiskGeometry) : Int :=
  let p := u64 (u64 (u64 (u64 (g.bitsPerAddressUnit * g.addressUnitsPerSector) * g.sectorsPerTrack) * g.totalDataTracks) * g.heads)
  let bits := i64 p
  if bits.tmod 8 = 0 then bits.tdiv 8 else bits.tdiv 8 + 1

/-! ### Decoding the table -/

/-- Go library, encoding/csv with Comma = '|' (disks.go:91-92): one record's text into fields.
`inQuotes` says whether the reader is inside a quoted field, `cur` is the field so far (reversed).
`none` is a syntax error.  Line breaks inside quoted fields do not occur in the table and are not
modelled. -/
def csvFields (inQuotes : Bool) (start : Bool) (cur : List Char) : List Char → Option (List (List Char))
  | [] => if inQuotes then none else some [cur.reverse]
  | c :: rest =>
    if inQuotes then
      if c = '"' then
        match rest with
        | [] => some [cur.reverse]
        | d :: rest' =>
          if d = '"' then csvFields true false ('"' :: cur) rest'
          else if d = '|' then (csvFields false true [] rest').map (cur.reverse :: ·)
          else none
      else csvFields true false (c :: cur) rest
    else if c = '|' then (csvFields false true [] rest).map (cur.reverse :: ·)
    else if c = '"' then (if start then csvFields true false [] rest else none)
    else csvFields false false (c :: cur) rest

/-- Go library, encoding/csv: the records of a text (given as its lines); empty lines are skipped
and every record must have as many fields as the first. -/
def csvRecords (lines : List Str) : Option (List (List Str)) :=
  let recs := (lines.filter (· ≠ [])).mapM fun l => csvFields false true [] l
  match recs with
  | none => none
  | some [] => some []
  | some (h :: rest) => if rest.all (·.length = h.length) then some (h :: rest) else none

/-- Go library, strconv.ParseUint(s, 10, 64). -/
def parseUint (s : Str) : Option Nat :=
  if s = [] then none
  else
    let r := s.foldl (fun (acc : Option Nat) c =>
      match acc with
      | none => none
      | some n => if '0' ≤ c ∧ c ≤ '9' then some (n * 10 + (c.toNat - 48)) else none) (some 0)
    match r with
    | some n => if n < 2 ^ 64 then some n else none
    | none => none

/-- csvutil: the value of the column called `col` in a record. -/
def column (header record : List Str) (col : Str) : Option Str := ((header.zip record).find? (·.1 = col)).map (·.2)

/-- csvutil, decoder.Decode(&row) (disks.go:103): fields filled by the names in the struct's tags
(disks.go:34-56); a column the header does not have leaves its field zero. -/
def decodeRow (header record : List Str) : Option DiskGeometry := do
  let text (c : Str) : Option Str := some ((column header record c).getD [])
  let num (c : Str) : Option Nat := match column header record c with
    | some s => parseUint s
    | none => some 0
  pure {
    name := ← text (str! "name")
    slug := ← text (str! "slug")
    firstYearAvailable := ← num (str! "first_year_available")
    formFactor := ← text (str! "form_factor")
    isRemovable := ← num (str! "is_removable")
    bitsPerAddressUnit := ← num (str! "bits_per_address_unit")
    addressUnitsPerSector := ← num (str! "address_units_per_sector")
    sectorsPerTrack := ← num (str! "sectors_per_track")
    totalDataTracks := ← num (str! "total_data_tracks")
    hiddenTracks := ← num (str! "hidden_tracks")
    heads := ← num (str! "heads")
    notes := ← text (str! "notes") }

/-- disks.go:77, the map diskGeometries. -/
abbrev Table := List (Str × DiskGeometry)

/-- Go's map lookup. -/
def lookup (t : Table) (slug : Str) : Option DiskGeometry := (t.find? (·.1 = slug)).map (·.2)

/-- disks.go:101-119, the loop of init; a row that does not decode and a repeated slug panic. -/
def initLoop (header : List Str) (t : Table) : List (List Str) → Outcome Table
  | [] => .ret t
  | r :: rest =>
    match decodeRow header r with
    | none => .panic
    | some row =>
      match lookup t row.slug with
      | some _ => .panic
      | none => initLoop header ((row.slug, row) :: t) rest

/-- disks.go:89-120, init, on the lines of a table. -/
def init (lines : List Str) : Outcome Table :=
  match csvRecords lines with
  | none => .panic
  | some [] => .panic -- csvutil.NewDecoder fails without a header
  | some (header :: records) => initLoop header [] records

/-- disks.go:79-87, GetPredefinedDiskGeometry on a given map; `none` is the error. -/
def getPredefined (t : Table) (slug : Str) : Option DiskGeometry := lookup t slug

/-- disks/disk-geometries.csv, embedded at disks.go:75-76, by lines. -/
def rawCSV : List Str :=
  [str! "name|slug|first_year_available|form_factor|is_removable|bits_per_address_unit|address_units_per_sector|sectors_per_track|total_data_tracks|hidden_tracks|heads|notes",
   str! "IBM 23FD|ibm_23fd|1971|\"8\"\"\"|1|8|319|8|32|0|1|http://fileformats.archiveteam.org/wiki/IBM_23FD",
   str! "IBM 33FD (242K)|ibm_33fd_242k|1973|\"8\"\"\"|1|8|128|26|73|0|1|",
   str! "IBM 33FD (284K)|ibm_33fd_284k|1973|\"8\"\"\"|1|8|256|15|74|1|1|Does NOT include index cylinder",
   str! "IBM 33FD (303K)|ibm_33fd_303k|1973|\"8\"\"\"|1|8|512|8|74|1|1|Does NOT include index cylinder",
   str! "IBM 43FD (492K)|ibm_43fd_492k|1976|\"8\"\"\"|1|8|128|26|74|1|2|Does NOT include index cylinder",
   str! "IBM 43FD (568K)|ibm_43fd_568k|1976|\"8\"\"\"|1|8|256|15|74|1|2|Does NOT include index cylinders",
   str! "IBM 53FD (985K)|ibm_53fd_985k|1977|\"8\"\"\"|1|8|256|26|74|1|2|Does NOT include index cylinders",
   str! "IBM 53FD (1136K)|ibm_53fd_1136k|1977|\"8\"\"\"|1|8|512|15|74|1|2|Does NOT include index cylinders",
   str! "IBM 53FD (1212kB)|ibm_53fd_1212k|1977|\"8\"\"\"|1|8|1024|8|74|1|2|Does NOT include index cylinders",
   str! "DEC RX01|dec_rx01|1975|\"8\"\"\"|1|8|128|26|77|0|1|http://avitech.com.au/?page_id=1008",
   str! "DEC RX02|dec_rx02|1978|\"8\"\"\"|1|8|256|26|77|0|1|http://avitech.com.au/?page_id=1008",
   str! "DEC RK05|rk05|1974|\"19\"\"\"|1|16|256|12|200|3|2|https://www.pdp8online.com/rk05/rk05.shtml",
   str! "IBM 3740|ibm_3740|1973|\"8\"\"\"|1|8|128|26|73|0|1|",
   str! "\"MS-DOS 8\"\" SS SD\"|msdos_8in_ss_sd|1981|\"8\"\"\"|1|8|128|26|77|0|1|Release year is a guess",
   str! "\"MS-DOS 8\"\" DS SD\"|msdos_8in_ds_sd|1981|\"8\"\"\"|1|8|128|26|77|0|2|Release year is a guess",
   str! "\"MS-DOS 8\"\" SS DD\"|msdos_8in_ss_dd|1981|\"8\"\"\"|1|8|1024|8|77|0|1|Release year is a guess",
   str! "\"MS-DOS 8\"\" DS DD\"|msdos_8in_ds_dd|1981|\"8\"\"\"|1|8|1024|8|77|0|2|Release year is a guess",
   str! "\"MS-DOS 5 1/4\"\" SS DD 160K\"|msdos_514in_ss_dd_8|1981|\"5 1/4\"\"\"|1|8|512|8|40|0|1|Release year is a guess",
   str! "\"MS-DOS 5 1/4\"\" DS DD 320K\"|msdos_514in_ds_dd_8|1981|\"5 1/4\"\"\"|1|8|512|8|40|0|2|Release year is a guess",
   str! "\"MS-DOS 5 1/4\"\" SS DD 180K\"|msdos_514in_ss_dd_9|1981|\"5 1/4\"\"\"|1|8|512|9|40|0|1|Release year is a guess",
   str! "\"MS-DOS 5 1/4\"\" DS DD 360K\"|msdos_514in_ds_dd_9|1981|\"5 1/4\"\"\"|1|8|512|9|40|0|2|Release year is a guess",
   str! "\"MS-DOS 5 1/4\"\" SS QD\"|msdos_514in_ss_qd|1981|\"5 1/4\"\"\"|1|8|512|8|80|0|1|Rare",
   str! "\"MS-DOS 5 1/4\"\" DS QD\"|msdos_514in_ds_qd|1981|\"5 1/4\"\"\"|1|8|512|8|80|0|2|Rare",
   str! "\"MS-DOS 5 1/4\"\" DS HD\"|msdos_514in_ds_hd|1981|\"5 1/4\"\"\"|1|8|512|15|80|0|2|Release year is a guess",
   str! "\"MS-DOS 3 1/2\"\" SS DD 320K\"|msdos_312in_ss_dd_8|1983|\"3 1/2\"\"\"|1|8|512|8|80|0|1|",
   str! "\"MS-DOS 3 1/2\"\" SS DD 360K\"|msdos_312in_ss_dd_9|1983|\"3 1/2\"\"\"|1|8|512|9|80|0|1|",
   str! "\"MS-DOS 3 1/2\"\" DS DD 640K\"|msdos_312in_ds_dd_8|1984|\"3 1/2\"\"\"|1|8|512|8|80|0|2|Release year is a guess",
   str! "\"MS-DOS 3 1/2\"\" DS DD 720K\"|msdos_312in_ds_dd_9|1984|\"3 1/2\"\"\"|1|8|512|9|80|0|2|Release year is a guess",
   str! "\"MS-DOS 3 1/2\"\" DS HD 1440K\"|msdos_312in_ds_hd_18|1986|\"3 1/2\"\"\"|1|8|512|18|80|0|2|",
   str! "\"MS-DOS 3 1/2\"\" DS HD 1680K\"|msdos_312in_ds_hd_21_80|1986|\"3 1/2\"\"\"|1|8|512|21|80|0|2|Release year is a guess",
   str! "\"MS-DOS 3 1/2\"\" DS HD 1720K\"|msdos_312in_ds_hd_21_82|1986|\"3 1/2\"\"\"|1|8|512|21|82|0|2|Release year is a guess",
   str! "\"MS-DOS 3 1/2\"\" DS ED\"|msdos_312in_ds_ed|1986|\"3 1/2\"\"\"|1|8|512|36|80|0|2|Release year is a guess",
   str! "ST-506|st_506|1980||0|8|256|26|153|0|4|",
   str! "ST-412|St_412|1981||0|8|256|26|306|0|4|"]

end Disko.Disks

import Verif.Disks.Model
/-! C60: disk geometries. -/
namespace Disko.Disks
open Disko

/-! ### Specification -/

/-- The number of bits on the disk, exactly. -/
def DiskGeometry.bits (g : DiskGeometry) : Nat :=
  g.bitsPerAddressUnit * g.addressUnitsPerSector * g.sectorsPerTrack * g.totalDataTracks * g.heads

/-- The predefined disks (from disk-geometries.csv): slug, bits per address unit, address units
per sector, sectors per track, data tracks, hidden tracks, heads, size in bytes. -/
def listed : List (Str × Nat × Nat × Nat × Nat × Nat × Nat × Int) :=
  [(str! "ibm_23fd", 8, 319, 8, 32, 0, 1, 81664),
   (str! "ibm_33fd_242k", 8, 128, 26, 73, 0, 1, 242944),
   (str! "ibm_33fd_284k", 8, 256, 15, 74, 1, 1, 284160),
   (str! "ibm_33fd_303k", 8, 512, 8, 74, 1, 1, 303104),
   (str! "ibm_43fd_492k", 8, 128, 26, 74, 1, 2, 492544),
   (str! "ibm_43fd_568k", 8, 256, 15, 74, 1, 2, 568320),
   (str! "ibm_53fd_985k", 8, 256, 26, 74, 1, 2, 985088),
   (str! "ibm_53fd_1136k", 8, 512, 15, 74, 1, 2, 1136640),
   (str! "ibm_53fd_1212k", 8, 1024, 8, 74, 1, 2, 1212416),
   (str! "dec_rx01", 8, 128, 26, 77, 0, 1, 256256),
   (str! "dec_rx02", 8, 256, 26, 77, 0, 1, 512512),
   (str! "rk05", 16, 256, 12, 200, 3, 2, 2457600),
   (str! "ibm_3740", 8, 128, 26, 73, 0, 1, 242944),
   (str! "msdos_8in_ss_sd", 8, 128, 26, 77, 0, 1, 256256),
   (str! "msdos_8in_ds_sd", 8, 128, 26, 77, 0, 2, 512512),
   (str! "msdos_8in_ss_dd", 8, 1024, 8, 77, 0, 1, 630784),
   (str! "msdos_8in_ds_dd", 8, 1024, 8, 77, 0, 2, 1261568),
   (str! "msdos_514in_ss_dd_8", 8, 512, 8, 40, 0, 1, 163840),
   (str! "msdos_514in_ds_dd_8", 8, 512, 8, 40, 0, 2, 327680),
   (str! "msdos_514in_ss_dd_9", 8, 512, 9, 40, 0, 1, 184320),
   (str! "msdos_514in_ds_dd_9", 8, 512, 9, 40, 0, 2, 368640),
   (str! "msdos_514in_ss_qd", 8, 512, 8, 80, 0, 1, 327680),
   (str! "msdos_514in_ds_qd", 8, 512, 8, 80, 0, 2, 655360),
   (str! "msdos_514in_ds_hd", 8, 512, 15, 80, 0, 2, 1228800),
   (str! "msdos_312in_ss_dd_8", 8, 512, 8, 80, 0, 1, 327680),
   (str! "msdos_312in_ss_dd_9", 8, 512, 9, 80, 0, 1, 368640),
   (str! "msdos_312in_ds_dd_8", 8, 512, 8, 80, 0, 2, 655360),
   (str! "msdos_312in_ds_dd_9", 8, 512, 9, 80, 0, 2, 737280),
   (str! "msdos_312in_ds_hd_18", 8, 512, 18, 80, 0, 2, 1474560),
   (str! "msdos_312in_ds_hd_21_80", 8, 512, 21, 80, 0, 2, 1720320),
   (str! "msdos_312in_ds_hd_21_82", 8, 512, 21, 82, 0, 2, 1763328),
   (str! "msdos_312in_ds_ed", 8, 512, 36, 80, 0, 2, 2949120),
   (str! "st_506", 8, 256, 26, 153, 0, 4, 4073472),
   (str! "St_412", 8, 256, 26, 306, 0, 4, 8146944)]

/-! ### Size -/

/-- C60: the size is the number of bits rounded up to whole bytes, for every geometry whose
number of bits fits in an int64. -/
theorem C60_size (g : DiskGeometry) (h : g.bits < 2 ^ 63) :
    (g.bits : Int) ≤ 8 * g.totalSizeBytes ∧ 8 * (g.totalSizeBytes - 1) < g.bits := by
  have hp : u64 (u64 (u64 (u64 (g.bitsPerAddressUnit * g.addressUnitsPerSector) * g.sectorsPerTrack) * g.totalDataTracks) * g.heads) = g.bits := by
    have e : ∀ a b : Nat, u64 (u64 a * b) = u64 (a * b) := fun a b => by
      unfold u64; rw [Nat.mod_mul_mod]
    rw [e (_ * _) g.sectorsPerTrack, e (_ * _ * _) g.totalDataTracks, e (_ * _ * _ * _) g.heads]
    exact u64_of_lt (Nat.lt_trans h (by decide))
  have hs : g.totalSizeBytes = if (g.bits : Int).tmod 8 = 0 then (g.bits : Int).tdiv 8 else (g.bits : Int).tdiv 8 + 1 := by
    unfold DiskGeometry.totalSizeBytes
    simp only [hp]
    rw [i64_of_range (by omega) (by omega)]
  rw [hs]
  generalize g.bits = n
  rw [Int.tdiv_eq_ediv_of_nonneg (by omega), Int.tmod_eq_emod_of_nonneg (by omega)]
  split <;> omega

/-- C60: without the bound on the number of bits the claim is false. -/
theorem C60_size_unbounded_refuted :
    ¬ ∀ g : DiskGeometry, (∀ n ∈ [g.bitsPerAddressUnit, g.addressUnitsPerSector, g.sectorsPerTrack, g.totalDataTracks, g.heads], n < 2 ^ 64) →
      (g.bits : Int) ≤ 8 * g.totalSizeBytes :=
  fun h => absurd (h ⟨[], [], 0, [], 0, 8, 2 ^ 32, 2 ^ 32, 1, 0, 1, []⟩ (by decide)) (by decide)

example : (⟨[], [], 0, [], 0, 12, 129, 3, 1, 0, 1, []⟩ : DiskGeometry).totalSizeBytes = 581 ∧
    (⟨[], [], 0, [], 0, 12, 129, 3, 1, 0, 1, []⟩ : DiskGeometry).bits = 4644 := by decide

/-! ### Lookup -/

theorem lookup_cons (k : Str) (v : DiskGeometry) (t : Table) (slug : Str) :
    lookup ((k, v) :: t) slug = if k = slug then some v else lookup t slug := by
  unfold lookup
  rw [List.find?_cons]
  by_cases h : k = slug <;> simp [h]

/-- The rows that decode, in order. -/
theorem initLoop_spec (header : List Str) : ∀ (recs : List (List Str)) (t t' : Table), initLoop header t recs = .ret t' →
    ∃ rows : List DiskGeometry, recs.map (decodeRow header) = rows.map some ∧
      (rows.map (·.slug)).Pairwise (· ≠ ·) ∧ (∀ g ∈ rows, lookup t g.slug = none) ∧
      ∀ slug g, lookup t' slug = some g ↔ (g ∈ rows ∧ g.slug = slug) ∨ lookup t slug = some g := by
  intro recs
  induction recs with
  | nil =>
    intro t t' h
    have : t' = t := by unfold initLoop at h; cases h; rfl
    subst this
    exact ⟨[], rfl, List.Pairwise.nil, by simp, by simp⟩
  | cons r recs ih =>
    intro t t' h
    unfold initLoop at h
    cases hd : decodeRow header r with
    | none => rw [hd] at h; cases h
    | some row =>
      rw [hd] at h
      simp only at h
      cases hl : lookup t row.slug with
      | some _ => rw [hl] at h; cases h
      | none =>
        rw [hl] at h
        obtain ⟨rows, h1, h2, h3, h4⟩ := ih _ _ h
        have h3' : ∀ g ∈ rows, row.slug ≠ g.slug ∧ lookup t g.slug = none := by
          intro g hg
          have := h3 g hg
          rw [lookup_cons] at this
          by_cases e : row.slug = g.slug
          · rw [if_pos e] at this; cases this
          · rw [if_neg e] at this; exact ⟨e, this⟩
        refine ⟨row :: rows, by simp [hd, h1], ?_, ?_, ?_⟩
        · rw [List.map_cons, List.pairwise_cons]
          refine ⟨?_, h2⟩
          intro s hs
          obtain ⟨g, hg, rfl⟩ := List.mem_map.mp hs
          exact (h3' g hg).1
        · intro g hg
          rcases List.mem_cons.mp hg with rfl | hg
          · exact hl
          · exact (h3' g hg).2
        · intro slug g
          rw [h4, lookup_cons]
          constructor
          · rintro (⟨a, b⟩ | a)
            · exact .inl ⟨List.mem_cons_of_mem _ a, b⟩
            · by_cases e : row.slug = slug
              · rw [if_pos e] at a; cases a; exact .inl ⟨List.mem_cons_self, e⟩
              · rw [if_neg e] at a; exact .inr a
          · rintro (⟨a, b⟩ | a)
            · rcases List.mem_cons.mp a with rfl | a
              · exact .inr (by rw [if_pos b])
              · exact .inl ⟨a, b⟩
            · refine .inr ?_
              rw [if_neg ?_]
              · exact a
              · rintro rfl; rw [hl] at a; cases a

/-- C60: whatever the table, if package initialization does not panic then every record decoded,
no slug is repeated, and a lookup finds exactly the record with that slug. -/
theorem C60_lookup_exact (lines header : List Str) (records : List (List Str)) (t : Table)
    (hc : csvRecords lines = some (header :: records)) (h : init lines = .ret t) :
    ∃ rows : List DiskGeometry, records.map (decodeRow header) = rows.map some ∧
      (rows.map (·.slug)).Pairwise (· ≠ ·) ∧
      ∀ slug g, getPredefined t slug = some g ↔ g ∈ rows ∧ g.slug = slug := by
  unfold init at h
  rw [hc] at h
  obtain ⟨rows, h1, h2, _, h4⟩ := initLoop_spec header records [] t h
  refine ⟨rows, h1, h2, fun slug g => ?_⟩
  unfold getPredefined
  rw [h4]
  have : lookup [] slug = none := rfl
  simp [this]

/-- What the predefined table says about a slug: the numbers of the row and its size. -/
def summary (g : DiskGeometry) : Str × Nat × Nat × Nat × Nat × Nat × Nat × Int :=
  (g.slug, g.bitsPerAddressUnit, g.addressUnitsPerSector, g.sectorsPerTrack, g.totalDataTracks, g.hiddenTracks, g.heads, g.totalSizeBytes)

abbrev Summary := Str × Nat × Nat × Nat × Nat × Nat × Nat × Int

instance : DecidableEq Summary :=
  have : DecidableEq (Nat × Nat × Nat × Int) := inferInstance
  have : DecidableEq (Nat × Nat × Nat × Nat × Nat × Int) := inferInstance
  inferInstance

theorem init_rawCSV : ∃ t header records, init rawCSV = .ret t ∧ csvRecords rawCSV = some (header :: records) ∧
    records.map (fun r => (decodeRow header r).map summary) = listed.map some := by
  have h1 : (match init rawCSV with | .ret _ => true | _ => false) = true := by decide +kernel
  have h2 : (match csvRecords rawCSV with
    | some (header :: records) => decide ((records.map (fun r => (decodeRow header r).map summary) : List (Option Summary)) = listed.map some)
    | _ => false) = true := by decide +kernel
  split at h1
  case h_2 => cases h1
  case h_1 t ht =>
    split at h2
    case h_2 => cases h2
    case h_1 header records hc =>
      exact ⟨t, header, records, ht, hc, of_decide_eq_true h2⟩

/-- C60: the shipped table loads, and looking up any string finds a geometry exactly when the
string is one of the listed slugs; the geometry found has the listed numbers and size. -/
theorem C60_predefined : ∃ t, init rawCSV = .ret t ∧
    (∀ slug g, getPredefined t slug = some g → g.slug = slug ∧ summary g ∈ listed) ∧
    (∀ row ∈ listed, ∃ g, getPredefined t row.1 = some g ∧ summary g = row) ∧
    (∀ slug, slug ∉ listed.map (·.1) → getPredefined t slug = none) := by
  obtain ⟨t, header, records, h1, h2, h3⟩ := init_rawCSV
  obtain ⟨rows, e1, _, e3⟩ := C60_lookup_exact rawCSV header records t h2 h1
  have hrows : rows.map summary = listed := by
    have : records.map (fun r => (decodeRow header r).map summary) = (records.map (decodeRow header)).map (Option.map summary) := by
      rw [List.map_map]; rfl
    rw [this, e1, List.map_map] at h3
    have e : (Option.map summary ∘ some) = (some ∘ summary) := rfl
    rw [e, ← List.map_map] at h3
    exact (List.map_inj_right (fun _ _ h => Option.some.inj h)).mp h3
  have first : ∀ slug g, getPredefined t slug = some g → g.slug = slug ∧ summary g ∈ listed := by
    intro slug g h
    obtain ⟨a, b⟩ := (e3 slug g).mp h
    exact ⟨b, hrows ▸ List.mem_map_of_mem a⟩
  refine ⟨t, h1, first, ?_, ?_⟩
  · intro row hrow
    rw [← hrows] at hrow
    obtain ⟨g, hg, rfl⟩ := List.mem_map.mp hrow
    exact ⟨g, (e3 _ g).mpr ⟨hg, rfl⟩, rfl⟩
  · intro slug hs
    cases hg : getPredefined t slug with
    | none => rfl
    | some g =>
      obtain ⟨a, b⟩ := first slug g hg
      exact absurd (List.mem_map.mpr ⟨_, b, a⟩) hs

example : str! "msdos_312in_ds_hd_18" ∈ listed.map (·.1) ∧ str! "no such disk" ∉ listed.map (·.1) := by decide +kernel

/-- C60: a table that defines a slug twice does not load. -/
theorem C60_duplicates_rejected (header : List Str) (a b c : List (List Str)) (r r' : List Str) (g g' : DiskGeometry)
    (lines : List Str) (hc : csvRecords lines = some (header :: (a ++ r :: b ++ r' :: c)))
    (h1 : decodeRow header r = some g) (h2 : decodeRow header r' = some g') (hs : g.slug = g'.slug) :
    ∀ t, init lines ≠ .ret t := by
  intro t h
  obtain ⟨rows, e1, e2, _⟩ := C60_lookup_exact lines header _ t hc h
  have key : (rows.map some).Pairwise (fun x y => ∀ p q, x = some p → y = some q → p.slug ≠ q.slug) := by
    rw [List.pairwise_map] at e2 ⊢
    exact e2.imp (fun h p q hp hq => by cases hp; cases hq; exact h)
  rw [← e1, List.map_append, List.map_append, List.map_cons, List.map_cons, List.pairwise_append] at key
  exact key.2.2 (some g) (List.mem_append_right _ (by rw [h1]; exact List.mem_cons_self)) (some g')
    (by rw [h2]; exact List.mem_cons_self) g g' rfl rfl hs

/-! ### The table's text -/

namespace Spec

/-- A field as RFC 4180 writes it when it is quoted: between quotes, every quote in it doubled. -/
def quoted (f : List Char) : List Char := '"' :: f.flatMap (fun c => if c = '"' then ['"', '"'] else [c]) ++ ['"']

/-- A record: its fields, between bars. -/
def joined : List (List Char) → List Char
  | [] => []
  | [f] => f
  | f :: g :: fs => f ++ '|' :: joined (g :: fs)

/-- `written` is the field `f`, as it is (there is no bar or quote in it) or quoted. -/
inductive Field : (f written : List Char) → Prop where
  | plain {f : List Char} (hb : '|' ∉ f) (hq : '"' ∉ f) : Field f f
  | quoted (f : List Char) : Field f (quoted f)

end Spec

theorem csv_bare {c : Char} (hb : c ≠ '|') (hq : c ≠ '"') (start : Bool) (cur rest : List Char) : csvFields false start cur (c :: rest) = csvFields false false (c :: cur) rest := by
  rw [csvFields.eq_def]; simp [hb, hq]
theorem csv_bar (start : Bool) (cur rest : List Char) : csvFields false start cur ('|' :: rest) = (csvFields false true [] rest).map (cur.reverse :: ·) := by
  rw [csvFields.eq_def]; simp
theorem csv_open (cur rest : List Char) : csvFields false true cur ('"' :: rest) = csvFields true false [] rest := by
  rw [csvFields.eq_def]; simp
theorem csv_stray (cur rest : List Char) : csvFields false false cur ('"' :: rest) = none := by
  rw [csvFields.eq_def]; simp
theorem csv_inside {c : Char} (hq : c ≠ '"') (cur rest : List Char) : csvFields true false cur (c :: rest) = csvFields true false (c :: cur) rest := by
  rw [csvFields.eq_def]; simp [hq]
theorem csv_double (cur rest : List Char) : csvFields true false cur ('"' :: '"' :: rest) = csvFields true false ('"' :: cur) rest := by
  rw [csvFields.eq_def]; simp
theorem csv_close (cur rest : List Char) : csvFields true false cur ('"' :: '|' :: rest) = (csvFields false true [] rest).map (cur.reverse :: ·) := by
  rw [csvFields.eq_def]; simp
theorem csv_last (cur : List Char) : csvFields true false cur ['"'] = some [cur.reverse] := by
  rw [csvFields.eq_def]; simp

theorem csv_plain : ∀ (f cur : List Char) (start : Bool), '|' ∉ f → '"' ∉ f →
    csvFields false start cur f = some [cur.reverse ++ f] ∧
    ∀ rest, csvFields false start cur (f ++ '|' :: rest) = (csvFields false true [] rest).map ((cur.reverse ++ f) :: ·)
  | [], cur, start, _, _ => ⟨by simp [csvFields], fun rest => by rw [List.nil_append, csv_bar]; simp⟩
  | c :: f, cur, start, hb, hq => by
    have hcb : c ≠ '|' := fun h => hb (by simp [h])
    have hcq : c ≠ '"' := fun h => hq (by simp [h])
    obtain ⟨h1, h2⟩ := csv_plain f (c :: cur) false (fun h => hb (by simp [h])) (fun h => hq (by simp [h]))
    exact ⟨by rw [csv_bare hcb hcq, h1]; simp, fun rest => by rw [List.cons_append, csv_bare hcb hcq, h2]; simp⟩

/-- The text of a quoted field, after the first quote and before the last. -/
def doubled (f : List Char) : List Char := f.flatMap fun c => if c = '"' then ['"', '"'] else [c]

theorem csv_quoted : ∀ (f cur : List Char), csvFields true false cur (doubled f ++ ['"']) = some [cur.reverse ++ f] ∧
    ∀ rest, csvFields true false cur (doubled f ++ '"' :: '|' :: rest) = (csvFields false true [] rest).map ((cur.reverse ++ f) :: ·)
  | [], cur => ⟨by rw [show doubled [] = [] from rfl, List.nil_append, csv_last]; simp, fun rest => by rw [show doubled [] = [] from rfl, List.nil_append, csv_close]; simp⟩
  | c :: f, cur => by
    obtain ⟨h1, h2⟩ := csv_quoted f (c :: cur)
    by_cases hc : c = '"'
    · subst hc
      have : doubled ('"' :: f) = '"' :: '"' :: doubled f := by simp [doubled]
      rw [this]
      exact ⟨by rw [List.cons_append, List.cons_append, csv_double, h1]; simp, fun rest => by rw [List.cons_append, List.cons_append, csv_double, h2]; simp⟩
    · have : doubled (c :: f) = c :: doubled f := by simp [doubled, hc]
      rw [this]
      exact ⟨by rw [List.cons_append, csv_inside hc, h1]; simp, fun rest => by rw [List.cons_append, csv_inside hc, h2]; simp⟩

open Spec in
theorem csv_field {f w : List Char} (h : Field f w) :
    csvFields false true [] w = some [f] ∧ ∀ rest, csvFields false true [] (w ++ '|' :: rest) = (csvFields false true [] rest).map (f :: ·) := by
  cases h with
  | plain hb hq => simpa using csv_plain f [] true hb hq
  | quoted =>
    obtain ⟨h1, h2⟩ := csv_quoted f []
    have e : quoted f = '"' :: (doubled f ++ ['"']) := rfl
    rw [e]
    exact ⟨by rw [csv_open, h1]; simp, fun rest => by rw [List.cons_append, csv_open, List.append_assoc]; exact h2 rest⟩

open Spec in
/-- **C60**: whatever the fields of a row of the table are, and whichever of them are quoted, they are read as they were written. -/
theorem C60_row_text : ∀ (row : List (List Char × List Char)), row ≠ [] → (∀ p ∈ row, Field p.1 p.2) → csvFields false true [] (joined (row.map (·.2))) = some (row.map (·.1))
  | [], hne, _ => absurd rfl hne
  | [p], _, h => (csv_field (h p (by simp))).1
  | p :: q :: row, _, h => by
    have ih := C60_row_text (q :: row) (by simp) fun x hx => h x (List.mem_cons_of_mem _ hx)
    have : joined ((p :: q :: row).map (·.2)) = p.2 ++ '|' :: joined ((q :: row).map (·.2)) := rfl
    rw [this, (csv_field (h p (by simp))).2, ih]
    rfl

/-- **C60**: a quote inside a field that is not quoted is refused, and so is a quoted field that does not end. -/
theorem C60_row_refused (f rest : List Char) (hb : '|' ∉ f) (hq : '"' ∉ f) (hne : f ≠ []) :
    csvFields false true [] (f ++ '"' :: rest) = none ∧ csvFields false true [] ('"' :: f) = none := by
  constructor
  · have : ∀ (f cur : List Char), '|' ∉ f → '"' ∉ f → csvFields false false cur (f ++ '"' :: rest) = none := by
      intro f
      induction f with
      | nil => intro cur _ _; exact csv_stray cur rest
      | cons c f ih =>
        intro cur hb hq
        rw [List.cons_append, csv_bare (fun h => hb (by simp [h])) (fun h => hq (by simp [h]))]
        exact ih _ (fun h => hb (by simp [h])) (fun h => hq (by simp [h]))
    cases f with
    | nil => exact absurd rfl hne
    | cons c f =>
      rw [List.cons_append, csv_bare (fun h => hb (by simp [h])) (fun h => hq (by simp [h]))]
      exact this f _ (fun h => hb (by simp [h])) (fun h => hq (by simp [h]))
  · have : ∀ (f cur : List Char), '"' ∉ f → csvFields true false cur f = none := by
      intro f
      induction f with
      | nil => intro cur _; simp [csvFields]
      | cons c f ih =>
        intro cur hq
        rw [csv_inside (fun h => hq (by simp [h]))]
        exact ih _ (fun h => hq (by simp [h]))
    rw [csv_open]
    exact this f [] hq

example : csvFields false true [] (Spec.joined [['a', 'b'], Spec.quoted ['|', '"'], []]) = some [['a', 'b'], ['|', '"'], []] := by decide

/-- The records of a table's lines, when every line is a row of fields as they may be written. -/
theorem records_written (rows : List (List (List Char × List Char)))
    (hr : ∀ row ∈ rows, row ≠ [] ∧ (∀ p ∈ row, Spec.Field p.1 p.2) ∧ Spec.joined (row.map (·.2)) ≠ []) :
    ((rows.map fun row => Spec.joined (row.map (·.2))).filter (· ≠ [])).mapM (fun l => csvFields false true [] l) =
      some (rows.map fun row => row.map (·.1)) := by
  induction rows with
  | nil => rfl
  | cons row rows ih =>
    obtain ⟨h1, h2, h3⟩ := hr row (by simp)
    have ih := ih fun r hmem => hr r (List.mem_cons_of_mem _ hmem)
    rw [List.map_cons, List.filter_cons_of_pos (by simpa using h3), List.mapM_cons, C60_row_text row h1 h2, ih]
    rfl

open Spec in
/-- **C60**: a table is read as it was written: the rows, and in each row the fields, in order; provided that all rows have as many fields as the first. -/
theorem C60_table_text (first : List (List Char × List Char)) (rows : List (List (List Char × List Char)))
    (hr : ∀ row ∈ first :: rows, row ≠ [] ∧ (∀ p ∈ row, Field p.1 p.2) ∧ joined (row.map (·.2)) ≠ [])
    (hl : ∀ row ∈ rows, row.length = first.length) :
    csvRecords ((first :: rows).map fun row => joined (row.map (·.2))) =
      some (first.map (·.1) :: rows.map fun row => row.map (·.1)) := by
  unfold csvRecords
  simp only
  rw [records_written _ hr]
  simp only [List.map_cons]
  rw [if_pos]
  simp only [List.all_eq_true, List.mem_map, decide_eq_true_eq]
  rintro _ ⟨row, hmem, rfl⟩
  simpa using hl row hmem

open Spec in
/-- **C60**: a table with a row that has fewer or more fields than the first does not load. -/
theorem C60_ragged_refused (first : List (List Char × List Char)) (rows : List (List (List Char × List Char)))
    (hr : ∀ row ∈ first :: rows, row ≠ [] ∧ (∀ p ∈ row, Field p.1 p.2) ∧ joined (row.map (·.2)) ≠ [])
    (row : List (List Char × List Char)) (hmem : row ∈ rows) (hl : row.length ≠ first.length) :
    init ((first :: rows).map fun row => joined (row.map (·.2))) = .panic := by
  have : csvRecords ((first :: rows).map fun row => joined (row.map (·.2))) = none := by
    unfold csvRecords
    simp only
    rw [records_written _ hr]
    simp only [List.map_cons]
    rw [if_neg]
    simp only [List.all_eq_true, List.mem_map, decide_eq_true_eq]
    intro h
    have := h _ ⟨row, hmem, rfl⟩
    simp at this
    exact hl this
  unfold init
  rw [this]

/-- **C60**: a table without a row does not load. -/
theorem C60_empty_refused (lines : List Str) (h : ∀ l ∈ lines, l = []) : init lines = .panic := by
  have : lines.filter (· ≠ []) = [] := by
    rw [List.filter_eq_nil_iff]
    intro l hl
    simp [h l hl]
  unfold init csvRecords
  rw [this]
  rfl

example : init [[], []] = .panic := C60_empty_refused _ (by decide)

/-- Rows as they are written: two fields, one of them quoted; and one that is a field short. -/
example : csvRecords [str! "name|slug", str! "\"A \"\"B\"\"\"|ab"] = some [[str! "name", str! "slug"], [str! "A \"B\"", str! "ab"]] ∧
    (match init [str! "name|slug", str! "A"] with | .panic => true | _ => false) = true := by decide +kernel

end Disko.Disks

import Verif.Fat8.Props2
/-!
C47, C48, C72: FAT8 file names and Stat.  Names are ASCII (`Ascii`): on them the modelled
byte-by-byte functions are those of the Go library.
-/
namespace Disko.Fat8
open Disko Disko.Fat8.Spec

/-- All bytes are ASCII. -/
def Ascii (s : Bytes) : Prop := ∀ c ∈ s, c < 128

/-! ### Lemmas -/

theorem splitDot_none {s : Bytes} (h : (46 : UInt8) ∉ s) : splitDot s = (s, none) := by
  induction s with
  | nil => rfl
  | cons c rest ih =>
    rw [List.mem_cons, not_or] at h
    unfold splitDot
    rw [if_neg (fun e => h.1 e.symm), ih h.2]

theorem splitDot_some {s e : Bytes} (h : (46 : UInt8) ∉ s) : splitDot (s ++ 46 :: e) = (s, some e) := by
  induction s with
  | nil => simp [splitDot]
  | cons c rest ih =>
    rw [List.mem_cons, not_or] at h
    rw [List.cons_append]
    unfold splitDot
    rw [if_neg (fun e => h.1 e.symm), ih h.2]

theorem splitDot_spec (s : Bytes) : ∃ stem, (46 : UInt8) ∉ stem ∧
    ((splitDot s = (stem, none) ∧ s = stem) ∨ ∃ e, splitDot s = (stem, some e) ∧ s = stem ++ 46 :: e) := by
  induction s with
  | nil => exact ⟨[], by simp, .inl ⟨rfl, rfl⟩⟩
  | cons c rest ih =>
    by_cases hc : c = 46
    · subst hc; exact ⟨[], by simp, .inr ⟨rest, by simp [splitDot], rfl⟩⟩
    · obtain ⟨stem, h0, ⟨h1, h2⟩ | ⟨e, h1, h2⟩⟩ := ih
      · refine ⟨c :: stem, by simp [h0]; exact fun e => hc e.symm, .inl ⟨?_, by rw [h2]⟩⟩
        unfold splitDot; rw [if_neg hc, h1]
      · refine ⟨c :: stem, by simp [h0]; exact fun e => hc e.symm, .inr ⟨e, ?_, by rw [h2]; rfl⟩⟩
        unfold splitDot; rw [if_neg hc, h1]

theorem forall_byte {P : UInt8 → Prop} (h : ∀ i : Fin 256, P (UInt8.ofNat i.val)) (c : UInt8) : P c := by
  have := h ⟨c.toNat, c.toNat_lt⟩
  simpa using this

theorem upperByte_space (c : UInt8) : upperByte c = 32 ↔ c = 32 :=
  forall_byte (P := fun c => upperByte c = 32 ↔ c = 32) (by decide +kernel) c

theorem upperByte_dot (c : UInt8) : upperByte c = 46 ↔ c = 46 :=
  forall_byte (P := fun c => upperByte c = 46 ↔ c = 46) (by decide +kernel) c

theorem upperByte_idem (c : UInt8) : upperByte (upperByte c) = upperByte c :=
  forall_byte (P := fun c => upperByte (upperByte c) = upperByte c) (by decide +kernel) c

theorem toUpper_eq (s : Bytes) : toUpper s = upper s := by
  unfold toUpper upper
  congr 1
  funext c
  exact forall_byte (P := fun c => upperByte c = UInt8.ofNat (Char.ofNat c.toNat).toUpper.toNat) (by decide +kernel) c

theorem toUpper_idem (s : Bytes) : toUpper (toUpper s) = toUpper s := by
  unfold toUpper; rw [List.map_map]; congr 1; funext c; exact upperByte_idem c

theorem length_toUpper (s : Bytes) : (toUpper s).length = s.length := by simp [toUpper]

theorem toUpper_append (a b : Bytes) : toUpper (a ++ b) = toUpper a ++ toUpper b := by simp [toUpper]

theorem toUpper_spaces (n : Nat) : toUpper (List.replicate n 32) = List.replicate n 32 := by
  unfold toUpper; rw [List.map_replicate]; congr 1

/-- No trailing space. -/
def NoTrail (s : Bytes) : Prop := s.getLast? ≠ some 32

theorem noTrail_toUpper {s : Bytes} (h : NoTrail s) : NoTrail (toUpper s) := by
  unfold NoTrail toUpper at *
  rw [List.getLast?_map]
  intro h2
  rcases hl : s.getLast? with _ | c
  · rw [hl] at h2; simp at h2
  · rw [hl] at h2 h
    simp only [Option.map_some, Option.some.injEq] at h2
    exact h (by rw [(upperByte_space c).1 h2])

theorem trimRight_pad {s : Bytes} (h : NoTrail s) (n : Nat) : trimRight (s ++ List.replicate n 32) = s := by
  unfold trimRight
  rw [List.reverse_append, List.reverse_replicate]
  have h1 : ∀ m (t : Bytes), (List.replicate m (32 : UInt8) ++ t).dropWhile (fun x => decide (x = 32)) =
      t.dropWhile (fun x => decide (x = 32)) := by
    intro m t
    induction m with
    | zero => rfl
    | succ m ih => rw [List.replicate_succ, List.cons_append, List.dropWhile_cons]; simp [ih]
  rw [h1]
  have h2 : s.reverse.dropWhile (fun x => decide (x = 32)) = s.reverse := by
    rcases hs : s.reverse with _ | ⟨c, t⟩
    · rfl
    · rw [List.dropWhile_cons, if_neg]
      intro hc
      apply h
      rw [List.getLast?_eq_head?_reverse, hs]
      simpa using hc
  rw [h2, List.reverse_reverse]

theorem trimRight_spaces (n : Nat) : trimRight (List.replicate n 32) = [] := by
  have := trimRight_pad (s := []) (by simp [NoTrail]) n
  simpa using this

/-! ### C47 -/

/-- A 6.3 name: a stem of at most six characters without a period and, optionally, a period and an
extension of at most three characters.  The name is not empty. -/
def Name63 (name : Bytes) : Prop :=
  name ≠ [] ∧ ∃ stem, (46 : UInt8) ∉ stem ∧ stem.length ≤ 6 ∧
    (name = stem ∨ ∃ ext, ext.length ≤ 3 ∧ name = stem ++ 46 :: ext)

/-- C47 in full (for names without trailing spaces in stem or extension, which cannot be told from
padding on the disk): the on-disk form has nine bytes and gives back the upper-cased name; names
that are not 6.3 names are rejected. -/
def C47_statement : Prop :=
  ∀ name : Bytes, Ascii name →
    (Name63 name → (∀ stem ext, name = stem ∨ name = stem ++ 46 :: ext → (46 : UInt8) ∉ stem → NoTrail stem ∧ NoTrail ext) →
      ∃ b, filenameToBytes name = .ok b ∧ b.length = 9 ∧ bytesToFilename b = .ret (upper name)) ∧
    (¬ Name63 name → ∃ e, filenameToBytes name = .error e)

/-- The name has a stem without trailing spaces, and its extension, if it has one, is not empty
and has no trailing spaces. -/
def Plain63 (name : Bytes) : Prop :=
  name ≠ [] ∧ ∃ stem, (46 : UInt8) ∉ stem ∧ stem.length ≤ 6 ∧ NoTrail stem ∧
    (name = stem ∨ ∃ ext, ext ≠ [] ∧ ext.length ≤ 3 ∧ NoTrail ext ∧ name = stem ++ 46 :: ext)

/-- A simpler form of C47 that is also false, used to refute it: every name ending in a period. -/
def C47_simple_statement : Prop :=
  ∀ name : Bytes, Ascii name → Name63 name → NoTrail name → (∀ c ∈ name, c ≠ 32) →
    ∃ b, filenameToBytes name = .ok b ∧ bytesToFilename b = .ret (upper name)

/-- C47 is false: the name "AB." is stored as "AB    .  ", which reads back as "AB..". -/
theorem C47_refuted : ¬ C47_simple_statement ∧ ¬ C47_statement := by
  have hb : filenameToBytes [65, 66, 46] = .ok [65, 66, 32, 32, 32, 32, 46, 32, 32] := by decide +kernel
  have hn : Name63 [65, 66, 46] :=
    ⟨by simp, [65, 66], by simp, by simp, .inr ⟨[], by simp, rfl⟩⟩
  have ha : Ascii [65, 66, 46] := by unfold Ascii; decide
  have hr : bytesToFilename [65, 66, 32, 32, 32, 32, 46, 32, 32] ≠ .ret (upper [65, 66, 46]) := by decide +kernel
  constructor
  · intro h
    obtain ⟨b, h1, h2⟩ := h [65, 66, 46] ha hn (by unfold NoTrail; decide) (by decide)
    rw [hb] at h1; cases h1; exact hr h2
  · intro h
    obtain ⟨b, h1, _, h2⟩ := (h [65, 66, 46] ha).1 hn (by
      intro stem ext h hs
      rcases h with h | h
      · subst h; simp at hs
      · have h1 := congrArg splitDot h
        rw [splitDot_some hs, show splitDot [65, 66, 46] = ([65, 66], some []) from by decide] at h1
        simp only [Prod.mk.injEq, Option.some.injEq] at h1
        rw [← h1.1, ← h1.2]; unfold NoTrail; decide)
    rw [hb] at h1; cases h1; exact hr h2

/-- C47, the part that holds: names whose extension is not empty.  (Missing: names that end with a
period.) -/
theorem C47_roundtrip_partial {name : Bytes} (_ha : Ascii name) (h : Plain63 name) :
    ∃ b, filenameToBytes name = .ok b ∧ b.length = 9 ∧ bytesToFilename b = .ret (upper name) := by
  rw [← toUpper_eq]
  obtain ⟨hne, stem, h1, h2, h3, rfl | ⟨ext, h4, h5, h6, rfl⟩⟩ := h
  · refine ⟨toUpper (padRight 9 name), ?_, ?_, ?_⟩
    · unfold filenameToBytes; rw [if_neg hne, splitDot_none h1]; simp only; rw [if_neg (by omega)]
    · rw [length_toUpper]; unfold padRight; rw [List.length_append, List.length_replicate]; omega
    · have e : padRight 9 name = (name ++ List.replicate (6 - name.length) 32) ++ List.replicate 3 32 := by
        unfold padRight; rw [List.append_assoc, List.replicate_append_replicate]; congr 2; omega
      have hl : (toUpper (name ++ List.replicate (6 - name.length) 32)).length = 6 := by
        rw [length_toUpper, List.length_append, List.length_replicate]; omega
      unfold bytesToFilename
      rw [e, toUpper_append, if_neg (by rw [List.length_append, hl]; omega)]
      simp only
      rw [List.take_left' hl, List.drop_left' hl, toUpper_spaces 3, trimRight_spaces, toUpper_append, toUpper_spaces,
        trimRight_pad (noTrail_toUpper h3), if_neg (by decide), toUpper_idem]
  · have h4' : ext.length ≠ 0 := by intro h; exact h4 (List.length_eq_zero_iff.1 h)
    refine ⟨toUpper (padRight 6 stem ++ padRight 3 ext), ?_, ?_, ?_⟩
    · unfold filenameToBytes; rw [if_neg hne, splitDot_some h1]; simp only
      rw [if_neg (by omega), if_neg h4', if_neg (by omega)]
    · rw [length_toUpper]; unfold padRight; simp only [List.length_append, List.length_replicate]; omega
    · have hl : (toUpper (padRight 6 stem)).length = 6 := by
        rw [length_toUpper]; unfold padRight; rw [List.length_append, List.length_replicate]; omega
      unfold bytesToFilename
      rw [toUpper_append, if_neg (by rw [List.length_append, hl]; omega)]
      simp only
      rw [List.take_left' hl, List.drop_left' hl]
      unfold padRight
      rw [toUpper_append, toUpper_append, toUpper_spaces, toUpper_spaces, trimRight_pad (noTrail_toUpper h3),
        trimRight_pad (noTrail_toUpper h6), if_pos (by rw [length_toUpper]; omega)]
      rw [toUpper_append, toUpper_append, toUpper_idem, toUpper_idem, toUpper_append]
      rw [List.append_assoc]
      rfl

/-- C47: exactly the 6.3 names are accepted (including those ending with a period), and their
on-disk form has nine bytes. -/
theorem C47_accepts (name : Bytes) (_ha : Ascii name) :
    (Name63 name → ∃ b, filenameToBytes name = .ok b ∧ b.length = 9) ∧
    (¬ Name63 name → ∃ e, filenameToBytes name = .error e) ∧ (name = [] → filenameToBytes name = .error .invalidArgument) ∧
    (¬ Name63 name → name ≠ [] → filenameToBytes name = .error .nameTooLong) := by
  have hmain : (Name63 name ∧ ∃ b, filenameToBytes name = .ok b ∧ b.length = 9) ∨
      (¬ Name63 name ∧ ∃ e, filenameToBytes name = .error e ∧ (name = [] ∧ e = .invalidArgument ∨ name ≠ [] ∧ e = .nameTooLong)) := by
    by_cases hne : name = []
    · exact .inr ⟨fun h => h.1 hne, _, by unfold filenameToBytes; rw [if_pos hne], .inl ⟨hne, rfl⟩⟩
    obtain ⟨stem, h0, ⟨h1, h2⟩ | ⟨ext, h1, h2⟩⟩ := splitDot_spec name
    · by_cases hl : stem.length ≤ 6
      · refine .inl ⟨⟨hne, stem, h0, hl, .inl h2⟩, toUpper (padRight 9 stem), ?_, ?_⟩
        · unfold filenameToBytes; rw [if_neg hne, h1]; simp only; rw [if_neg (by omega)]
        · rw [length_toUpper]; unfold padRight; rw [List.length_append, List.length_replicate]; omega
      · refine .inr ⟨?_, .nameTooLong, ?_, .inr ⟨hne, rfl⟩⟩
        · rintro ⟨_, s', hs', hl', rfl | ⟨e', _, rfl⟩⟩
          · rw [h2] at hl'; exact hl hl'
          · rw [splitDot_some hs'] at h1; simp at h1
        · unfold filenameToBytes; rw [if_neg hne, h1]; simp only; rw [if_pos (by omega)]
    · have huniq : ∀ s', (46 : UInt8) ∉ s' → (name = s' → False) ∧ ∀ e', name = s' ++ 46 :: e' → s' = stem ∧ e' = ext := by
        intro s' hs'
        refine ⟨fun e => ?_, fun e' e => ?_⟩
        · rw [e, splitDot_none hs'] at h1; simp at h1
        · rw [e, splitDot_some hs'] at h1; simpa using h1
      by_cases hl : stem.length ≤ 6
      · by_cases hx : ext.length ≤ 3
        · refine .inl ⟨⟨hne, stem, h0, hl, .inr ⟨ext, hx, h2⟩⟩, ?_⟩
          by_cases h3 : ext.length = 0
          · refine ⟨toUpper (padRight 6 stem ++ padRight 3 [46]), ?_, ?_⟩
            · unfold filenameToBytes; rw [if_neg hne, h1]; simp only; rw [if_neg (by omega), if_pos h3]
            · rw [length_toUpper]; unfold padRight
              simp only [List.length_append, List.length_replicate, List.length_cons, List.length_nil]; omega
          · refine ⟨toUpper (padRight 6 stem ++ padRight 3 ext), ?_, ?_⟩
            · unfold filenameToBytes; rw [if_neg hne, h1]; simp only; rw [if_neg (by omega), if_neg h3, if_neg (by omega)]
            · rw [length_toUpper]; unfold padRight; simp only [List.length_append, List.length_replicate]; omega
        · refine .inr ⟨?_, .nameTooLong, ?_, .inr ⟨hne, rfl⟩⟩
          · rintro ⟨_, s', hs', hl', h | ⟨e', he', h⟩⟩
            · exact (huniq s' hs').1 h
            · rw [((huniq s' hs').2 e' h).2] at he'; exact hx he'
          · unfold filenameToBytes; rw [if_neg hne, h1]; simp only; rw [if_neg (by omega), if_neg (by omega), if_pos (by omega)]
      · refine .inr ⟨?_, .nameTooLong, ?_, .inr ⟨hne, rfl⟩⟩
        · rintro ⟨_, s', hs', hl', h | ⟨e', he', h⟩⟩
          · exact (huniq s' hs').1 h
          · rw [((huniq s' hs').2 e' h).1] at hl'; exact hl hl'
        · unfold filenameToBytes; rw [if_neg hne, h1]; simp only; rw [if_pos (by omega)]
  rcases hmain with ⟨h1, h2⟩ | ⟨h1, e, h2, h3⟩
  · exact ⟨fun _ => h2, fun h => absurd h1 h, fun h => absurd h h1.1, fun h => absurd h1 h⟩
  · refine ⟨fun h => absurd h h1, fun _ => ⟨e, h2⟩, fun h => ?_, fun _ h => ?_⟩
    · rcases h3 with ⟨_, rfl⟩ | ⟨h4, _⟩
      · exact h2
      · exact absurd h h4
    · rcases h3 with ⟨h4, _⟩ | ⟨_, rfl⟩
      · exact absurd h4 h
      · exact h2

/-- "prog.b" is such a name. -/
example : Plain63 [112, 114, 111, 103, 46, 98] ∧ Ascii [112, 114, 111, 103, 46, 98] :=
  ⟨⟨by simp, [112, 114, 111, 103], by simp, by simp, by unfold NoTrail; decide,
    .inr ⟨[98], by simp, by simp, by unfold NoTrail; decide, rfl⟩⟩, by unfold Ascii; decide⟩

/-! ### C48 -/

/-- C48 in full. -/
def C48_statement : Prop :=
  ∀ a b x : Bytes, Ascii a → Ascii b → filenameToBytes a = .ok x → filenameToBytes b = .ok x → upper a = upper b

/-- C48 is false: "AB." and "AB.." (and also "AB" and "AB ") have the same on-disk form. -/
theorem C48_refuted : ¬ C48_statement := by
  intro h
  have := h [65, 66, 46] [65, 66, 46, 46] [65, 66, 32, 32, 32, 32, 46, 32, 32] (by unfold Ascii; decide)
    (by unfold Ascii; decide) (by decide +kernel) (by decide +kernel)
  revert this; decide +kernel

/-- C48, the part that holds: names without trailing spaces whose extension, if any, is not
empty. -/
theorem C48_distinct_partial {a b x : Bytes} (ha : Ascii a) (hb : Ascii b) (pa : Plain63 a) (pb : Plain63 b)
    (h1 : filenameToBytes a = .ok x) (h2 : filenameToBytes b = .ok x) : upper a = upper b := by
  obtain ⟨y, e1, _, e2⟩ := C47_roundtrip_partial ha pa
  obtain ⟨z, e3, _, e4⟩ := C47_roundtrip_partial hb pb
  rw [h1] at e1; cases e1
  rw [h2] at e3; cases e3
  rw [e2] at e4; simpa using e4

/-- Conversely names that are equal ignoring case have the same form. -/
theorem C48_same_partial {a b : Bytes} (h : upper a = upper b) : filenameToBytes a = filenameToBytes b := by
  rw [← toUpper_eq, ← toUpper_eq] at h
  have hup := upperByte_dot
  have hsplit : ∀ s : Bytes, splitDot (toUpper s) = (toUpper (splitDot s).1, (splitDot s).2.map toUpper) := by
    intro s
    induction s with
    | nil => rfl
    | cons c rest ih =>
      unfold toUpper at ih ⊢
      rw [List.map_cons]
      unfold splitDot
      by_cases hc : c = 46
      · rw [if_pos hc, if_pos ((hup c).2 hc)]; rfl
      · rw [if_neg hc, if_neg (fun e => hc ((hup c).1 e)), ih]; rfl
  have hpad : ∀ n (s : Bytes), toUpper (padRight n s) = padRight n (toUpper s) := by
    intro n s; unfold padRight; rw [toUpper_append, toUpper_spaces, length_toUpper]
  have hdot : toUpper (padRight 3 [46]) = padRight 3 [46] := by decide
  have hcan : ∀ s : Bytes, filenameToBytes s = filenameToBytes (toUpper s) := by
    intro s
    unfold filenameToBytes
    have hnil : s = [] ↔ toUpper s = [] := by unfold toUpper; simp
    by_cases hs : s = []
    · rw [if_pos hs, if_pos (hnil.1 hs)]
    · rw [if_neg hs, if_neg (fun e => hs (hnil.2 e)), hsplit]
      rcases hsp : splitDot s with ⟨st, _ | e⟩
      · simp only [Option.map_none]
        rw [length_toUpper]
        split
        · rfl
        · rw [hpad, hpad, toUpper_idem]
      · simp only [Option.map_some]
        rw [length_toUpper, length_toUpper]
        split
        · rfl
        · split
          · rw [toUpper_append, toUpper_append, hpad 6 st, hpad 6 (toUpper st), toUpper_idem]
          · split
            · rfl
            · rw [toUpper_append, toUpper_append, hpad, hpad, hpad, hpad, toUpper_idem, toUpper_idem]
  rw [hcan a, hcan b, h]

example : filenameToBytes [97, 46, 98] = filenameToBytes [65, 46, 66] := C48_same_partial (by decide)

/-! ### C72: Stat -/

variable {F : Type}

/-- C72 in full: Stat finds a file the driver knows by its name, in any case, with or without a
leading slash, and reports its size in bytes (for files of any kind). -/
def C72_statement : Prop :=
  ∀ (F : Type) (d : Drv F) (name path : Bytes) (e : DirectoryEntry), Ascii path → d.dirents.lookup name = some e →
    (upper path = name ∨ upper path = 47 :: name) → name.head? ≠ some 47 →
    e.unusedSectorsInLastCluster ≤ e.clusters.length * d.geometry.sectorsPerCluster →
    e.clusters.length * d.geometry.sectorsPerCluster < 2 ^ 56 →
    ∃ st, stat d path = .ok st ∧
      st.size = (e.clusters.length * d.geometry.sectorsPerCluster - e.unusedSectorsInLastCluster : Int) * 128

/-- C72 is false: Stat is not implemented for text files. -/
theorem C72_refuted : ¬ C72_statement := by
  intro h
  obtain ⟨st, h1, _⟩ := h Unit { newDriver () with dirents := [([65], ⟨[1], 0, false, 0⟩)] } [65] [97] ⟨[1], 0, false, 0⟩
    (by unfold Ascii; decide) (by decide) (by decide) (by decide) (by decide) (by decide)
  revert h1
  rw [show stat ({ newDriver () with dirents := [([65], ⟨[1], 0, false, 0⟩)] } : Drv Unit) [97] = .error .notImplemented
    from by decide +kernel]
  simp

/-- C72, the part that holds: binary files.  The size is the number of blocks times the block
size; there is one link, and everyone may do everything. -/
theorem C72_stat_partial {d : Drv F} {name path : Bytes} {e : DirectoryEntry} (_ha : Ascii path)
    (hl : d.dirents.lookup name = some e) (hb : e.isBinary = true)
    (hp : upper path = name ∨ upper path = 47 :: name) (hs : name.head? ≠ some 47)
    (h1 : e.unusedSectorsInLastCluster ≤ e.clusters.length * d.geometry.sectorsPerCluster)
    (h2 : e.clusters.length * d.geometry.sectorsPerCluster < 2 ^ 56) :
    ∃ st, stat d path = .ok st ∧ st.inodeNumber = e.index ∧ st.nlinks = 1 ∧ st.modeFlags = 0o777 ∧ st.blockSize = 128 ∧
      st.size = st.numBlocks * st.blockSize ∧
      st.size = (e.clusters.length * d.geometry.sectorsPerCluster - e.unusedSectorsInLastCluster : Int) * 128 := by
  rw [← toUpper_eq] at hp
  have ht : trimSlash (toUpper path) = name := by
    rcases hp with h | h
    · rw [h]
      cases name with
      | nil => rfl
      | cons c t => exact if_neg (by simpa using hs)
    · rw [h]; rfl
  unfold stat
  rw [ht, hl]
  simp only
  rw [hb, if_pos rfl]
  refine ⟨_, rfl, rfl, rfl, rfl, rfl, ?_⟩
  have e2 : u64sub (u64 (e.clusters.length * d.geometry.sectorsPerCluster)) e.unusedSectorsInLastCluster =
      e.clusters.length * d.geometry.sectorsPerCluster - e.unusedSectorsInLastCluster := by
    have := Int.natCast_mul e.clusters.length d.geometry.sectorsPerCluster
    generalize e.clusters.length * d.geometry.sectorsPerCluster = t at *
    rw [u64_of_lt (by omega)]
    unfold u64sub; omega
  simp only
  rw [e2]
  have := Int.natCast_mul e.clusters.length d.geometry.sectorsPerCluster
  rw [← this]
  generalize e.clusters.length * d.geometry.sectorsPerCluster = t at *
  rw [i64_of_range (z := ((t - e.unusedSectorsInLastCluster : Nat) : Int)) (by omega) (by omega),
    i64_of_range (by omega) (by omega)]
  omega

/-- C72: no driver that is used through its public methods knows any file, since nothing fills the
table: Stat always fails with ErrNotFound. -/
theorem C72_stat_never_finds {o : FileOps F} {view : F → Bytes} (L : LawfulFile o view) (T : Truncates o) {f0 : F}
    {d : Drv F} (hr : Reachable o f0 d) (path : Bytes) : stat d path = .error .notFound := by
  unfold stat
  rw [(reachable_inv L T hr).dirents]; rfl

example : ∃ (d : Drv Unit) (e : DirectoryEntry), d.dirents.lookup [65] = some e ∧ e.isBinary = true ∧
    e.unusedSectorsInLastCluster ≤ e.clusters.length * d.geometry.sectorsPerCluster :=
  ⟨{ newDriver () with dirents := [([65], ⟨[1, 2], 0, true, 3⟩)], geometry := deriveGeometry 40 40 16 18 }, ⟨[1, 2], 0, true, 3⟩, by decide,
    rfl, by decide⟩

end Disko.Fat8

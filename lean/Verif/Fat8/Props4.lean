import Verif.Fat8.Names
import Verif.Fat8.Props3
/-! C117, C118: FAT8 file names of any characters. -/
namespace Disko.Fat8.Names
open Disko

/-! ### Specification -/

/-- The UTF-8 bytes of a list of characters. -/
def utf8 (cs : List Char) : Bytes := cs.flatMap String.utf8EncodeChar

/-- What is used of unicode.ToUpper: on ASCII characters it is the usual function (Lean's Char.toUpper changes nothing else), and U+FFFD has no
upper case. -/
structure Upper (up : Char → Char) : Prop where
  ascii : ∀ c : Char, c.val < 128 → up c = c.toUpper
  replacement : up '\uFFFD' = '\uFFFD'

/-- Lean's Char.toUpper is such a function. -/
theorem upper_toUpper : Upper Char.toUpper := ⟨fun _ _ => rfl, by decide⟩

/-- Spaces up to `n` characters. -/
def padTo (n : Nat) (cs : List Char) : List Char := cs ++ List.replicate (n - cs.length) ' '

/-! ### Lemmas -/

theorem enc_decode (c : Char) (t : Bytes) : decodeRune (String.utf8EncodeChar c ++ t) = (c, (String.utf8EncodeChar c).length) := by
  have hv := c.valid
  have hofn : ∀ n, n = c.val.toNat → Char.ofNat n = c := by
    intro n h; rw [h]; exact Char.ofNat_toNat c
  generalize hn : c.val.toNat = v at *
  have hv : v < 0xD800 ∨ (0xDFFF < v ∧ v < 0x110000) := by
    rw [← hn]; exact hv
  unfold String.utf8EncodeChar
  simp only [hn]
  have hu : ∀ m, m < 256 → (UInt8.ofNat m).toNat = m := fun m h => by simp; omega
  split
  · unfold decodeRune
    simp only [List.cons_append]
    rw [hu v (by omega), if_pos (by omega), hofn _ rfl]; rfl
  · split
    · unfold decodeRune
      simp only [List.cons_append, List.nil_append]
      rw [hu _ (by omega), hu _ (by omega)]
      rw [if_neg (by omega), if_neg (by omega), if_neg (by (repeat' split) <;> omega), if_pos (by omega), hofn _ (by omega)]; rfl
    · split
      · unfold decodeRune
        simp only [List.cons_append, List.nil_append]
        rw [hu _ (by omega), hu _ (by omega), hu _ (by omega)]
        rw [if_neg (by omega), if_neg (by omega), if_neg (by (repeat' split) <;> omega), if_neg (by omega), if_neg (by omega), if_pos (by omega), hofn _ (by omega)]; rfl
      · unfold decodeRune
        simp only [List.cons_append, List.nil_append]
        rw [hu _ (by omega), hu _ (by omega), hu _ (by omega), hu _ (by omega)]
        rw [if_neg (by omega), if_neg (by omega), if_neg (by (repeat' split) <;> omega), if_neg (by omega), if_neg (by omega), if_neg (by omega), if_neg (by omega), hofn _ (by omega)]; rfl

theorem runesFrom_skip (a t : Bytes) : runesFrom a.length (a ++ t) = runesFrom 0 t := by
  induction a with
  | nil => rfl
  | cons b a ih => exact ih

theorem enc_ne (c : Char) : String.utf8EncodeChar c ≠ [] := by
  intro h
  have := congrArg List.length h
  rw [String.length_utf8EncodeChar] at this
  have := c.utf8Size_pos
  simp at *

theorem runes_enc (c : Char) (t : Bytes) : runes (String.utf8EncodeChar c ++ t) = c :: runes t := by
  have h := enc_decode c t
  rcases he : String.utf8EncodeChar c with _ | ⟨b, e⟩
  · exact absurd he (enc_ne c)
  rw [he] at h
  show (decodeRune (b :: e ++ t)).1 :: runesFrom ((decodeRune (b :: e ++ t)).2 - 1) (e ++ t) = c :: runesFrom 0 t
  rw [h]
  simp only [List.length_cons, Nat.add_sub_cancel]
  rw [runesFrom_skip]

theorem runes_utf8_append (cs : List Char) (t : Bytes) : runes (utf8 cs ++ t) = cs ++ runes t := by
  unfold utf8
  induction cs with
  | nil => rfl
  | cons c cs ih => rw [List.flatMap_cons, List.append_assoc, runes_enc, ih]; rfl

theorem runes_utf8 (cs : List Char) : runes (utf8 cs) = cs := by
  have := runes_utf8_append cs []
  rw [List.append_nil] at this
  rw [this]
  show cs ++ [] = cs
  simp

theorem utf8_append (a b : List Char) : utf8 (a ++ b) = utf8 a ++ utf8 b := by simp [utf8]

theorem utf8_spaces (n : Nat) : utf8 (List.replicate n ' ') = List.replicate n 32 := by
  induction n with
  | zero => rfl
  | succ n ih => rw [List.replicate_succ, List.replicate_succ, ← ih]; rfl

theorem toUpper_utf8 (up : Char → Char) (cs : List Char) : toUpper up (utf8 cs) = utf8 (cs.map up) := by
  unfold toUpper
  rw [runes_utf8]
  unfold utf8
  rw [List.flatMap_map]

theorem padRight_utf8 (n : Nat) (cs : List Char) : padRight n (utf8 cs) = utf8 (padTo n cs) := by
  unfold padRight padTo
  rw [runes_utf8, utf8_append, utf8_spaces]

theorem enc_small (c : Char) (h : c.val < 128) : String.utf8EncodeChar c = [UInt8.ofNat c.val.toNat] := by
  have : c.val.toNat < 128 := h
  unfold String.utf8EncodeChar
  simp only
  rw [if_pos (by omega)]

theorem enc_length_one (c : Char) : (String.utf8EncodeChar c).length = 1 ↔ c.val < 128 := by
  rw [String.length_utf8EncodeChar, Char.utf8Size_eq_one_iff, UInt32.le_iff_toNat_le, UInt32.lt_iff_toNat_lt]
  show c.val.toNat ≤ 127 ↔ c.val.toNat < 128
  omega

/-- A byte below 128 only occurs as the encoding of itself. -/
theorem enc_mem_small (c : Char) (b : UInt8) (h : b ∈ String.utf8EncodeChar c) (hb : b < 128) : c.val.toNat = b.toNat := by
  have hb : b.toNat < 128 := hb
  unfold String.utf8EncodeChar at h
  simp only at h
  have hu : ∀ m, m < 256 → (UInt8.ofNat m).toNat = m := fun m h => by simp; omega
  split at h
  · simp only [List.mem_singleton] at h
    rw [h, hu _ (by omega)]
  · exfalso
    split at h
    · simp only [List.mem_cons, List.not_mem_nil, or_false] at h
      rcases h with h | h <;> (have := congrArg UInt8.toNat h; rw [hu _ (by omega)] at this; omega)
    · split at h
      · simp only [List.mem_cons, List.not_mem_nil, or_false] at h
        rcases h with h | h | h <;> (have := congrArg UInt8.toNat h; rw [hu _ (by omega)] at this; omega)
      · simp only [List.mem_cons, List.not_mem_nil, or_false] at h
        rcases h with h | h | h | h <;> (have := congrArg UInt8.toNat h; rw [hu _ (by omega)] at this; omega)

theorem dot_mem (cs : List Char) (h : '.' ∉ cs) : (46 : UInt8) ∉ utf8 cs := by
  intro hm
  unfold utf8 at hm
  rw [List.mem_flatMap] at hm
  obtain ⟨c, hc, hb⟩ := hm
  have := enc_mem_small c 46 hb (by decide)
  apply h
  have e : c = '.' := by
    apply Char.ext
    apply UInt32.toNat_inj.1
    rw [this]; rfl
  rwa [← e]

theorem utf8_length (cs : List Char) : cs.length ≤ (utf8 cs).length ∧ ((utf8 cs).length = cs.length ↔ ∀ c ∈ cs, c.val < 128) := by
  unfold utf8
  induction cs with
  | nil => simp
  | cons c cs ih =>
    have h1 := enc_length_one c
    have h2 : 1 ≤ (String.utf8EncodeChar c).length := by
      have := c.utf8Size_pos
      rw [String.length_utf8EncodeChar]; omega
    rw [List.flatMap_cons, List.length_append, List.length_cons]
    refine ⟨by omega, ?_⟩
    rw [List.forall_mem_cons, ← h1, ← ih.2]
    omega

/-! ASCII strings. -/

theorem enc_byte (b : UInt8) (h : b < 128) : String.utf8EncodeChar (Char.ofNat b.toNat) = [b] := by
  revert h
  exact forall_byte (P := fun b => b < 128 → String.utf8EncodeChar (Char.ofNat b.toNat) = [b]) (by decide +kernel) b

/-- The characters of an ASCII string. -/
def charsOf (s : Bytes) : List Char := s.map fun b => Char.ofNat b.toNat

theorem utf8_charsOf {s : Bytes} (h : Ascii s) : utf8 (charsOf s) = s := by
  unfold utf8 charsOf
  induction s with
  | nil => rfl
  | cons b s ih =>
    rw [List.map_cons, List.flatMap_cons, enc_byte b (h b (by simp)), ih (fun c hc => h c (by simp [hc]))]; rfl

theorem runes_ascii {s : Bytes} (h : Ascii s) : runes s = charsOf s := by
  have := runes_utf8 (charsOf s)
  rwa [utf8_charsOf h] at this

theorem enc_upper_byte (b : UInt8) (h : b < 128) : String.utf8EncodeChar (Char.ofNat b.toNat).toUpper = [upperByte b] := by
  revert h
  exact forall_byte (P := fun b => b < 128 → String.utf8EncodeChar (Char.ofNat b.toNat).toUpper = [upperByte b]) (by decide +kernel) b

theorem char_small (b : UInt8) (h : b < 128) : (Char.ofNat b.toNat).val < 128 := by
  revert h
  exact forall_byte (P := fun b => b < 128 → (Char.ofNat b.toNat).val < 128) (by decide +kernel) b

theorem toUpper_ascii {up : Char → Char} (hu : Upper up) {s : Bytes} (h : Ascii s) : toUpper up s = Fat8.toUpper s := by
  unfold toUpper
  rw [runes_ascii h]
  unfold charsOf Fat8.toUpper
  induction s with
  | nil => rfl
  | cons b s ih =>
    have hb := h b (by simp)
    rw [List.map_cons, List.flatMap_cons, List.map_cons, ih (fun c hc => h c (by simp [hc])), hu.ascii _ (char_small b hb), enc_upper_byte b hb]; rfl

theorem padRight_ascii {s : Bytes} (h : Ascii s) (n : Nat) : padRight n s = Fat8.padRight n s := by
  unfold padRight Fat8.padRight
  rw [runes_ascii h]
  unfold charsOf
  rw [List.length_map]

theorem ascii_append {a b : Bytes} (ha : Ascii a) (hb : Ascii b) : Ascii (a ++ b) := by
  intro c hc
  rcases List.mem_append.1 hc with h | h
  · exact ha c h
  · exact hb c h

theorem ascii_pad {s : Bytes} (h : Ascii s) (n : Nat) : Ascii (Fat8.padRight n s) :=
  ascii_append h fun c hc => by rw [(List.mem_replicate.1 hc).2]; decide

theorem ascii_of_subset {a b : Bytes} (h : ∀ c ∈ a, c ∈ b) (hb : Ascii b) : Ascii a := fun c hc => hb c (h c hc)

/-! ### C117 -/

/-- **C117**: the on-disk form of every accepted name has nine bytes (for any function `up` that unicode.ToUpper may be). -/
def C117_statement (up : Char → Char) : Prop := ∀ name b, filenameToBytes up name = .ok b → b.length = 9

/-- C117 is false: the form of the name consisting of the byte FF has eleven bytes, whatever unicode.ToUpper does with other characters. -/
theorem C117_refuted (up : Char → Char) (hu : Upper up) : ¬ C117_statement up := by
  intro h
  have e : filenameToBytes up [0xFF] = .ok ([0xEF, 0xBF, 0xBD] ++ List.replicate 8 32) := by
    have h1 : filenameToBytes up [0xFF] = .ok (toUpper up (padRight 9 [0xFF])) := rfl
    have h2 : runes (padRight 9 [0xFF]) = '\uFFFD' :: List.replicate 8 ' ' := by decide +kernel
    rw [h1]
    unfold toUpper
    rw [h2, List.flatMap_cons, hu.replacement]
    simp only [List.replicate, List.flatMap_cons, List.flatMap_nil, hu.ascii ' ' (by decide)]
    rfl
  have := h _ _ e
  revert this; decide

/-- **C117 (partial)**, ASCII names: the functions are those of `Fat8/Model.lean`, of which C47 and C48 speak: the result has nine bytes. -/
theorem C117_ascii_partial (up : Char → Char) (hu : Upper up) (name : Bytes) (h : Ascii name) :
    filenameToBytes up name = Fat8.filenameToBytes name ∧ ∀ b, filenameToBytes up name = .ok b → b.length = 9 ∧ Ascii b := by
  have key : filenameToBytes up name = Fat8.filenameToBytes name ∧ ∀ b, Fat8.filenameToBytes name = .ok b → Ascii b := by
    have hup : ∀ s, Ascii s → Ascii (Fat8.toUpper s) := by
      intro s hs c hc
      unfold Fat8.toUpper at hc
      rw [List.mem_map] at hc
      obtain ⟨d, hd, rfl⟩ := hc
      have := hs d hd
      revert this
      exact forall_byte (P := fun d => d < 128 → upperByte d < 128) (by decide +kernel) d
    unfold filenameToBytes Fat8.filenameToBytes
    by_cases hn : name = []
    · simp only [if_pos hn]
      exact ⟨trivial, fun b hb => by cases hb⟩
    simp only [if_neg hn]
    obtain ⟨stem, h0, ⟨h1, h2⟩ | ⟨e, h1, h2⟩⟩ := splitDot_spec name
    · rw [h1]
      simp only
      have hs : Ascii stem := h2 ▸ h
      split
      · exact ⟨rfl, fun b hb => by cases hb⟩
      · rw [padRight_ascii hs, toUpper_ascii hu (ascii_pad hs 9)]
        refine ⟨rfl, fun b hb => ?_⟩
        cases hb
        exact hup _ (ascii_pad hs 9)
    · rw [h1]
      simp only
      have hs : Ascii stem := ascii_of_subset (by rw [h2]; simp +contextual) h
      have he : Ascii e := ascii_of_subset (by rw [h2]; simp +contextual) h
      have hd : Ascii [46] := by unfold Ascii; decide
      split
      · exact ⟨rfl, fun b hb => by cases hb⟩
      · split
        · rw [padRight_ascii hs, padRight_ascii hd, toUpper_ascii hu (ascii_append (ascii_pad hs 6) (ascii_pad hd 3))]
          refine ⟨rfl, fun b hb => ?_⟩
          cases hb
          exact hup _ (ascii_append (ascii_pad hs 6) (ascii_pad hd 3))
        · split
          · exact ⟨rfl, fun b hb => by cases hb⟩
          · rw [padRight_ascii hs, padRight_ascii he, toUpper_ascii hu (ascii_append (ascii_pad hs 6) (ascii_pad he 3))]
            refine ⟨rfl, fun b hb => ?_⟩
            cases hb
            exact hup _ (ascii_append (ascii_pad hs 6) (ascii_pad he 3))
  refine ⟨key.1, fun b hb => ⟨?_, key.2 b (key.1 ▸ hb)⟩⟩
  rw [key.1] at hb
  have hacc := C47_accepts name h
  by_cases h63 : Name63 name
  · obtain ⟨b', h1, h2⟩ := hacc.1 h63
    rw [hb] at h1; cases h1; exact h2
  · obtain ⟨e, he⟩ := hacc.2.1 h63
    rw [hb] at he; cases he

example : filenameToBytes Char.toUpper (utf8 "prog.b".toList) = .ok (utf8 "PROG  B  ".toList) := by decide +kernel

/-- **C117 (partial)**, names of any characters in UTF-8: accepted if stem and extension have at most six and three *bytes*; the on-disk form is the
UTF-8 of exactly nine characters. -/
theorem C117_characters_partial (up : Char → Char) (stem ext : List Char) (hd : '.' ∉ stem) :
    (stem ≠ [] → filenameToBytes up (utf8 stem) =
      if (utf8 stem).length ≤ 6 then .ok (utf8 ((padTo 9 stem).map up)) else .error .nameTooLong) ∧
    (filenameToBytes up (utf8 (stem ++ ['.'])) =
      if (utf8 stem).length ≤ 6 then .ok (utf8 ((padTo 6 stem ++ padTo 3 ['.']).map up)) else .error .nameTooLong) ∧
    (ext ≠ [] → filenameToBytes up (utf8 (stem ++ '.' :: ext)) =
      if (utf8 stem).length ≤ 6 ∧ (utf8 ext).length ≤ 3 then .ok (utf8 ((padTo 6 stem ++ padTo 3 ext).map up)) else .error .nameTooLong) := by
  have hne : ∀ cs : List Char, cs ≠ [] → 1 ≤ (utf8 cs).length := by
    intro cs h
    have := (utf8_length cs).1
    rcases cs with _ | ⟨c, cs⟩
    · exact absurd rfl h
    · simp only [List.length_cons] at this; omega
  have hdot : ∀ e, utf8 (stem ++ '.' :: e) = utf8 stem ++ 46 :: utf8 e := by
    intro e
    rw [utf8_append]; rfl
  have hm := dot_mem stem hd
  refine ⟨fun h => ?_, ?_, fun h => ?_⟩
  · have h1 := hne stem h
    unfold filenameToBytes
    rw [if_neg (by intro h2; rw [h2] at h1; simp at h1), splitDot_none hm]
    simp only
    rw [padRight_utf8, toUpper_utf8]
    split <;> split <;> first | rfl | omega
  · unfold filenameToBytes
    rw [hdot, if_neg (by simp), splitDot_some hm]
    simp only
    have e1 : ([46] : Bytes) = utf8 ['.'] := rfl
    have e2 : (utf8 ([] : List Char)).length = 0 := rfl
    rw [e1, padRight_utf8, padRight_utf8, ← utf8_append, toUpper_utf8, if_pos e2]
    split <;> split <;> first | rfl | omega
  · have h1 := hne ext h
    unfold filenameToBytes
    rw [hdot, if_neg (by simp), splitDot_some hm]
    simp only
    rw [padRight_utf8, padRight_utf8, ← utf8_append, toUpper_utf8, if_neg (by omega : ¬ (utf8 ext).length = 0)]
    split
    · rw [if_neg (by omega)]
    · split
      · rw [if_neg (by omega)]
      · rw [if_pos (by omega)]

/-- **C117 (partial)**: so the form of such a name has nine bytes exactly when the upper-case forms of all its characters are ASCII. -/
theorem C117_nine_bytes_iff_partial (up : Char → Char) (hu : Upper up) (stem ext : List Char) (b : Bytes) (hd : '.' ∉ stem)
    (h : filenameToBytes up (utf8 (stem ++ '.' :: ext)) = .ok b) : b.length = 9 ↔ ∀ c ∈ stem ++ ext, (up c).val < 128 := by
  obtain ⟨_, h2, h3⟩ := C117_characters_partial up stem ext hd
  have hsp : (up ' ').val < 128 := by rw [hu.ascii ' ' (by decide)]; decide
  have hdt : (up '.').val < 128 := by rw [hu.ascii '.' (by decide)]; decide
  have hpad : ∀ n cs, (∀ c ∈ padTo n cs, (up c).val < 128) ↔ ∀ c ∈ cs, (up c).val < 128 := by
    intro n cs
    unfold padTo
    constructor
    · intro h c hc; exact h c (by simp [hc])
    · intro h c hc
      rcases List.mem_append.1 hc with hc | hc
      · exact h c hc
      · rw [(List.mem_replicate.1 hc).2]; exact hsp
  have hlen : ∀ n cs, cs.length ≤ n → (padTo n cs).length = n := by
    intro n cs h
    unfold padTo
    rw [List.length_append, List.length_replicate]; omega
  have hmap : ∀ cs : List Char, (∀ c ∈ cs.map up, c.val < 128) ↔ ∀ c ∈ cs, (up c).val < 128 := by
    intro cs
    constructor
    · intro h c hc; exact h _ (List.mem_map_of_mem hc)
    · intro h c hc
      obtain ⟨d, hd, rfl⟩ := List.mem_map.1 hc
      exact h d hd
  have happ : ∀ a b : List Char, (∀ c ∈ a ++ b, (up c).val < 128) ↔ (∀ c ∈ a, (up c).val < 128) ∧ ∀ c ∈ b, (up c).val < 128 := by
    intro a b
    constructor
    · intro h; exact ⟨fun c hc => h c (by simp [hc]), fun c hc => h c (by simp [hc])⟩
    · rintro ⟨h1, h2⟩ c hc
      rcases List.mem_append.1 hc with hc | hc
      · exact h1 c hc
      · exact h2 c hc
  by_cases he : ext = []
  · subst he
    rw [h2] at h
    split at h
    · rename_i hl
      cases h
      have hs := (utf8_length stem).1
      have h9 : ((padTo 6 stem ++ padTo 3 ['.']).map up).length = 9 := by
        rw [List.length_map, List.length_append, hlen 6 stem (by omega), hlen 3 ['.'] (by decide)]
      have := (utf8_length ((padTo 6 stem ++ padTo 3 ['.']).map up)).2
      rw [h9, hmap, happ, hpad, hpad] at this
      rw [this, happ]
      simp [hdt]
    · cases h
  · rw [h3 he] at h
    split at h
    · rename_i hl
      cases h
      have hs := (utf8_length stem).1
      have hx := (utf8_length ext).1
      have h9 : ((padTo 6 stem ++ padTo 3 ext).map up).length = 9 := by
        rw [List.length_map, List.length_append, hlen 6 stem (by omega), hlen 3 ext (by omega)]
      have := (utf8_length ((padTo 6 stem ++ padTo 3 ext).map up)).2
      rw [h9, hmap, happ, hpad, hpad] at this
      rw [this, happ]
    · cases h

/-- "né.e" is stored in ten bytes. -/
example : filenameToBytes Char.toUpper (utf8 "né.e".toList) = .ok (utf8 "Né    E  ".toList) ∧ (utf8 "Né    E  ".toList).length = 10 := by decide +kernel

/-! ### C118 -/

/-- **C118**: the name that BytesToFilename gives for nine bytes (not all of them spaces, no lower-case ASCII letters, no period in the stem) stands for those
bytes. -/
def C118_statement (up : Char → Char) : Prop :=
  ∀ raw : Bytes, raw.length = 9 → raw ≠ List.replicate 9 32 → (46 : UInt8) ∉ raw.take 6 → (∀ c ∈ raw, ¬ (97 ≤ c ∧ c ≤ 122)) →
    ∃ name, bytesToFilename up raw = .ret name ∧ filenameToBytes up name = .ok raw

/-- The name of nine bytes of which one is not ASCII: FF (or FE) and eight spaces. -/
theorem name_of_byte (up : Char → Char) (hu : Upper up) (b : UInt8) (h : b = 0xFF ∨ b = 0xFE) :
    bytesToFilename up (b :: List.replicate 8 32) = .ret [0xEF, 0xBF, 0xBD] := by
  have h1 : bytesToFilename up (b :: List.replicate 8 32) = .ret (toUpper up [b]) := by
    rcases h with rfl | rfl <;> rfl
  have h2 : runes [b] = ['\uFFFD'] := by
    rcases h with rfl | rfl <;> decide +kernel
  rw [h1]
  unfold toUpper
  rw [h2, List.flatMap_cons, hu.replacement]
  rfl

/-- C118 is false: all bytes that are not ASCII (and not UTF-8) are read as U+FFFD. -/
theorem C118_refuted (up : Char → Char) (hu : Upper up) : ¬ C118_statement up := by
  intro h
  obtain ⟨n1, a1, b1⟩ := h (0xFF :: List.replicate 8 32) (by decide) (by decide) (by decide) (by decide)
  obtain ⟨n2, a2, b2⟩ := h (0xFE :: List.replicate 8 32) (by decide) (by decide) (by decide) (by decide)
  rw [name_of_byte up hu _ (.inl rfl)] at a1
  rw [name_of_byte up hu _ (.inr rfl)] at a2
  cases a1
  cases a2
  rw [b1] at b2
  revert b2; decide

/-- Two files of a disk that only differ in such bytes have the same name. -/
theorem C118_same_name (up : Char → Char) (hu : Upper up) :
    bytesToFilename up (0xFF :: List.replicate 8 32) = bytesToFilename up (0xFE :: List.replicate 8 32) := by
  rw [name_of_byte up hu _ (.inl rfl), name_of_byte up hu _ (.inr rfl)]

theorem trim_pad (s : Bytes) : ∃ k, s = trimRight s ++ List.replicate k 32 := by
  have h : ∀ l : Bytes, ∃ k, l = List.replicate k 32 ++ l.dropWhile (fun x => decide (x = 32)) := by
    intro l
    induction l with
    | nil => exact ⟨0, rfl⟩
    | cons c l ih =>
      by_cases hc : c = 32
      · obtain ⟨k, hk⟩ := ih
        refine ⟨k + 1, ?_⟩
        rw [List.dropWhile_cons, if_pos (by simpa using hc), List.replicate_succ, List.cons_append, ← hk, hc]
      · refine ⟨0, ?_⟩
        rw [List.dropWhile_cons, if_neg (by simpa using hc)]; rfl
  obtain ⟨k, hk⟩ := h s.reverse
  refine ⟨k, ?_⟩
  unfold trimRight
  have := congrArg List.reverse hk
  rw [List.reverse_reverse, List.reverse_append, List.reverse_replicate] at this
  exact this

/-- On ASCII bytes BytesToFilename is the function of `Fat8/Model.lean`. -/
theorem C118_ascii_model_partial (up : Char → Char) (hu : Upper up) (raw : Bytes) (ha : Ascii raw) :
    bytesToFilename up raw = Fat8.bytesToFilename raw := by
  have htr : ∀ s : Bytes, Ascii s → Ascii (trimRight s) := by
    intro s hs
    obtain ⟨k, hk⟩ := trim_pad s
    exact ascii_of_subset (fun c hc => by rw [hk]; simp [hc]) hs
  have h1 : Ascii (trimRight (raw.take 6)) := htr _ (ascii_of_subset (fun c hc => List.mem_of_mem_take hc) ha)
  have h2 : Ascii (trimRight (raw.drop 6)) := htr _ (ascii_of_subset (fun c hc => List.mem_of_mem_drop hc) ha)
  unfold bytesToFilename Fat8.bytesToFilename
  split
  · rfl
  · simp only
    rw [toUpper_ascii hu]
    split
    · exact ascii_append (ascii_append h1 (by unfold Ascii; decide)) h2
    · exact h1

/-- **C118 (partial)**: for ASCII bytes. -/
theorem C118_ascii_partial (up : Char → Char) (hu : Upper up) (raw : Bytes) (ha : Ascii raw) (hl : raw.length = 9)
    (hb : raw ≠ List.replicate 9 32) (hd : (46 : UInt8) ∉ raw.take 6) (hc : ∀ c ∈ raw, ¬ (97 ≤ c ∧ c ≤ 122)) :
    ∃ name, bytesToFilename up raw = .ret name ∧ filenameToBytes up name = .ok raw := by
  have hup : ∀ s : Bytes, (∀ c ∈ s, c ∈ raw) → Fat8.toUpper s = s := by
    intro s hs
    unfold Fat8.toUpper
    rw [List.map_congr_left (g := id), List.map_id]
    intro c hm
    unfold upperByte
    rw [if_neg (hc c (hs c hm))]; rfl
  obtain ⟨j, hj⟩ := trim_pad (raw.take 6)
  obtain ⟨k, hk⟩ := trim_pad (raw.drop 6)
  generalize hS : trimRight (raw.take 6) = S at *
  generalize hE : trimRight (raw.drop 6) = E at *
  have hsplit : raw = (S ++ List.replicate j 32) ++ (E ++ List.replicate k 32) := by
    rw [← hj, ← hk, List.take_append_drop]
  have l6 : S.length + j = 6 := by
    have := congrArg List.length hj
    rw [List.length_take, List.length_append, List.length_replicate] at this; omega
  have l3 : E.length + k = 3 := by
    have := congrArg List.length hk
    rw [List.length_drop, List.length_append, List.length_replicate] at this; omega
  have hsub : ∀ c ∈ S, c ∈ raw := by intro c hc; rw [hsplit]; simp [hc]
  have hsubE : ∀ c ∈ E, c ∈ raw := by intro c hc; rw [hsplit]; simp [hc]
  have aS : Ascii S := ascii_of_subset hsub ha
  have aE : Ascii E := ascii_of_subset hsubE ha
  have hdS : (46 : UInt8) ∉ S := by
    intro h; apply hd; rw [hj]; simp [h]
  have pS : Fat8.padRight 6 S = S ++ List.replicate j 32 := by
    unfold Fat8.padRight; congr 2; omega
  by_cases hE0 : E = []
  · have hS0 : S ≠ [] := by
      intro h
      apply hb
      rw [hsplit, h, hE0]
      simp only [List.nil_append, List.replicate_append_replicate]
      congr 1
      rw [h] at l6; rw [hE0] at l3; simp at l6 l3; omega
    refine ⟨S, ?_, ?_⟩
    · unfold bytesToFilename
      rw [if_neg (by omega)]
      simp only
      rw [hS, hE, hE0, if_neg (by decide), toUpper_ascii hu aS, hup S hsub]
    · rw [(C117_ascii_partial up hu S aS).1]
      unfold Fat8.filenameToBytes
      rw [if_neg hS0, splitDot_none hdS]
      simp only
      rw [if_neg (by omega)]
      have e : Fat8.padRight 9 S = raw := by
        rw [hsplit, hE0]
        unfold Fat8.padRight
        rw [List.append_assoc, List.nil_append, List.replicate_append_replicate]
        congr 2
        rw [hE0] at l3; simp at l3; omega
      rw [e, hup raw (fun _ h => h)]
  · have hE1 : 1 ≤ E.length := by
      rcases E with _ | ⟨x, y⟩
      · exact absurd rfl hE0
      · simp
    have aN : Ascii (S ++ [46] ++ E) := ascii_append (ascii_append aS (by unfold Ascii; decide)) aE
    have uN : Fat8.toUpper (S ++ [46] ++ E) = S ++ [46] ++ E := by
      rw [toUpper_append, toUpper_append, hup S hsub, hup E hsubE]; rfl
    refine ⟨S ++ [46] ++ E, ?_, ?_⟩
    · unfold bytesToFilename
      rw [if_neg (by omega)]
      simp only
      rw [hS, hE, if_pos (by omega), toUpper_ascii hu aN, uN]
    · rw [(C117_ascii_partial up hu _ aN).1]
      unfold Fat8.filenameToBytes
      rw [if_neg (by simp), List.append_assoc, List.singleton_append, splitDot_some hdS]
      simp only
      rw [if_neg (by omega), if_neg (by omega), if_neg (by omega)]
      have pE : Fat8.padRight 3 E = E ++ List.replicate k 32 := by
        unfold Fat8.padRight; congr 2; omega
      rw [pS, pE, ← hsplit, hup raw (fun _ h => h)]

example : bytesToFilename Char.toUpper (utf8 "A B   .  ".toList) = .ret (utf8 "A B..".toList) ∧
    filenameToBytes Char.toUpper (utf8 "A B..".toList) = .ok (utf8 "A B   .  ".toList) := by decide +kernel

end Disko.Fat8.Names

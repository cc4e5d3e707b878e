import Verif.Fat8.Props4
/-! C117, C118 for names and directory entries of any bytes, valid UTF-8 or not. -/
namespace Disko.Fat8.Names
open Disko

/-- The string does not begin with a UTF-8 continuation byte (80 to BF). -/
def Starts (t : Bytes) : Prop := ∀ c t', t = c :: t' → c.toNat < 0x80 ∨ 0xBF < c.toNat

theorem starts_spaces (n : Nat) (t : Bytes) (h : n ≠ 0) : Starts (List.replicate n 32 ++ t) := by
  intro c t' e
  rcases n with _ | n
  · exact absurd rfl h
  · rw [List.replicate_succ, List.cons_append] at e
    injection e with e _
    subst e; left; decide

theorem starts_pad (n : Nat) : Starts (List.replicate n 32) := by
  rcases n with _ | n
  · intro c t' e; cases e
  · have := starts_spaces (n + 1) [] (by omega)
    rwa [List.append_nil] at this

theorem decodeRune_append (b : UInt8) (s t : Bytes) (h : Starts t) : decodeRune (b :: s ++ t) = decodeRune (b :: s) := by
  have hlo : ∀ n : Nat, 0x80 ≤ (if n = 0xE0 then 0xA0 else if n = 0xF0 then 0x90 else 0x80) := by
    intro n; (repeat' split) <;> omega
  have hhi : ∀ n : Nat, (if n = 0xED then 0x9F else if n = 0xF4 then 0x8F else 0xBF) ≤ 0xBF := by
    intro n; (repeat' split) <;> omega
  have hl := hlo b.toNat
  have hh := hhi b.toNat
  unfold decodeRune
  simp only [List.cons_append]
  generalize (if b.toNat = 0xE0 then 0xA0 else if b.toNat = 0xF0 then 0x90 else 0x80) = lo at *
  generalize (if b.toNat = 0xED then 0x9F else if b.toNat = 0xF4 then 0x8F else 0xBF) = hi at *
  split
  · rfl
  split
  · rfl
  rcases s with _ | ⟨b1, s⟩
  · rcases t with _ | ⟨c, t⟩
    · rfl
    · have := h c t rfl
      simp only [List.nil_append]
      rw [if_pos (by omega)]
  simp only [List.cons_append]
  split
  · rfl
  split
  · rfl
  rcases s with _ | ⟨b2, s⟩
  · rcases t with _ | ⟨c, t⟩
    · rfl
    · have := h c t rfl
      simp only [List.nil_append]
      rw [if_pos (by omega)]
  simp only [List.cons_append]
  split
  · rfl
  split
  · rfl
  rcases s with _ | ⟨b3, s⟩
  · rcases t with _ | ⟨c, t⟩
    · rfl
    · have := h c t rfl
      simp only [List.nil_append]
      rw [if_pos (by omega)]
  rfl

theorem decodeRune_size (b : UInt8) (s : Bytes) : (decodeRune (b :: s)).2 ≤ (b :: s).length := by
  unfold decodeRune
  simp only
  generalize (if b.toNat = 0xE0 then 0xA0 else if b.toNat = 0xF0 then 0x90 else 0x80) = lo at *
  generalize (if b.toNat = 0xED then 0x9F else if b.toNat = 0xF4 then 0x8F else 0xBF) = hi at *
  split
  · simp
  split
  · simp
  rcases s with _ | ⟨b1, s⟩
  · simp
  simp only
  split
  · simp
  split
  · simp
  rcases s with _ | ⟨b2, s⟩
  · simp
  simp only
  split
  · simp
  split
  · simp
  rcases s with _ | ⟨b3, s⟩
  · simp
  simp only
  split <;> simp

theorem runesFrom_append (s t : Bytes) (h : Starts t) : ∀ k, k ≤ s.length → runesFrom k (s ++ t) = runesFrom k s ++ runes t := by
  induction s with
  | nil =>
    intro k hk
    have : k = 0 := by simpa using hk
    subst this
    rfl
  | cons b s ih =>
    intro k hk
    rcases k with _ | k
    · have h1 := decodeRune_append b s t h
      have h2 := decodeRune_size b s
      show (decodeRune (b :: s ++ t)).1 :: runesFrom ((decodeRune (b :: s ++ t)).2 - 1) (s ++ t) = _
      rw [h1, ih _ (by simp only [List.length_cons] at h2; omega)]
      rfl
    · exact ih k (by simpa using hk)

/-- A string that is cut where no continuation byte follows has the runes of both parts. -/
theorem runes_append (s t : Bytes) (h : Starts t) : runes (s ++ t) = runes s ++ runes t :=
  runesFrom_append s t h 0 (Nat.zero_le _)

theorem runes_spaces (n : Nat) : runes (List.replicate n 32) = List.replicate n ' ' := by
  rw [← utf8_spaces, runes_utf8]

theorem runes_pad (n : Nat) (s : Bytes) : runes (padRight n s) = padTo n (runes s) := by
  unfold padRight padTo
  rw [runes_append _ _ (starts_pad _), runes_spaces]

theorem toUpper_runes (up : Char → Char) (s : Bytes) : toUpper up s = utf8 ((runes s).map up) := by
  unfold toUpper utf8
  rw [List.flatMap_map]

theorem runesFrom_length (s : Bytes) : ∀ k, (runesFrom k s).length ≤ s.length := by
  induction s with
  | nil => intro k; unfold runesFrom; exact Nat.le_refl _
  | cons b s ih =>
    intro k
    rcases k with _ | k
    · have := ih ((decodeRune (b :: s)).2 - 1)
      show ((decodeRune (b :: s)).1 :: runesFrom ((decodeRune (b :: s)).2 - 1) s).length ≤ _
      simp only [List.length_cons]; omega
    · have := ih k
      show (runesFrom k s).length ≤ _
      simp only [List.length_cons]; omega

theorem runes_ne {s : Bytes} (h : s ≠ []) : runes s ≠ [] := by
  rcases s with _ | ⟨b, s⟩
  · exact absurd rfl h
  · unfold runes runesFrom; simp

/-- **C117 (partial)**, names of any bytes (valid UTF-8 or not), of a stem without a period and an extension: accepted exactly if these have at
most six and three bytes.  The stored form is always UTF-8: of the characters of the name (U+FFFD for what is not UTF-8), padded with spaces and
in upper case; that are nine characters, unless the stem has six characters and the extension begins with a continuation byte: then the last byte of
the stem may be put together with it, which gives fewer characters. -/
theorem C117_bytes_partial (up : Char → Char) (stem ext : Bytes) (hd : (46 : UInt8) ∉ stem) :
    (stem ≠ [] → filenameToBytes up stem =
      if stem.length ≤ 6 then .ok (utf8 ((padTo 9 (runes stem)).map up)) else .error .nameTooLong) ∧
    (filenameToBytes up (stem ++ [46]) =
      if stem.length ≤ 6 then .ok (utf8 ((padTo 6 (runes stem) ++ padTo 3 ['.']).map up)) else .error .nameTooLong) ∧
    (ext ≠ [] → (¬ (stem.length ≤ 6 ∧ ext.length ≤ 3) → filenameToBytes up (stem ++ 46 :: ext) = .error .nameTooLong) ∧
      (stem.length ≤ 6 → ext.length ≤ 3 →
        ((runes stem).length < 6 ∨ Starts ext → filenameToBytes up (stem ++ 46 :: ext) =
          .ok (utf8 ((padTo 6 (runes stem) ++ padTo 3 (runes ext)).map up))) ∧
        ((runes stem).length = 6 → filenameToBytes up (stem ++ 46 :: ext) =
          .ok (utf8 ((runes (stem ++ ext) ++ List.replicate (3 - (runes ext).length) ' ').map up))))) := by
  refine ⟨fun h => ?_, ?_, fun h => ?_⟩
  · unfold filenameToBytes
    rw [if_neg h, splitDot_none hd]
    simp only
    rw [toUpper_runes, runes_pad]
    split <;> split <;> first | rfl | omega
  · unfold filenameToBytes
    rw [if_neg (by simp), splitDot_some hd]
    simp only
    have hst : Starts (padRight 3 [46]) := by
      intro c t' e
      have : padRight 3 [46] = [46, 32, 32] := by decide +kernel
      rw [this] at e
      injection e with e _
      subst e; left; decide
    rw [toUpper_runes, runes_append _ _ hst, runes_pad, runes_pad, if_pos (show ([] : Bytes).length = 0 from rfl)]
    have e : runes [46] = ['.'] := by decide +kernel
    rw [e]
    split <;> split <;> first | rfl | omega
  · have hl : ¬ ext.length = 0 := by simpa using h
    have hcalc : stem.length ≤ 6 → ext.length ≤ 3 →
        filenameToBytes up (stem ++ 46 :: ext) = .ok (utf8 ((runes (padRight 6 stem ++ padRight 3 ext)).map up)) := by
      intro h1 h2
      unfold filenameToBytes
      rw [if_neg (by simp), splitDot_some hd]
      simp only
      rw [if_neg (by omega), if_neg hl, if_neg (by omega), toUpper_runes]
    refine ⟨fun hn => ?_, fun h1 h2 => ⟨fun hc => ?_, fun h6 => ?_⟩⟩
    · unfold filenameToBytes
      rw [if_neg (by simp), splitDot_some hd]
      simp only
      split
      · rfl
      · rw [if_pos (by omega)]
    · rw [hcalc h1 h2]
      by_cases h6 : (runes stem).length < 6
      · have e : padRight 6 stem ++ padRight 3 ext = stem ++ (List.replicate (6 - (runes stem).length) 32 ++ padRight 3 ext) := by
          unfold padRight; rw [List.append_assoc]
        have e2 : List.replicate (6 - (runes stem).length) 32 ++ padRight 3 ext =
            utf8 (List.replicate (6 - (runes stem).length) ' ') ++ padRight 3 ext := by rw [utf8_spaces]
        rw [e, runes_append _ _ (starts_spaces _ _ (by omega)), e2, runes_utf8_append, runes_pad, ← List.append_assoc]
        rfl
      · have hst : Starts (padRight 3 ext) := by
          have := hc.resolve_left h6
          intro c t' e
          rcases ext with _ | ⟨x, y⟩
          · exact absurd rfl h
          · unfold padRight at e
            rw [List.cons_append] at e
            injection e with e _
            subst e
            exact this x y rfl
        rw [runes_append _ _ hst, runes_pad, runes_pad]
    · rw [hcalc h1 h2]
      have e : padRight 6 stem ++ padRight 3 ext = stem ++ ext ++ List.replicate (3 - (runes ext).length) 32 := by
        unfold padRight
        rw [h6, Nat.sub_self, List.replicate_zero, List.append_nil, List.append_assoc]
      rw [e, runes_append _ _ (starts_pad _), runes_spaces]

/-- "aaaaa" and C3, a period, A9: the two bytes are put together to é. -/
example : filenameToBytes Char.toUpper (utf8 "aaaaa".toList ++ [0xC3, 46, 0xA9]) = .ok (utf8 "AAAAAé  ".toList) ∧
    runes (utf8 "aaaaa".toList ++ [0xC3]) = "aaaaa\uFFFD".toList ∧
    filenameToBytes Char.toUpper (utf8 "aaaa".toList ++ [0xC3, 46, 0xA9]) = .ok (utf8 "AAAA\uFFFD \uFFFD  ".toList) := by decide +kernel

/-! ### C118 -/

theorem name_utf8 (up : Char → Char) (raw name : Bytes) (h : bytesToFilename up raw = .ret name) : ∃ cs, name = utf8 cs := by
  unfold bytesToFilename at h
  split at h
  · cases h
  · simp only at h
    cases h
    exact ⟨_, toUpper_runes _ _⟩

theorem split_char (cs : List Char) : ('.' ∉ cs) ∨ ∃ stem ext, '.' ∉ stem ∧ cs = stem ++ '.' :: ext := by
  induction cs with
  | nil => left; simp
  | cons c cs ih =>
    by_cases h : c = '.'
    · right; exact ⟨[], cs, by simp, by rw [h]; rfl⟩
    · rcases ih with h1 | ⟨s, e, h1, h2⟩
      · left
        rw [List.mem_cons]; rintro (h3 | h3)
        · exact h h3.symm
        · exact h1 h3
      · right
        refine ⟨c :: s, e, ?_, by rw [h2]; rfl⟩
        rw [List.mem_cons]; rintro (h3 | h3)
        · exact h h3.symm
        · exact h1 h3

theorem padTo_length (n : Nat) (cs : List Char) (h : cs.length ≤ n) : (padTo n cs).length = n := by
  unfold padTo
  rw [List.length_append, List.length_replicate]; omega

/-- The stored form of a name of characters is UTF-8 of nine characters. -/
theorem stored_nine (up : Char → Char) (cs : List Char) (b : Bytes) (h : filenameToBytes up (utf8 cs) = .ok b) :
    ∃ ds : List Char, ds.length = 9 ∧ b = utf8 ds := by
  rcases split_char cs with hd | ⟨stem, ext, hd, rfl⟩
  · by_cases hn : cs = []
    · subst hn
      cases h
    · have hl := (utf8_length cs).1
      rw [(C117_characters_partial up cs [] hd).1 hn] at h
      split at h
      · cases h
        exact ⟨_, by rw [List.length_map, padTo_length 9 cs (by omega)], rfl⟩
      · cases h
  · have hl := (utf8_length stem).1
    have hx := (utf8_length ext).1
    obtain ⟨_, h2, h3⟩ := C117_characters_partial up stem ext hd
    by_cases he : ext = []
    · subst he
      rw [h2] at h
      split at h
      · cases h
        exact ⟨_, by rw [List.length_map, List.length_append, padTo_length 6 stem (by omega), padTo_length 3 ['.'] (by decide)], rfl⟩
      · cases h
    · rw [h3 he] at h
      split at h
      · cases h
        exact ⟨_, by rw [List.length_map, List.length_append, padTo_length 6 stem (by omega), padTo_length 3 ext (by omega)], rfl⟩
      · cases h

theorem ascii_utf8 {ds : List Char} (h : ∀ c ∈ ds, c.val < 128) : Ascii (utf8 ds) := by
  intro b hb
  unfold utf8 at hb
  rw [List.mem_flatMap] at hb
  obtain ⟨c, hc, hb⟩ := hb
  have h1 : c.val.toNat < 128 := h c hc
  rw [enc_small c (h c hc), List.mem_singleton] at hb
  rw [hb]
  show (UInt8.ofNat c.val.toNat).toNat < 128
  rw [UInt8.toNat_ofNat']
  omega

theorem first_dot (s : Bytes) (h : (46 : UInt8) ∈ s) : ∃ a e, (46 : UInt8) ∉ a ∧ s = a ++ 46 :: e := by
  induction s with
  | nil => simp at h
  | cons c s ih =>
    by_cases hc : c = 46
    · exact ⟨[], s, by simp, by rw [hc]; rfl⟩
    · have : (46 : UInt8) ∈ s := by
        rcases List.mem_cons.1 h with h | h
        · exact absurd h.symm hc
        · exact h
      obtain ⟨a, e, h1, h2⟩ := ih this
      refine ⟨c :: a, e, ?_, by rw [h2]; rfl⟩
      rw [List.mem_cons]; rintro (h3 | h3)
      · exact hc h3.symm
      · exact h1 h3

/-- The stored form of an ASCII name has no lower-case letters, and a space in the place of a period within the first six characters. -/
theorem stored_dot (stem ext b : Bytes) (hd : (46 : UInt8) ∉ stem) (hl : stem.length < 6)
    (h : Fat8.filenameToBytes (stem ++ 46 :: ext) = .ok b) : b[stem.length]? = some 32 := by
  have key : ∀ t : Bytes, (Fat8.toUpper (Fat8.padRight 6 stem ++ t))[stem.length]? = some 32 := by
    intro t
    unfold Fat8.toUpper Fat8.padRight
    rw [List.getElem?_map, List.append_assoc, List.getElem?_append_right (Nat.le_refl _), Nat.sub_self,
      List.getElem?_append_left (by rw [List.length_replicate]; omega), List.getElem?_replicate, if_pos (by omega)]
    rfl
  unfold Fat8.filenameToBytes at h
  rw [if_neg (by simp), splitDot_some hd] at h
  simp only at h
  rw [if_neg (by omega)] at h
  split at h
  · cases h; exact key _
  · split at h
    · cases h
    · cases h; exact key _

theorem stored_upper (name b : Bytes) (h : Fat8.filenameToBytes name = .ok b) : ∀ c ∈ b, ¬ (97 ≤ c ∧ c ≤ 122) := by
  have key : ∀ s : Bytes, ∀ c ∈ Fat8.toUpper s, ¬ (97 ≤ c ∧ c ≤ 122) := by
    intro s c hc
    unfold Fat8.toUpper at hc
    obtain ⟨d, _, rfl⟩ := List.mem_map.1 hc
    exact forall_byte (P := fun d => ¬ (97 ≤ upperByte d ∧ upperByte d ≤ 122)) (by decide +kernel) d
  unfold Fat8.filenameToBytes at h
  by_cases hn : name = []
  · rw [if_pos hn] at h; cases h
  · rw [if_neg hn] at h
    simp only at h
    split at h
    · cases h
    · split at h
      · split at h
        · cases h; exact key _
        · split at h
          · cases h
          · cases h; exact key _
      · cases h; exact key _

/-- **C118, exactly**: the nine bytes of a directory entry are those of the name that is given for them exactly if they are ASCII, not all spaces,
without lower-case letters and without a period in the first six. -/
theorem C118_exact_partial (up : Char → Char) (hu : Upper up) (raw : Bytes) (hl : raw.length = 9) :
    (∃ name, bytesToFilename up raw = .ret name ∧ filenameToBytes up name = .ok raw) ↔
      (∀ c ∈ raw, c < 128) ∧ raw ≠ List.replicate 9 32 ∧ (46 : UInt8) ∉ raw.take 6 ∧ ∀ c ∈ raw, ¬ (97 ≤ c ∧ c ≤ 122) := by
  constructor
  · rintro ⟨name, h1, h2⟩
    obtain ⟨cs, rfl⟩ := name_utf8 up raw name h1
    obtain ⟨ds, h9, hr⟩ := stored_nine up cs raw h2
    have ha : Ascii raw := by
      rw [hr]
      apply ascii_utf8
      rw [← (utf8_length ds).2, ← hr, hl, h9]
    rw [C118_ascii_model_partial up hu raw ha] at h1
    have hS : ∀ s : Bytes, (∀ c ∈ s, c ∈ raw) → Ascii s := fun s hs => ascii_of_subset hs ha
    have hname : Ascii (utf8 cs) := by
      have := h1
      unfold Fat8.bytesToFilename at this
      rw [if_neg (by omega)] at this
      simp only at this
      have hup : ∀ s, Ascii s → Ascii (Fat8.toUpper s) := by
        intro s hs c hc
        unfold Fat8.toUpper at hc
        rw [List.mem_map] at hc
        obtain ⟨d, hd, rfl⟩ := hc
        have := hs d hd
        revert this
        exact forall_byte (P := fun d => d < 128 → upperByte d < 128) (by decide +kernel) d
      have t1 : Ascii (trimRight (raw.take 6)) := by
        obtain ⟨k, hk⟩ := trim_pad (raw.take 6)
        exact hS _ fun c hc => List.mem_of_mem_take (by rw [hk]; simp [hc])
      have t2 : Ascii (trimRight (raw.drop 6)) := by
        obtain ⟨k, hk⟩ := trim_pad (raw.drop 6)
        exact hS _ fun c hc => List.mem_of_mem_drop (by rw [hk]; simp [hc])
      injection this with this
      rw [← this]
      apply hup
      split
      · exact ascii_append (ascii_append t1 (by unfold Ascii; decide)) t2
      · exact t1
    rw [(C117_ascii_partial up hu _ hname).1] at h2
    have hlow := stored_upper _ _ h2
    refine ⟨ha, ?_, ?_, hlow⟩
    · intro hb
      rw [hb] at h1 h2
      have : Fat8.bytesToFilename (List.replicate 9 32) = .ret [] := by decide +kernel
      rw [this] at h1
      injection h1 with h1
      rw [← h1] at h2
      cases h2
    · intro hdot
      obtain ⟨k, hk⟩ := trim_pad (raw.take 6)
      have hin : (46 : UInt8) ∈ trimRight (raw.take 6) := by
        rw [hk] at hdot
        rcases List.mem_append.1 hdot with h | h
        · exact h
        · exact absurd (List.mem_replicate.1 h).2 (by decide)
      obtain ⟨a, e, hda, hae⟩ := first_dot _ hin
      have hlen : a.length < 6 := by
        have := congrArg List.length hk
        rw [hae, List.length_take, hl] at this
        simp only [List.length_append, List.length_cons, List.length_replicate] at this
        omega
      have hup : ∀ s : Bytes, (∀ c ∈ s, c ∈ raw) → Fat8.toUpper s = s := by
        intro s hs
        unfold Fat8.toUpper
        rw [List.map_congr_left (g := id), List.map_id]
        intro c hm
        unfold upperByte
        rw [if_neg (hlow c (hs c hm))]; rfl
      have hsa : ∀ c ∈ a, c ∈ raw := fun c hc => List.mem_of_mem_take (by rw [hk, hae]; simp [hc])
      have hat : raw[a.length]? = some 46 := by
        have : (raw.take 6)[a.length]? = some 46 := by
          rw [hk, hae, List.append_assoc, List.getElem?_append_right (Nat.le_refl _), Nat.sub_self]; rfl
        rwa [List.getElem?_take, if_pos hlen] at this
      have hform : ∃ e', utf8 cs = a ++ 46 :: e' := by
        unfold Fat8.bytesToFilename at h1
        rw [if_neg (by omega)] at h1
        simp only at h1
        injection h1 with h1
        rw [← h1, hae]
        have h46 : Fat8.toUpper [46] = [46] := by decide
        split
        · refine ⟨Fat8.toUpper (e ++ [46] ++ trimRight (raw.drop 6)), ?_⟩
          rw [show a ++ 46 :: e ++ [46] ++ trimRight (raw.drop 6) = a ++ ([46] ++ (e ++ [46] ++ trimRight (raw.drop 6))) by simp,
            toUpper_append, toUpper_append, hup a hsa, h46]; rfl
        · refine ⟨Fat8.toUpper e, ?_⟩
          rw [show a ++ 46 :: e = a ++ ([46] ++ e) by simp, toUpper_append, toUpper_append, hup a hsa, h46]; rfl
      obtain ⟨e', he'⟩ := hform
      rw [he'] at h2
      have := stored_dot a e' raw hda hlen h2
      rw [hat] at this
      revert this; decide
  · rintro ⟨h1, h2, h3, h4⟩
    exact C118_ascii_partial up hu raw h1 hl h2 h3 h4

/-- "AB.C" as a stem: read as AB.C, which is stored with its extension. -/
example : bytesToFilename Char.toUpper (utf8 "AB.C     ".toList) = .ret (utf8 "AB.C".toList) ∧
    filenameToBytes Char.toUpper (utf8 "AB.C".toList) = .ok (utf8 "AB    C  ".toList) := by decide +kernel

/-! ### The characters of a string -/

/-- How Go reads a string as characters (language specification, "for statements with range clause"): UTF-8 sequences are characters, every
byte at which none begins is U+FFFD. -/
inductive Reads : Bytes → List Char → Prop
  | nil : Reads [] []
  | char (c : Char) {t : Bytes} {cs : List Char} : Reads t cs → Reads (String.utf8EncodeChar c ++ t) (c :: cs)
  | bad (b : UInt8) {t : Bytes} {cs : List Char} : (∀ c : Char, ¬ String.utf8EncodeChar c <+: b :: t) → Reads t cs → Reads (b :: t) ('\uFFFD' :: cs)

theorem enc_ofNat {v : Nat} (h : v < 0xD800 ∨ (0xDFFF < v ∧ v < 0x110000)) : (Char.ofNat v).val.toNat = v := by
  have hv : v.isValidChar := by
    rcases h with h | h
    · exact .inl h
    · exact .inr h
  show (Char.ofNat v).toNat = v
  rw [Char.ofNat, dif_pos hv]
  rfl

theorem byte_eq {b : UInt8} {n : Nat} (h : n = b.toNat) : UInt8.ofNat n = b := by rw [h]; simp

/-- What is decoded is there. -/
theorem decode_sound (b : UInt8) (s : Bytes) : decodeRune (b :: s) = ('\uFFFD', 1) ∨
    (String.utf8EncodeChar (decodeRune (b :: s)).1 <+: b :: s ∧ (decodeRune (b :: s)).2 = (String.utf8EncodeChar (decodeRune (b :: s)).1).length) := by
  have hb := b.toNat_lt
  have hlo : ∃ lo, lo = (if b.toNat = 0xE0 then 0xA0 else if b.toNat = 0xF0 then 0x90 else 0x80) ∧ 0x80 ≤ lo ∧ (b.toNat = 0xE0 → lo = 0xA0) ∧
      (b.toNat = 0xF0 → lo = 0x90) := ⟨_, rfl, by (repeat' split) <;> omega, by (repeat' split) <;> omega, by (repeat' split) <;> omega⟩
  have hhi : ∃ hi, hi = (if b.toNat = 0xED then 0x9F else if b.toNat = 0xF4 then 0x8F else 0xBF) ∧ hi ≤ 0xBF ∧ (b.toNat = 0xED → hi = 0x9F) ∧
      (b.toNat = 0xF4 → hi = 0x8F) := ⟨_, rfl, by (repeat' split) <;> omega, by (repeat' split) <;> omega, by (repeat' split) <;> omega⟩
  obtain ⟨lo, hlo, l1, l2, l3⟩ := hlo
  obtain ⟨hi, hhi, g1, g2, g3⟩ := hhi
  unfold decodeRune
  simp only
  rw [← hlo, ← hhi]
  clear hlo hhi
  split
  · right
    have h := enc_ofNat (v := b.toNat) (by omega)
    unfold String.utf8EncodeChar
    simp only [h]
    rw [if_pos (by omega)]
    refine ⟨?_, rfl⟩
    rw [byte_eq rfl]; simp
  split
  · exact .inl rfl
  rcases s with _ | ⟨b1, s⟩
  · exact .inl rfl
  have hb1 := b1.toNat_lt
  simp only
  split
  · exact .inl rfl
  rename_i hr
  split
  · right
    have hr : 0x80 ≤ b1.toNat ∧ b1.toNat ≤ 0xBF := by
      omega
    have h := enc_ofNat (v := b.toNat % 0x20 * 64 + b1.toNat % 64) (by omega)
    unfold String.utf8EncodeChar
    simp only [h]
    rw [if_neg (by omega), if_pos (by omega)]
    refine ⟨?_, rfl⟩
    rw [byte_eq (b := b) (by omega), byte_eq (b := b1) (by omega)]
    simp
  rcases s with _ | ⟨b2, s⟩
  · exact .inl rfl
  have hb2 := b2.toNat_lt
  simp only
  split
  · exact .inl rfl
  split
  · right
    have hr : 0x80 ≤ b1.toNat ∧ b1.toNat ≤ 0xBF ∧ (b.toNat = 0xE0 → 0xA0 ≤ b1.toNat) ∧ (b.toNat = 0xED → b1.toNat ≤ 0x9F) := by
      omega
    have h := enc_ofNat (v := b.toNat % 0x10 * 4096 + b1.toNat % 64 * 64 + b2.toNat % 64) (by omega)
    unfold String.utf8EncodeChar
    simp only [h]
    rw [if_neg (by omega), if_neg (by omega), if_pos (by omega)]
    refine ⟨?_, rfl⟩
    rw [byte_eq (b := b) (by omega), byte_eq (b := b1) (by omega), byte_eq (b := b2) (by omega)]
    simp
  rcases s with _ | ⟨b3, s⟩
  · exact .inl rfl
  have hb3 := b3.toNat_lt
  simp only
  split
  · exact .inl rfl
  right
  have hr : 0x80 ≤ b1.toNat ∧ b1.toNat ≤ 0xBF ∧ (b.toNat = 0xF0 → 0x90 ≤ b1.toNat) ∧ (b.toNat = 0xF4 → b1.toNat ≤ 0x8F) := by
    omega
  have h := enc_ofNat (v := b.toNat % 8 * 262144 + b1.toNat % 64 * 4096 + b2.toNat % 64 * 64 + b3.toNat % 64) (by omega)
  unfold String.utf8EncodeChar
  simp only [h]
  rw [if_neg (by omega), if_neg (by omega), if_neg (by omega)]
  refine ⟨?_, rfl⟩
  rw [byte_eq (b := b) (by omega), byte_eq (b := b1) (by omega), byte_eq (b := b2) (by omega), byte_eq (b := b3) (by omega)]
  simp

theorem runes_reads : ∀ (n : Nat) (s : Bytes), s.length = n → Reads s (runes s) := by
  intro n
  induction n using Nat.strongRecOn with
  | ind n ih =>
    intro s hs
    rcases s with _ | ⟨b, s⟩
    · exact .nil
    rcases decode_sound b s with h | ⟨⟨t, ht⟩, _⟩
    · by_cases hex : ∃ c : Char, String.utf8EncodeChar c <+: b :: s
      · obtain ⟨c, t, ht⟩ := hex
        rw [← ht, runes_enc]
        have := enc_ne c
        refine .char c (ih t.length ?_ t rfl)
        rw [← hs, ← ht]
        rcases he : String.utf8EncodeChar c with _ | ⟨b, e⟩
        · exact absurd he this
        · simp; omega
      · have : runes (b :: s) = '\uFFFD' :: runes s := by
          show (decodeRune (b :: s)).1 :: runesFrom ((decodeRune (b :: s)).2 - 1) s = _
          rw [h]; rfl
        rw [this]
        exact .bad b (fun c hc => hex ⟨c, hc⟩) (ih s.length (by rw [← hs]; simp) s rfl)
    · rw [← ht, runes_enc]
      have := enc_ne (decodeRune (b :: s)).1
      refine .char _ (ih t.length ?_ t rfl)
      rw [← hs, ← ht]
      rcases he : String.utf8EncodeChar (decodeRune (b :: s)).1 with _ | ⟨b', e⟩
      · exact absurd he this
      · simp; omega

theorem reads_unique {s : Bytes} {cs : List Char} (h : Reads s cs) : cs = runes s := by
  induction h with
  | nil => rfl
  | char c _ ih => rw [runes_enc, ih]
  | @bad b t cs hb _ ih =>
    rcases decode_sound b t with h | ⟨h, _⟩
    · show _ = (decodeRune (b :: t)).1 :: runesFrom ((decodeRune (b :: t)).2 - 1) t
      rw [h, ih]; rfl
    · exact absurd h (hb _)

/-- C117, C118: the characters of a string that these theorems speak of (`runes`) are those of the language specification. -/
theorem C117_reads_partial (s : Bytes) (cs : List Char) : Reads s cs ↔ cs = runes s :=
  ⟨reads_unique, fun h => h ▸ runes_reads s.length s rfl⟩

/-- An overlong form and half a surrogate pair are no characters. -/
example : Reads [0x41, 0xC0, 0x80, 0xED, 0xA0, 0x80, 0xC3, 0xA9] ['A', '\uFFFD', '\uFFFD', '\uFFFD', '\uFFFD', '\uFFFD', 'é'] :=
  (C117_reads_partial _ _).mpr (by decide +kernel)

end Disko.Fat8.Names

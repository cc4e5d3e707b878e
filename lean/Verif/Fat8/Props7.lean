import Verif.Fat8.Props3
/-!
C47, C48: exactly what becomes of a 6.3 name.
-/
namespace Disko.Fat8
open Disko Disko.Fat8.Spec

/-- Specification: `stem` and `ext` are what a 6.3 name amounts to on the disk: its stem and its
extension without their trailing spaces, where a name that ends with its first period has the
extension ".". -/
def Amounts (name stem ext : Bytes) : Prop :=
  NoTrail stem ∧ NoTrail ext ∧ ∃ n : Nat, (46 : UInt8) ∉ stem ∧ stem.length + n ≤ 6 ∧ ext.length ≤ 3 ∧
    (name = stem ++ List.replicate n 32 ∧ ext = [] ∨
     name = stem ++ List.replicate n 32 ++ [46] ∧ ext = [46] ∨
     ∃ m : Nat, ext.length + m ≤ 3 ∧ ext.length + m ≠ 0 ∧
       name = stem ++ List.replicate n 32 ++ 46 :: (ext ++ List.replicate m 32))

/-- Every list of bytes is something without trailing spaces and spaces. -/
theorem strip_exists (s : Bytes) : ∃ t n, NoTrail t ∧ s = t ++ List.replicate n 32 := by
  have h : ∀ r : Bytes, ∃ t n, t.head? ≠ some 32 ∧ r = List.replicate n 32 ++ t := by
    intro r
    induction r with
    | nil => exact ⟨[], 0, by simp, rfl⟩
    | cons c r ih =>
      by_cases hc : c = 32
      · obtain ⟨t, n, h1, h2⟩ := ih
        exact ⟨t, n + 1, h1, by rw [hc, h2, List.replicate_succ]; rfl⟩
      · exact ⟨c :: r, 0, by simpa using hc, rfl⟩
  obtain ⟨t, n, h1, h2⟩ := h s.reverse
  refine ⟨t.reverse, n, ?_, ?_⟩
  · unfold NoTrail; rw [List.getLast?_reverse]; exact h1
  · have := congrArg List.reverse h2
    rw [List.reverse_reverse, List.reverse_append, List.reverse_replicate] at this
    exact this

theorem strip_unique {s t : Bytes} {n m : Nat} (hs : NoTrail s) (ht : NoTrail t)
    (h : s ++ List.replicate n 32 = t ++ List.replicate m 32) : s = t := by
  rw [← trimRight_pad hs n, h, trimRight_pad ht m]

/-- Every 6.3 name amounts to something. -/
theorem amounts_exists {name : Bytes} (h : Name63 name) : ∃ s e, Amounts name s e := by
  obtain ⟨_, stem, h1, h2, h3⟩ := h
  obtain ⟨s, n, hs, rfl⟩ := strip_exists stem
  rw [List.mem_append, not_or] at h1
  rw [List.length_append, List.length_replicate] at h2
  rcases h3 with rfl | ⟨ext, h4, rfl⟩
  · exact ⟨s, [], hs, by simp [NoTrail], n, h1.1, h2, by simp, .inl ⟨rfl, rfl⟩⟩
  · by_cases he : ext = []
    · subst he
      exact ⟨s, [46], hs, by unfold NoTrail; decide, n, h1.1, h2, by simp, .inr (.inl ⟨rfl, rfl⟩)⟩
    · obtain ⟨e, m, he2, rfl⟩ := strip_exists ext
      rw [List.length_append, List.length_replicate] at h4
      refine ⟨s, e, hs, he2, n, h1.1, h2, by omega, .inr (.inr ⟨m, h4, ?_, rfl⟩)⟩
      intro h0
      apply he
      rw [List.length_eq_zero_iff.1 (show e.length = 0 by omega), show m = 0 by omega]; rfl

theorem padRight_strip {s : Bytes} {n k : Nat} (h : s.length + n ≤ k) :
    padRight k (s ++ List.replicate n 32) = padRight k s := by
  unfold padRight
  rw [List.append_assoc, List.replicate_append_replicate, List.length_append, List.length_replicate]
  congr 2; omega

theorem dot_notMem_pad {s : Bytes} {n : Nat} (h : (46 : UInt8) ∉ s) : (46 : UInt8) ∉ s ++ List.replicate n 32 := by
  rw [List.mem_append, not_or]
  refine ⟨h, fun h2 => ?_⟩
  exact absurd (List.eq_of_mem_replicate h2) (by decide)

/-- The on-disk form of a name, as the modelled function gives it. -/
theorem filenameToBytes_amounts {name s e : Bytes} (hne : name ≠ []) (h : Amounts name s e) :
    filenameToBytes name = .ok (toUpper (padRight 6 s ++ padRight 3 e)) := by
  obtain ⟨hs, he, n, h1, h2, h3, h4⟩ := h
  have hd := dot_notMem_pad (n := n) h1
  have hl : (s ++ List.replicate n (32 : UInt8)).length = s.length + n := by simp
  unfold filenameToBytes
  rw [if_neg hne]
  rcases h4 with ⟨rfl, rfl⟩ | ⟨rfl, rfl⟩ | ⟨m, h5, h6, rfl⟩
  · rw [splitDot_none hd]
    simp only
    rw [hl, if_neg (by omega), padRight_strip (by omega)]
    congr 2
    unfold padRight
    rw [List.nil_append, List.append_assoc, List.replicate_append_replicate]
    congr 2
    simp only [List.length_nil]; omega
  · rw [splitDot_some hd]
    simp only
    rw [hl, if_neg (by omega), if_pos (by rfl), padRight_strip h2]
  · rw [splitDot_some hd]
    simp only
    rw [hl, List.length_append, List.length_replicate, if_neg (by omega), if_neg h6, if_neg (by omega),
      padRight_strip h2, padRight_strip h5]

/-- What comes back. -/
theorem bytesToFilename_amounts {s e : Bytes} (hs : NoTrail s) (he : NoTrail e) (h2 : s.length ≤ 6) (_h3 : e.length ≤ 3) :
    bytesToFilename (toUpper (padRight 6 s ++ padRight 3 e)) =
      .ret (toUpper (if e = [] then s else s ++ 46 :: e)) := by
  have hl : (toUpper (padRight 6 s)).length = 6 := by
    rw [length_toUpper]; unfold padRight; rw [List.length_append, List.length_replicate]; omega
  unfold bytesToFilename
  rw [toUpper_append, if_neg (by rw [List.length_append, hl]; omega)]
  simp only
  rw [List.take_left' hl, List.drop_left' hl]
  unfold padRight
  rw [toUpper_append, toUpper_append, toUpper_spaces, toUpper_spaces, trimRight_pad (noTrail_toUpper hs),
    trimRight_pad (noTrail_toUpper he), length_toUpper]
  by_cases h0 : e = []
  · subst h0; rw [if_neg (by simp), if_pos rfl, toUpper_idem]
  · rw [if_pos (by have : e.length ≠ 0 := fun h => h0 (List.length_eq_zero_iff.1 h); omega), if_neg h0,
      toUpper_append, toUpper_append, toUpper_idem, toUpper_idem, toUpper_append, List.append_assoc]
    rfl

/-- C47, for all 6.3 names: the on-disk form is the upper-cased stem and extension without their
trailing spaces, padded with spaces to six and three characters; and what comes back is stem and
extension, joined by a period if the extension is not empty.  (Missing: for names that end with
their first period, and for names with trailing spaces in the stem or the extension, this is not
the upper-cased name.) -/
theorem C47_form_partial {name : Bytes} (_ha : Ascii name) (h : Name63 name) :
    ∃ stem ext, Amounts name stem ext ∧
      filenameToBytes name = .ok (upper (stem ++ List.replicate (6 - stem.length) 32 ++
        (ext ++ List.replicate (3 - ext.length) 32))) ∧
      ∀ b, filenameToBytes name = .ok b →
        bytesToFilename b = .ret (upper (if ext = [] then stem else stem ++ 46 :: ext)) := by
  obtain ⟨s, e, ha⟩ := amounts_exists h
  have h1 := filenameToBytes_amounts h.1 ha
  refine ⟨s, e, ha, ?_, ?_⟩
  · rw [h1, ← toUpper_eq]; rfl
  · intro b hb
    rw [h1] at hb; cases hb
    obtain ⟨hs, he, n, _, h2, h3, _⟩ := ha
    rw [bytesToFilename_amounts hs he (by omega) h3, ← toUpper_eq]

/-- C47, exactly: among the 6.3 names, the upper-cased name comes back if and only if neither the
stem nor the extension has trailing spaces and the name does not end with its first period. -/
theorem C47_exact_partial {name b : Bytes} (ha : Ascii name) (h : filenameToBytes name = .ok b) :
    bytesToFilename b = .ret (upper name) ↔ Plain63 name := by
  have h63 : Name63 name := by
    apply Classical.byContradiction
    intro hn
    obtain ⟨e, he⟩ := (C47_accepts name ha).2.1 hn
    rw [h] at he; cases he
  constructor
  · intro hb
    obtain ⟨s, e, hA⟩ := amounts_exists h63
    have h1 := filenameToBytes_amounts h63.1 hA
    rw [h] at h1; cases h1
    obtain ⟨hs, he, n, h1, h2, h3, h4⟩ := hA
    rw [bytesToFilename_amounts hs he (by omega) h3, ← toUpper_eq] at hb
    have hb : toUpper (if e = [] then s else s ++ 46 :: e) = toUpper name := by simpa using hb
    have hlen := congrArg List.length hb
    rw [length_toUpper, length_toUpper] at hlen
    refine ⟨h63.1, s, h1, by omega, hs, ?_⟩
    rcases h4 with ⟨rfl, rfl⟩ | ⟨rfl, rfl⟩ | ⟨m, h5, h6, rfl⟩
    · left
      rw [if_pos rfl] at hlen
      simp only [List.length_append, List.length_replicate] at hlen
      rw [show n = 0 by omega]; simp
    · exfalso
      rw [if_neg (by simp)] at hlen hb
      simp only [List.length_append, List.length_replicate, List.length_cons, List.length_nil] at hlen
      have hn : n = 1 := by omega
      subst hn
      rw [List.append_assoc, toUpper_append, toUpper_append, List.append_cancel_left_eq] at hb
      revert hb; decide
    · by_cases h0 : e = []
      · subst h0
        rw [if_pos rfl] at hlen
        simp only [List.length_append, List.length_replicate, List.length_cons, List.length_nil] at hlen
        omega
      · rw [if_neg h0] at hlen
        simp only [List.length_append, List.length_replicate, List.length_cons] at hlen
        right
        refine ⟨e, h0, h3, he, ?_⟩
        rw [show n = 0 by omega, show m = 0 by omega]; simp
  · intro hp
    obtain ⟨b', h1, _, h2⟩ := C47_roundtrip_partial ha hp
    rw [h] at h1; cases h1; exact h2

/-- "AB .x" is stored, and comes back as "AB.X". -/
example : Amounts [65, 66, 32, 46, 120] [65, 66] [120] ∧
    (∃ b, filenameToBytes [65, 66, 32, 46, 120] = .ok b ∧ bytesToFilename b = .ret [65, 66, 46, 88]) :=
  ⟨⟨by unfold NoTrail; decide, by unfold NoTrail; decide, 1, by decide, by decide, by decide,
    .inr (.inr ⟨0, by decide, by decide, rfl⟩)⟩, _, rfl, by decide +kernel⟩

/-- C48, exactly: two 6.3 names have the same on-disk form if and only if they amount to the same
stem and extension, ignoring case.  (Missing: such names need not be equal ignoring case.) -/
theorem C48_exact_partial {a b sa ea sb eb : Bytes} (_ha : Ascii a) (_hb : Ascii b) (na : a ≠ []) (nb : b ≠ [])
    (ha : Amounts a sa ea) (hb : Amounts b sb eb) :
    filenameToBytes a = filenameToBytes b ↔ upper sa = upper sb ∧ upper ea = upper eb := by
  rw [filenameToBytes_amounts na ha, filenameToBytes_amounts nb hb, ← toUpper_eq, ← toUpper_eq, ← toUpper_eq, ← toUpper_eq]
  obtain ⟨h1, h2, n, _, h3, h4, _⟩ := ha
  obtain ⟨h5, h6, m, _, h7, h8, _⟩ := hb
  have key : ∀ {k : Nat} {s t : Bytes}, NoTrail s → NoTrail t →
      (toUpper (padRight k s) = toUpper (padRight k t) → toUpper s = toUpper t) := by
    intro k s t hs ht h
    unfold padRight at h
    rw [toUpper_append, toUpper_append, toUpper_spaces, toUpper_spaces] at h
    exact strip_unique (noTrail_toUpper hs) (noTrail_toUpper ht) h
  have key2 : ∀ {k : Nat} {s t : Bytes}, toUpper s = toUpper t → toUpper (padRight k s) = toUpper (padRight k t) := by
    intro k s t h
    have hl := congrArg List.length h
    rw [length_toUpper, length_toUpper] at hl
    unfold padRight
    rw [toUpper_append, toUpper_append, h, hl]
  constructor
  · intro h
    have h := Except.ok.inj h
    rw [toUpper_append, toUpper_append] at h
    have hl : ∀ {s : Bytes}, s.length ≤ 6 → (toUpper (padRight 6 s)).length = 6 := by
      intro s hs
      rw [length_toUpper]; unfold padRight; rw [List.length_append, List.length_replicate]; omega
    obtain ⟨e1, e2⟩ := List.append_inj h ((hl (by omega)).trans (hl (by omega)).symm)
    exact ⟨key h1 h5 e1, key h2 h6 e2⟩
  · rintro ⟨e1, e2⟩
    rw [toUpper_append, toUpper_append, key2 e1, key2 e2]

/-- "AB." and "ab ..": both amount to "AB" and ".". -/
example : Amounts [65, 66, 46] [65, 66] [46] ∧ Amounts [97, 98, 32, 46, 46] [97, 98] [46] ∧
    upper [65, 66] = upper [97, 98] ∧ filenameToBytes [65, 66, 46] = filenameToBytes [97, 98, 32, 46, 46] :=
  ⟨⟨by unfold NoTrail; decide, by unfold NoTrail; decide, 0, by decide, by decide, by decide, .inr (.inl ⟨rfl, rfl⟩)⟩,
   ⟨by unfold NoTrail; decide, by unfold NoTrail; decide, 1, by decide, by decide, by decide,
    .inr (.inr ⟨0, by decide, by decide, rfl⟩)⟩, by decide +kernel, by decide +kernel⟩

end Disko.Fat8

import Verif.UnixV6.Model
/-! C58, C59, C74: Unix V6 inodes. -/
namespace Disko.UnixV6
open Disko

/-! ### Specification -/

/-- The bits of an inode's flag word that have a meaning for clients: type, set-id, permissions. -/
def meaningful : BitVec 16 := 0x6dff#16

/-- The types a Unix V6 inode can have, as os.FileMode type bits and as inode type bits: regular
file, directory, character device, block device. -/
inductive FileType : BitVec 32 → BitVec 16 → Prop where
  | regular : FileType 0#32 0#16
  | directory : FileType 0x80000000#32 0x4000#16
  | charDevice : FileType 0x00200000#32 0x2000#16
  | blockDevice : FileType 0x04000000#32 0x6000#16

/-- Mode bits of os.FileMode that a Unix V6 inode can hold: type, set-id, permissions. -/
def representable : BitVec 32 := 0x8fe801ff#32

/-! ### Lemmas -/

theorem mask_zero {n : Nat} {a m k : BitVec n} (h : m &&& k = 0#n) : (a &&& m) &&& k = 0#n := by
  rw [BitVec.and_assoc, h, BitVec.and_zero]

theorem or_mask {n : Nat} {a m c k : BitVec n} (h : m &&& k = 0#n) : ((a &&& m) ||| c) &&& k = c &&& k := by
  rw [BitVec.and_or_distrib_right, mask_zero h, BitVec.zero_or]

/-- The type of an inode flag word is one of four. -/
theorem type_cases (f : BitVec 16) : f &&& 0x6000#16 = 0x6000#16 ∨ f &&& 0x6000#16 = 0x2000#16 ∨
    f &&& 0x6000#16 = 0x4000#16 ∨ f &&& 0x6000#16 = 0#16 := by
  have h : ∀ a b : Bool, ∀ i : Fin 16, True := fun _ _ _ => trivial
  have key : f &&& 0x6000#16 = (if f.getLsbD 13 then 0x2000#16 else 0#16) ||| (if f.getLsbD 14 then 0x4000#16 else 0#16) := by
    apply BitVec.eq_of_getLsbD_eq
    intro i hi
    rw [BitVec.getLsbD_and, BitVec.getLsbD_or]
    have hi' : i = 0 ∨ i = 1 ∨ i = 2 ∨ i = 3 ∨ i = 4 ∨ i = 5 ∨ i = 6 ∨ i = 7 ∨ i = 8 ∨ i = 9 ∨ i = 10 ∨ i = 11 ∨ i = 12 ∨
      i = 13 ∨ i = 14 ∨ i = 15 := by omega
    rcases hi' with rfl | rfl | rfl | rfl | rfl | rfl | rfl | rfl | rfl | rfl | rfl | rfl | rfl | rfl | rfl | rfl <;>
      cases f.getLsbD 13 <;> cases f.getLsbD 14 <;> simp
  rw [key]
  cases f.getLsbD 13 <;> cases f.getLsbD 14 <;> decide

theorem bit_cases {n : Nat} (f : BitVec n) (i : Nat) (hi : i < n) :
    f &&& (1#n <<< i) = 0#n ∨ f &&& (1#n <<< i) = 1#n <<< i := by
  cases hb : f.getLsbD i
  · left
    apply BitVec.eq_of_getLsbD_eq
    intro j hj
    rw [BitVec.getLsbD_and, BitVec.getLsbD_shiftLeft, BitVec.getLsbD_zero]
    by_cases h : j = i
    · subst h; simp [hb]
    · by_cases h2 : j < i
      · simp [h2]
      · have : j - i ≠ 0 := by omega
        simp [this]
  · right
    apply BitVec.eq_of_getLsbD_eq
    intro j hj
    rw [BitVec.getLsbD_and, BitVec.getLsbD_shiftLeft]
    by_cases h : j = i
    · subst h; simp [hb]
    · by_cases h2 : j < i
      · simp [h2]
      · have : j - i ≠ 0 := by omega
        simp [this]

theorem setgid16 (f : BitVec 16) : f &&& 0x400#16 = 0#16 ∨ f &&& 0x400#16 = 0x400#16 := bit_cases f 10 (by decide)
theorem setuid16 (f : BitVec 16) : f &&& 0x800#16 = 0#16 ∨ f &&& 0x800#16 = 0x800#16 := bit_cases f 11 (by decide)
theorem setgid32 (f : BitVec 32) : f &&& modeSetgid = 0#32 ∨ f &&& modeSetgid = modeSetgid := bit_cases f 22 (by decide)
theorem setuid32 (f : BitVec 32) : f &&& modeSetuid = 0#32 ∨ f &&& modeSetuid = modeSetuid := bit_cases f 23 (by decide)

/-- The standard mode is its permissions and its other bits. -/
theorem fsToStd_eq (f : BitVec 16) : ∃ t g u : BitVec 32,
    fsToStd f = (f.setWidth 32 &&& modePerm) ||| (t ||| g ||| u) ∧ FileType t (f &&& 0x6000#16) ∧
    ((f &&& 0x400#16 = 0#16 ∧ g = 0#32) ∨ (f &&& 0x400#16 = 0x400#16 ∧ g = modeSetgid)) ∧
    ((f &&& 0x800#16 = 0#16 ∧ u = 0#32) ∨ (f &&& 0x800#16 = 0x800#16 ∧ u = modeSetuid)) := by
  unfold fsToStd fileTypeMask fileTypeBlockDevice fileTypeCharDevice fileTypeDirectory flagSetGID flagSetUID
  generalize hp : f.setWidth 32 &&& modePerm = p
  have ht : ∃ t, (if f &&& 0x6000#16 = 0x6000#16 then p ||| modeDevice
    else if f &&& 0x6000#16 = 0x2000#16 then p ||| modeCharDevice
    else if f &&& 0x6000#16 = 0x4000#16 then p ||| modeDir
    else p) = p ||| t ∧ FileType t (f &&& 0x6000#16) := by
    rcases type_cases f with h | h | h | h
    · rw [h]; exact ⟨_, rfl, .blockDevice⟩
    · rw [h]; exact ⟨modeCharDevice, by rw [if_neg (by decide), if_pos rfl], .charDevice⟩
    · rw [h]; exact ⟨modeDir, by rw [if_neg (by decide), if_neg (by decide), if_pos rfl], .directory⟩
    · rw [h]; exact ⟨0#32, by rw [if_neg (by decide), if_neg (by decide), if_neg (by decide), BitVec.or_zero], .regular⟩
  obtain ⟨t, ht1, ht2⟩ := ht
  simp only
  rw [ht1]
  rcases setgid16 f with hg | hg <;> rcases setuid16 f with hu | hu
  · exact ⟨t, 0#32, 0#32, by rw [if_neg (c := f &&& 0x400#16 ≠ 0) (by simp [hg]), if_neg (by simp [hu])]; simp, ht2, .inl ⟨hg, rfl⟩, .inl ⟨hu, rfl⟩⟩
  · exact ⟨t, 0#32, modeSetuid, by rw [if_neg (c := f &&& 0x400#16 ≠ 0) (by simp [hg]), if_pos (by rw [hu]; decide)]; simp [BitVec.or_assoc], ht2, .inl ⟨hg, rfl⟩, .inr ⟨hu, rfl⟩⟩
  · exact ⟨t, modeSetgid, 0#32, by rw [if_pos (c := f &&& 0x400#16 ≠ 0) (by rw [hg]; decide), if_neg (by simp [hu])]; simp [BitVec.or_assoc], ht2, .inr ⟨hg, rfl⟩, .inl ⟨hu, rfl⟩⟩
  · exact ⟨t, modeSetgid, modeSetuid, by rw [if_pos (c := f &&& 0x400#16 ≠ 0) (by rw [hg]; decide), if_pos (by rw [hu]; decide)]; simp [BitVec.or_assoc], ht2, .inr ⟨hg, rfl⟩, .inr ⟨hu, rfl⟩⟩

theorem perm_roundtrip (f : BitVec 16) (c : BitVec 32) (hc : c &&& modePerm = 0#32) :
    (((f.setWidth 32 &&& modePerm) ||| c) &&& modePerm).setWidth 16 = f &&& 0x1ff#16 := by
  rw [BitVec.and_or_distrib_right, hc, BitVec.or_zero, BitVec.and_assoc, BitVec.and_self]
  apply BitVec.eq_of_getLsbD_eq
  intro i hi
  rw [BitVec.getLsbD_setWidth, BitVec.getLsbD_and, BitVec.getLsbD_setWidth, BitVec.getLsbD_and]
  have e : modePerm.getLsbD i = (0x1ff#16).getLsbD i := by
    have hi' : i = 0 ∨ i = 1 ∨ i = 2 ∨ i = 3 ∨ i = 4 ∨ i = 5 ∨ i = 6 ∨ i = 7 ∨ i = 8 ∨ i = 9 ∨ i = 10 ∨ i = 11 ∨ i = 12 ∨
      i = 13 ∨ i = 14 ∨ i = 15 := by omega
    rcases hi' with rfl | rfl | rfl | rfl | rfl | rfl | rfl | rfl | rfl | rfl | rfl | rfl | rfl | rfl | rfl | rfl <;> decide
  rw [e]
  simp [hi, show i < 32 by omega]

/-- ConvertStandardFlagsToFS by cases. -/
theorem stdToFs_eq (m : BitVec 32) :
    (∃ t16 g u : BitVec 16, stdToFs m = some ((m &&& modePerm).setWidth 16 ||| flagIsAllocated ||| t16 ||| g ||| u) ∧
      FileType (m &&& modeType) t16 ∧
      ((m &&& modeSetgid = 0#32 ∧ g = 0#16) ∨ (m &&& modeSetgid = modeSetgid ∧ g = 0x400#16)) ∧
      ((m &&& modeSetuid = 0#32 ∧ u = 0#16) ∨ (m &&& modeSetuid = modeSetuid ∧ u = 0x800#16))) ∨
    (stdToFs m = none ∧ ∀ t16, ¬ FileType (m &&& modeType) t16) := by
  have ht : (∃ t16, typeToFs m = some t16 ∧ FileType (m &&& modeType) t16) ∨
      (typeToFs m = none ∧ ∀ t16, ¬ FileType (m &&& modeType) t16) := by
    unfold typeToFs
    by_cases h1 : m &&& modeType = modeCharDevice
    · rw [if_pos h1, h1]; exact .inl ⟨_, rfl, .charDevice⟩
    · by_cases h2 : m &&& modeType = modeDevice
      · rw [if_neg h1, if_pos h2, h2]; exact .inl ⟨_, rfl, .blockDevice⟩
      · by_cases h3 : m &&& modeType = modeDir
        · rw [if_neg h1, if_neg h2, if_pos h3, h3]; exact .inl ⟨_, rfl, .directory⟩
        · by_cases h4 : m &&& modeType = 0
          · rw [if_neg h1, if_neg h2, if_neg h3, if_pos h4, h4]; exact .inl ⟨_, rfl, .regular⟩
          · rw [if_neg h1, if_neg h2, if_neg h3, if_neg h4]
            refine .inr ⟨rfl, fun t h => ?_⟩
            generalize m &&& modeType = x at *
            cases h
            · exact h4 rfl
            · exact h3 rfl
            · exact h1 rfl
            · exact h2 rfl
  unfold stdToFs
  rcases ht with ⟨t16, h1, h2⟩ | ⟨h1, h2⟩
  · left
    rw [h1]
    simp only
    rcases setgid32 m with hg | hg <;> rcases setuid32 m with hu | hu
    · exact ⟨t16, 0#16, 0#16, by rw [if_neg (c := m &&& modeSetgid ≠ 0) (by simp [hg]), if_neg (by simp [hu])]; simp, h2, .inl ⟨hg, rfl⟩, .inl ⟨hu, rfl⟩⟩
    · exact ⟨t16, 0#16, 0x800#16, by rw [if_neg (c := m &&& modeSetgid ≠ 0) (by simp [hg]), if_pos (by rw [hu]; decide)]; simp [flagSetUID], h2, .inl ⟨hg, rfl⟩, .inr ⟨hu, rfl⟩⟩
    · exact ⟨t16, 0x400#16, 0#16, by rw [if_pos (c := m &&& modeSetgid ≠ 0) (by rw [hg]; decide), if_neg (by simp [hu])]; simp [flagSetGID], h2, .inr ⟨hg, rfl⟩, .inl ⟨hu, rfl⟩⟩
    · exact ⟨t16, 0x400#16, 0x800#16, by rw [if_pos (c := m &&& modeSetgid ≠ 0) (by rw [hg]; decide), if_pos (by rw [hu]; decide)]; simp [flagSetGID, flagSetUID], h2, .inr ⟨hg, rfl⟩, .inr ⟨hu, rfl⟩⟩
  · right; rw [h1]; exact ⟨rfl, h2⟩

theorem fileType_mask {t : BitVec 32} {t16 : BitVec 16} (h : FileType t t16) :
    t &&& modeType = t ∧ t &&& modePerm = 0#32 ∧ t &&& modeSetgid = 0#32 ∧ t &&& modeSetuid = 0#32 := by
  cases h <;> decide

theorem fileType_unique {t : BitVec 32} {a b : BitVec 16} (h : FileType t a) (h' : FileType t b) : a = b := by
  have key : ∀ {t : BitVec 32} {a : BitVec 16}, FileType t a →
      a = if t = 0x80000000#32 then 0x4000#16 else if t = 0x00200000#32 then 0x2000#16 else if t = 0x04000000#32 then 0x6000#16 else 0#16 := by
    intro t a h; cases h <;> decide
  rw [key h, key h']

theorem split16 (f : BitVec 16) : f &&& meaningful = ((f &&& 0x1ff#16) ||| (f &&& 0x6000#16)) ||| (f &&& 0x400#16) ||| (f &&& 0x800#16) := by
  rw [← BitVec.and_or_distrib_left, ← BitVec.and_or_distrib_left, ← BitVec.and_or_distrib_left]; rfl

/-! ### C58 -/

/-- C58: from inode flags to a standard mode and back: type, set-id bits and permissions are the
same; the result is marked allocated. -/
theorem C58_fs_std_fs (f : BitVec 16) : stdToFs (fsToStd f) = some ((f &&& meaningful) ||| 0x8000#16) := by
  obtain ⟨t, g, u, h1, h2, h3, h4⟩ := fsToStd_eq f
  obtain ⟨m1, m2, m3, m4⟩ := fileType_mask h2
  have hg0 : g &&& modePerm = 0#32 ∧ g &&& modeType = 0#32 ∧ g &&& modeSetuid = 0#32 := by
    rcases h3 with ⟨_, rfl⟩ | ⟨_, rfl⟩ <;> decide
  have hu0 : u &&& modePerm = 0#32 ∧ u &&& modeType = 0#32 ∧ u &&& modeSetgid = 0#32 := by
    rcases h4 with ⟨_, rfl⟩ | ⟨_, rfl⟩ <;> decide
  have eperm : (t ||| g ||| u) &&& modePerm = 0#32 := by
    rw [BitVec.and_or_distrib_right, BitVec.and_or_distrib_right, m2, hg0.1, hu0.1]; decide
  have etype : fsToStd f &&& modeType = t := by
    rw [h1, or_mask (by decide), BitVec.and_or_distrib_right, BitVec.and_or_distrib_right, m1, hg0.2.1, hu0.2.1]
    simp
  have egid : fsToStd f &&& modeSetgid = g &&& modeSetgid := by
    rw [h1, or_mask (by decide), BitVec.and_or_distrib_right, BitVec.and_or_distrib_right, m3, hu0.2.2]
    simp
  have euid : fsToStd f &&& modeSetuid = u &&& modeSetuid := by
    rw [h1, or_mask (by decide), BitVec.and_or_distrib_right, BitVec.and_or_distrib_right, m4, hg0.2.2]
    simp
  rcases stdToFs_eq (fsToStd f) with ⟨t16, g16, u16, e1, e2, e3, e4⟩ | ⟨_, e2⟩
  · rw [etype] at e2
    have := fileType_unique e2 h2
    subst this
    rw [e1, h1, perm_roundtrip f _ eperm]
    have hg16 : g16 = f &&& 0x400#16 := by
      rw [egid] at e3
      rcases h3 with ⟨a, rfl⟩ | ⟨a, rfl⟩
      · rcases e3 with ⟨_, b⟩ | ⟨b, _⟩
        · rw [a, b]
        · exact absurd b (by decide)
      · rcases e3 with ⟨b, _⟩ | ⟨_, b⟩
        · exact absurd b (by decide)
        · rw [a, b]
    have hu16 : u16 = f &&& 0x800#16 := by
      rw [euid] at e4
      rcases h4 with ⟨a, rfl⟩ | ⟨a, rfl⟩
      · rcases e4 with ⟨_, b⟩ | ⟨b, _⟩
        · rw [a, b]
        · exact absurd b (by decide)
      · rcases e4 with ⟨b, _⟩ | ⟨_, b⟩
        · exact absurd b (by decide)
        · rw [a, b]
    rw [hg16, hu16, split16]
    congr 1
    simp only [flagIsAllocated, BitVec.or_assoc]
    congr 1
    rw [BitVec.or_comm 0x8000#16]
    simp only [BitVec.or_assoc]
  · rw [etype] at e2; exact absurd h2 (e2 _)

theorem perm_back (m : BitVec 32) (c : BitVec 16) (hc : c &&& 0x1ff#16 = 0#16) :
    (((m &&& modePerm).setWidth 16 ||| c).setWidth 32 &&& modePerm) = m &&& modePerm := by
  have hc' : ∀ i, i < 9 → c.getLsbD i = false := by
    intro i hi
    have := congrArg (fun z => z.getLsbD i) hc
    simp only [BitVec.getLsbD_and, BitVec.getLsbD_zero] at this
    have e : (0x1ff#16).getLsbD i = true := by
      have hi' : i = 0 ∨ i = 1 ∨ i = 2 ∨ i = 3 ∨ i = 4 ∨ i = 5 ∨ i = 6 ∨ i = 7 ∨ i = 8 := by omega
      rcases hi' with rfl | rfl | rfl | rfl | rfl | rfl | rfl | rfl | rfl <;> decide
    simpa [e] using this
  have hm : ∀ i, 9 ≤ i → modePerm.getLsbD i = false := by
    intro i hi
    unfold modePerm
    rw [BitVec.getLsbD_ofNat]
    have : (0x1ff : Nat).testBit i = false := Nat.testBit_lt_two_pow (Nat.lt_of_lt_of_le (by decide : 0x1ff < 2 ^ 9) (Nat.pow_le_pow_right (by decide) hi))
    rw [this, Bool.and_false]
  apply BitVec.eq_of_getLsbD_eq
  intro i hi
  rw [BitVec.getLsbD_and, BitVec.getLsbD_setWidth, BitVec.getLsbD_or, BitVec.getLsbD_setWidth, BitVec.getLsbD_and]
  rcases Nat.lt_or_ge i 9 with h | h
  · rw [hc' i h]
    cases m.getLsbD i <;> cases modePerm.getLsbD i <;> simp [show i < 16 by omega, hi]
  · rw [hm i h]; simp

theorem fileType_unique' {a b : BitVec 32} {t : BitVec 16} (h : FileType a t) (h' : FileType b t) : a = b := by
  have key : ∀ {a : BitVec 32} {t : BitVec 16}, FileType a t →
      a = if t = 0x4000#16 then 0x80000000#32 else if t = 0x2000#16 then 0x00200000#32 else if t = 0x6000#16 then 0x04000000#32 else 0#32 := by
    intro a t h; cases h <;> decide
  rw [key h, key h']

theorem split32 (m : BitVec 32) : m &&& representable = (m &&& modePerm) ||| ((m &&& modeType) ||| (m &&& modeSetgid) ||| (m &&& modeSetuid)) := by
  rw [← BitVec.and_or_distrib_left, ← BitVec.and_or_distrib_left, ← BitVec.and_or_distrib_left]; rfl

/-- C58: from a standard mode to inode flags and back: everything the inode can hold is the same. -/
theorem C58_std_fs_std (m : BitVec 32) (f : BitVec 16) (h : stdToFs m = some f) :
    fsToStd f = m &&& representable := by
  rcases stdToFs_eq m with ⟨t16, g, u, h1, h2, h3, h4⟩ | ⟨h1, _⟩
  · rw [h1] at h
    have hf := Option.some.inj h
    have em : t16 &&& 0x6000#16 = t16 ∧ t16 &&& 0x1ff#16 = 0#16 ∧ t16 &&& 0x400#16 = 0#16 ∧ t16 &&& 0x800#16 = 0#16 := by
      generalize m &&& modeType = x at h2
      cases h2 <;> decide
    have eg : g &&& 0x6000#16 = 0#16 ∧ g &&& 0x1ff#16 = 0#16 ∧ g &&& 0x400#16 = g ∧ g &&& 0x800#16 = 0#16 := by
      rcases h3 with ⟨_, rfl⟩ | ⟨_, rfl⟩ <;> decide
    have eu : u &&& 0x6000#16 = 0#16 ∧ u &&& 0x1ff#16 = 0#16 ∧ u &&& 0x400#16 = 0#16 ∧ u &&& 0x800#16 = u := by
      rcases h4 with ⟨_, rfl⟩ | ⟨_, rfl⟩ <;> decide
    generalize hp : (m &&& modePerm).setWidth 16 = p at *
    have ep : p &&& 0x1ff#16 = p := by
      rw [← hp]
      have := perm_back m 0#16 (by decide)
      apply BitVec.eq_of_getLsbD_eq
      intro i hi
      have e := congrArg (fun z => z.getLsbD i) this
      simp only [BitVec.or_zero, BitVec.getLsbD_and, BitVec.getLsbD_setWidth] at e ⊢
      have e2 : modePerm.getLsbD i = (0x1ff#16).getLsbD i := by
        have hi' : i = 0 ∨ i = 1 ∨ i = 2 ∨ i = 3 ∨ i = 4 ∨ i = 5 ∨ i = 6 ∨ i = 7 ∨ i = 8 ∨ i = 9 ∨ i = 10 ∨ i = 11 ∨ i = 12 ∨
          i = 13 ∨ i = 14 ∨ i = 15 := by omega
        rcases hi' with rfl | rfl | rfl | rfl | rfl | rfl | rfl | rfl | rfl | rfl | rfl | rfl | rfl | rfl | rfl | rfl <;> decide
      rw [← e2]
      cases m.getLsbD i <;> cases modePerm.getLsbD i <;> simp
    have pm : ∀ k : BitVec 16, 0x1ff#16 &&& k = 0#16 → p &&& k = 0#16 := fun k hk => by
      rw [← ep, BitVec.and_assoc, hk, BitVec.and_zero]
    have ft : f &&& 0x6000#16 = t16 := by
      rw [← hf]; simp only [BitVec.and_or_distrib_right, em, eg, eu, pm 0x6000#16 (by decide)]
      simp [flagIsAllocated]
    have fg : f &&& 0x400#16 = g := by
      rw [← hf]; simp only [BitVec.and_or_distrib_right, em, eg, eu, pm 0x400#16 (by decide)]
      simp [flagIsAllocated]
    have fu : f &&& 0x800#16 = u := by
      rw [← hf]; simp only [BitVec.and_or_distrib_right, em, eg, eu, pm 0x800#16 (by decide)]
      simp [flagIsAllocated]
    obtain ⟨t, g32, u32, k1, k2, k3, k4⟩ := fsToStd_eq f
    rw [ft] at k2
    have et := fileType_unique' k2 h2
    have eg' : g32 = m &&& modeSetgid := by
      rw [fg] at k3
      rcases h3 with ⟨a, rfl⟩ | ⟨a, rfl⟩ <;> rcases k3 with ⟨b, rfl⟩ | ⟨b, rfl⟩ <;>
        first | exact a.symm | exact absurd b (by decide)
    have eu' : u32 = m &&& modeSetuid := by
      rw [fu] at k4
      rcases h4 with ⟨a, rfl⟩ | ⟨a, rfl⟩ <;> rcases k4 with ⟨b, rfl⟩ | ⟨b, rfl⟩ <;>
        first | exact a.symm | exact absurd b (by decide)
    rw [k1, split32, et, eg', eu']
    congr 1
    rw [← hf, ← hp]
    have := perm_back m (flagIsAllocated ||| (t16 ||| (g ||| u))) (by
      simp only [BitVec.and_or_distrib_right, em, eg, eu]; decide)
    simpa only [BitVec.or_assoc] using this
  · rw [h1] at h; cases h

/-- C58: a mode is accepted exactly when its type is one the inode can have. -/
theorem C58_accepts_iff (m : BitVec 32) :
    (∃ f, stdToFs m = some f) ↔ ∃ t16, FileType (m &&& 0x8f280000#32) t16 := by
  have e : modeType = 0x8f280000#32 := by decide
  rw [← e]
  rcases stdToFs_eq m with ⟨t16, g, u, h1, h2, _, _⟩ | ⟨h1, h2⟩
  · exact ⟨fun _ => ⟨t16, h2⟩, fun _ => ⟨_, h1⟩⟩
  · exact ⟨fun ⟨f, h⟩ => by rw [h1] at h; (cases h), fun ⟨t, h⟩ => absurd h (h2 t)⟩

/-- C58: an accepted mode gives an inode that is allocated, of that type, and neither large nor
using the unused bit. -/
theorem C58_type_bits (m : BitVec 32) (f : BitVec 16) (h : stdToFs m = some f) :
    FileType (m &&& 0x8f280000#32) (f &&& 0x6000#16) ∧ f &&& 0x9200#16 = 0x8000#16 := by
  have e : modeType = 0x8f280000#32 := by decide
  rw [← e]
  rcases stdToFs_eq m with ⟨t16, g, u, h1, h2, h3, h4⟩ | ⟨h1, _⟩
  · rw [h1] at h
    have hf := Option.some.inj h
    have em : t16 &&& 0x6000#16 = t16 ∧ t16 &&& 0x9200#16 = 0#16 := by
      generalize m &&& modeType = x at h2
      cases h2 <;> decide
    have eg : g &&& 0x6000#16 = 0#16 ∧ g &&& 0x9200#16 = 0#16 := by
      rcases h3 with ⟨_, rfl⟩ | ⟨_, rfl⟩ <;> decide
    have eu : u &&& 0x6000#16 = 0#16 ∧ u &&& 0x9200#16 = 0#16 := by
      rcases h4 with ⟨_, rfl⟩ | ⟨_, rfl⟩ <;> decide
    have pm : ∀ k : BitVec 16, 0x1ff#16 &&& k = 0#16 → (m &&& modePerm).setWidth 16 &&& k = 0#16 := fun k hk => by
      have : (m &&& modePerm).setWidth 16 = m.setWidth 16 &&& 0x1ff#16 := by
        rw [BitVec.setWidth_and]; rfl
      rw [this, BitVec.and_assoc, hk, BitVec.and_zero]
    constructor
    · have ft : f &&& 0x6000#16 = t16 := by
        rw [← hf]; simp only [BitVec.and_or_distrib_right, em, eg, eu, pm 0x6000#16 (by decide)]
        simp [flagIsAllocated]
      rw [ft]; exact h2
    · rw [← hf]; simp only [BitVec.and_or_distrib_right, em, eg, eu, pm 0x9200#16 (by decide)]
      simp [flagIsAllocated]
  · rw [h1] at h; cases h

example : stdToFs 0x80c001ed#32 = some 0xcded#16 ∧ fsToStd 0xcded#16 = 0x80c001ed#32 := by decide
example : stdToFs 0x080001ff#32 = none := by decide

/-! ### C59 -/

theorem ceil_blocks (z : Nat) :
    (0 : Int) ≤ ((if z % 512 ≠ 0 then z / 512 + 1 else z / 512 : Nat) : Int) ∧
    (((if z % 512 ≠ 0 then z / 512 + 1 else z / 512 : Nat) : Int) - 1) * 512 < (z : Int) ∧
    (z : Int) ≤ ((if z % 512 ≠ 0 then z / 512 + 1 else z / 512 : Nat) : Int) * 512 := by
  split <;> omega

/-- C59: size, block count, identity and times reported for an inode. -/
theorem C59_stat (n : UInt16) (inode : RawInode) :
    let st := rawInodeToStat n inode
    st.size = inode.size0.toNat + 256 * inode.size1.toNat + 65536 * inode.size2.toNat ∧
    st.blockSize = 512 ∧ 0 ≤ st.numBlocks ∧
    (st.numBlocks - 1) * 512 < st.size ∧ st.size ≤ st.numBlocks * 512 ∧
    st.inodeNumber = n.toNat ∧ st.nlinks = inode.nlink.toNat ∧ st.uid = inode.uid.toNat ∧ st.gid = inode.gid.toNat ∧
    st.modeFlags = fsToStd inode.flags ∧
    st.lastAccessed = inode.accessedTime.toNat ∧ st.lastModified = inode.modifiedTime.toNat := by
  intro st
  have h0 := inode.size0.toNat_lt
  have h1 := inode.size1.toNat_lt
  have h2 := inode.size2.toNat_lt
  have e1 : inode.size0.toNat ||| (inode.size1.toNat <<< 8) = inode.size0.toNat + 256 * inode.size1.toNat := by
    rw [Nat.or_comm, Nat.shiftLeft_eq, Nat.mul_comm, ← Nat.two_pow_add_eq_or_of_lt (i := 8) h0]
    omega
  have e2 : (inode.size0.toNat + 256 * inode.size1.toNat) ||| (inode.size2.toNat <<< 16)
      = inode.size0.toNat + 256 * inode.size1.toNat + 65536 * inode.size2.toNat := by
    rw [Nat.or_comm, Nat.shiftLeft_eq, Nat.mul_comm, ← Nat.two_pow_add_eq_or_of_lt (i := 16) (by omega)]
    omega
  have hst : st = rawInodeToStat n inode := rfl
  unfold rawInodeToStat at hst
  rw [e1, e2] at hst
  have hs : (inode.size0.toNat + 256 * inode.size1.toNat + 65536 * inode.size2.toNat : Nat) < 2 ^ 24 := by omega
  generalize hz : inode.size0.toNat + 256 * inode.size1.toNat + 65536 * inode.size2.toNat = z at *
  have hz' : (inode.size0.toNat : Int) + 256 * (inode.size1.toNat : Int) + 65536 * (inode.size2.toNat : Int) = (z : Int) := by omega
  have b : ∀ k : Nat, k < 2 ^ 24 + 1 → i64 (k : Int) = k := fun k hk => by
    unfold i64; rw [Int.bmod_def]; omega
  have hsz : st.size = i64 (z : Int) := by rw [hst]
  have hnb : st.numBlocks = i64 ((if z % 512 ≠ 0 then z / 512 + 1 else z / 512 : Nat) : Int) := by rw [hst]
  have b1 := b z (by omega)
  have b2 := b (z / 512) (by omega)
  have b3 := b (z / 512 + 1) (by omega)
  have b4 : st.numBlocks = ((if z % 512 ≠ 0 then z / 512 + 1 else z / 512 : Nat) : Int) := by
    rw [hnb]; split
    · exact b3
    · exact b2
  rw [hz', hsz, b1, b4]
  obtain ⟨c1, c2, c3⟩ := ceil_blocks z
  exact ⟨rfl, rfl, c1, c2, c3, rfl, rfl, rfl, rfl, rfl, rfl, rfl⟩

example : (rawInodeToStat 7 ⟨0x8124, 1, 2, 3, 1, 2, 0, 5, 6⟩).size = 513 ∧
    (rawInodeToStat 7 ⟨0x8124, 1, 2, 3, 1, 2, 0, 5, 6⟩).numBlocks = 2 := by decide

/-! ### C74: character devices follow the convention of package os -/

/-- C74: Go reports a character device with both ModeDevice and ModeCharDevice set (documentation
of package os: "ModeCharDevice: Unix character device, when ModeDevice is set").  The claim: an
inode that is a character device is reported that way, and a mode that says so is accepted. -/
def C74_statement : Prop :=
  (∀ f : BitVec 16, f &&& 0x6000#16 = 0x2000#16 → fsToStd f &&& 0x8f280000#32 = 0x04200000#32) ∧
  (∀ m : BitVec 32, m &&& 0x8f280000#32 = 0x04200000#32 → ∃ f, stdToFs m = some f ∧ f &&& 0x6000#16 = 0x2000#16)

theorem C74_refuted : ¬ C74_statement := fun h => absurd (h.1 0xa000#16 (by decide)) (by decide)

/-- C74: both halves fail for every character device, not only for one. -/
theorem C74_refuted_everywhere :
    (∀ f : BitVec 16, f &&& 0x6000#16 = 0x2000#16 → fsToStd f &&& 0x8f280000#32 = 0x00200000#32) ∧
    (∀ m : BitVec 32, m &&& 0x8f280000#32 = 0x04200000#32 → stdToFs m = none) := by
  constructor
  · intro f hf
    have := C58_type_bits (fsToStd f) _ (C58_fs_std_fs f)
    have e : ((f &&& meaningful) ||| 0x8000#16) &&& 0x6000#16 = 0x2000#16 := by
      rw [BitVec.and_or_distrib_right, BitVec.and_assoc, ← hf]; simp [meaningful]
    rw [e] at this
    exact fileType_unique' this.1 .charDevice
  · intro m hm
    rcases stdToFs_eq m with ⟨t16, _, _, _, h2, _, _⟩ | ⟨h1, _⟩
    · have e : modeType = 0x8f280000#32 := by decide
      rw [e, hm] at h2
      have key : ∀ {a : BitVec 32} {t : BitVec 16}, FileType a t → a ≠ 0x04200000#32 := by
        intro a t h; cases h <;> decide
      exact absurd rfl (key h2)
    · exact h1

/-- C74, what does hold: a block device is reported as ModeDevice without ModeCharDevice, a
directory as ModeDir, a plain file with no type bit, and all three modes are accepted. -/
theorem C74_other_types_partial (f : BitVec 16) (t : BitVec 32) (ht : FileType t (f &&& 0x6000#16)) :
    fsToStd f &&& 0x8f280000#32 = t := by
  have := C58_type_bits (fsToStd f) _ (C58_fs_std_fs f)
  have e : ((f &&& meaningful) ||| 0x8000#16) &&& 0x6000#16 = f &&& 0x6000#16 := by
    rw [BitVec.and_or_distrib_right, BitVec.and_assoc]; simp [meaningful]
  rw [e] at this
  exact fileType_unique' this.1 ht

example : FileType 0x04000000#32 (0xe1a4#16 &&& 0x6000#16) := .blockDevice

end Disko.UnixV6

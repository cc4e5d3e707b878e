import Verif.Flags.Model
/-
Property theorems C35-C38.
-/
namespace Disko.Flags
open Disko

theorem and_eq_zero {w : Nat} (f : BitVec w) (k : Nat) (hk : k < w) :
    f &&& (1#w <<< k) = 0 ↔ f.getLsbD k = false := by
  constructor
  · intro hc
    have := congrArg (fun v => v.getLsbD k) hc
    simpa [hk] using this
  · intro h
    ext i hi
    simp only [BitVec.getElem_and, BitVec.getElem_shiftLeft, BitVec.getElem_one, BitVec.getElem_zero]
    by_cases hik : i = k
    · subst hik
      have : f[i] = false := by rw [← BitVec.getLsbD_eq_getElem]; exact h
      simp [this]
    · by_cases hlt : i < k
      · simp [hlt]
      · have : i - k ≠ 0 := by omega
        simp [hlt, this]

theorem and_bit {w : Nat} (f : BitVec w) (k : Nat) (hk : k < w) :
    f &&& (1#w <<< k) ≠ 0 ↔ f.getLsbD k = true := by
  rw [Ne, and_eq_zero f k hk]; simp

/-- The bits of a vector under a mask that is a union of two. -/
theorem and_or {w : Nat} (f a b : BitVec w) : f &&& (a ||| b) = 0 ↔ f &&& a = 0 ∧ f &&& b = 0 := by
  constructor
  · intro h
    constructor <;> ext i hi <;>
    · have := congrArg (fun v : BitVec w => v.getLsbD i) h
      simp only [BitVec.getLsbD_and, BitVec.getLsbD_or, BitVec.getLsbD_eq_getElem hi,
        BitVec.getElem_zero, BitVec.getElem_and] at this ⊢
      cases hf : f[i] <;> simp_all
  · rintro ⟨h1, h2⟩
    ext i hi
    have t1 := congrArg (fun v : BitVec w => v.getLsbD i) h1
    have t2 := congrArg (fun v : BitVec w => v.getLsbD i) h2
    simp only [BitVec.getLsbD_and, BitVec.getLsbD_eq_getElem hi,
        BitVec.getElem_zero, BitVec.getElem_and, BitVec.getElem_or] at t1 t2 ⊢
    cases hf : f[i] <;> simp_all

/-- The low two bits of a value: the access mode. -/
theorem and_three (f : BitVec 64) :
    f &&& 3 = (if f.getLsbD 1 then 2 else 0) ||| (if f.getLsbD 0 then 1 else 0) := by
  apply BitVec.eq_of_getLsbD_eq
  intro i hi
  rw [BitVec.getLsbD_and, BitVec.getLsbD_or]
  match i with
  | 0 => cases f.getLsbD 0 <;> cases f.getLsbD 1 <;> rfl
  | 1 => cases f.getLsbD 0 <;> cases f.getLsbD 1 <;> rfl
  | i + 2 =>
    have big : ∀ n : Nat, n < 4 → (BitVec.ofNat 64 n).getLsbD (i + 2) = false := by
      intro n hn
      have : Nat.testBit n (i + 2) = false := Nat.testBit_lt_two_pow (Nat.lt_of_lt_of_le hn
        (Nat.pow_le_pow_right (n := 2) (by omega) (by omega : 2 ≤ i + 2)))
      simp [BitVec.getLsbD_ofNat, this]
    rw [show (3 : BitVec 64) = BitVec.ofNat 64 3 from rfl, big 3 (by decide)]
    cases f.getLsbD 0 <;> cases f.getLsbD 1 <;> simp [big 2 (by decide), big 1 (by decide)]

/-- The access mode requested by a value given to os.OpenFile (bits 0 and 1). -/
inductive Access where
  | readOnly | writeOnly | readWrite
deriving DecidableEq

/-- What the two low bits mean (the value 3 is not defined by package os; the code treats it
as read-only). -/
def osAccess (f : BitVec 64) : Access :=
  match f.getLsbD 1, f.getLsbD 0 with
  | false, true => .writeOnly
  | true, false => .readWrite
  | _, _ => .readOnly

/-- **C35** For every 64-bit value: the access mode, each of append/create/exclusive/truncate/
sync (Linux bits 10, 6, 7, 9, and 12 or 20) is translated, and the result has no other bit. -/
theorem C35_flags_faithful (f : BitVec 64) :
    read (osFlagsToIOFlags f) = decide (osAccess f ≠ .writeOnly) ∧
    write (osFlagsToIOFlags f) = decide (osAccess f ≠ .readOnly) ∧
    append (osFlagsToIOFlags f) = f.getLsbD 10 ∧
    create (osFlagsToIOFlags f) = f.getLsbD 6 ∧
    exclusive (osFlagsToIOFlags f) = f.getLsbD 7 ∧
    truncate (osFlagsToIOFlags f) = f.getLsbD 9 ∧
    synchronous (osFlagsToIOFlags f) = (f.getLsbD 12 || f.getLsbD 20) ∧
    noFollow (osFlagsToIOFlags f) = false ∧
    requiresWritePerm (osFlagsToIOFlags f) = (decide (osAccess f ≠ .readOnly) || f.getLsbD 9) ∧
    osFlagsToIOFlags f &&& ~~~(O_ACCMODE ||| O_APPEND ||| O_CREATE ||| O_EXCL ||| O_TRUNC ||| O_SYNC) = 0 := by
  have e10 : (f &&& OS_APPEND ≠ 0) ↔ f.getLsbD 10 = true := and_bit f 10 (by decide)
  have e6 : (f &&& OS_CREATE ≠ 0) ↔ f.getLsbD 6 = true := and_bit f 6 (by decide)
  have e7 : (f &&& OS_EXCL ≠ 0) ↔ f.getLsbD 7 = true := and_bit f 7 (by decide)
  have e9 : (f &&& OS_TRUNC ≠ 0) ↔ f.getLsbD 9 = true := and_bit f 9 (by decide)
  have e12 : (f &&& OS_SYNC ≠ 0) ↔ (f.getLsbD 12 || f.getLsbD 20) = true := by
    have h := and_or f (1#64 <<< 12) (1#64 <<< 20)
    rw [and_eq_zero f 12 (by decide), and_eq_zero f 20 (by decide)] at h
    rw [Ne, show OS_SYNC = (1#64 <<< 12) ||| (1#64 <<< 20) from rfl, h]
    cases f.getLsbD 12 <;> cases f.getLsbD 20 <;> simp
  have em : f &&& OS_MODEMASK = (if f.getLsbD 1 then 2 else 0) ||| (if f.getLsbD 0 then 1 else 0) :=
    and_three f
  unfold osFlagsToIOFlags osAccess
  simp only [e10, e6, e7, e9, e12, em]
  generalize f.getLsbD 10 = b10
  generalize f.getLsbD 6 = b6
  generalize f.getLsbD 7 = b7
  generalize f.getLsbD 9 = b9
  generalize (f.getLsbD 12 || f.getLsbD 20) = b12
  generalize f.getLsbD 1 = b1
  generalize f.getLsbD 0 = b0
  revert b0 b1 b6 b7 b9 b10 b12
  decide +kernel

example : osFlagsToIOFlags (OS_RDWR ||| OS_CREATE ||| OS_EXCL) = O_RDWR ||| O_CREATE ||| O_EXCL := by
  decide
example : osFlagsToIOFlags 0x8241 = O_WRONLY ||| O_CREATE ||| O_TRUNC := by decide

/-- **C35** The predicates on any Disko flags, also ones that do not come from the OS: each looks at its own bit (Append 3, Create 9, Truncate 10, Exclusive 11,
Synchronous 13, NoFollow 20); Read and Write look at bits 0 and 1, and neither holds if both are set. -/
theorem C35_predicates (f : IOFlags) :
    append f = f.getLsbD 3 ∧ create f = f.getLsbD 9 ∧ truncate f = f.getLsbD 10 ∧ exclusive f = f.getLsbD 11 ∧ synchronous f = f.getLsbD 13 ∧ noFollow f = f.getLsbD 20 ∧
    read f = !f.getLsbD 0 ∧ write f = (f.getLsbD 0 ^^ f.getLsbD 1) ∧ requiresWritePerm f = ((f.getLsbD 0 ^^ f.getLsbD 1) || f.getLsbD 10) := by
  have one : ∀ (k : Nat), k < 64 → (f &&& (1#64 <<< k) != 0) = f.getLsbD k := fun k hk => by
    have := and_bit f k hk
    cases h : f.getLsbD k <;> rw [h] at this
    · have : f &&& (1#64 <<< k) = 0 := by simpa using this
      rw [this]; rfl
    · exact bne_iff_ne.mpr (this.mpr rfl)
  have em : f &&& O_ACCMODE = (if f.getLsbD 1 then 2 else 0) ||| (if f.getLsbD 0 then 1 else 0) := and_three f
  have hw : write f = (f.getLsbD 0 ^^ f.getLsbD 1) := by
    unfold write
    rw [em]
    cases f.getLsbD 0 <;> cases f.getLsbD 1 <;> decide
  refine ⟨one 3 (by decide), one 9 (by decide), one 10 (by decide), one 11 (by decide), one 13 (by decide), one 20 (by decide), ?_, hw, ?_⟩
  · unfold read
    rw [em]
    cases f.getLsbD 0 <;> cases f.getLsbD 1 <;> decide
  · unfold requiresWritePerm
    rw [hw, show truncate f = f.getLsbD 10 from one 10 (by decide)]

example : noFollow (O_NOFOLLOW ||| O_RDWR) = true ∧ read 3 = false ∧ write 3 = false := by decide

/-! ### C36 -/

/-- The seven file type bits of os.FileMode. -/
def typeBits : List Nat := [31, 27, 26, 25, 24, 21, 19]

theorem and_or' {w : Nat} {f a b : BitVec w} : f &&& (a ||| b) = 0 ↔ f &&& a = 0 ∧ f &&& b = 0 :=
  and_or f a b

theorem isFile_iff (m : FileMode) : isFile m = true ↔ ∀ k ∈ typeBits, m.getLsbD k = false := by
  simp only [isFile, ModeType, beq_iff_eq, and_or', ModeDir, ModeSymlink, ModeNamedPipe, ModeSocket,
    ModeDevice, ModeCharDevice, ModeIrregular, typeBits, List.forall_mem_cons, List.not_mem_nil]
  rw [and_eq_zero _ _ (by decide), and_eq_zero _ _ (by decide), and_eq_zero _ _ (by decide),
    and_eq_zero _ _ (by decide), and_eq_zero _ _ (by decide), and_eq_zero _ _ (by decide),
    and_eq_zero _ _ (by decide)]
  constructor
  · rintro ⟨⟨⟨⟨⟨⟨h1, h2⟩, h3⟩, h4⟩, h5⟩, h6⟩, h7⟩
    exact ⟨h1, h2, h5, h3, h4, h6, h7, by simp⟩
  · rintro ⟨h1, h2, h5, h3, h4, h6, h7, _⟩
    exact ⟨⟨⟨⟨⟨⟨h1, h2⟩, h3⟩, h4⟩, h5⟩, h6⟩, h7⟩

theorem isDir_iff (m : FileMode) : isDir m = true ↔ m.getLsbD 31 = true := by
  have := and_bit m 31 (by decide)
  simpa [isDir, ModeDir] using this

theorem typeMask_bit (k : Nat) : ModeType.getLsbD k = decide (k ∈ typeBits) := by
  by_cases hk : k < 32
  · revert k; decide +kernel
  · have h1 : ModeType.getLsbD k = false := BitVec.getLsbD_of_ge _ _ (by omega)
    rw [h1]; simp only [typeBits]; simp; omega

theorem isSymlink_iff (m : FileMode) : isSymlink m = true ↔
    m.getLsbD 27 = true ∧ ∀ k ∈ typeBits, k ≠ 27 → m.getLsbD k = false := by
  have hs : ∀ k, ModeSymlink.getLsbD k = decide (k = 27) := by
    intro k
    by_cases hk : k < 32
    · revert k; decide +kernel
    · have h1 : ModeSymlink.getLsbD k = false := BitVec.getLsbD_of_ge _ _ (by omega)
      rw [h1]; simp; omega
  simp only [isSymlink, beq_iff_eq]
  constructor
  · intro h
    have hb : ∀ k, (m.getLsbD k && decide (k ∈ typeBits)) = decide (k = 27) := by
      intro k
      have := congrArg (fun v => v.getLsbD k) h
      simpa only [BitVec.getLsbD_and, typeMask_bit, hs] using this
    refine ⟨?_, ?_⟩
    · have := hb 27; simpa [typeBits] using this
    · intro k hk hne
      have := hb k; simpa [hk, hne] using this
  · rintro ⟨h1, h2⟩
    apply BitVec.eq_of_getLsbD_eq
    intro k _
    rw [BitVec.getLsbD_and, typeMask_bit, hs]
    by_cases h27 : k = 27
    · subst h27; simp [h1, typeBits]
    · by_cases hk : k ∈ typeBits
      · simp [h2 k hk h27, h27]
      · simp [hk, h27]

/-- **C36** For every mode: IsFile means that none of the seven type bits is set, IsDir that the
directory bit is, IsSymlink that the symlink bit is the only type bit; no two of the three hold
together. -/
theorem C36_type_predicates (m : FileMode) :
    (isFile m = true ↔ ∀ k ∈ typeBits, m.getLsbD k = false) ∧
    (isDir m = true ↔ m.getLsbD 31 = true) ∧
    (isSymlink m = true ↔ m.getLsbD 27 = true ∧ ∀ k ∈ typeBits, k ≠ 27 → m.getLsbD k = false) ∧
    ¬ (isFile m = true ∧ isDir m = true) ∧ ¬ (isFile m = true ∧ isSymlink m = true) ∧
    ¬ (isDir m = true ∧ isSymlink m = true) := by
  refine ⟨isFile_iff m, isDir_iff m, isSymlink_iff m, ?_, ?_, ?_⟩
  · rintro ⟨h1, h2⟩
    have := (isFile_iff m).1 h1 31 (by decide)
    rw [(isDir_iff m).1 h2] at this; simp at this
  · rintro ⟨h1, h2⟩
    have := (isFile_iff m).1 h1 27 (by decide)
    rw [((isSymlink_iff m).1 h2).1] at this; simp at this
  · rintro ⟨h1, h2⟩
    have := ((isSymlink_iff m).1 h2).2 31 (by decide) (by decide)
    rw [(isDir_iff m).1 h1] at this; simp at this

/-- **C36** Flipping any bits that are not type bits (permissions, setuid, sticky, ...) never
changes the three answers. -/
theorem C36_permissions_irrelevant (m p : FileMode) (hp : ∀ k ∈ typeBits, p.getLsbD k = false) :
    isFile (m ^^^ p) = isFile m ∧ isDir (m ^^^ p) = isDir m ∧ isSymlink (m ^^^ p) = isSymlink m := by
  have hb : ∀ k ∈ typeBits, (m ^^^ p).getLsbD k = m.getLsbD k := by
    intro k hk; rw [BitVec.getLsbD_xor, hp k hk]; simp
  refine ⟨?_, ?_, ?_⟩
  · rw [Bool.eq_iff_iff, isFile_iff, isFile_iff]
    constructor <;> intro h k hk
    · rw [← hb k hk]; exact h k hk
    · rw [hb k hk]; exact h k hk
  · rw [Bool.eq_iff_iff, isDir_iff, isDir_iff, hb 31 (by decide)]
  · rw [Bool.eq_iff_iff, isSymlink_iff, isSymlink_iff, hb 27 (by decide)]
    constructor <;> rintro ⟨h1, h2⟩ <;> refine ⟨h1, fun k hk hn => ?_⟩
    · rw [← hb k hk]; exact h2 k hk hn
    · rw [hb k hk]; exact h2 k hk hn

-- a setuid file 04755 is a file; a directory and a link are what they are
example : isFile (0x8001ed#32) = true ∧ isDir (ModeDir ||| 0x1ed#32) = true ∧
    isSymlink (ModeSymlink ||| 0x1ff#32) = true ∧
    (∀ k ∈ typeBits, (0x1ff#32 : FileMode).getLsbD k = false) := by decide

end Disko.Flags

namespace Disko.Errors
open Disko

/-- One call on a DriverError. -/
inductive Call where
  | withMessage (m : String)
  | wrap (id : Nat) (err : Error)

/-- A chain of WithMessage/Wrap calls on a starting error. -/
def chain (e : Error) : List Call → Error
  | [] => e
  | .withMessage m :: cs => chain (e.withMessage m) cs
  | .wrap id err :: cs => chain (e.wrap id err) cs

/-- The errors given to Wrap in a chain. -/
def wrapped : List Call → List Error
  | [] => []
  | .wrap _ err :: cs => err :: wrapped cs
  | _ :: cs => wrapped cs

/-- The messages added by a chain: the text of WithMessage, and the text of a wrapped error. -/
def addedMessages : List Call → List String
  | [] => []
  | .withMessage m :: cs => m :: addedMessages cs
  | .wrap _ err :: cs => err.message :: addedMessages cs

/-- Messages joined with ": ". -/
def joinColon : List String → String
  | [] => ""
  | [m] => m
  | m :: ms => m ++ ": " ++ joinColon ms

/-- One of the errors exported by the package (errors.go:19-49). -/
def IsSentinel (e : Error) : Prop := ∃ m ∈ sentinelMessages, e = sentinel m

theorem goEq_refl : ∀ e : Error, goEq e e = true
  | .base m => by simp [goEq]
  | .custom m o => by simp [goEq, goEq_refl o]
  | .multi id es => by simp [goEq]
  | .foreign id m => by simp [goEq]

theorem errorsIs_refl (e : Error) : errorsIs e e = true := by
  cases e <;> simp [errorsIs, goEq_refl]

theorem errorsIs_custom (t : Error) (m : String) (o : Error) :
    errorsIs t (.custom m o) = (goEq (.custom m o) t || errorsIs t o) := by rw [errorsIs]

theorem errorsIs_multiAppend (t : Error) (id : Nat) (e err : Error) :
    errorsIs t (multiAppend id e err) =
      (goEq (multiAppend id e err) t || errorsIs t e ||
        (match err with
          | .multi _ es => errorsIsAny t es
          | err => errorsIs t err)) := by
  cases err <;> simp [multiAppend, errorsIs, errorsIsAny, Bool.or_assoc]

/-- A custom error: what every chain produces. -/
def IsCustom (e : Error) : Prop := ∃ m o, e = .custom m o

theorem chain_is {t e : Error} (he : IsCustom e) (h : errorsIs t e = true) (cs : List Call) :
    errorsIs t (chain e cs) = true := by
  induction cs generalizing e with
  | nil => exact h
  | cons c cs ih =>
    obtain ⟨m, o, rfl⟩ := he
    cases c with
    | withMessage m' =>
      refine ih ⟨_, _, rfl⟩ ?_
      simp only [Error.withMessage, errorsIs_custom] at h ⊢
      rw [h]; simp
    | wrap id err =>
      refine ih ⟨_, _, rfl⟩ ?_
      simp only [Error.wrap]
      rw [errorsIs_custom, errorsIs_multiAppend, h]; simp

theorem wrap_is {e err : Error} (id : Nat) (hne : ∀ i es, err ≠ .multi i es) :
    errorsIs err (e.wrap id err) = true := by
  simp only [Error.wrap]
  rw [errorsIs_custom, errorsIs_multiAppend]
  cases err with
  | multi i es => exact absurd rfl (hne i es)
  | _ => simp [errorsIs_refl]

/-- **C37** Whatever chain of WithMessage and Wrap calls is made on a sentinel, the result
matches (errors.Is) the sentinel and every error that was wrapped.  (A wrapped *multierror.Error
is flattened: its elements match, see C37_flattened.) -/
theorem C37_identity_kept (s : Error) (hs : IsSentinel s) (cs : List Call) :
    errorsIs s (chain s cs) = true ∧
    ∀ err ∈ wrapped cs, (∀ i es, err ≠ .multi i es) → errorsIs err (chain s cs) = true := by
  obtain ⟨m, _, rfl⟩ := hs
  have hc : IsCustom (sentinel m) := ⟨_, _, rfl⟩
  refine ⟨chain_is hc (errorsIs_refl _) cs, ?_⟩
  generalize sentinel m = e at hc
  induction cs generalizing e with
  | nil => simp [wrapped]
  | cons c cs ih =>
    obtain ⟨m', o, rfl⟩ := hc
    cases c with
    | withMessage m'' => exact ih _ ⟨_, _, rfl⟩
    | wrap id err =>
      intro x hx hne
      simp only [wrapped, List.mem_cons] at hx
      rcases hx with rfl | hx
      · exact chain_is ⟨_, _, rfl⟩ (wrap_is id hne) cs
      · exact ih _ ⟨_, _, rfl⟩ x hx hne

/-- **C37** The elements of a wrapped multierror match. -/
theorem C37_flattened (s : Error) (hs : IsSentinel s) (cs : List Call) (i : Nat)
    (es : List Error) (h : Error.multi i es ∈ wrapped cs) (x : Error) (hx : x ∈ es) :
    errorsIs x (chain s cs) = true := by
  obtain ⟨m, _, rfl⟩ := hs
  have hc : IsCustom (sentinel m) := ⟨_, _, rfl⟩
  generalize sentinel m = e at hc
  induction cs generalizing e with
  | nil => simp [wrapped] at h
  | cons c cs ih =>
    obtain ⟨m', o, rfl⟩ := hc
    cases c with
    | withMessage m'' => exact ih h _ ⟨_, _, rfl⟩
    | wrap id err =>
      simp only [wrapped, List.mem_cons] at h
      rcases h with rfl | h
      · refine chain_is (e := Error.wrap (.custom m' o) id (.multi i es)) ⟨_, _, rfl⟩ ?_ cs
        have : errorsIsAny x es = true := by
          clear ih
          induction es with
          | nil => simp at hx
          | cons y ys ih =>
            simp only [errorsIsAny, Bool.or_eq_true]
            simp only [List.mem_cons] at hx
            rcases hx with rfl | hx
            · left; exact errorsIs_refl _
            · right; exact ih hx
        rw [Error.wrap, errorsIs_custom, errorsIs_multiAppend]
        simp [this]
      · exact ih h _ ⟨_, _, rfl⟩

/-- **C37** No other sentinel matches: a sentinel matches the result only if it is the one the
chain started from or it matches one of the wrapped errors. -/
theorem C37_no_false_match (s t : Error) (hs : IsSentinel s) (ht : IsSentinel t) (cs : List Call)
    (h : errorsIs t (chain s cs) = true) :
    t = s ∨ ∃ err ∈ wrapped cs, errorsIs t err = true := by
  obtain ⟨m, _, rfl⟩ := hs
  obtain ⟨n, _, rfl⟩ := ht
  have base : ∀ k, goEq (.multi k []) (sentinel n) = false := fun k => rfl
  have key : ∀ e, IsCustom e → errorsIs (sentinel n) (chain e cs) = true →
      errorsIs (sentinel n) e = true ∨ ∃ err ∈ wrapped cs, errorsIs (sentinel n) err = true := by
    clear h
    intro e he h
    induction cs generalizing e with
    | nil => exact .inl h
    | cons c cs ih =>
      obtain ⟨m', o, rfl⟩ := he
      cases c with
      | withMessage m'' =>
        rcases ih _ ⟨_, _, rfl⟩ (by rw [chain] at h; exact h) with h1 | h1
        · left
          rw [errorsIs_custom] at h1
          simpa [sentinel, rootError, Error.withMessage, goEq] using h1
        · exact .inr h1
      | wrap id err =>
        rcases ih _ ⟨_, _, rfl⟩ (by rw [chain] at h; exact h) with h1 | ⟨x, hx, h1⟩
        · rw [errorsIs_custom, errorsIs_multiAppend] at h1
          have g1 : goEq (.custom ((Error.custom m' o).message ++ ": " ++ err.message)
              (multiAppend id (.custom m' o) err)) (sentinel n) = false := by
            cases err <;> simp [multiAppend, sentinel, rootError, Error.withMessage, goEq]
          have g2 : goEq (multiAppend id (.custom m' o) err) (sentinel n) = false := by
            cases err <;> simp [multiAppend, sentinel, rootError, Error.withMessage, goEq]
          rw [g1, g2] at h1
          simp only [Bool.false_or, Bool.or_eq_true] at h1
          rcases h1 with h1 | h1
          · exact .inl h1
          · right
            refine ⟨err, by simp [wrapped], ?_⟩
            cases err with
            | multi i es => rw [errorsIs]; simp at h1; simp [h1]
            | _ => exact h1
        · exact .inr ⟨x, by simp [wrapped, hx], h1⟩
  rcases key _ ⟨_, _, rfl⟩ h with h1 | h1
  · left
    simp only [sentinel, rootError, Error.withMessage, errorsIs, goEq] at h1
    simp at h1
    simp [sentinel, rootError, Error.withMessage, h1]
  · exact .inr h1

/-- **C37** The sentinels are pairwise different errors: one matches another only if they are
the same. -/
theorem C37_sentinels_distinct : sentinelMessages.Nodup ∧
    ∀ s t, IsSentinel s → IsSentinel t → (errorsIs t s = true ↔ t = s) := by
  refine ⟨by decide +kernel, ?_⟩
  intro s t hs ht
  constructor
  · intro h
    rcases C37_no_false_match s t hs ht [] h with h | ⟨x, hx, _⟩
    · exact h
    · simp [wrapped] at hx
  · rintro rfl; exact errorsIs_refl _

-- a chain that wraps another sentinel
example : IsSentinel (sentinel "File exists") ∧
    errorsIs (sentinel "Not a directory") (chain (sentinel "File exists")
      [.withMessage "x", .wrap 0 (.foreign 3 "boom"), .wrap 1 (sentinel "Not a directory")]) = true ∧
    errorsIs (sentinel "Too many users") (chain (sentinel "File exists")
      [.withMessage "x", .wrap 0 (.foreign 3 "boom")]) = false :=
  ⟨⟨_, by decide +kernel, rfl⟩, by decide +kernel, by decide +kernel⟩

theorem custom_message (cs : List Call) : ∀ e, IsCustom e → (chain e cs).message = joinColon (e.message :: addedMessages cs) := by
  intro e he
  induction cs generalizing e with
  | nil => rfl
  | cons c cs ih =>
    obtain ⟨m', o, rfl⟩ := he
    have hj : ∀ (a b : String) (l : List String),
        joinColon ((a ++ ": " ++ b) :: l) = joinColon (a :: b :: l) := by
      intro a b l
      cases l with
      | nil => simp [joinColon]
      | cons c l => simp [joinColon, String.append_assoc]
    cases c with
    | withMessage m'' =>
      rw [chain, ih _ (by exact ⟨_, _, rfl⟩), addedMessages]
      simp only [Error.withMessage, Error.message]
      exact hj _ _ _
    | wrap id err =>
      rw [chain, ih _ (by exact ⟨_, _, rfl⟩), addedMessages]
      simp only [Error.wrap]
      exact hj _ _ _

/-- **C38** The text of a sentinel extended by any chain of calls is all the messages in order,
joined with ": ". -/
theorem C38_message (m : String) (cs : List Call) :
    (chain (sentinel m) cs).message = joinColon (m :: addedMessages cs) := custom_message cs _ ⟨_, _, rfl⟩

/-- **C38** CastToDriverError: nil stays nil, a DriverError is returned unmodified, and anything
else becomes a DriverError that still matches the original. -/
theorem C38_cast (id : Nat) :
    castToDriverError id none = none ∧
    (∀ e, e.isDriverError = true → castToDriverError id (some e) = some e) ∧
    (∀ e, ∃ d, castToDriverError id (some e) = some d ∧ d.isDriverError = true ∧
      ((∀ i es, e ≠ .multi i es) → errorsIs e d = true)) := by
  refine ⟨rfl, fun e h => by simp [castToDriverError, h], fun e => ?_⟩
  by_cases h : e.isDriverError = true
  · exact ⟨e, by simp [castToDriverError, h], h, fun _ => errorsIs_refl e⟩
  · exact ⟨rootError.wrap id e, by simp [castToDriverError, h], rfl, fun hne => wrap_is id hne⟩

/-- **C38** An error that is not one of the package's (an error of another package, or a *multierror.Error) is never returned as it is: the result
has the text ": " and the text of the error, and is another error for `==`. -/
theorem C38_cast_others (id : Nat) {e : Error} (h : (∃ i m, e = .foreign i m) ∨ ∃ i es, e = .multi i es) :
    ∃ d, castToDriverError id (some e) = some d ∧ d.message = ": " ++ e.message ∧ goEq d e = false ∧ goEq e d = false := by
  refine ⟨rootError.wrap id e, ?_, ?_, ?_⟩
  · rcases h with ⟨i, m, rfl⟩ | ⟨i, es, rfl⟩ <;> rfl
  · show "" ++ ": " ++ e.message = _
    rw [String.empty_append]
  · rcases h with ⟨i, m, rfl⟩ | ⟨i, es, rfl⟩ <;> exact ⟨rfl, rfl⟩

example : (castToDriverError 0 (some (.foreign 1 "boom"))).map Error.message = some ": boom" := by decide +kernel

example : (chain (sentinel "File exists") [.withMessage "/a", .wrap 0 (.foreign 1 "boom")]).message =
    "File exists: /a: boom" := by decide +kernel

/-! ### Errors made with NewError -/

/-- The errors the package makes: NewError, and WithMessage and Wrap on one. -/
inductive Made : Error → Prop where
  | new (m : String) : Made (newError m)
  | withMessage {e : Error} (m : String) : Made e → Made (e.withMessage m)
  | wrap {e : Error} (id : Nat) (err : Error) : Made e → Made (e.wrap id err)

/-- **C38** Every error the package makes is a DriverError, and CastToDriverError does not change it. -/
theorem C38_made {e : Error} (h : Made e) (id : Nat) : e.isDriverError = true ∧ castToDriverError id (some e) = some e := by
  have hd : e.isDriverError = true := by
    cases h with
    | new m => rfl
    | withMessage m _ => unfold Error.withMessage; split <;> rfl
    | wrap id err _ => rfl
  exact ⟨hd, (C38_cast id).2.1 e hd⟩

/-- **C38** The text of an error made with NewError and extended by a chain of calls: all the messages in order; except that WithMessage, called first, replaces the message the
error was made with. -/
theorem C38_new (m : String) : (newError m).message = m ∧
    (∀ id err cs, (chain (newError m) (.wrap id err :: cs)).message = joinColon (m :: err.message :: addedMessages cs)) ∧
    ∀ x cs, (chain (newError m) (.withMessage x :: cs)).message = joinColon (x :: addedMessages cs) := by
  refine ⟨rfl, fun id err cs => ?_, fun x cs => ?_⟩
  · rw [chain, custom_message cs ((newError m).wrap id err) ⟨_, _, rfl⟩]
    show joinColon ((m ++ ": " ++ err.message) :: addedMessages cs) = _
    cases addedMessages cs with
    | nil => simp [joinColon]
    | cons c l => simp [joinColon, String.append_assoc]
  · rw [chain, custom_message cs ((newError m).withMessage x) ⟨_, _, rfl⟩]
    rfl

/-- So the text of NewError(m).WithMessage(x) is not "m: x", as it is for a sentinel. -/
theorem C38_new_drops : (chain (newError "m") [.withMessage "x"]).message ≠ joinColon ["m", "x"] := by
  rw [(C38_new "m").2.2]
  decide

/-- **C37** An error made with NewError keeps its identity under any chain of calls; and two such errors are the same for errors.Is exactly if their messages are. -/
theorem C37_new (m : String) (cs : List Call) : errorsIs (newError m) (chain (newError m) cs) = true ∧ ∀ m', errorsIs (newError m') (newError m) = true ↔ m' = m := by
  refine ⟨?_, fun m' => ?_⟩
  · cases cs with
    | nil => exact errorsIs_refl _
    | cons c cs =>
      cases c with
      | withMessage x =>
        refine chain_is ⟨_, _, rfl⟩ ?_ cs
        simp only [newError]
        rw [errorsIs_custom, errorsIs_refl]; simp
      | wrap id err =>
        refine chain_is ⟨_, _, rfl⟩ ?_ cs
        simp only [newError]
        rw [errorsIs_custom, errorsIs_multiAppend, errorsIs_refl]; simp
  · simp only [newError, errorsIs, goEq]
    rw [beq_iff_eq]
    exact eq_comm

example : Made ((newError "a").wrap 0 (.foreign 1 "b")) := .wrap _ _ (.new _)

end Disko.Errors

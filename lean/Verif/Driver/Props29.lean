import Verif.Driver.MountFlags
import Verif.Driver.History
import Verif.Driver.Props15
/-! C134: mount flags ask for what they are called after, and unknown ones are ignored. -/
namespace Disko.Driver
open Disko Spec

variable {σ H : Type}

namespace Spec

/-- The permissions, in the order of the API. -/
inductive Permission where
  | read | write | insert | delete | administer | preserveTimestamps
deriving DecidableEq

/-- The number of the bit of a permission. -/
def Permission.bit : Permission → Nat
  | .read => 0
  | .write => 1
  | .insert => 2
  | .delete => 3
  | .administer => 4
  | .preserveTimestamps => 5

/-- The set of permissions a mount has. -/
def Grants (mf : MountFlags) (p : Permission) : Prop := mf.getLsbD p.bit = true

/-- Two mounts with the same standard permissions (their other bits may differ). -/
def SamePermissions (mf mf' : MountFlags) : Prop := ∀ p, Grants mf p ↔ Grants mf' p

/-- What the names of the API stand for: combining flags with `|` is the union of what they grant. -/
def Named (mf : MountFlags) (granted : List Permission) : Prop :=
  (∀ p, Grants mf p ↔ p ∈ granted) ∧ ∀ i ≥ 6, mf.getLsbD i = false

end Spec

/-- C134: every named flag grants what it is called after and nothing else. -/
theorem C134_names :
    Named mountFlagsAllowRead [.read] ∧ Named mountFlagsAllowWrite [.write] ∧ Named mountFlagsAllowInsert [.insert] ∧
    Named mountFlagsAllowDelete [.delete] ∧ Named mountFlagsAllowAdminister [.administer] ∧ Named mountFlagsPreserveTimestamps [.preserveTimestamps] ∧
    Named mountFlagsAllowReadWrite [.read, .write] ∧ Named mountFlagsAllowAll [.read, .write, .insert, .delete, .administer] := by
  have big : ∀ (x : BitVec 64), x.toNat < 64 → ∀ i ≥ 6, x.getLsbD i = false := by
    intro x hx i hi
    rw [← BitVec.testBit_toNat]
    exact Nat.testBit_lt_two_pow (Nat.lt_of_lt_of_le hx (Nat.pow_le_pow_right (n := 2) (by decide) hi))
  refine ⟨?_, ?_, ?_, ?_, ?_, ?_, ?_, ?_⟩ <;> refine ⟨fun p => by cases p <;> unfold Grants <;> decide, big _ (by decide)⟩

/-- C134: combining flags grants what either grants; the standard flags of a word are those the mask leaves. -/
theorem C134_combine (f g : MountFlags) (p : Permission) :
    (Grants (f ||| g) p ↔ Grants f p ∨ Grants g p) ∧ (Grants (f &&& mountFlagsMask) p ↔ Grants f p) := by
  unfold Grants
  rw [BitVec.getLsbD_or, BitVec.getLsbD_and, Bool.or_eq_true]
  refine ⟨Iff.rfl, ?_⟩
  rw [Bool.and_eq_true]
  exact and_iff_left (by cases p <;> decide)

/-- C134: the mask takes away exactly the custom flags, which start at MountFlagsCustomStart. -/
theorem C134_mask (f : MountFlags) (i : Nat) :
    (f &&& mountFlagsMask).getLsbD i = (decide (2 ^ i < mountFlagsCustomStart.toNat) && f.getLsbD i) := by
  rw [BitVec.getLsbD_and, Bool.and_comm]
  congr 1
  rw [show mountFlagsCustomStart.toNat = 2 ^ 6 from rfl, show mountFlagsMask = BitVec.ofNat 64 (2 ^ 6 - 1) from rfl, BitVec.getLsbD_ofNat, Nat.testBit_two_pow_sub_one]
  have e : (2 ^ i < 2 ^ 6 ↔ i < 6) := Nat.pow_lt_pow_iff_right (by decide)
  by_cases h : i < 6
  · rw [decide_eq_true (e.mpr h), decide_eq_true h, decide_eq_true (show i < 64 by omega)]; rfl
  · rw [decide_eq_false (mt e.mp h), decide_eq_false h, Bool.and_false]

/-- C134: CanRead, CanWrite and CanDelete answer for every flag word. -/
theorem C134_predicates (f : MountFlags) :
    (canRead f = true ↔ Grants f .read) ∧ (canWrite f = true ↔ Grants f .write) ∧ (canDelete f = true ↔ Grants f .delete) := by
  refine ⟨?_, ?_, ?_⟩
  · unfold canRead Grants; rw [bne_iff_ne]; exact Flags.and_bit f 0 (by decide)
  · unfold canWrite Grants; rw [bne_iff_ne]; exact Flags.and_bit f 1 (by decide)
  · unfold canDelete Grants; rw [bne_iff_ne]; exact Flags.and_bit f 3 (by decide)

example : Grants 0xFFC1 .read ∧ ¬ Grants 0xFFC1 .write ∧ SamePermissions 0xFFC1 1 ∧ ¬ SamePermissions 3 1 :=
  ⟨by unfold Grants; decide, by unfold Grants; decide, fun p => by cases p <;> unfold Grants <;> decide, fun h => absurd ((h .write).mp (by unfold Grants; decide)) (by unfold Grants; decide)⟩

/-! ### The driver ignores the flags it does not know -/

section
variable (d : Drv σ H) (mf : MountFlags)

theorem openFile_mounted (hc : canWrite mf = canWrite d.mountFlags) (fuel : Nat) (p : Str) (flags : Flags.IOFlags) (perm : FileMode) :
    openFile (d.mounted mf) fuel p flags perm = openFile d fuel p flags perm := by
  have i2 := (resolve_mounted d mf fuel).2.1
  have hcm : createMissing (d.mounted mf) fuel = createMissing d fuel := by
    funext a b; unfold createMissing; rw [i2]; rfl
  unfold openFile
  simp only
  rw [i2, hcm, show (d.mounted mf).mountFlags = mf from rfl, hc]
  rfl

theorem readDirLoop_mounted (h : H) : ∀ (ns : List Str) (es : List DirEntry), readDirLoop (d.mounted mf) h ns es = readDirLoop d h ns es
  | [], es => by rw [readDirLoop, readDirLoop]
  | n :: ns, es => by
    rw [readDirLoop, readDirLoop]
    simp only [readDirLoop_mounted h ns]
    rfl

theorem readDirObject_mounted : readDirObject (d.mounted mf) = readDirObject d := by
  funext e
  unfold readDirObject
  simp only [readDirLoop_mounted]
  rfl

theorem file_readDir_mounted (f : File H) (n : Int) : f.readDir (d.mounted mf) n = f.readDir d n := by
  unfold File.readDir
  rw [readDirObject_mounted]
  rfl

theorem stepFile_mounted (f : File H) (op : FileOp) : stepFile (d.mounted mf) f op = stepFile d f op := by
  cases op with
  | readDir n => simp only [stepFile, file_readDir_mounted]; rfl
  | readdir n => simp only [stepFile, File.readdir, file_readDir_mounted]; rfl
  | readdirnames n => simp only [stepFile, File.readdirnames, file_readDir_mounted]; rfl
  | _ => rfl

theorem stepOp_mounted (hc : canWrite mf = canWrite d.mountFlags) (fuel : Nat) (w : World H) (op : Op) :
    stepOp (d.mounted mf) fuel w op = stepOp d fuel w op := by
  have key : ({ d.mounted mf with workingDirPath := w.wd } : Drv σ H) = ({ d with workingDirPath := w.wd } : Drv σ H).mounted mf := rfl
  obtain ⟨i1, i2, i3, i4, i5⟩ := resolve_mounted ({ d with workingDirPath := w.wd } : Drv σ H) mf fuel
  have ho := openFile_mounted ({ d with workingDirPath := w.wd } : Drv σ H) mf hc fuel
  have hi := fun p q perm uid gid at' mt => C98_ignored_partial ({ d with workingDirPath := w.wd } : Drv σ H) mf fuel p q perm uid gid at' mt
  cases op with
  | openFile p flags perm => simp only [stepOp]; rw [key, ho]
  | open_ p => simp only [stepOp, open_]; rw [key, ho]
  | create p => simp only [stepOp, create]; rw [key, ho]
  | chdir p => simp only [stepOp, chdir]; rw [key, i2]; rfl
  | chmod p m => simp only [stepOp]; rw [key, (hi p p m 0 0 0 0).2.2.2.2.2.2.1]
  | chown p u g => simp only [stepOp]; rw [key, (hi p p 0 u g 0 0).2.2.2.2.2.2.2.1]
  | lchown p u g => simp only [stepOp]; rw [key, (hi p p 0 u g 0 0).2.2.2.2.2.2.2.2.1]
  | chtimes p a m => simp only [stepOp]; rw [key, (hi p p 0 0 0 a m).2.2.2.2.2.2.2.2.2.1]
  | readFile p => simp only [stepOp]; rw [key, (hi p p 0 0 0 0 0).2.2.2.2.2.2.2.2.2.2.1]
  | stat p => simp only [stepOp]; rw [key, (hi p p 0 0 0 0 0).2.2.2.2.2.2.2.2.2.2.2]
  | readDir p => simp only [stepOp, readDir]; rw [key, i2, readDirObject_mounted]; rfl
  | link o n => simp only [stepOp]; rw [key, (hi o n 0 0 0 0 0).2.2.2.2.2.1]
  | readlink p => simp only [stepOp, readlink]; rw [key, i1]; rfl
  | lstat p => simp only [stepOp, lstat]; rw [key, i1, i4]; rfl
  | remove p => simp only [stepOp]; rw [key, (hi p p 0 0 0 0 0).1]
  | truncate p => simp only [stepOp]; rw [key, (hi p p 0 0 0 0 0).2.2.2.2.1]
  | writeFile p data perm => simp only [stepOp, writeFile]; rw [key, ho]; rfl
  | mkdir p perm => simp only [stepOp]; rw [key, (hi p p perm 0 0 0 0).2.2.1]
  | mkdirAll p perm => simp only [stepOp]; rw [key, (hi p p perm 0 0 0 0).2.2.2.1]
  | removeAll p => simp only [stepOp]; rw [key, (hi p p 0 0 0 0 0).2.1]
  | getwd => rfl
  | file i op =>
    simp only [stepOp]
    rcases w.files[i]? with _ | f
    · rfl
    · simp only [key, stepFile_mounted]

theorem runOps_mounted (hc : canWrite mf = canWrite d.mountFlags) (fuel : Nat) : ∀ (ops : List Op) (w : World H), runOps (d.mounted mf) fuel w ops = runOps d fuel w ops
  | [], w => rfl
  | op :: ops, w => by
    unfold runOps
    rw [stepOp_mounted d mf hc]
    congr 1
    funext r
    obtain ⟨a, b⟩ := r
    simp only [runOps_mounted hc fuel ops a]

end

/-- C134: a program behaves the same, call for call and answer for answer, on two mounts that grant the same
standard permissions, whatever other bits their flag words have (driver-specific flags are ignored). -/
theorem C134_ignored (cfg : Cfg) (impl : Impl σ H) (mf mf' : MountFlags) (wd : Str) (hs : SamePermissions mf mf') (fuel : Nat) (w : World H) (ops : List Op) (s : σ) :
    runOps ⟨cfg, impl, mf', wd⟩ fuel w ops s = runOps ⟨cfg, impl, mf, wd⟩ fuel w ops s := by
  refine congrFun (runOps_mounted (⟨cfg, impl, mf, wd⟩ : Drv σ H) mf' ?_ fuel ops w) s
  have h := hs .write
  rw [← (C134_predicates mf).2.1, ← (C134_predicates mf').2.1] at h
  exact (Bool.eq_iff_iff.mpr h).symm

end Disko.Driver

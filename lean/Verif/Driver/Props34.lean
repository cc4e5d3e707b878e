import Verif.Driver.Props15
import Verif.Driver.History
/-! C98, exactly: what difference the mount flags make to a program. -/
namespace Disko.Driver
open Disko Spec

variable {σ H : Type}

namespace Spec
/-- The calls that look at the mount flags: those that open a file for writing or to empty it. -/
def AsksToWrite : Op → Prop
  | .openFile _ flags _ => WriteIntent flags
  | .create _ | .writeFile .. => True
  | _ => False
end Spec

section
variable (d : Drv σ H) (mf : MountFlags)

theorem createMissing_anyFlags (n : Nat) : createMissing (d.mounted mf) n = createMissing d n := by
  funext p perm
  unfold createMissing
  rw [(resolve_mounted d mf n).2.1]; rfl

/-- Opening depends on whether it is refused only. -/
theorem openFile_anyFlags (n : Nat) (p : Str) (flags : Flags.IOFlags) (perm : FileMode)
    (h : (Flags.requiresWritePerm flags && !canWrite mf) = false) (h' : (Flags.requiresWritePerm flags && !canWrite d.mountFlags) = false) :
    openFile (d.mounted mf) n p flags perm = openFile d n p flags perm := by
  unfold openFile
  rw [(resolve_mounted d mf n).2.1, createMissing_anyFlags]
  simp only [show (d.mounted mf).mountFlags = mf from rfl, h, h', Bool.false_eq_true, if_false]
  rfl

theorem requires_false {flags : Flags.IOFlags} (h : ¬ WriteIntent flags) : Flags.requiresWritePerm flags = false := by
  rcases e : Flags.requiresWritePerm flags with _ | _
  · rfl
  · exact absurd ((requires_iff flags).mp e) h

theorem readDirLoop_anyFlags (h : H) : ∀ (ns : List Str) (out : List DirEntry), readDirLoop (d.mounted mf) h ns out = readDirLoop d h ns out
  | [], out => by rw [readDirLoop, readDirLoop]
  | n :: ns, out => by
    rw [readDirLoop, readDirLoop]
    simp only [readDirLoop_anyFlags h ns]
    rfl

theorem readDirObject_anyFlags : readDirObject (d.mounted mf) = readDirObject d := by
  funext e
  unfold readDirObject
  simp only [readDirLoop_anyFlags]
  rfl

theorem fileReadDir_anyFlags (f : File H) (n : Int) : f.readDir (d.mounted mf) n = f.readDir d n := by
  unfold File.readDir
  rw [readDirObject_anyFlags]
  rfl

theorem stepFile_anyFlags (f : File H) (op : FileOp) : stepFile (d.mounted mf) f op = stepFile d f op := by
  cases op with
  | readDir n => simp only [stepFile, fileReadDir_anyFlags]; rfl
  | readdir n => simp only [stepFile, File.readdir, fileReadDir_anyFlags]; rfl
  | readdirnames n => simp only [stepFile, File.readdirnames, File.readdir, fileReadDir_anyFlags]; rfl
  | _ => rfl

theorem writeFile_anyFlags (n : Nat) (p : Str) (data : Bytes) (perm : FileMode) (h : canWrite mf = true) (h' : canWrite d.mountFlags = true) :
    writeFile (d.mounted mf) n p data perm = writeFile d n p data perm := by
  unfold writeFile
  rw [openFile_anyFlags d mf n p _ perm (by rw [h]; simp) (by rw [h']; simp)]
  rfl

theorem stepOp_anyFlags (n : Nat) (w : World H) (op : Op) (h : AsksToWrite op → canWrite mf = true ∧ canWrite d.mountFlags = true) :
    stepOp (d.mounted mf) n w op = stepOp d n w op := by
  have key := C98_ignored_partial ({ d with workingDirPath := w.wd }) mf n
  obtain ⟨i1, i2, i3, i4, i5⟩ := resolve_mounted ({ d with workingDirPath := w.wd }) mf n
  have e : ({ d.mounted mf with workingDirPath := w.wd } : Drv σ H) = ({ d with workingDirPath := w.wd } : Drv σ H).mounted mf := rfl
  have hb : ∀ flags, (AsksToWrite op ↔ WriteIntent flags) →
      (Flags.requiresWritePerm flags && !canWrite mf) = false ∧ (Flags.requiresWritePerm flags && !canWrite ({ d with workingDirPath := w.wd } : Drv σ H).mountFlags) = false := by
    intro flags hf
    by_cases hw : WriteIntent flags
    · rw [(h (hf.mpr hw)).1, show canWrite ({ d with workingDirPath := w.wd } : Drv σ H).mountFlags = true from (h (hf.mpr hw)).2]; simp
    · rw [requires_false hw]; simp
  cases op with
  | openFile p flags perm =>
    obtain ⟨b1, b2⟩ := hb flags Iff.rfl
    simp only [stepOp, e, openFile_anyFlags _ mf n p flags perm b1 b2]
  | open_ p =>
    simp only [stepOp, e, open_, openFile_anyFlags _ mf n p Flags.O_RDONLY 0 (by rw [show Flags.requiresWritePerm Flags.O_RDONLY = false by decide]; rfl)
      (by rw [show Flags.requiresWritePerm Flags.O_RDONLY = false by decide]; rfl)]
  | create p =>
    obtain ⟨b1, b2⟩ := h trivial
    simp only [stepOp, e, create, openFile_anyFlags ({ d with workingDirPath := w.wd } : Drv σ H) mf n p (Flags.O_RDWR ||| Flags.O_CREATE ||| Flags.O_EXCL) 0
      (by rw [b1]; simp) (by rw [show canWrite ({ d with workingDirPath := w.wd } : Drv σ H).mountFlags = true from b2]; simp)]
  | writeFile p data perm =>
    obtain ⟨b1, b2⟩ := h trivial
    simp only [stepOp, e, writeFile_anyFlags ({ d with workingDirPath := w.wd } : Drv σ H) mf n p data perm b1 b2]
  | chdir p => simp only [stepOp, e, chdir, i2]; rfl
  | chmod p m => simp only [stepOp, e, (key p p m 0 0 0 0).2.2.2.2.2.2.1]
  | chown p u v => simp only [stepOp, e, (key p p 0 u v 0 0).2.2.2.2.2.2.2.1]
  | lchown p u v => simp only [stepOp, e, (key p p 0 u v 0 0).2.2.2.2.2.2.2.2.1]
  | chtimes p a m => simp only [stepOp, e, (key p p 0 0 0 a m).2.2.2.2.2.2.2.2.2.1]
  | readFile p => simp only [stepOp, e, (key p p 0 0 0 0 0).2.2.2.2.2.2.2.2.2.2.1]
  | stat p => simp only [stepOp, e, (key p p 0 0 0 0 0).2.2.2.2.2.2.2.2.2.2.2]
  | readDir p => simp only [stepOp, e, readDir, i2, readDirObject_anyFlags]; rfl
  | link o p => simp only [stepOp, e, (key o p 0 0 0 0 0).2.2.2.2.2.1]
  | readlink p => simp only [stepOp, e, readlink, i1]; rfl
  | lstat p => simp only [stepOp, e, lstat, i1, i4]; rfl
  | remove p => simp only [stepOp, e, (key p p 0 0 0 0 0).1]
  | truncate p => simp only [stepOp, e, (key p p 0 0 0 0 0).2.2.2.2.1]
  | mkdir p perm => simp only [stepOp, e, (key p p perm 0 0 0 0).2.2.1]
  | mkdirAll p perm => simp only [stepOp, e, (key p p perm 0 0 0 0).2.2.2.1]
  | removeAll p => simp only [stepOp, e, (key p p 0 0 0 0 0).2.1]
  | getwd => rfl
  | file i op =>
    simp only [stepOp, e]
    rcases w.files[i]? with _ | f
    · rfl
    · simp only [stepFile_anyFlags]

/-- C98, exactly, in every configuration.  A program that opens no file for writing or to empty it (and calls neither Create nor WriteFile) does the same
whatever the mount flags are: removing, creating directories, truncating, writing to open files, and so on are never refused. -/
theorem C98_programs_partial (fuel : Nat) (w : World H) (ops : List Op) (h : ∀ op ∈ ops, ¬ AsksToWrite op) :
    runOps (d.mounted mf) fuel w ops = runOps d fuel w ops := by
  induction ops generalizing w with
  | nil => rfl
  | cons op ops ih =>
    rw [runOps, runOps, stepOp_anyFlags d mf fuel w op fun ha => absurd ha (h op (by simp))]
    exact congrArg (M.andThen _) (funext fun ⟨w', a⟩ => by simp only [ih w' fun o ho => h o (by simp [ho])])

/-- With write permission, no program can tell the mount flags apart. -/
theorem C98_writable (fuel : Nat) (w : World H) (ops : List Op) (h : Writable mf) (h' : Writable d.mountFlags) :
    runOps (d.mounted mf) fuel w ops = runOps d fuel w ops := by
  induction ops generalizing w with
  | nil => rfl
  | cons op ops ih =>
    rw [runOps, runOps, stepOp_anyFlags d mf fuel w op fun _ => ⟨(canWrite_iff mf).mpr h, (canWrite_iff _).mpr h'⟩]
    exact congrArg (M.andThen _) (funext fun ⟨w', a⟩ => by simp only [ih w'])

/-- Without it, the calls that ask to write fail with ErrReadOnlyFileSystem, and change nothing: neither the volume nor what the program holds. -/
theorem C98_asking (fuel : Nat) (w : World H) (op : Op) (s : σ) (h : ¬ Writable d.mountFlags) (ha : AsksToWrite op) :
    stepOp d fuel w op s = .ret (s, .ok (w, .failed .readOnlyFileSystem)) := by
  cases op with
  | openFile p flags perm =>
    simp only [stepOp, ask, M.either]
    rw [C64_refused_partial { d with workingDirPath := w.wd } fuel p flags perm s h ha]; rfl
  | create p =>
    simp only [stepOp, ask, M.either]
    rw [C98_create { d with workingDirPath := w.wd } h fuel p s]; rfl
  | writeFile p data perm =>
    simp only [stepOp, ask, M.either]
    rw [C98_writeFile { d with workingDirPath := w.wd } h fuel p data perm s]; rfl
  | _ => exact ha.elim

end

/-- Mounted read-only, a program removes a file that it could not have created, and asks in vain to write. -/
example : (match runOps (new keeping (flat 4) 1) 9 .start [.writeFile (str! "/f") [1] 0, .remove (str! "/f"), .create (str! "/f"), .stat (str! "/f")] oneFile with
    | .ret (s, .ok (_, as)) => decide (s = [] ∧ as = [.failed .readOnlyFileSystem, .done, .failed .readOnlyFileSystem, .failed .notFound])
    | _ => false) = true ∧ (∀ op ∈ [Op.remove (str! "/f"), .stat (str! "/f")], ¬ AsksToWrite op) ∧ AsksToWrite (.create (str! "/f")) ∧ ¬ Writable 1 ∧ Writable 3 :=
  ⟨by decide +kernel, by simp [AsksToWrite], trivial, by unfold Writable; decide, by unfold Writable; decide⟩

end Disko.Driver

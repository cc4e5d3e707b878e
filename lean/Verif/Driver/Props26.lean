import Verif.Driver.Framing
import Verif.Driver.Lifetimes
/-! C125: what a program can do on a read-only mount; C126: a program that only asks changes nothing. -/
namespace Disko.Driver
open Disko Spec

variable {σ H α β : Type}

namespace Spec

/-- The calls of the implementation that a history of operations on a volume mounted read-only can lead to: looking, reading, listing,
and what the operations on paths (which do not ask how the volume is mounted) and Chmod and Chown of files are for. -/
inductive Justified (ops : List Op) : Call H → Prop where
  | look {c : Call H} (h : Looking c) : Justified ops c
  | list (h : H) : Justified ops (.listDir h)
  | openFile {p : Str} {flags : Flags.IOFlags} {perm : FileMode} (h : .openFile p flags perm ∈ ops) (hc : CreateIntent flags) (hw : ¬ WriteIntent flags) (n : Str) (dir : H) :
    Justified ops (.createObject n dir perm)
  | mkdir {p : Str} {perm mode : FileMode} (h : .mkdir p perm ∈ ops ∨ .mkdirAll p perm ∈ ops) (hm : DirectoryMode perm mode) (n : Str) (dir : H) :
    Justified ops (.createObject n dir mode)
  | link {o p : Str} (h : .link o p ∈ ops) (a b : H) (n : Str) : Justified ops (.createHardLink a b n)
  | unlink {p : Str} (h : .remove p ∈ ops ∨ .removeAll p ∈ ops) (x : H) : Justified ops (.unlink x)
  | truncate {p : Str} (h : .truncate p ∈ ops) (x : H) : Justified ops (.resize x 0)
  | chmod {mode : FileMode} (h : (∃ p, .chmod p mode ∈ ops) ∨ ∃ i, .file i (.chmod mode) ∈ ops) (x : H) : Justified ops (.chmod x mode)
  | chown {u g : Int} (h : (∃ p, .chown p u g ∈ ops) ∨ (∃ p, .lchown p u g ∈ ops) ∨ ∃ i, .file i (.chown u g) ∈ ops) (x : H) : Justified ops (.chown x u g)
  | chtimes {p : Str} {a m : Time} (h : .chtimes p a m ∈ ops) (x : H) (t1 t2 t3 t4 t5 : Time) : Justified ops (.chtimes x t1 t2 t3 t4 t5)

/-- An operation that asks only; or that is refused, the volume being mounted read-only. -/
def Query (mf : MountFlags) : Op → Prop
  | .openFile _ flags _ => (¬ WriteIntent flags ∧ ¬ CreateIntent flags) ∨ (WriteIntent flags ∧ ¬ Writable mf)
  | .create _ => ¬ Writable mf
  | .writeFile _ _ _ => ¬ Writable mf
  | .open_ _ | .chdir _ | .readFile _ | .stat _ | .readDir _ | .readlink _ | .lstat _ | .getwd => True
  | .file _ op => (∀ mode, op ≠ .chmod mode) ∧ ∀ u g, op ≠ .chown u g
  | .chmod _ _ | .chown _ _ _ | .lchown _ _ _ | .chtimes _ _ _ | .link _ _ | .remove _ | .truncate _ | .mkdir _ _ | .mkdirAll _ _ | .removeAll _ => False

end Spec

/-- C125: in every configuration of the code, on every implementation, mounted read-only: whatever calls a program makes on the volume
and the files it opens, the driver makes no calls of the implementation but these. -/
theorem C125_readonly_history (cfg : Cfg) (impl : Impl σ H) (mf : MountFlags) (wd : Str) (fuel : Nat) (ops : List Op) (hmf : ¬ Writable mf) :
    Only (fun _ c => Justified ops c) (runOps (recorded cfg impl mf wd) fuel .start ops) := by
  have L := looks_recorded impl (P := fun _ c => Justified ops c) (fun _ _ h => .look h)
  have hG := runOps_tame (recorded cfg impl mf wd) L (fun x h i buf => Added.one (.look (.readBlocks h i _))) (lists_recorded fun _ h => .list h) fuel ops ?_
  · exact fun s log s' log' r e => (hG _ _ _ e).1
  intro op hop
  have hd : ∀ perm, (∃ p, Op.mkdir p perm ∈ ops ∨ Op.mkdirAll p perm ∈ ops) → ∀ (x : σ × List (σ × Call H)) n h,
      Added (fun _ c => Justified ops c) x ((recording impl).createObject x n h (dirPerm perm)).1 :=
    fun perm ⟨p, hp⟩ x n h => Added.one (.mkdir hp ((dirPerm_spec _ _).mpr rfl) n h)
  cases op with
  | openFile p flags perm =>
    by_cases hw : WriteIntent flags
    · exact .inl ⟨hmf, hw⟩
    · exact .inr ⟨hw, fun hc x n h => Added.one (.openFile hop ((create_iff flags).mp hc) hw n h)⟩
  | create p => exact hmf
  | writeFile p data perm => exact hmf
  | chmod p mode =>
    intro h m hm x
    simp only [recording, Option.map_eq_some_iff] at hm
    obtain ⟨g, _, rfl⟩ := hm
    exact Added.one (.chmod (.inl ⟨p, hop⟩) h)
  | chown p u g =>
    intro h m hm x
    simp only [recording, Option.map_eq_some_iff] at hm
    obtain ⟨g, _, rfl⟩ := hm
    exact Added.one (.chown (.inl ⟨p, hop⟩) h)
  | lchown p u g =>
    intro h m hm x
    simp only [recording, Option.map_eq_some_iff] at hm
    obtain ⟨g, _, rfl⟩ := hm
    exact Added.one (.chown (.inr (.inl ⟨p, hop⟩)) h)
  | chtimes p a m =>
    intro h m hm x
    simp only [recording, Option.map_eq_some_iff] at hm
    obtain ⟨g, _, rfl⟩ := hm
    exact fun _ _ _ _ _ => Added.one (.chtimes hop h _ _ _ _ _)
  | link o n =>
    intro f hf x a b c
    simp only [recording, Option.map_eq_some_iff] at hf
    obtain ⟨g, _, rfl⟩ := hf
    exact Added.one (.link hop a b c)
  | remove p => exact fun x h => Added.one (.unlink (.inl hop) h)
  | removeAll p => exact fun x h => Added.one (.unlink (.inr hop) h)
  | truncate p => exact fun x h => Added.one (.truncate hop h)
  | mkdir p perm => exact hd perm ⟨p, .inl hop⟩
  | mkdirAll p perm => exact hd perm ⟨p, .inr hop⟩
  | file i fop =>
    refine ⟨fun mode he h m hm x => ?_, fun u g he h m hm x => ?_⟩ <;> subst he <;> simp only [recording, Option.map_eq_some_iff] at hm <;> obtain ⟨k, _, rfl⟩ := hm
    · exact Added.one (.chmod (.inr ⟨i, hop⟩) h)
    · exact Added.one (.chown (.inr (.inr ⟨i, hop⟩)) h)
  | _ => trivial

/-- C125: in particular no block is ever written, and no object is resized but to nothing, by Truncate. -/
theorem C125_no_data_written (cfg : Cfg) (impl : Impl σ H) (mf : MountFlags) (wd : Str) (fuel : Nat) (ops : List Op) (hmf : ¬ Writable mf) :
    Only (fun _ c => (∀ h i b, c ≠ .writeBlocks h i b) ∧ ∀ h n, c = .resize h n → n = 0 ∧ ∃ p, Op.truncate p ∈ ops) (runOps (recorded cfg impl mf wd) fuel .start ops) := by
  intro s log s' log' r e
  obtain ⟨calls, h1, h2⟩ := C125_readonly_history cfg impl mf wd fuel ops hmf s log s' log' r e
  refine ⟨calls, h1, fun c hc => ?_⟩
  have := h2 c hc
  refine ⟨fun h i b he => ?_, fun h n he => ?_⟩ <;> rw [he] at this
  · cases this with | look k => cases k
  · cases this with
    | look k => cases k
    | truncate k x => exact ⟨rfl, _, k⟩

/-- C126: in every configuration of the code, for every implementation whose lookups, reads and listings leave the file system as it is:
after any sequence of queries the file system is as before. -/
theorem C126_queries_history (d : Drv σ H) (hp : Still d.impl) (fuel : Nat) (ops : List Op) (hq : ∀ op ∈ ops, Query d.mountFlags op) {s s' : σ}
    {r : Except Err (World H × List Answer)} (h : runOps d fuel .start ops s = .ret (s', r)) : s' = s := by
  have L : Looks (fun a b : σ => b = a) d.impl := Looks.of_reads Pre.eq hp.getObject (fun s h => by rw [hp.close]) hp.read
  refine (runOps_tame d L hp.read hp.list fuel ops (fun op hop => ?_) s s' r h).1
  have := hq op hop
  cases op with
  | openFile p flags perm =>
    rcases this with ⟨h1, h2⟩ | ⟨h1, h2⟩
    · exact .inr ⟨h1, fun hc => absurd ((create_iff flags).mp hc) h2⟩
    · exact .inl ⟨h2, h1⟩
  | create p => exact this
  | writeFile p data perm => exact this
  | file i fop => exact ⟨fun mode he => absurd he (this.1 mode), fun u g he => absurd he (this.2 u g)⟩
  | chmod => exact this.elim
  | chown => exact this.elim
  | lchown => exact this.elim
  | chtimes => exact this.elim
  | link => exact this.elim
  | remove => exact this.elim
  | truncate => exact this.elim
  | mkdir => exact this.elim
  | mkdirAll => exact this.elim
  | removeAll => exact this.elim
  | _ => trivial

/-- A program that tries to write on a volume mounted read-only (flags 1), its answers, and the calls made: three reads (one for each
symbolic link and one for the file) and lookups. -/
example : (match runOps (recorded keeping linked 1 []) 19 .start
      [.create (str! "c"), .writeFile (str! "c") (str! "no") 0, .open_ (str! "a"), .file 0 (.write (str! "no")), .file 0 (.truncate 0), .file 0 .sync, .file 0 (.read 2)] ((), []) with
    | .ret ((_, log), .ok (_, as)) => decide (as = [.failed .readOnlyFileSystem, .failed .readOnlyFileSystem, .done, .count 0 (some .notPermitted), .count 0 (some .notPermitted), .count 0 none,
        .read 2 (str! "hi") none] ∧ log.length = 12 ∧ log.all fun c => match c.2 with | .getObject _ _ => true | .readBlocks _ _ _ => true | .close _ => true | _ => false)
    | _ => false) = true := by decide +kernel

/-- Mounted for writing, the same calls do write: the restriction to read-only mounts is needed. -/
example : (match runOps (recorded keeping linked 3 []) 19 .start [.writeFile (str! "c") (str! "no") 0] ((), []) with
    | .ret ((_, log), _) => log.any fun c => match c.2 with | .resize _ _ => true | _ => false
    | _ => false) = true := by decide +kernel

/-- Queries on a volume mounted for writing. -/
example : Still linked ∧ (∀ op ∈ [Op.stat (str! "a"), .open_ (str! "a"), .file 0 (.write (str! "no")), .file 0 (.read 2)], Query 3 op) ∧
    (match runOps (new keeping linked 3) 19 .start [.stat (str! "a"), .open_ (str! "a"), .file 0 (.write (str! "no")), .file 0 (.read 2)] () with
    | .ret (_, .ok (_, as)) => decide (as = [.stat (statWith 0 2 1 99), .done, .count 0 (some .notPermitted), .read 2 (str! "hi") none])
    | _ => false) = true := by
  refine ⟨linked_still, fun op hop => ?_, by decide +kernel⟩
  simp only [List.mem_cons, List.mem_nil_iff, or_false] at hop
  rcases hop with rfl | rfl | rfl | rfl
  · trivial
  · trivial
  · exact ⟨fun _ h => (by cases h), fun _ _ h => (by cases h)⟩
  · exact ⟨fun _ h => (by cases h), fun _ _ h => (by cases h)⟩

end Disko.Driver

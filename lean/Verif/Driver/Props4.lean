import Verif.Driver.Keeps
import Verif.Driver.Props3
import Verif.Flags.Props
/-! C64: read-only mounts. -/
namespace Disko.Driver
open Disko Spec

variable {σ H : Type}

namespace Spec

/-- The mount allows writing: bit 1 (MountFlagsAllowWrite). -/
def Writable (mf : MountFlags) : Prop := mf.getLsbD 1 = true
/-- The flags ask for writing (exactly one of the two access bits: 1 is write-only, 2 is read-write)
or for truncation (bit 10). -/
def WriteIntent (flags : Flags.IOFlags) : Prop := flags.getLsbD 0 ≠ flags.getLsbD 1 ∨ flags.getLsbD 10 = true
/-- The flags ask for creation (bit 9). -/
def CreateIntent (flags : Flags.IOFlags) : Prop := flags.getLsbD 9 = true
/-- Looking up, closing and reading leave the file system as it is. -/
structure Peaceful (impl : Impl σ H) : Prop extends Quiet impl where
  read : ∀ s h i buf, (impl.readBlocks s h i buf).1 = s
/-- The implementation does not itself say that the file system is read-only. -/
structure NeverReadOnly (impl : Impl σ H) : Prop where
  getObject : ∀ s n h, (impl.getObject s n h).2 ≠ .error .readOnlyFileSystem
  createObject : ∀ s n h m, (impl.createObject s n h m).2 ≠ .error .readOnlyFileSystem

end Spec

theorem canWrite_iff (mf : MountFlags) : canWrite mf = true ↔ Writable mf := by
  unfold canWrite Writable
  rw [bne_iff_ne]
  exact Flags.and_bit mf 1 (by decide)

theorem canWrite_false {mf : MountFlags} (h : ¬ Writable mf) : canWrite mf = false := by
  rcases hc : canWrite mf with _ | _
  · rfl
  · exact absurd ((canWrite_iff mf).mp hc) h

theorem create_iff (f : Flags.IOFlags) : Flags.create f = true ↔ CreateIntent f := by
  unfold Flags.create CreateIntent
  rw [bne_iff_ne]
  exact Flags.and_bit f 9 (by decide)

theorem truncate_iff (f : Flags.IOFlags) : Flags.truncate f = true ↔ f.getLsbD 10 = true := by
  unfold Flags.truncate
  rw [bne_iff_ne]
  exact Flags.and_bit f 10 (by decide)

theorem requires_iff (f : Flags.IOFlags) : Flags.requiresWritePerm f = true ↔ WriteIntent f := by
  unfold Flags.requiresWritePerm WriteIntent
  rw [Bool.or_eq_true, truncate_iff]
  refine or_congr ?_ Iff.rfl
  unfold Flags.write
  rw [show Flags.O_ACCMODE = 3 from rfl, Flags.and_three]
  cases f.getLsbD 0 <;> cases f.getLsbD 1 <;> decide

/-- C64, what it says. -/
def C64_statement (cfg : Cfg) : Prop :=
  ∀ (σ H : Type) (impl : Impl σ H) (mf : MountFlags) (wd : Str) (s : σ) (fuel : Nat) (path : Str) (flags : Flags.IOFlags) (perm : FileMode),
    Peaceful impl → NeverReadOnly impl →
    (¬ Writable mf → WriteIntent flags → openFile ⟨cfg, impl, mf, wd⟩ fuel path flags perm s = .ret (s, .error .readOnlyFileSystem)) ∧
    (Writable mf ∨ ¬ WriteIntent flags → ∀ s', openFile ⟨cfg, impl, mf, wd⟩ fuel path flags perm s ≠ .ret (s', .error .readOnlyFileSystem)) ∧
    (¬ Writable mf → (∀ s' r, openFile ⟨cfg, impl, mf, wd⟩ fuel path flags perm s = .ret (s', r) → s' = s) ∧
      (∀ s' r, mkdir ⟨cfg, impl, mf, wd⟩ fuel path perm s = .ret (s', r) → s' = s))

/-- C64, refusal: in every configuration of the code, on any implementation, for any path, whatever is there. -/
theorem C64_refused_partial (d : Drv σ H) (fuel : Nat) (path : Str) (flags : Flags.IOFlags) (perm : FileMode) (s : σ)
    (hw : ¬ Writable d.mountFlags) (hi : WriteIntent flags) :
    openFile d fuel path flags perm s = .ret (s, .error .readOnlyFileSystem) := by
  unfold openFile
  rw [(requires_iff flags).mpr hi, canWrite_false hw]
  rfl

example : ¬ Writable 1 ∧ WriteIntent Flags.O_RDWR ∧ WriteIntent Flags.O_TRUNC ∧ ¬ WriteIntent Flags.O_RDONLY := by
  unfold Writable WriteIntent; decide

section
variable (d : Drv σ H)

theorem not_refused {flags : Flags.IOFlags} (hw : Writable d.mountFlags ∨ ¬ WriteIntent flags) :
    (Flags.requiresWritePerm flags && !canWrite d.mountFlags) = false := by
  rcases hw with hw | hw
  · rw [(canWrite_iff _).mpr hw]; simp
  · rw [← requires_iff, Bool.not_eq_true] at hw; rw [hw]; rfl

/-- C64: an open that the mount allows is not refused as read-only (unless the implementation does so itself). -/
theorem C64_allowed_partial (fuel : Nat) (path : Str) (flags : Flags.IOFlags) (perm : FileMode) (s s' : σ) (N : NeverReadOnly d.impl)
    (hw : Writable d.mountFlags ∨ ¬ WriteIntent flags) :
    openFile d fuel path flags perm s ≠ .ret (s', .error .readOnlyFileSystem) := by
  let E : Err → Prop := fun e => e ≠ .readOnlyFileSystem
  have P := Pre.top (σ := σ)
  have hg : ∀ s n h, True ∧ ∀ e, (d.impl.getObject s n h).2 = .error e → E e :=
    fun s n h => ⟨trivial, fun e he hc => N.getObject s n h (by rw [he, hc])⟩
  have hres := resolve_keeps P d (E := E) hg (fun _ _ => trivial)
    (fun e => (contents_errors d e).weaken fun er ⟨se, h⟩ => by rw [h]; intro hc; cases hc) (by intro hc; cases hc) (by intro hc; cases hc) fuel
  have hnf : ∀ e, Keeps (fun _ _ => True) E (newFile d e flags) := fun e q q' r h => ⟨trivial, fun er her => by
    obtain ⟨se, h⟩ := (newFile_spec d e flags h).2.1 er her
    rw [h]; intro hc; cases hc⟩
  have hcl : ∀ e : Ext H, Keeps (fun _ _ => True) (fun _ => True) (closeOf d e) := fun e q q' r h => ⟨trivial, fun _ _ => trivial⟩
  have key : Keeps (fun _ _ => True) E (openFile d fuel path flags perm) := by
    unfold openFile
    simp only [not_refused d hw, Bool.false_eq_true, if_false]
    refine Keeps.either P (hres.2.1 _) (fun a => ?_) (fun e he => ?_)
    · exact Keeps.andThen P (Keeps.ok P a) fun a => Keeps.andThen P (Keeps.statOf P d a) fun st =>
        Keeps.ite (fun _ => Keeps.fail P (by intro hc; cases hc)) fun _ => hnf _
    · refine Keeps.andThen P ?_ fun a => Keeps.andThen P (Keeps.statOf P d a) fun st =>
        Keeps.ite (fun _ => Keeps.fail P (by intro hc; cases hc)) fun _ => hnf _
      refine Keeps.ite (fun _ => ?_) fun _ => Keeps.fail P he
      exact Keeps.andThen P (hres.2.1 _) fun a => Keeps.deferred P (hcl _) <| Keeps.method fun h =>
        Keeps.andThen P (Keeps.call fun s => ⟨trivial, fun e he hc => N.createObject s _ _ _ (by rw [he, hc])⟩) fun _ => Keeps.ok P _
  intro h
  exact (key _ _ _ h).2 _ rfl rfl

example : NeverReadOnly tiny := ⟨fun s n h => by show (if _ then _ else if _ then _ else _) ≠ _; split <;> (try split) <;> (intro hc; cases hc), fun _ _ _ _ hc => by cases hc⟩

theorem resolve_still (hp : Peaceful d.impl) (n : Nat) (p : Str) : Keeps (fun s s' => s' = s) (fun _ => True) (getFollow d n p) :=
  (resolve_keeps Pre.eq d (E := fun _ => True) (fun s n h => ⟨hp.getObject s n h, fun _ _ => trivial⟩) (fun s h => by rw [hp.close])
    (fun e => contents_still d hp.read e) trivial trivial n).2.1 p

/-- C64, nothing is changed on a read-only mount: if the flags ask for writing, or do not ask for
creation.  Missing: reading with creation (`C64_refuted`). -/
theorem C64_unchanged_partial (fuel : Nat) (path : Str) (flags : Flags.IOFlags) (perm : FileMode) (s s' : σ) (r : Except Err (File H))
    (hp : Peaceful d.impl) (hw : ¬ Writable d.mountFlags) (hi : WriteIntent flags ∨ ¬ CreateIntent flags)
    (h : openFile d fuel path flags perm s = .ret (s', r)) : s' = s := by
  by_cases hwi : WriteIntent flags
  · rw [C64_refused_partial d fuel path flags perm s hw hwi] at h
    cases h; rfl
  · have hcr : Flags.create flags = false := by
      rcases hi with hi | hi
      · exact absurd hi hwi
      · rw [← create_iff, Bool.not_eq_true] at hi; exact hi
    have htr : Flags.truncate flags = false := by
      rcases ht : Flags.truncate flags with _ | _
      · rfl
      · exact absurd (.inr ((truncate_iff flags).mp ht)) hwi
    have P := Pre.eq (σ := σ)
    have hnf : ∀ e, Keeps (fun s s' => s' = s) (fun _ => True) (newFile d e flags) := fun e q q' r h =>
      ⟨((newFile_spec d e flags h).1 htr).1, fun _ _ => trivial⟩
    have key : Keeps (fun s s' => s' = s) (fun _ => True) (openFile d fuel path flags perm) := by
      unfold openFile
      simp only [not_refused d (.inr hwi), Bool.false_eq_true, if_false, hcr, Bool.and_false]
      refine Keeps.either P (resolve_still d hp _ _) (fun a => ?_) (fun e he => ?_)
      · exact Keeps.andThen P (Keeps.ok P a) fun a => Keeps.andThen P (Keeps.statOf P d a) fun st =>
          Keeps.ite (fun _ => Keeps.fail P trivial) fun _ => hnf _
      · exact Keeps.andThen P (Keeps.fail P trivial) fun a => Keeps.andThen P (Keeps.statOf P d a) fun st =>
          Keeps.ite (fun _ => Keeps.fail P trivial) fun _ => hnf _
    exact (key _ _ _ h).1

end

/-! ### An implementation on which objects can be created: the state is the list of the names in "/" -/

/-- The files in "/" are the handles 1, 2, ... in the order of the list; 0 is "/". -/
def growing : Impl (List Str) Nat where
  features := ⟨false, false, false⟩
  getRootDirectory _ := 0
  getObject s n h := (s, if h = 0 then (match s.findIdx? (· = n) with | some i => .ok (i + 1) | none => .error .notFound) else .error .notADirectory)
  createObject s n h _ := (s ++ [n], if h = 0 then .ok (s.length + 1) else .error .notADirectory)
  createHardLink := none
  stat _ h := if h = 0 then statWith Flags.ModeDir 0 0 0 else statWith 0 0 1 h
  name s h := if h = 0 then [] else s.getD (h - 1) []
  sameAs _ a b := a = b
  resize s _ _ := (s, none)
  readBlocks s _ _ buf := (s, buf, none)
  writeBlocks s _ _ _ := (s, none)
  unlink s h := (s.eraseIdx (h - 1), none)
  close s _ := (s, none)
  listDir h := if h = 0 then some fun s => (s, .ok s) else none
  chmod _ := none
  chown _ := none
  chtimes _ := none

theorem growing_peaceful : Peaceful growing := ⟨⟨fun _ _ _ => rfl, fun _ _ => rfl⟩, fun _ _ _ _ => rfl⟩
theorem growing_neverReadOnly : NeverReadOnly growing := by
  constructor
  · intro s n h
    show (if h = 0 then (match s.findIdx? (· = n) with | some i => Except.ok (i + 1) | none => .error Err.notFound) else .error Err.notADirectory) ≠ _
    split
    · split <;> (intro hc; cases hc)
    · intro hc; cases hc
  · intro s n h m
    show (if h = 0 then Except.ok (s.length + 1) else .error Err.notADirectory) ≠ _
    split <;> (intro hc; cases hc)

/-- Opening for reading with O_CREATE on a mount without any permission creates the file, if
wrapObjectHandle keeps the handle. -/
theorem create_on_read_only : ∃ f, openFile ⟨keeping, growing, 0, str! "/"⟩ 9 (str! "/n") Flags.O_CREATE 0 [] = .ret ([str! "n"], .ok f) := by
  have h : (match openFile ⟨keeping, growing, 0, str! "/"⟩ 9 (str! "/n") Flags.O_CREATE 0 [] with
      | .ret (s', .ok _) => s' == [str! "n"]
      | _ => false) = true := by decide +kernel
  split at h
  · rename_i s' f e
    exact ⟨f, by rw [e, eq_of_beq h]⟩
  · cases h

/-- C64 is false when wrapObjectHandle keeps the handle: OpenFile(O_CREATE) on a read-only mount
creates the file. -/
theorem C64_refuted : ¬ C64_statement keeping := by
  intro h
  obtain ⟨f, e⟩ := create_on_read_only
  have := ((h _ _ growing 0 (str! "/") [] 9 (str! "/n") Flags.O_CREATE 0 growing_peaceful growing_neverReadOnly).2.2 (by unfold Writable; decide)).1 _ _ e
  cases this

/-- ... and so does Mkdir with a directory. -/
theorem C64_refuted_mkdir : mkdir ⟨keeping, growing, 0, str! "/"⟩ 9 (str! "/n") 0 [] = .ret ([str! "n"], .ok ()) := by decide +kernel

/-- C64 holds of the code as shipped, for a working directory Chdir could have set, because nothing but
the refusal is ever returned. -/
theorem C64_shipped (impl : Impl σ H) (mf : MountFlags) (wd : Loc) (hw : IsLoc wd) (s s' : σ) (fuel : Nat) (path : Str) (flags : Flags.IOFlags)
    (perm : FileMode) (r : Except Err (File H)) :
    (¬ Writable mf → WriteIntent flags → openFile ⟨shipped, impl, mf, render wd⟩ fuel path flags perm s = .ret (s, .error .readOnlyFileSystem)) ∧
    (openFile ⟨shipped, impl, mf, render wd⟩ fuel path flags perm s = .ret (s', r) →
      s' = s ∧ r = .error .readOnlyFileSystem ∧ ¬ Writable mf ∧ WriteIntent flags) ∧
    ¬ Returns (mkdir ⟨shipped, impl, mf, render wd⟩ fuel path perm s) := by
  refine ⟨fun h1 h2 => C64_refused_partial _ _ _ _ _ _ h1 h2, fun h => ?_, (C62_shipped_partial _ rfl wd hw rfl s fuel path).2.2.2.2.2.2.2.2.2.2.2.1 perm⟩
  by_cases hr : Writable mf ∨ ¬ WriteIntent flags
  · unfold openFile at h
    simp only [not_refused ⟨shipped, impl, mf, render wd⟩ hr, Bool.false_eq_true, if_false] at h
    exact absurd ⟨_, h⟩ (not_returns_either (shipped_path _ rfl wd hw rfl fuel path s))
  · have hr1 : ¬ Writable mf := fun h => hr (.inl h)
    have hr2 : WriteIntent flags := Classical.not_not.mp fun h => hr (.inr h)
    rw [C64_refused_partial _ _ _ _ _ _ hr1 hr2] at h
    cases h
    exact ⟨rfl, rfl, hr1, hr2⟩

end Disko.Driver

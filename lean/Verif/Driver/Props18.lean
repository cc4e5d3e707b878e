import Verif.Driver.Recording
import Verif.Driver.Props15
/-! C102: which calls of the implementation each call of the driver makes. -/
namespace Disko.Driver
open Disko Spec

variable {σ H α : Type}

namespace Spec

/-- Calls that find objects, read them and let go of them. -/
inductive Looking : Call H → Prop where
  | getObject (n : Str) (h : H) : Looking (.getObject n h)
  | readBlocks (h : H) (i n : Nat) : Looking (.readBlocks h i n)
  | close (h : H) : Looking (.close h)

end Spec

/-- The driver on a recording implementation. -/
abbrev recorded (cfg : Cfg) (impl : Impl σ H) (mf : MountFlags) (wd : Str) : Drv (σ × List (σ × Call H)) H := ⟨cfg, recording impl, mf, wd⟩

theorem looks_recorded (impl : Impl σ H) {P : σ → Call H → Prop} (hP : ∀ s c, Looking c → P s c) : Looks (Added P) (recording impl) :=
  Looks.of_reads (Added.pre P) (fun x n h => Added.one (hP _ _ (.getObject n h))) (fun x h => Added.one (hP _ _ (.close h)))
    fun x h i buf => Added.one (hP _ _ (.readBlocks h i _))

theorem lists_recorded {impl : Impl σ H} {P : σ → Call H → Prop} (hP : ∀ s h, P s (.listDir h)) (h : H) (f) (hf : (recording impl).listDir h = some f)
    (x : σ × List (σ × Call H)) : Added P x (f x).1 := by
  simp only [recording, Option.map_eq_some_iff] at hf
  obtain ⟨g, _, rfl⟩ := hf
  exact Added.one (hP _ h)

theorem dirPerm_idem (perm : FileMode) : dirPerm (dirPerm perm) = dirPerm perm := by
  unfold dirPerm
  apply BitVec.eq_of_getLsbD_eq
  intro i hi
  simp only [BitVec.getLsbD_or, BitVec.getLsbD_and, BitVec.getLsbD_not]
  by_cases h31 : i = 31
  · subst h31; rw [(dirBit 31).mpr rfl, Bool.or_true, Bool.or_true]
  · rw [Bool.eq_false_iff.mpr fun h => h31 ((dirBit i).mp h)]
    simp only [Bool.or_false]
    cases perm.getLsbD i <;> cases Flags.ModeType.getLsbD i <;> simp [hi]

section
variable (cfg : Cfg) (impl : Impl σ H) (mf : MountFlags) (wd : Str) (fuel : Nat) (p : Str)

/-- C102: Stat, Lstat, ReadFile, Readlink, Chdir and Open only look: in every configuration of the code, on every implementation, for
every path and from every state, if the call returns, it has made no call but GetObject, ReadBlocks and Close. -/
theorem C102_queries : Only (fun _ c => Looking c) (stat (recorded cfg impl mf wd) fuel p) ∧ Only (fun _ c => Looking c) (lstat (recorded cfg impl mf wd) fuel p) ∧
    Only (fun _ c => Looking c) (readFile (recorded cfg impl mf wd) fuel p) ∧ Only (fun _ c => Looking c) (readlink (recorded cfg impl mf wd) fuel p) ∧
    Only (fun _ c => Looking c) (chdir (recorded cfg impl mf wd) fuel p) ∧ Only (fun _ c => Looking c) (open_ (recorded cfg impl mf wd) fuel p) := by
  have L := looks_recorded impl (P := fun _ c => Looking c) (fun _ _ h => h)
  have P := L.toPre
  obtain ⟨k1, k2, k3, k4, k5⟩ := resolve_frame (recorded cfg impl mf wd) L fuel
  have kc := close_frame (recorded cfg impl mf wd) L
  have ks := Keeps.statOf (E := fun _ => True) P (recorded cfg impl mf wd)
  refine ⟨only_of_keeps (Keeps.andThen P (k2 _) fun e => Keeps.deferred P (kc e) (ks e)),
    only_of_keeps (Keeps.andThen P (k1 _) fun e => Keeps.deferred P (kc e) (Keeps.andThen P (k4 e) fun e' => Keeps.deferred P (kc e') (ks e'))),
    only_of_keeps (Keeps.andThen P (k2 _) fun e => Keeps.deferred P (kc e) (L.contents _ rfl e)), ?_,
    only_of_keeps (Keeps.andThen P (k2 _) fun e => Keeps.deferred P (kc e) (chdirTo_frame _ L e)),
    only_of_keeps (openFile_frame _ L fuel p _ _ (fun h => by cases h) fun h => by cases h)⟩
  exact only_of_keeps (Keeps.ite (fun _ => Keeps.fail P trivial) fun _ => Keeps.andThen P (k1 _) fun e => Keeps.deferred P (kc e) <|
    Keeps.andThen P (ks e) fun st => Keeps.ite (fun _ => Keeps.fail P trivial) fun _ => L.contents _ rfl e)

/-- C102: ReadDir lists as well. -/
theorem C102_readDir : Only (fun _ c => Looking c ∨ ∃ h, c = .listDir h) (readDir (recorded cfg impl mf wd) fuel p) := by
  have L := looks_recorded impl (P := fun _ c => Looking c ∨ ∃ h, c = .listDir h) (fun _ _ h => .inl h)
  exact only_of_keeps (path_frame _ L fuel _ fun e => Keeps.deferred L.toPre (close_frame _ L e) (readDirObject_frame _ L (lists_recorded fun _ h => .inr ⟨h, rfl⟩) e))

/-- C102: Chmod, Chown, Lchown and Chtimes make the one call they are for, with the values given; of the times, those the file system does
not have, and those that are not given, are UndefinedTimestamp. -/
theorem C102_attributes (mode : FileMode) (uid gid : Int) (atime mtime : Time) :
    Only (fun _ c => Looking c ∨ ∃ h, c = .chmod h mode) (chmod (recorded cfg impl mf wd) fuel p mode) ∧
    Only (fun _ c => Looking c ∨ ∃ h, c = .chown h uid gid) (chown (recorded cfg impl mf wd) fuel p uid gid) ∧
    Only (fun _ c => Looking c ∨ ∃ h, c = .chown h uid gid) (lchown (recorded cfg impl mf wd) fuel p uid gid) ∧
    Only (fun _ c => Looking c ∨ ∃ h a m, c = .chtimes h undefinedTimestamp a m undefinedTimestamp undefinedTimestamp ∧
      (impl.features.hasAccessedTime = true → a = atime) ∧ (impl.features.hasAccessedTime = false → a = undefinedTimestamp) ∧
      (impl.features.hasModifiedTime = true → m = mtime) ∧ (impl.features.hasModifiedTime = false → m = undefinedTimestamp))
      (chtimes (recorded cfg impl mf wd) fuel p atime mtime) := by
  refine ⟨?_, ?_, ?_, ?_⟩
  · have L := looks_recorded impl (P := fun _ c => Looking c ∨ ∃ h, c = .chmod h mode) (fun _ _ h => .inl h)
    refine only_of_keeps (path_frame _ L fuel _ fun e => optionalCall_frame _ L e _ fun h m hm x => ?_)
    simp only [recording, Option.map_map, Option.map_eq_some_iff] at hm
    obtain ⟨g, _, rfl⟩ := hm
    exact Added.one (.inr ⟨h, rfl⟩)
  · have L := looks_recorded impl (P := fun _ c => Looking c ∨ ∃ h, c = .chown h uid gid) (fun _ _ h => .inl h)
    refine only_of_keeps (path_frame _ L fuel _ fun e => optionalCall_frame _ L e _ fun h m hm x => ?_)
    simp only [recording, Option.map_map, Option.map_eq_some_iff] at hm
    obtain ⟨g, _, rfl⟩ := hm
    exact Added.one (.inr ⟨h, rfl⟩)
  · have L := looks_recorded impl (P := fun _ c => Looking c ∨ ∃ h, c = .chown h uid gid) (fun _ _ h => .inl h)
    refine only_of_keeps (Keeps.andThen L.toPre ((resolve_frame _ L fuel).1 _) fun e => optionalCall_frame _ L e _ fun h m hm x => ?_)
    simp only [recording, Option.map_map, Option.map_eq_some_iff] at hm
    obtain ⟨g, _, rfl⟩ := hm
    exact Added.one (.inr ⟨h, rfl⟩)
  · have L := looks_recorded impl (P := fun _ c => Looking c ∨ ∃ h a m, c = .chtimes h undefinedTimestamp a m undefinedTimestamp undefinedTimestamp ∧
      (impl.features.hasAccessedTime = true → a = atime) ∧ (impl.features.hasAccessedTime = false → a = undefinedTimestamp) ∧
      (impl.features.hasModifiedTime = true → m = mtime) ∧ (impl.features.hasModifiedTime = false → m = undefinedTimestamp)) (fun _ _ h => .inl h)
    refine only_of_keeps (path_frame _ L fuel _ fun e => optionalCall_frame _ L e _ fun h m hm x => ?_)
    simp only [recording, Option.map_map, Option.map_eq_some_iff] at hm
    obtain ⟨g, _, rfl⟩ := hm
    refine Added.one (.inr ⟨h, _, _, rfl, fun h => ?_, fun h => ?_, fun h => ?_, fun h => ?_⟩) <;> simp [h]

/-- C102: Truncate resizes to 0; Remove and RemoveAll list and unlink; Link makes a hard link. -/
theorem C102_changes (q : Str) :
    Only (fun _ c => Looking c ∨ ∃ h, c = .resize h 0) (truncate (recorded cfg impl mf wd) fuel p) ∧
    Only (fun _ c => Looking c ∨ (∃ h, c = .listDir h) ∨ ∃ h, c = .unlink h) (remove (recorded cfg impl mf wd) fuel p) ∧
    Only (fun _ c => Looking c ∨ (∃ h, c = .listDir h) ∨ ∃ h, c = .unlink h) (removeAll (recorded cfg impl mf wd) fuel p) ∧
    Only (fun _ c => Looking c ∨ ∃ o d n, c = .createHardLink o d n) (link (recorded cfg impl mf wd) fuel p q) := by
  refine ⟨?_, ?_, ?_, ?_⟩
  · have L := looks_recorded impl (P := fun _ c => Looking c ∨ ∃ h, c = .resize h 0) (fun _ _ h => .inl h)
    have P := L.toPre
    refine only_of_keeps (path_frame _ L fuel _ fun e => Keeps.deferred P (close_frame _ L e) <| Keeps.andThen P (Keeps.statOf P _ e) fun st =>
      Keeps.ite (fun _ => Keeps.fail P trivial) fun _ => Keeps.method fun h => ?_)
    intro x x' r hx
    refine ⟨?_, fun _ _ => trivial⟩
    have hone : Added (fun _ c => Looking c ∨ ∃ h, c = .resize h 0) x ((recording impl).resize x h 0).1 := Added.one (.inr ⟨h, rfl⟩)
    simp only at hx
    rcases hr : (recording impl).resize x h 0 with ⟨y, _ | e⟩
    · rw [hr] at hx hone; simp only at hx; cases hx; exact hone
    · rw [hr] at hx hone; simp only at hx; cases hx; exact hone
  · have L := looks_recorded impl (P := fun _ c => Looking c ∨ (∃ h, c = .listDir h) ∨ ∃ h, c = .unlink h) (fun _ _ h => .inl h)
    have P := L.toPre
    have hu := unlink_frame (R := Added fun _ c => Looking c ∨ (∃ h, c = .listDir h) ∨ ∃ h, c = .unlink h) (recorded cfg impl mf wd) fun s h => Added.one (.inr (.inr ⟨h, rfl⟩))
    refine only_of_keeps (path_frame _ L fuel _ fun e => Keeps.deferred P (close_frame _ L e) <| Keeps.andThen P (Keeps.statOf P _ e) fun st =>
      Keeps.ite (fun _ => ?_) fun _ => Keeps.ite (fun _ => Keeps.fail P trivial) fun _ => hu e)
    rcases he : e.optional cfg (recording impl).listDir with _ | f
    · exact Keeps.crash
    · obtain ⟨x, hx, hf⟩ := optional_some (d := recorded cfg impl mf wd) he
      exact Keeps.andThen P (Keeps.call fun s => ⟨lists_recorded (fun _ h => .inr (.inl ⟨h, rfl⟩)) x f hf s, fun _ _ => trivial⟩) fun names =>
        Keeps.ite (fun _ => Keeps.fail P trivial) fun _ => hu e
  · have L := looks_recorded impl (P := fun _ c => Looking c ∨ (∃ h, c = .listDir h) ∨ ∃ h, c = .unlink h) (fun _ _ h => .inl h)
    have P := L.toPre
    have hrd := removeDirectory_frame (recorded cfg impl mf wd) L (fun s h => Added.one (.inr (.inr ⟨h, rfl⟩)))
      (lists_recorded fun _ h => .inr (.inl ⟨h, rfl⟩)) fuel
    refine only_of_keeps (path_frame _ L fuel _ fun e => Keeps.deferred P (close_frame _ L e) <| Keeps.andThen P (Keeps.statOf P _ e) fun st =>
      Keeps.ite (fun _ => Keeps.fail P trivial) fun _ => Keeps.method fun h => ?_)
    intro x x' r hx
    simp only at hx
    split at hx
    · exact Keeps.fail (E := fun _ => True) P trivial x x' r hx
    · exact hrd e x x' r hx
  · have L := looks_recorded impl (P := fun _ c => Looking c ∨ ∃ o d n, c = .createHardLink o d n) (fun _ _ h => .inl h)
    refine only_of_keeps (link_frame _ L fuel p q fun f hf x a b n => ?_)
    simp only [recording, Option.map_eq_some_iff] at hf
    obtain ⟨g, _, rfl⟩ := hf
    exact Added.one (.inr ⟨a, b, n, rfl⟩)

/-- C102: Mkdir and MkdirAll create directories with the permissions given. -/
theorem C102_mkdir (perm : FileMode) :
    Only (fun _ c => Looking c ∨ ∃ n h mode, c = .createObject n h mode ∧ DirectoryMode perm mode) (mkdir (recorded cfg impl mf wd) fuel p perm) ∧
    Only (fun _ c => Looking c ∨ ∃ n h mode, c = .createObject n h mode ∧ DirectoryMode perm mode) (mkdirAll (recorded cfg impl mf wd) fuel p perm) := by
  have L := looks_recorded impl (P := fun _ c => Looking c ∨ ∃ n h mode, c = .createObject n h mode ∧ DirectoryMode perm mode) (fun _ _ h => .inl h)
  have hc : ∀ (x : σ × List (σ × Call H)) n h, Added (fun _ c => Looking c ∨ ∃ n h mode, c = .createObject n h mode ∧ DirectoryMode perm mode) x
      ((recording impl).createObject x n h (dirPerm perm)).1 := fun x n h => Added.one (.inr ⟨n, h, _, rfl, (dirPerm_spec _ _).mpr rfl⟩)
  refine ⟨only_of_keeps (mkdir_frame _ L fuel p perm hc), only_of_keeps (mkdirAll_frame _ L perm hc (dirPerm_idem perm) fuel p perm rfl)⟩

/-- C102: OpenFile creates only if asked to, and resizes (to 0) only if asked to. -/
theorem C102_openFile (flags : Flags.IOFlags) (perm : FileMode) :
    Only (fun _ c => Looking c ∨ (CreateIntent flags ∧ ∃ n h, c = .createObject n h perm) ∨ (TruncIntent flags ∧ ∃ h, c = .resize h 0))
      (openFile (recorded cfg impl mf wd) fuel p flags perm) := by
  have L := looks_recorded impl (P := fun _ c => Looking c ∨ (CreateIntent flags ∧ ∃ n h, c = .createObject n h perm) ∨ (TruncIntent flags ∧ ∃ h, c = .resize h 0))
    (fun _ _ h => .inl h)
  exact only_of_keeps (openFile_frame _ L fuel p flags perm (fun hc x n h => Added.one (.inr (.inl ⟨(create_iff flags).mp hc, n, h, rfl⟩)))
    fun ht x h => Added.one (.inr (.inr ⟨(truncate_iff flags).mp ht, h, rfl⟩)))

/-- C102: WriteFile creates with the permissions given, resizes and writes blocks. -/
theorem C102_writeFile (data : Bytes) (perm : FileMode) :
    Only (fun _ c => Looking c ∨ (∃ n h, c = .createObject n h perm) ∨ (∃ h n, c = .resize h n) ∨ ∃ h i b, c = .writeBlocks h i b)
      (writeFile (recorded cfg impl mf wd) fuel p data perm) := by
  have L := looks_recorded impl (P := fun _ c => Looking c ∨ (∃ n h, c = .createObject n h perm) ∨ (∃ h n, c = .resize h n) ∨ ∃ h i b, c = .writeBlocks h i b)
    (fun _ _ h => .inl h)
  exact only_of_keeps (writeFile_frame _ L fuel p data perm (fun x n h => Added.one (.inr (.inl ⟨n, h, rfl⟩))) (fun x h n => Added.one (.inr (.inr (.inl ⟨h, n, rfl⟩))))
    (fun x h i buf => Added.one (.inl (.readBlocks h i _))) fun x h i buf => Added.one (.inr (.inr (.inr ⟨h, i, buf, rfl⟩))))

end

/-! ### Open files -/

section
variable (cfg : Cfg) (impl : Impl σ H) (mf : MountFlags) (wd : Str) (f : File H) (h : H) (hf : f.objectHandle.inner = some h)

theorem method_keeps {τ : Type} {R : τ → τ → Prop} {E : Err → Prop} {e : Ext H} {h : H} (he : e.inner = some h) {m : H → M τ α} (hm : Keeps R E (m h)) :
    Keeps R E (e.method m) := by
  rcases e with ⟨i, p⟩
  simp only at he
  subst he
  exact hm

include hf

/-- C102: the calls of an open file concern the file's own object only: Read reads blocks of it, ... -/
theorem C102_file_read (n : Nat) : Only (fun _ c => ∃ i k, c = .readBlocks h i k) (f.read (recorded cfg impl mf wd) n) := by
  have P := Added.pre (fun (_ : σ) (c : Call H) => ∃ i k, c = .readBlocks h i k)
  refine only_of_keeps (E := fun _ => True) (method_keeps hf ?_)
  intro x x' r hx
  refine ⟨?_, fun _ _ => trivial⟩
  simp only at hx
  rcases h1 : Stream.read (backendOf (recording impl) h) (f.streamIn x) (List.replicate n 0) with ⟨y, rr⟩ | _ | _
  · have k := (Stream.read_frame P.refl P.trans (backendOf (recording impl) h) (f.streamIn x) (fun s i buf _ => Added.one ⟨i, _, rfl⟩) _ _ h1).rel
    rw [h1] at hx
    cases hx
    exact k
  · rw [h1] at hx; cases hx
  · rw [h1] at hx; cases hx

/-- ... Close writes blocks of it, ... -/
theorem C102_file_close : Only (fun _ c => (∃ i k, c = .readBlocks h i k) ∨ ∃ i b, c = .writeBlocks h i b) (f.close (recorded cfg impl mf wd)) := by
  have P := Added.pre (fun (_ : σ) (c : Call H) => (∃ i k, c = .readBlocks h i k) ∨ ∃ i b, c = .writeBlocks h i b)
  refine only_of_keeps (E := fun _ => True) (method_keeps hf ?_)
  intro x x' r hx
  refine ⟨?_, fun _ _ => trivial⟩
  simp only at hx
  rcases h1 : Stream.sync (backendOf (recording impl) h) (f.streamIn x) with ⟨y, e⟩ | _ | _
  · have k := Stream.sync_frame P.refl P.trans (backendOf (recording impl) h) (fun s i buf => Added.one (.inl ⟨i, _, rfl⟩)) (fun s i buf => Added.one (.inr ⟨i, buf, rfl⟩)) _ _ h1
    rw [h1] at hx
    rcases e with _ | e <;> (simp only at hx; cases hx; exact k)
  · rw [h1] at hx; cases hx
  · rw [h1] at hx; cases hx

/-- ... and Write and Truncate also resize it. -/
theorem C102_file_write (data : Bytes) (n : Int) :
    Only (fun _ c => (∃ i k, c = .readBlocks h i k) ∨ (∃ i b, c = .writeBlocks h i b) ∨ ∃ k, c = .resize h k) (f.write (recorded cfg impl mf wd) data) ∧
    Only (fun _ c => (∃ i k, c = .readBlocks h i k) ∨ (∃ i b, c = .writeBlocks h i b) ∨ ∃ k, c = .resize h k) (f.truncate (recorded cfg impl mf wd) n) := by
  have P := Added.pre (fun (_ : σ) (c : Call H) => (∃ i k, c = .readBlocks h i k) ∨ (∃ i b, c = .writeBlocks h i b) ∨ ∃ k, c = .resize h k)
  refine ⟨only_of_keeps (E := fun _ => True) (method_keeps hf ?_), only_of_keeps (E := fun _ => True) (method_keeps hf ?_)⟩
  · intro x x' r hx
    refine ⟨?_, fun _ _ => trivial⟩
    simp only at hx
    rcases h1 : Stream.write (backendOf (recording impl) h) (f.streamIn x) data with ⟨y, k, e⟩ | _ | _
    · have k := Stream.write_frame P.refl P.trans (backendOf (recording impl) h) (fun s i buf => Added.one (.inl ⟨i, _, rfl⟩)) (fun s i buf => Added.one (.inr (.inl ⟨i, buf, rfl⟩)))
        (fun s n => Added.one (.inr (.inr ⟨n, rfl⟩))) _ _ _ h1
      rw [h1] at hx
      rcases e with _ | e <;> (simp only at hx; cases hx; exact k)
    · rw [h1] at hx; cases hx
    · rw [h1] at hx; cases hx
  · intro x x' r hx
    refine ⟨?_, fun _ _ => trivial⟩
    simp only at hx
    rcases h1 : Stream.truncate (backendOf (recording impl) h) (f.streamIn x) n with ⟨y, e⟩ | _ | _
    · have k := Stream.truncate_frame P.refl P.trans (backendOf (recording impl) h) (fun s i buf => Added.one (.inl ⟨i, _, rfl⟩)) (fun s i buf => Added.one (.inr (.inl ⟨i, buf, rfl⟩)))
        (fun s n => Added.one (.inr (.inr ⟨n, rfl⟩))) _ _ _ h1
      rw [h1] at hx
      rcases e with _ | e <;> (simp only at hx; cases hx; exact k)
    · rw [h1] at hx; cases hx
    · rw [h1] at hx; cases hx

end

/-! ### Calls that do return, and what they record -/

/-- The calls recorded, if the call returned. -/
def callsOf {τ : Type} (o : Outcome ((σ × List (σ × Call H)) × τ)) : Option (List (Call H)) :=
  match o with
  | .ret (x, _) => some (x.2.map (·.2))
  | _ => none

/-- Stat finds the file and closes what it found; OpenFile finds nothing and creates; Remove of a directory lists it first. -/
example : callsOf (stat (recorded keeping (flat 4) 3 (str! "/")) 9 (str! "/f") (oneFile, [])) =
    some [.getObject (str! "f") none, .close none, .close (some (str! "f"))] := by decide +kernel
example : callsOf (openFile (recorded keeping (flat 4) 3 (str! "/")) 9 (str! "/g") (Flags.O_RDWR ||| Flags.O_CREATE) 0x1a4 (oneFile, [])) =
    some [.getObject (str! "g") none, .close none, .createObject (str! "g") none 0x1a4, .close none] := by decide +kernel
example : callsOf (remove (recorded passing (flat 4) 3 (str! "/")) 9 (str! "/f") (oneFile, [])) =
    some [.getObject (str! "f") none, .close none, .unlink (some (str! "f")), .close (some (str! "f"))] := by decide +kernel
example : callsOf (remove (recorded passing (flat 4) 3 (str! "/")) 9 (str! "/") (oneFile, [])) = some [.listDir none, .close none] := by decide +kernel
example : callsOf (readDir (recorded passing (flat 4) 3 (str! "/")) 9 (str! "/") (oneFile, [])) =
    some [.listDir none, .getObject (str! "f") none, .close (some (str! "f")), .close none] := by decide +kernel
example : callsOf (chmod (recorded passing (flat 4) 3 (str! "/")) 9 (str! "/f") 0x180 (oneFile, [])) =
    some [.getObject (str! "f") none, .close none, .chmod (some (str! "f")) 0x180] := by decide +kernel
example : callsOf (mkdir (recorded passing (flat 4) 3 (str! "/")) 9 (str! "/g") 0x1ed (oneFile, [])) =
    some [.createObject (str! "g") none 0x800001ed, .close (some (str! "g")), .close none] := by decide +kernel
example : callsOf (link (recorded passing (flat 4) 3 (str! "/")) 9 (str! "/f") (str! "/h") (oneFile, [])) =
    some [.getObject (str! "f") none, .close none, .getObject (str! "h") none, .close none, .createHardLink (some (str! "f")) none (str! "h")] := by decide +kernel
example : callsOf (writeFile (recorded keeping (flat 4) 3 (str! "/")) 9 (str! "/g") [1, 2, 3, 4, 5] 0x1a4 (oneFile, [])) =
    some [.getObject (str! "g") none, .close none, .createObject (str! "g") none 0x1a4, .close none, .resize (some (str! "g")) 0,
      .resize (some (str! "g")) 2, .writeBlocks (some (str! "g")) 0 [1, 2, 3, 4], .writeBlocks (some (str! "g")) 1 [5, 0, 0, 0]] := by decide +kernel

end Disko.Driver

import Verif.Driver.Ops
/-! C81-C85: operations that only look: ReadFile, purity of queries, the working directory, Lstat, Readlink. -/
namespace Disko.Driver
open Disko Spec

variable {σ H α β : Type}

/-! ### C81: ReadFile -/

/-- C81, what it says. -/
def C81_statement (cfg : Cfg) : Prop :=
  ∀ (σ H : Type) (impl : Impl σ H) (mf : MountFlags) (wd : Loc) (s : σ) (p : Str) (l : Loc) (h : H) (t : Bytes),
    Quiet impl → IsLoc wd → Means wd p l → At impl s l h → ContentsAre impl s h t →
    Gives (readFile ⟨cfg, impl, mf, render wd⟩ · p) s s (.ok t)

section
variable (d : Drv σ H) (hd : d.cfg.keepHandle = true) (Q : Quiet d.impl) (wd : Loc) (hwd : IsLoc wd) (hw : d.workingDirPath = render wd)
  (s : σ) (hr : RootIsDir d.impl s) (p : Str) (l : Loc) (hm : Means wd p l)
include hd Q hwd hw hr hm

/-- C81, when wrapObjectHandle keeps the handle, for the objects in the root directory and links
to them, under any spelling of the path: ReadFile returns the contents and changes nothing.  Missing:
objects below, and the code as shipped (`C81_refuted`, `C81_refuted_keeping`). -/
theorem C81_contents_partial (l' : Loc) (h : H) (t : Bytes) (hf : Found d.impl s l l' h) (ht : ContentsAre d.impl s h t) :
    Gives (readFile d · p) s s (.ok t) :=
  gives_found d hd Q hr hwd hw hm hf (gives_const (deferred_close d Q (keep_contents d ht _)))

/-- C81: if a block cannot be read, ReadFile fails with ErrIOFailed and the error of ReadBlocks; it
never returns anything but the contents. -/
theorem C81_io_error_partial (l' : Loc) (h : H) (bpb total : Nat) (view : σ → Bytes) (hf : Found d.impl s l l' h)
    (hb : Readable d.impl h bpb view) (hst : StatFits d.impl s h bpb total view) :
    Gives (readFile d · p) s s (.ok ((view s).take (d.impl.stat s h).size.toNat)) ∨
    ∃ j be, Gives (readFile d · p) s s (.error (.ioFailed (.cache (.fetchFailed j be)))) ∧
      ∃ s' buf, (d.impl.readBlocks s' h j buf).2.2 = some be := by
  rcases contents_spec d h (render l') s hb hst with h1 | ⟨j, be, h1, h2⟩
  · exact .inl (gives_found d hd Q hr hwd hw hm hf (gives_const (deferred_close d Q h1)))
  · exact .inr ⟨j, be, gives_found d hd Q hr hwd hw hm hf (gives_const (deferred_close d Q h1)), h2⟩

/-- C81: if there is no such object, the implementation's error is returned. -/
theorem C81_missing_partial (e : Err) (hmi : Missing d.impl s l e) : Gives (readFile d · p) s s (.error e) :=
  gives_missing d hd Q hr hwd hw hm hmi

end

theorem found_a : Found linked () [str! "a"] [str! "c"] 99 :=
  .entry (k := 2) (name_of (by decide)) (.succ link_ab (.succ link_bc (.zero _))) rfl (by decide)

/-- "x/../a", from "/", is two links away from the file "c". -/
example : Gives (readFile ⟨keeping, linked, 3, render []⟩ · (str! "x/../a")) () () (.ok (str! "hi")) :=
  C81_contents_partial ⟨keeping, linked, 3, render []⟩ rfl linked_quiet [] isLoc_nil rfl () linked_root (str! "x/../a") [str! "a"]
    (.inr ⟨fun ⟨_, h⟩ => absurd h (by simp [sep]), ⟨[], isLoc_nil, by decide⟩, by decide⟩) _ 99 _ found_a (linked_contents (by decide))

example : Readable linked 99 4 (fun _ => linkText 99 ++ [0, 0]) ∧ StatFits linked () 99 4 1 (fun _ => linkText 99 ++ [0, 0]) :=
  ⟨⟨fun _ _ _ => rfl, fun _ _ _ _ _ _ => rfl⟩, ⟨by decide, by decide, by decide, by decide, by decide, by decide, by decide, by decide⟩⟩

example : Missing linked () [str! "d"] .notFound :=
  .entry (k := 1) (name_of (by decide)) (.succ link_dq (.zero _)) (by decide)

theorem tiny_contents_b : ContentsAre tiny () 2 [7, 7, 7] := by
  refine ⟨4, 1, fun _ => [7, 7, 7, 7], ⟨fun _ _ _ => rfl, ?_⟩,
    ⟨by decide, by decide, by decide, by decide, by decide, by decide, by decide, by decide⟩, fun _ _ _ => rfl, rfl⟩
  intro s i buf hi hb _
  have hi0 : i = 0 := by
    have : ([7, 7, 7, 7] : Bytes).length = 4 := rfl
    rw [this] at hi; omega
  subst hi0
  show buf.map (fun _ => 7) = slice [7, 7, 7, 7] (0 * 4) 4
  rw [List.map_const', hb]; rfl

/-- C81 is false of the code as shipped. -/
theorem C81_refuted : ¬ C81_statement shipped := by
  intro h
  obtain ⟨N, h⟩ := h Unit Nat tiny 3 [] () (render [str! "a", str! "b"]) _ 2 _ tiny_quiet isLoc_nil (means_render isLoc_ab []) tiny_b tiny_contents_b
  exact (C62_shipped_partial ⟨shipped, tiny, 3, render []⟩ rfl [] isLoc_nil rfl () N _).2.2.2.1 ⟨_, h N (by omega)⟩

/-- ... and when wrapObjectHandle keeps the handle, because of objects further down. -/
theorem C81_refuted_keeping : ¬ C81_statement keeping := by
  intro h
  obtain ⟨N, h⟩ := h Unit Nat tiny 3 [] () (render [str! "a", str! "b"]) _ 2 _ tiny_quiet isLoc_nil (means_render isLoc_ab []) tiny_b tiny_contents_b
  have h := h N (by omega)
  simp only [readFile] at h
  rw [normalize_canonical isLoc_ab, andThen_timeout] at h
  · cases h
  · exact (never_deep _ [str! "a"] (by simp) (isLoc_ab _ (by simp)) () N).2

/-! ### C82: queries change nothing -/

namespace Spec
/-- Looking up, closing, reading and listing leave the file system as it is. -/
structure Still (impl : Impl σ H) : Prop extends Peaceful impl where
  list : ∀ h f, impl.listDir h = some f → ∀ s, (f s).1 = s
end Spec

section
variable (d : Drv σ H)

theorem all_still (hp : Peaceful d.impl) (n : Nat) :
    (∀ p, Keeps (fun s s' : σ => s' = s) (fun _ => True) (getNoFollow d n p)) ∧ (∀ p, Keeps (fun s s' : σ => s' = s) (fun _ => True) (getFollow d n p)) ∧
    (∀ e, Keeps (fun s s' : σ => s' = s) (fun _ => True) (followLoop d n e)) ∧ (∀ e, Keeps (fun s s' : σ => s' = s) (fun _ => True) (resolveSymlink d n e)) ∧
    (∀ c e, Keeps (fun s s' : σ => s' = s) (fun _ => True) (symlinkLoop d n c e)) := resolve_keeps (R := fun s s' : σ => s' = s) Pre.eq d (E := fun _ => True)
  (fun s n h => ⟨hp.getObject s n h, fun _ _ => trivial⟩) (fun s h => by rw [hp.close]) (fun e => contents_still d hp.read e) trivial trivial n

theorem close_still (hp : Peaceful d.impl) (e : Ext H) : Keeps (fun s s' : σ => s' = s) (fun _ => True) (closeOf d e) :=
  Keeps.method fun h => Keeps.callE fun s => ⟨by rw [hp.close], fun _ _ => trivial⟩

theorem readDirLoop_still (hp : Still d.impl) (h : H) : ∀ (names : List Str) (out : List DirEntry),
    Keeps (fun s s' : σ => s' = s) (fun _ => True) (readDirLoop d h names out)
  | [], out => Keeps.ok Pre.eq _
  | n :: ns, out => by
    rw [readDirLoop]
    refine Keeps.ite (fun _ => readDirLoop_still hp h ns out) fun _ => Keeps.andThen Pre.eq
      (Keeps.call fun s => ⟨hp.getObject s _ _, fun _ _ => trivial⟩) fun x => ?_
    intro s s' r h1
    refine ⟨?_, fun _ _ => trivial⟩
    simp only at h1
    rw [either_ret (s' := s) (r := .ok ())] at h1
    · exact (readDirLoop_still hp h ns _ s s' r h1).1
    · simp only [M.callE, hp.close]

theorem readDirObject_still (hp : Still d.impl) (e : Ext H) : Keeps (fun s s' : σ => s' = s) (fun _ => True) (readDirObject d e) := by
  unfold readDirObject
  rcases he : e.optional d.cfg d.impl.listDir with _ | f
  · exact Keeps.crash
  · refine Keeps.andThen Pre.eq (Keeps.call fun s => ⟨?_, fun _ _ => trivial⟩) fun names => Keeps.method fun h => readDirLoop_still d hp h names []
    unfold Ext.optional at he
    split at he
    · rcases hi : e.inner with _ | h
      · rw [hi] at he; cases he
      · rw [hi] at he
        exact hp.list h f he s
    · cases he

/-- C82: in every configuration of the code, for every implementation whose lookups, reads and
listings leave the file system as it is, every path and every file handle: if a query returns, with a
result or an error, the file system is as before. -/
theorem C82_queries_change_nothing (hp : Still d.impl) (fuel : Nat) (p : Str) (s s' : σ) :
    (∀ r, stat d fuel p s = .ret (s', r) → s' = s) ∧ (∀ r, lstat d fuel p s = .ret (s', r) → s' = s) ∧
    (∀ r, readFile d fuel p s = .ret (s', r) → s' = s) ∧ (∀ r, readlink d fuel p s = .ret (s', r) → s' = s) ∧
    (∀ r, readDir d fuel p s = .ret (s', r) → s' = s) ∧ (∀ r, chdir d fuel p s = .ret (s', r) → s' = s) ∧
    (∀ r, open_ d fuel p s = .ret (s', r) → s' = s) ∧
    (∀ (f : File H) (n : Int) r, f.readDir d n s = .ret (s', r) → s' = s) ∧
    (∀ (f : File H) (n : Int) r, f.readdir d n s = .ret (s', r) → s' = s) ∧
    (∀ (f : File H) (n : Int) r, f.readdirnames d n s = .ret (s', r) → s' = s) ∧
    (∀ (f : File H) (n : Nat) r, f.read d n s = .ret (s', r) → s' = s) ∧
    (∀ (f : File H) r, f.chdir d s = .ret (s', r) → s' = s) := by
  have P := Pre.eq (σ := σ)
  have Pp := hp.toPeaceful
  obtain ⟨k1, k2, k3, k4, k5⟩ := all_still d Pp fuel
  have kc := close_still d Pp
  have ks := Keeps.statOf (E := fun _ => True) P d
  have kcd : ∀ e, Keeps (fun s s' : σ => s' = s) (fun _ => True) (chdirToObject d e) := fun e =>
    Keeps.andThen P (ks e) fun st => Keeps.ite (fun _ => Keeps.fail P trivial) fun _ => Keeps.ok P _
  have krd : ∀ (f : File H) n, Keeps (fun s s' : σ => s' = s) (fun _ => True) (f.readDir d n) := fun f n => by
    unfold File.readDir
    refine Keeps.andThen P (ks _) fun st => Keeps.ite (fun _ => Keeps.ok P _) fun _ => ?_
    split
    · exact Keeps.ok P _
    · exact Keeps.either P (readDirObject_still d hp _) (fun _ => Keeps.ok P _) fun _ _ => Keeps.ok P _
  refine ⟨fun r h => ?_, fun r h => ?_, fun r h => ?_, fun r h => ?_, fun r h => ?_, fun r h => ?_, fun r h => ?_, fun f n r h => (krd f n _ _ _ h).1,
    fun f n r h => ?_, fun f n r h => ?_, fun f n r h => ?_, fun f r h => (kcd _ _ _ _ h).1⟩
  · exact (Keeps.andThen P (k2 _) (fun e => Keeps.deferred P (kc e) (ks e)) _ _ _ h).1
  · exact (Keeps.andThen P (k1 _) (fun e => Keeps.deferred P (kc e) (Keeps.andThen P (k4 e) fun e' => Keeps.deferred P (kc e') (ks e'))) _ _ _ h).1
  · exact (Keeps.andThen P (k2 _) (fun e => Keeps.deferred P (kc e) (contents_still d Pp.read e)) _ _ _ h).1
  · unfold readlink at h
    exact (Keeps.ite (fun _ => Keeps.fail P trivial) (fun _ => Keeps.andThen P (k1 _) fun e => Keeps.deferred P (kc e) <|
      Keeps.andThen P (ks e) fun st => Keeps.ite (fun _ => Keeps.fail P trivial) fun _ => contents_still d Pp.read e) _ _ _ h).1
  · exact (Keeps.andThen P (k2 _) (fun e => Keeps.deferred P (kc e) (readDirObject_still d hp e)) _ _ _ h).1
  · exact (Keeps.andThen P (k2 _) (fun e => Keeps.deferred P (kc e) (kcd e)) _ _ _ h).1
  · have hnf : ∀ e, Keeps (fun s s' => s' = s) (fun _ => True) (newFile d e Flags.O_RDONLY) := fun e q q' r h =>
      ⟨((newFile_spec d e _ h).1 (by decide)).1, fun _ _ => trivial⟩
    unfold open_ openFile at h
    simp only [show Flags.requiresWritePerm Flags.O_RDONLY = false from by decide, show Flags.create Flags.O_RDONLY = false from by decide,
      Bool.false_and, Bool.and_false, Bool.false_eq_true, if_false] at h
    have key : ∀ m : M σ (Ext H), Keeps (fun s s' => s' = s) (fun _ => True) m → Keeps (fun s s' => s' = s) (fun _ => True)
        (M.andThen m fun object => M.andThen (statOf d object) fun st =>
          if (!st.isFile) = true then M.fail .isADirectory else newFile d object Flags.O_RDONLY) := fun m hm =>
      Keeps.andThen P hm fun a => Keeps.andThen P (ks a) fun st => Keeps.ite (fun _ => Keeps.fail P trivial) fun _ => hnf a
    exact (Keeps.either P (k2 _) (fun a => key _ (Keeps.ok P a)) (fun e _ => key _ (Keeps.fail P trivial)) _ _ _ h).1
  · unfold File.readdir at h
    refine (Keeps.andThen P (krd f n) (fun x => ?_) _ _ _ h).1
    rcases x with ⟨f', es, _ | e⟩ <;> exact Keeps.ok P _
  · unfold File.readdirnames at h
    refine (Keeps.andThen P (krd f n) (fun x => ?_) _ _ _ h).1
    rcases x with ⟨f', es, _ | e⟩ <;> exact Keeps.ok P _
  · unfold File.read at h
    rcases hx : f.objectHandle with ⟨_ | x, q⟩
    · rw [hx] at h; cases h
    · rw [hx] at h
      simp only [Ext.method] at h
      split at h
      · cases h
      · cases h
      · rename_i y rr hrd
        cases h
        exact (read_quiet (b := backendOf d.impl x) (fun s i buf => Pp.read s x i buf) hrd).1

end

theorem linked_still : Still linked := ⟨⟨linked_quiet, fun _ _ _ _ => rfl⟩, fun _ _ h => by cases h⟩
/-- Three names. -/
def abc' : List Str := [str! "a", str! "b", str! "c"]
/-- Calls that do return. -/
example : Still growing ∧ (∃ r, readFile ⟨passing, growing, 3, str! "/"⟩ 9 (str! "/b") abc' = .ret (abc', .ok r)) :=
  ⟨⟨growing_peaceful, fun h f hf s => by
      simp only [growing] at hf; split at hf
      · cases hf; rfl
      · cases hf⟩, ⟨[], by decide +kernel⟩⟩

end Disko.Driver

import Verif.Driver.Props32
/-! C153 and C155 for whole programs: an open file is a simple machine whatever else the program does (with C127). -/
namespace Disko.Driver
open Disko Disko.BlockCache Spec
open Disko.Stream.Reference (Machine shown Stored held reading)

variable {σ H : Type}

namespace Spec

/-- The methods that the program calls on file number `i` (those of the machine: Read, ReadAt, Write, WriteAt, Seek, Truncate and Sync). -/
def methodsOn (i : Nat) : List Op → List FileOp
  | [] => []
  | .file j op :: ops => if j = i ∧ asCall op ≠ none then op :: methodsOn i ops else methodsOn i ops
  | _ :: ops => methodsOn i ops

/-- The answers it gets from them. -/
def answersFrom (i : Nat) : List Op → List Answer → List Answer
  | .file j op :: ops, a :: as => if j = i ∧ asCall op ≠ none then a :: answersFrom i ops as else answersFrom i ops as
  | _ :: ops, _ :: as => answersFrom i ops as
  | _, _ => []

/-- None of these files can write to the object `h`, now or later: it is not open for writing and has nothing to write, or it is of another object. -/
def NoOtherWriter (h : H) (files : List (File H)) : Prop :=
  ∀ g ∈ files, (Flags.write g.ioFlags = false ∧ ∀ k, g.cache.dirty.getD k false = false) ∨ g.objectHandle.inner ≠ some h

end Spec

/-! ### The file's own part -/

theorem asCall_io {op : FileOp} (h : asCall op ≠ none) : isIO op = true := by
  cases op <;> first | rfl | exact absurd rfl h

theorem io_asCall {op : FileOp} (h : isIO op = true) (hs : asCall op = none) : op = .stat := by
  cases op <;> first | rfl | (cases h; done) | cases hs

theorem set_same {α : Type} {l : List α} {i : Nat} {a : α} (h : l[i]? = some a) : l.set i a = l := by
  apply List.ext_getElem?
  intro j
  rw [List.getElem?_set]
  split
  · next e => subst e; rw [h]; split <;> first | rfl | (next e => rw [List.getElem?_eq_none (by omega)] at h; cases h)
  · rfl

/-- Stat changes nothing, so the methods alone get the same answers. -/
theorem runOps_methods (d : Drv σ H) (fuel i : Nat) : ∀ (ops : List Op) (as : List Answer) (w w' : World H) (s s' : σ), i < w.files.length →
    runOps d fuel w (ops.filter (own i)) s = .ret (s', .ok (w', ownAnswers i ops as)) →
    runOps d fuel w ((methodsOn i ops).map (.file i)) s = .ret (s', .ok (w', answersFrom i ops as))
  | [], as, w, w', s, s', hi, e => by
    rw [List.filter_nil, runOps] at e
    cases as <;> exact e
  | op :: ops, as, w, w', s, s', hi, e => by
    by_cases hown : own i op = true
    · obtain ⟨j, fop, rfl⟩ : ∃ j fop, op = .file j fop := by cases op <;> first | exact ⟨_, _, rfl⟩ | cases hown
      rw [List.filter_cons_of_pos hown, runOps] at e
      obtain ⟨s1, ⟨w1, a1⟩, e1, e2⟩ := andThen_inv e
      obtain ⟨s2, ⟨w2, as1⟩, e3, e4⟩ := andThen_inv e2
      simp only at e3 e4
      unfold own at hown
      simp only [Bool.and_eq_true, beq_iff_eq] at hown
      obtain ⟨rfl, hio⟩ := hown
      have hown' : own j (.file j fop) = true := by simp [own, hio]
      rcases as with _ | ⟨a, as⟩
      · simp only [ownAnswers, M.ok, Outcome.ret.injEq, Prod.mk.injEq, Except.ok.injEq] at e4
        exact absurd e4.2.2 (by simp)
      · simp only [ownAnswers, hown', if_true, M.ok, Outcome.ret.injEq, Prod.mk.injEq, Except.ok.injEq, List.cons.injEq] at e4
        obtain ⟨rfl, rfl, rfl, rfl⟩ := e4
        rcases hf : w.files[j]? with _ | f
        · rw [List.getElem?_eq_none_iff] at hf; omega
        · have hstep := e1
          rw [stepOp, hf] at e1
          simp only at e1
          obtain ⟨s3, ⟨⟨wd, f1⟩, a3⟩, e5, e6⟩ := andThen_inv e1
          simp only [M.ok, Outcome.ret.injEq, Prod.mk.injEq, Except.ok.injEq] at e6
          obtain ⟨rfl, rfl, rfl⟩ := e6
          have ih := runOps_methods d fuel j ops as _ w2 s3 s2 (by simpa using hi) e3
          by_cases hc : asCall fop = none
          · obtain rfl := io_asCall hio hc
            rw [stepFile] at e5
            simp only [M.ok, Outcome.ret.injEq, Prod.mk.injEq, Except.ok.injEq] at e5
            obtain ⟨rfl, ⟨rfl, rfl⟩, rfl⟩ := e5
            rw [set_same hf] at ih
            simp only [methodsOn, answersFrom, hc, ne_eq, not_true_eq_false, and_false, if_false]
            exact ih
          · simp only [methodsOn, answersFrom, hc, ne_eq, not_false_eq_true, and_self, if_true]
            rw [List.map_cons, runOps, andThen_ok hstep]
            simp only
            rw [andThen_ok ih]
            rfl
    · rw [List.filter_cons_of_neg hown] at e
      have hno : ∀ as', ownAnswers i (op :: ops) as' = ownAnswers i ops as'.tail := by
        intro as'
        rcases as' with _ | ⟨a, as'⟩
        · cases ops <;> rfl
        · simp only [ownAnswers, if_neg hown, List.tail_cons]
      rw [hno] at e
      have ih := runOps_methods d fuel i ops as.tail w w' s s' hi e
      have hm : methodsOn i (op :: ops) = methodsOn i ops ∧ answersFrom i (op :: ops) as = answersFrom i ops as.tail := by
        have h2 : answersFrom i ops [] = [] := by
          rcases ops with _ | ⟨o, ops⟩
          · rfl
          · cases o <;> rfl
        by_cases hf : ∃ j fop, op = .file j fop
        · obtain ⟨j, fop, rfl⟩ := hf
          have hn : ¬ (j = i ∧ asCall fop ≠ none) := fun ⟨h1, h2⟩ => hown (by simp [own, h1, asCall_io h2])
          refine ⟨by simp only [methodsOn, if_neg hn], ?_⟩
          rcases as with _ | ⟨a, as⟩
          · exact h2.symm
          · simp only [answersFrom, if_neg hn, List.tail_cons]
        · refine ⟨?_, ?_⟩
          · cases op <;> first | rfl | exact absurd ⟨_, _, rfl⟩ hf
          · rcases as with _ | ⟨a, as⟩
            · cases op <;> exact h2.symm
            · cases op <;> first | rfl | exact absurd ⟨_, _, rfl⟩ hf
      rw [hm.1, hm.2]
      exact ih

/-! ### Opening at a given number of steps -/

theorem Le.matchErr {α β : Type} {x x' : Ext H → M σ β} {m m' : Err → M σ (Ext H)} (hm : ∀ e, Le (m e) (m' e)) (hx : ∀ o, Le (x o) (x' o)) (r : Except Err (Ext H)) :
    Le (M.andThen (match r with | .ok o => M.ok o | .error e => m e) x) (M.andThen (match r with | .ok o => M.ok o | .error e => m' e) x') := by
  cases r with
  | ok o => exact Le.andThen (Le.rfl _) hx
  | error e => exact Le.andThen (hm e) hx

theorem openFile_mono (d : Drv σ H) {n n' : Nat} (h : n ≤ n') (p : Str) (flags : Flags.IOFlags) (perm : FileMode) : Le (openFile d n p flags perm) (openFile d n' p flags perm) := by
  unfold openFile
  refine Le.ite (Le.rfl _) (Le.either (follow_mono d h _) fun r => ?_)
  rcases r with e | o
  · refine Le.andThen (Le.ite ?_ (Le.rfl _)) fun _ => Le.rfl _
    unfold createMissing
    exact Le.andThen (follow_mono d h _) fun _ => Le.rfl _
  · exact Le.rfl _

theorem opened_at {d : Drv σ H} {n : Nat} {p : Str} {flags : Flags.IOFlags} {perm : FileMode} {s s1 s2 : σ} {r r' : Except Err (File H)}
    (hg : Spec.Gives (openFile d · p flags perm) s s1 r) (ho : openFile d n p flags perm s = .ret (s2, r')) : s2 = s1 ∧ r' = r := by
  obtain ⟨N, hN⟩ := hg
  rcases openFile_mono d (Nat.le_max_left n N) p flags perm s with h | h
  · rw [h] at ho; cases ho
  · have := hN (max n N) (Nat.le_max_right ..)
    simp only [← h, ho] at this
    cases this
    exact ⟨rfl, rfl⟩

/-- The program's run, and the file's own part of it. -/
theorem program_own {d : Drv σ H} {h : H} {E : σ → σ → Prop} (A : Apart d.impl h E) {w w' : World H} (hothers : NoOtherWriter h w.files) {p : Str} {flags : Flags.IOFlags} {perm : FileMode}
    {rest : List Op} (hrest : ∀ op ∈ rest, NoPathWrites op) {s s1 s' : σ} {f0 : File H} (hopen : Spec.Gives (openFile { d with workingDirPath := w.wd } · p flags perm) s s1 (.ok f0))
    (hf0 : f0.objectHandle.inner = some h) {fuel : Nat} {as : List Answer} (e : runOps d fuel w (.openFile p flags perm :: rest) s = .ret (s', .ok (w', as))) :
    as.head? = some .done ∧ ∃ t' v', runOps d fuel ⟨w.wd, w.files ++ [f0]⟩ ((methodsOn w.files.length (.openFile p flags perm :: rest)).map (.file w.files.length)) s1 =
      .ret (t', .ok (v', answersFrom w.files.length (.openFile p flags perm :: rest) as)) ∧ E s' t' := by
  rw [runOps] at e
  obtain ⟨s2, ⟨w2, a⟩, e1, e2⟩ := andThen_inv e
  obtain ⟨s3, ⟨w3, as1⟩, e3, e4⟩ := andThen_inv e2
  simp only at e3 e4
  cases e4
  simp only [stepOp, ask] at e1
  have hor : ∃ r, openFile { d with workingDirPath := w.wd } fuel p flags perm s = .ret (s1, r) ∧ r = .ok f0 := by
    rcases ho : openFile { d with workingDirPath := w.wd } fuel p flags perm s with ⟨t, r⟩ | _ | _
    · obtain ⟨rfl, rfl⟩ := opened_at hopen ho
      exact ⟨_, rfl, rfl⟩
    · rw [M.either, ho] at e1; cases e1
    · rw [M.either, ho] at e1; cases e1
  obtain ⟨r, ho, rfl⟩ := hor
  rw [either_ret ho] at e1
  cases e1
  refine ⟨rfl, ?_⟩
  obtain ⟨t', v', k1, k2⟩ := C127_isolation A fuel w.files.length rest hrest ⟨w.wd, w.files ++ [f0]⟩ f0 (by simp) hf0
    (fun j g hj hg => by
      rcases Nat.lt_trichotomy j w.files.length with hlt | heq | hgt
      · rw [List.getElem?_append_left hlt] at hg
        exact hothers g (List.mem_of_getElem? hg)
      · exact absurd heq hj
      · rw [List.getElem?_eq_none (by simp; omega)] at hg; cases hg) e3
  refine ⟨t', v', ?_, k2⟩
  simp only [methodsOn, answersFrom]
  exact runOps_methods d fuel _ rest as1 _ _ _ _ (by simp) k1

section
variable (d : Drv σ H) (hd : d.cfg.keepHandle = true) (Q : Quiet d.impl) (wd : Loc) (hwd : IsLoc wd) (w : World H) (hw : w.wd = render wd) (s s0 : σ) (hr : RootIsDir d.impl s)
  (p : Str) (l : Loc) (hm : Means wd p l) (flags : Flags.IOFlags) (perm : FileMode) (ha : Allowed d.mountFlags flags)
  (l' : Loc) (h : H) (hf : Obtained d.impl s l flags perm s0 l' h) (hfile : (d.impl.stat s0 h).isFile = true)
  (bpb total : Nat) (view : σ → Bytes) (hst : StatFits d.impl s0 h bpb total view)
  (m m' : Machine) (bs : List Answer)
  (E : σ → σ → Prop) (A : Apart d.impl h E) (hothers : NoOtherWriter h w.files) (rest : List Op) (hrest : ∀ op ∈ rest, NoPathWrites op)
  (fuel : Nat) (s' : σ) (w' : World H) (as : List Answer) (e : runOps d fuel w (.openFile p flags perm :: rest) s = .ret (s', .ok (w', as)))
include hd Q hwd hw hr hm ha hf hfile hst A hothers hrest e

/-- C153 for whole programs, all methods, when wrapObjectHandle keeps the handle: a program opens a regular file, on an implementation that keeps its contents apart from everything
else, whose callbacks do not fail and whose Resize counts blocks, while no other open file can write to it.  Whatever it then does with this file, other files and the volume (but
writing to, truncating or removing what a path leads to), the file's answers are the machine's. -/
theorem C153_program_partial (L : BlockCache.Spec.Lawful (backendOf d.impl h) bpb view) (R : Stream.Spec.AllReliable (backendOf d.impl h))
    (ho : Stream.Reference.open_ ((view s0).take (total * bpb)) bpb (d.impl.stat s0 h).size flags = (some m, none))
    (hp : Plays (fun _ _ => True) m (methodsOn w.files.length (.openFile p flags perm :: rest)) bs m') :
    as.head? = some .done ∧ answersFrom w.files.length (.openFile p flags perm :: rest) as = bs := by
  obtain ⟨x, hx, i1, _, _, hn⟩ := newFile_machine { d with workingDirPath := w.wd } L R hst (render l') flags ho
  obtain ⟨f0, hn, hfs, hfh⟩ := hn rfl
  have hopen := open_obtained { d with workingDirPath := w.wd } hd Q wd hwd hw s hr p l hm flags perm ha hf hfile hn
  simp only [Option.some.injEq] at hx
  subst hx
  obtain ⟨h1, t', v', h2, _⟩ := program_own A hothers hrest hopen hfh e
  obtain ⟨s2, f', r1, _⟩ := run_held d L R w f0 hp hfs hfh i1
  rw [r1 fuel] at h2
  cases h2
  exact ⟨h1, rfl⟩

/-- C153 for whole programs, in place: also on implementations whose blocks can only be read, and then the object keeps its contents whatever was written to the file. -/
theorem C153_program_in_place_partial (hread : Readable d.impl h bpb view) (hok : ∀ s' i buf, i < total → (d.impl.readBlocks s' h i buf).2.2 = none) (hnt : ¬ TruncIntent flags)
    (ho : (Stream.Reference.open_ ((view s0).take (total * bpb)) bpb (d.impl.stat s0 h).size flags).1 = some m)
    (hp : Plays Machine.InPlace m (methodsOn w.files.length (.openFile p flags perm :: rest)) bs m') :
    as.head? = some .done ∧ answersFrom w.files.length (.openFile p flags perm :: rest) as = bs ∧ E s0 s' := by
  obtain ⟨f', hg, _⟩ := C153_in_place_partial d hd Q wd hwd w hw s s0 hr p l hm flags perm ha l' h hf hfile bpb total view hst m m' _ bs hread hok hnt ho hp
  have hopen := open_obtained { d with workingDirPath := w.wd } hd Q wd hwd hw s hr p l hm flags perm ha hf hfile
    (newFile_open { d with workingDirPath := w.wd } (sizes_of hst) (render l') flags (noTrunc hnt))
  obtain ⟨h1, t', v', h2, h3⟩ := program_own A hothers hrest hopen rfl e
  obtain ⟨N, hN⟩ := hg
  obtain ⟨N2, hN2⟩ := hopen
  have hL : Le (runOps d fuel ⟨w.wd, w.files ++ [freshFile (d.impl.stat s0 h) bpb total h (render l') flags]⟩
      ((methodsOn w.files.length (.openFile p flags perm :: rest)).map (.file w.files.length))) (runOps d (max N N2) ⟨w.wd, w.files ++ [freshFile (d.impl.stat s0 h) bpb total h (render l') flags]⟩
      ((methodsOn w.files.length (.openFile p flags perm :: rest)).map (.file w.files.length))) := by
    generalize methodsOn w.files.length (.openFile p flags perm :: rest) = ms
    generalize (⟨w.wd, w.files ++ [freshFile (d.impl.stat s0 h) bpb total h (render l') flags]⟩ : World H) = v
    induction ms generalizing v with
    | nil => exact Le.rfl _
    | cons o ms ih => exact Le.andThen (Le.rfl _) fun r => Le.andThen (ih _) fun _ => Le.rfl _
  have hN := hN (max N N2) (Nat.le_max_left ..)
  simp only [openAndUse, runOps] at hN
  have e1 : stepOp d (max N N2) w (.openFile p flags perm) s = .ret (s0, .ok (⟨w.wd, w.files ++ [freshFile (d.impl.stat s0 h) bpb total h (render l') flags]⟩, .done)) := by
    simp only [stepOp, ask, M.either, hN2 (max N N2) (Nat.le_max_right ..)]; rfl
  rw [andThen_ok e1] at hN
  obtain ⟨s3, ⟨w3, as3⟩, e3, e4⟩ := andThen_inv hN
  simp only [M.ok, Outcome.ret.injEq, Prod.mk.injEq, Except.ok.injEq, List.cons.injEq, true_and] at e4
  rcases hL s0 with h4 | h4
  · rw [h4] at h2; cases h2
  · rw [h4, e3] at h2
    simp only [Outcome.ret.injEq, Prod.mk.injEq, Except.ok.injEq] at h2
    refine ⟨h1, by rw [← e4.2.2, ← h2.2.2], ?_⟩
    rw [← e4.1, h2.1]
    exact A.symm _ _ h3

/-- C153 for whole programs, a file opened for reading. -/
theorem C153_program_reader_partial (hread : Readable d.impl h bpb view) (hok : ∀ s' i buf, i < total → (d.impl.readBlocks s' h i buf).2.2 = none) (hro : ¬ WriteIntent flags)
    (ho : (Stream.Reference.open_ ((view s0).take (total * bpb)) bpb (d.impl.stat s0 h).size flags).1 = some m)
    (hp : Plays (fun _ _ => True) m (methodsOn w.files.length (.openFile p flags perm :: rest)) bs m') :
    as.head? = some .done ∧ answersFrom w.files.length (.openFile p flags perm :: rest) as = bs ∧ E s0 s' :=
  C153_program_in_place_partial d hd Q wd hwd w hw s s0 hr p l hm flags perm ha l' h hf hfile bpb total view hst m m' bs E A hothers rest hrest fuel s' w' as e hread hok
    (fun h => hro (.inr h)) ho (plays_inPlace hp (reader_opened hro ho))

/-- C155 for whole programs: when the account of C149 for the methods called on the file says that nothing waits to be written, and that the bytes stored are `t` (after a
successful Sync it always says so: C149_synced), the volume holds exactly `t` of the object, whatever else the program did. -/
theorem C155_program_partial (L : BlockCache.Spec.Lawful (backendOf d.impl h) bpb view) (R : Stream.Spec.AllReliable (backendOf d.impl h)) (hE : ∀ a b, E a b → view a = view b)
    (ho : Stream.Reference.open_ ((view s0).take (total * bpb)) bpb (d.impl.stat s0 h).size flags = (some m, none))
    (hp : Plays (fun _ _ => True) m (methodsOn w.files.length (.openFile p flags perm :: rest)) bs m') (t : Bytes)
    (hq : Stored.run m (Stored.all ((view s0).take m.object.length)) (callsMade (methodsOn w.files.length (.openFile p flags perm :: rest))) = Stored.all t) :
    (view s').take m'.object.length = t := by
  obtain ⟨x, hx, i1, hop, _, hn⟩ := newFile_machine { d with workingDirPath := w.wd } L R hst (render l') flags ho
  obtain ⟨f0, hn, hfs, hfh⟩ := hn rfl
  have hopen := open_obtained { d with workingDirPath := w.wd } hd Q wd hwd hw s hr p l hm flags perm ha hf hfile hn
  simp only [Option.some.injEq] at hx
  subst hx
  obtain ⟨_, t', v', h2, h3⟩ := program_own A hothers hrest hopen hfh e
  obtain ⟨s2, f', r1, r2, j1, r4, r5⟩ := run_held d L R w f0 hp hfs hfh i1
  rw [r1 fuel] at h2
  simp only [Outcome.ret.injEq, Prod.mk.injEq] at h2
  have hcap : total * bpb ≤ maxInt := by have := hst.fits; omega
  have SS : Stream.Spec.StreamSetup (backendOf d.impl h) bpb total view s0 := ⟨⟨L, hst.bpb_pos, hcap, hst.store⟩, hst.bpb_le⟩
  rw [(Stream.Reference.opened_held SS hop).2, hq] at r5
  have ha := Stream.Reference.held_all r5
  have hl : m'.object.length = t.length := by
    have : m'.object = BlockCache.Spec.contents view (f'.streamIn s2).st := by rw [← r4]; rfl
    rw [this, BlockCache.length_contents]
    have := congrArg List.length r5
    rw [Stream.Reference.length_held] at this
    unfold Stored.all at this
    rw [List.length_map] at this
    exact this
  rw [hE _ _ h3, ← h2.1, hl]
  exact ha.1

end

/-- For examples: "b" is open for writing in the volume of C127, as file 0. -/
def bOpen : World Nat := ⟨str! "/", [freshFile (two.stat (str! "abcdef", str! "ABCD") 2) 2 2 2 (str! "/b") Flags.O_RDWR]⟩
/-- The rest of a program that has opened "a" for writing, as file 1: it uses both files, and opens "a" once more, for reading, as file 2. -/
def bothUse : List Op := [.file 0 (.write (str! "QRS")), .file 1 (.read 1), .stat (str! "a"), .file 1 (.write (str! "Z")), .file 0 .sync, .file 1 (.seek 1 0), .file 1 .stat, .file 1 (.read 4),
  .file 0 (.truncate 3), .file 1 (.truncate (-1)), .openFile (str! "a") Flags.O_RDONLY 0, .file 2 (.read 3), .file 1 (.chmod 0), .file 1 .sync]

theorem bothUse_noPath : ∀ op ∈ bothUse, NoPathWrites op := by
  intro op hop
  simp only [bothUse, List.mem_cons, List.mem_nil_iff, or_false] at hop
  rcases hop with rfl | rfl | rfl | rfl | rfl | rfl | rfl | rfl | rfl | rfl | rfl | rfl | rfl | rfl <;> first | trivial | (show ¬ WriteIntent _; unfold WriteIntent; decide)

theorem bOpen_others : NoOtherWriter 1 bOpen.files := by
  intro g hg
  simp only [bOpen, List.mem_singleton] at hg
  subst hg
  exact .inr (by decide)

/-- The program gets to `bOpen`, and then all its calls return. -/
example : (match runOps (new keeping two 3) 19 .start [.openFile (str! "b") Flags.O_RDWR 0] (str! "abcdef", str! "ABCD") with
    | .ret (s, .ok (w, _)) => decide (s = (str! "abcdef", str! "ABCD") ∧ w = bOpen) && (match runOps (new keeping two 3) 19 w (.openFile (str! "a") Flags.O_RDWR 0 :: bothUse) s with
      | .ret (s', .ok (_, as)) => decide (as.length = 15 ∧ s'.1 = str! "abcdef")
      | _ => false)
    | _ => false) = true := by decide +kernel

/-- The hypotheses are met: whenever the calls return, the answers from file 1 are those of the machine that `inPlaceA` plays, and "a" keeps its contents. -/
example (fuel : Nat) (s' : Bytes × Bytes) (w' : World Nat) (as : List Answer)
    (e : runOps (new keeping two 3) fuel bOpen (.openFile (str! "/a") Flags.O_RDWR 0 :: bothUse) (str! "abcdef", str! "ABCD") = .ret (s', .ok (w', as))) :
    answersFrom 1 (.openFile (str! "/a") Flags.O_RDWR 0 :: bothUse) as =
      [.read 1 (str! "a") none, .count 1 none, .count 1 none, .read 4 (str! "Zcde") none, .count 0 (some .invalidArgument), .count 0 none] ∧ str! "abcdef" = s'.1 := by
  have hst : StatFits two (str! "abcdef", str! "ABCD") 1 2 3 (·.1) := ⟨by decide, by decide, rfl, rfl, by decide, by decide, by decide, by decide⟩
  exact (C153_program_in_place_partial (new keeping two 3) rfl two_quiet [] isLoc_nil bOpen rfl (str! "abcdef", str! "ABCD") (str! "abcdef", str! "ABCD") ⟨rfl, rfl⟩ (str! "/a") [str! "a"]
    (.inl ⟨⟨_, rfl⟩, by decide⟩) Flags.O_RDWR 0 (.inl (by unfold Writable; decide)) [str! "a"] 1 (.inl ⟨two_found _, rfl⟩) rfl 2 3 (·.1) hst machineA _ _ _ two_apart bOpen_others bothUse bothUse_noPath
    fuel s' w' as e ⟨fun _ _ _ => rfl, fun s i buf _ h _ => by show slice (if (1 : Nat) = 1 then s.1 else s.2) (i * 2) buf.length = _; rw [h]; rfl⟩ (fun _ _ _ _ => rfl)
    (by unfold TruncIntent; decide) (by decide +kernel) inPlaceA).2

/-- "a" is emptied, written and synced, among other things. -/
def anewUse : List Op := [.file 0 (.write (str! "QRS")), .file 1 (.truncate 9), .stat (str! "a"), .file 1 (.writeAt (str! "XYZ") 1), .file 0 .sync, .file 1 .stat, .file 1 (.readAt 5 0),
  .openFile (str! "a") Flags.O_RDONLY 0, .file 1 .sync, .file 2 (.read 3), .mkdir (str! "d") 0]

theorem anewUse_noPath : ∀ op ∈ anewUse, NoPathWrites op := by
  intro op hop
  simp only [anewUse, List.mem_cons, List.mem_nil_iff, or_false] at hop
  rcases hop with rfl | rfl | rfl | rfl | rfl | rfl | rfl | rfl | rfl | rfl | rfl <;> first | trivial | (show ¬ WriteIntent _; unfold WriteIntent; decide)

theorem anewPlays : Plays (fun _ _ => True) { machineA with object := [], size := 0 } [.truncate 9, .writeAt (str! "XYZ") 1, .readAt 5 0, .sync]
    [.count 0 none, .count 3 none, .read 5 ([0] ++ str! "XYZ" ++ [0]) none, .count 0 none] ⟨[0] ++ str! "XYZ" ++ [0, 0, 0, 0, 0, 0], 2, 9, 0, true, true, false, false⟩ := by
  refine .next (m1 := { machineA with object := [0, 0, 0, 0, 0, 0, 0, 0, 0, 0], size := 9 }) rfl (by decide +kernel) (by show (_ : Int) ≤ (maxInt : Int); decide) trivial ?_
  refine .next (m1 := { machineA with object := [0] ++ str! "XYZ" ++ [0, 0, 0, 0, 0, 0], size := 9 }) rfl (by decide +kernel) ⟨⟨by decide, by decide, by decide⟩, by decide⟩ trivial ?_
  refine .next (m1 := { machineA with object := [0] ++ str! "XYZ" ++ [0, 0, 0, 0, 0, 0], size := 9 }) rfl (by decide +kernel) ⟨by decide, by decide⟩ trivial ?_
  exact .next (m1 := { machineA with object := [0] ++ str! "XYZ" ++ [0, 0, 0, 0, 0, 0], size := 9 }) rfl (by decide +kernel) trivial trivial (.nil _)

example : (match runOps (new keeping two 3) 19 bOpen (.openFile (str! "/a") (Flags.O_RDWR ||| Flags.O_TRUNC) 0 :: anewUse) (str! "abcdef", str! "ABCD") with
    | .ret (s', .ok (_, as)) => decide (as.length = 12 ∧ s'.1.length = 10)
    | _ => false) = true := by decide +kernel

/-- The hypotheses are met: the answers are the machine's, and "a" holds what the account says: the new bytes. -/
example (fuel : Nat) (s' : Bytes × Bytes) (w' : World Nat) (as : List Answer)
    (e : runOps (new keeping two 3) fuel bOpen (.openFile (str! "/a") (Flags.O_RDWR ||| Flags.O_TRUNC) 0 :: anewUse) (str! "abcdef", str! "ABCD") = .ret (s', .ok (w', as))) :
    answersFrom 1 (.openFile (str! "/a") (Flags.O_RDWR ||| Flags.O_TRUNC) 0 :: anewUse) as = [.count 0 none, .count 3 none, .read 5 ([0] ++ str! "XYZ" ++ [0]) none, .count 0 none] ∧
    s'.1.take 10 = [0] ++ str! "XYZ" ++ [0, 0, 0, 0, 0, 0] := by
  have hst : StatFits two (str! "abcdef", str! "ABCD") 1 2 3 (·.1) := ⟨by decide, by decide, rfl, rfl, by decide, by decide, by decide, by decide⟩
  refine ⟨(C153_program_partial (new keeping two 3) rfl two_quiet [] isLoc_nil bOpen rfl (str! "abcdef", str! "ABCD") (str! "abcdef", str! "ABCD") ⟨rfl, rfl⟩ (str! "/a") [str! "a"]
    (.inl ⟨⟨_, rfl⟩, by decide⟩) (Flags.O_RDWR ||| Flags.O_TRUNC) 0 (.inl (by unfold Writable; decide)) [str! "a"] 1 (.inl ⟨two_found _, rfl⟩) rfl 2 3 (·.1) hst { machineA with object := [], size := 0 } _ _ _ two_apart bOpen_others anewUse
    anewUse_noPath fuel s' w' as e two_lawful two_reliable (by decide +kernel) anewPlays).2, ?_⟩
  exact C155_program_partial (new keeping two 3) rfl two_quiet [] isLoc_nil bOpen rfl (str! "abcdef", str! "ABCD") (str! "abcdef", str! "ABCD") ⟨rfl, rfl⟩ (str! "/a") [str! "a"]
    (.inl ⟨⟨_, rfl⟩, by decide⟩) (Flags.O_RDWR ||| Flags.O_TRUNC) 0 (.inl (by unfold Writable; decide)) [str! "a"] 1 (.inl ⟨two_found _, rfl⟩) rfl 2 3 (·.1) hst
    { machineA with object := [], size := 0 } _ _ _ two_apart bOpen_others anewUse anewUse_noPath fuel s' w' as e two_lawful two_reliable (fun _ _ h => h) (by decide +kernel) anewPlays
    ([0] ++ str! "XYZ" ++ [0, 0, 0, 0, 0, 0]) (by decide +kernel)

end Disko.Driver

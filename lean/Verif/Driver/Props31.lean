import Verif.Driver.Files
import Verif.Driver.Props27
import Verif.Stream.Props6
/-! C153: an open file is a simple machine. -/
namespace Disko.Driver
open Disko Disko.BlockCache Spec
open Disko.Stream.Reference (Machine shown reading)

variable {σ H : Type}

theorem newFile_machine (d : Drv σ H) {s : σ} {h : H} {bpb total : Nat} {view : σ → Bytes} (L : BlockCache.Spec.Lawful (backendOf d.impl h) bpb view)
    (R : Stream.Spec.AllReliable (backendOf d.impl h)) (hs : StatFits d.impl s h bpb total view) (p : Str) (flags : Flags.IOFlags) {m : Option Machine} {e : Option Stream.SErr}
    (ho : Stream.Reference.open_ ((view s).take (total * bpb)) bpb (d.impl.stat s h).size flags = (m, e)) :
    ∃ x, m = some (shown view x) ∧ Stream.Inv bpb view x ∧ Stream.Spec.Opened (backendOf d.impl h) bpb total s x ∧ (∀ z, e = some z → newFile d ⟨some h, p⟩ flags s = .ret (x.st.s, .error (.stream z))) ∧
      (e = none → ∃ f : File H, newFile d ⟨some h, p⟩ flags s = .ret (x.st.s, .ok f) ∧ f.streamIn x.st.s = x ∧ f.objectHandle.inner = some h) := by
  have hcap : total * bpb ≤ maxInt := by have := hs.fits; omega
  have SS : Stream.Spec.StreamSetup (backendOf d.impl h) bpb total view s := ⟨⟨L, hs.bpb_pos, hcap, hs.store⟩, hs.bpb_le⟩
  have hn := new_of hs
  have ha : BlockCache.Spec.After (backendOf d.impl h) bpb total s [] ⟨_, s⟩ [] := ⟨_, hn, by simp, rfl⟩
  obtain ⟨_, _, hc⟩ := BlockCache.after_spec SS.cache ha
  have hc' : BlockCache.Spec.contents view _ = (view s).take (total * bpb) := hc
  obtain ⟨o, e', q1, q2⟩ := Stream.Reference.C148_open SS R ha (d.impl.stat s h).size flags
  rw [hc', ho] at q2
  simp only [Prod.mk.injEq] at q2
  obtain ⟨q2, rfl⟩ := q2
  have hm : m.isSome := by
    have hl : ((view s).take (total * bpb)).length = total * bpb := by rw [List.length_take]; have := hs.store; omega
    unfold Stream.Reference.open_ at ho
    rw [hl, if_neg (by have := hs.size_nn; have := hs.size_le; omega)] at ho
    simp only at ho
    split at ho <;> cases ho <;> rfl
  rcases o with _ | x
  · rw [← q2] at hm; cases hm
  · refine ⟨x, q2.symm, Stream.new_inv SS ha q1, ⟨_, _, _, _, ha, q1⟩, ?_⟩
    unfold newFile
    rw [andThen_ok (a := d.impl.stat s h) (s' := s) rfl]
    simp only [Ext.method, (fits_new (sizes_of hs)).1, q1]
    exact ⟨fun z hz => by rw [hz], fun hz => ⟨_, by rw [hz], rfl, rfl⟩⟩

/-- The whole program: the path is opened and the methods are called on the file. -/
def openAndUse (w : World H) (p : Str) (flags : Flags.IOFlags) (perm : FileMode) (ops : List FileOp) : List Op := .openFile p flags perm :: ops.map (.file w.files.length)

theorem run_opened (d : Drv σ H) (w : World H) (p : Str) (flags : Flags.IOFlags) (perm : FileMode) (ops : List FileOp) {s s1 s2 : σ} {f : File H} {w2 : World H} {as : List Answer}
    (ho : Spec.Gives (openFile { d with workingDirPath := w.wd } · p flags perm) s s1 (.ok f))
    (hr : ∀ fuel, runOps d fuel ⟨w.wd, w.files ++ [f]⟩ (ops.map (.file w.files.length)) s1 = .ret (s2, .ok (w2, as))) :
    Spec.Gives (runOps d · w (openAndUse w p flags perm ops)) s s2 (.ok (w2, .done :: as)) := by
  obtain ⟨N, hN⟩ := ho
  refine ⟨N, fun fuel hfu => ?_⟩
  simp only [openAndUse, runOps]
  have e1 : stepOp d fuel w (.openFile p flags perm) s = .ret (s1, .ok (⟨w.wd, w.files ++ [f]⟩, .done)) := by
    simp only [stepOp, ask, M.either, hN fuel hfu]; rfl
  rw [andThen_ok e1]
  simp only
  rw [andThen_ok (hr fuel)]
  rfl

namespace Spec

/-- OpenFile obtains the handle `h` of the object at `l'`, and the volume is then `s0`: the object is there (possibly behind links), or the name is missing from "/", the flags
have O_CREATE, and CreateObject makes it. -/
def Obtained (impl : Impl σ H) (s : σ) (l : Loc) (flags : Flags.IOFlags) (perm : FileMode) (s0 : σ) (l' : Loc) (h : H) : Prop :=
  (Found impl s l l' h ∧ s0 = s) ∨
  (∃ n : Str, l = [n] ∧ l' = [n] ∧ (impl.getObject s n (impl.getRootDirectory s)).2 = .error .notFound ∧ CreateIntent flags ∧
    impl.createObject s n (impl.getRootDirectory s) perm = (s0, .ok h))

end Spec

theorem open_obtained (d : Drv σ H) (hd : d.cfg.keepHandle = true) (Q : Quiet d.impl) (wd : Loc) (hwd : IsLoc wd) (hw : d.workingDirPath = render wd) (s : σ) (hr : RootIsDir d.impl s)
    (p : Str) (l : Loc) (hm : Means wd p l) (flags : Flags.IOFlags) (perm : FileMode) (ha : Allowed d.mountFlags flags) {s0 : σ} {l' : Loc} {h : H}
    (hf : Obtained d.impl s l flags perm s0 l' h) (hfile : (d.impl.stat s0 h).isFile = true) {s' : σ} {r : Except Err (File H)}
    (hn : newFile d ⟨some h, render l'⟩ flags s0 = .ret (s', r)) : Spec.Gives (openFile d · p flags perm) s s' r := by
  rcases hf with ⟨hf, rfl⟩ | ⟨n, rfl, rfl, hmi, hc, hcr⟩
  · exact open_found d hd Q wd hwd hw _ hr p l hm flags perm ha hf hfile hn
  · have hnm : IsName n := (normalize_means hwd hm).2 n (by simp)
    exact ((open_create d hd Q wd hwd hw s hr p [n] hm flags perm ha rfl (e := .notFound) (.entry hnm (.zero n) hmi) hc rfl).2 s0 h hcr).2 hfile _ _ hn

theorem reader_opened {object : Bytes} {block : Nat} {size : Int} {flags : Flags.IOFlags} {m : Machine} (hro : ¬ WriteIntent flags)
    (ho : (Stream.Reference.open_ object block size flags).1 = some m) : m.canWrite = false := by
  have hw0 : Flags.write flags = false := by
    rcases e : Flags.write flags with _ | _
    · rfl
    · exact absurd ((requires_iff flags).mp (by unfold Flags.requiresWritePerm; rw [e]; rfl)) hro
  have hnt : ¬ TruncIntent flags := fun h => hro (.inr h)
  unfold Stream.Reference.open_ at ho
  split at ho
  · cases ho
  · rw [noTrunc hnt] at ho
    simp only [Bool.false_eq_true, if_false, Option.some.injEq] at ho
    rw [← ho]; exact hw0

/-- A machine that may not write does not ask for another size. -/
theorem plays_inPlace {m m' : Machine} {ops : List FileOp} {as : List Answer} (hp : Plays (fun _ _ => True) m ops as m') (hm0 : m.canWrite = false) : Plays Machine.InPlace m ops as m' := by
  induction hp with
  | nil m => exact .nil m
  | @cons m m1 m2 op c a ops as hop hfit _ hc rest ih =>
    have hin : m.InPlace c ∧ m1.canWrite = false := by
      cases c with
      | read buf => cases hc; refine ⟨trivial, ?_⟩; unfold Machine.read; simp only; split <;> exact hm0
      | readAt buf off => cases hc; exact ⟨trivial, hm0⟩
      | seek off wh =>
        cases hc
        refine ⟨trivial, ?_⟩
        unfold Machine.seek
        simp only
        split
        · split <;> exact hm0
        · exact hm0
      | sync => cases hc; exact ⟨trivial, hm0⟩
      | truncate n =>
        cases hc
        refine ⟨.inl hm0, ?_⟩
        unfold Machine.truncate
        rw [hm0]; exact hm0
      | write buf =>
        cases hc
        refine ⟨.inl hm0, ?_⟩
        unfold Machine.write
        rw [hm0]; exact hm0
      | writeAt buf off =>
        cases hc
        refine ⟨.inl hm0, ?_⟩
        unfold Machine.writeAt
        split
        · exact hm0
        · unfold Machine.put
          simp only [hm0, Bool.not_false, if_true]
      | writeTo k w n => exact absurd hfit id
      | readFrom src r bs n => exact absurd hfit id
    exact .cons hop hfit hin.1 hc (ih hin.2)

section
variable (d : Drv σ H) (hd : d.cfg.keepHandle = true) (Q : Quiet d.impl) (wd : Loc) (hwd : IsLoc wd) (w : World H) (hw : w.wd = render wd) (s s0 : σ) (hr : RootIsDir d.impl s)
  (p : Str) (l : Loc) (hm : Means wd p l) (flags : Flags.IOFlags) (perm : FileMode) (ha : Allowed d.mountFlags flags)
  (l' : Loc) (h : H) (hf : Obtained d.impl s l flags perm s0 l' h) (hfile : (d.impl.stat s0 h).isFile = true)
  (bpb total : Nat) (view : σ → Bytes) (hst : StatFits d.impl s0 h bpb total view)
  (m m' : Machine) (ops : List FileOp) (as : List Answer)
include hd Q hwd hw hr hm ha hf hfile hst

/-- C153, in place, when wrapObjectHandle keeps the handle: on any implementation whose blocks can be read, a regular file opened without O_TRUNC gives every history of
methods that do not ask for another size exactly the answers of the machine for the object's bytes and size.  Nothing in the volume changes, whatever was written. -/
theorem C153_in_place_partial (hread : Readable d.impl h bpb view) (hok : ∀ s' i buf, i < total → (d.impl.readBlocks s' h i buf).2.2 = none) (hnt : ¬ TruncIntent flags)
    (ho : (Stream.Reference.open_ ((view s0).take (total * bpb)) bpb (d.impl.stat s0 h).size flags).1 = some m) (hp : Plays Machine.InPlace m ops as m') :
    ∃ f', Spec.Gives (runOps d · w (openAndUse w p flags perm ops)) s s0 (.ok (⟨w.wd, w.files ++ [f']⟩, .done :: as)) ∧ f'.objectHandle.inner = some h ∧ f'.size = (m'.size : Int) ∧ f'.position = (m'.pos : Int) := by
  have L : BlockCache.Spec.Lawful (reading (backendOf d.impl h)) bpb view :=
    { fetch_view := fun s i buf => congrArg view (hread.state s i buf)
      fetch_ok := fun s i buf h1 h2 h3 => hread.bytes s i buf h1 h2 h3
      flush_ok := fun s i buf _ _ h => by cases h
      flush_fail := fun s i buf _ _ _ => ⟨rfl, fun _ _ => rfl⟩
      resize_ok := fun s n _ h => by cases h
      resize_fail := fun s n _ => rfl }
  obtain ⟨i1, c1, o1⟩ := fresh_shown L hst (render l') (flags := flags) (noTrunc hnt)
  rw [o1] at ho
  simp only [Option.some.injEq] at ho
  have hopen := open_obtained { d with workingDirPath := w.wd } hd Q wd hwd hw s hr p l hm flags perm ha hf hfile
    (newFile_open { d with workingDirPath := w.wd } (sizes_of hst) (render l') flags (noTrunc hnt))
  have hrun := run_plays d (h := h) (view := view) (ok := Machine.InPlace)
    (I := fun _ x => Stream.Inv bpb view x ∧ x.st.c.Clean ∧ x.st.c.total = total ∧ x.st.s = s0)
    (fun x c _ ⟨j1, j2, j3, j4⟩ hfit hin => by
      obtain ⟨x', a, k1, k2, k3, k4⟩ := Stream.Reference.call_inPlace (b := backendOf d.impl h) L (fun s i buf => hread.state s i buf)
        (fun j be ⟨hj, s', buf, he⟩ => by rw [j3] at hj; rw [show ((backendOf d.impl h).fetch s' j buf).2.2 = none from hok s' j buf hj] at he; cases he) j1 j2 c (callFits j1 _ hfit) hin
      exact ⟨x', a, k1, ⟨k2, k3.clean, k3.blocks.trans j3, k3.view.trans j4⟩, k3.flags, k4⟩)
    w.files.length hp ⟨w.wd, w.files ++ [freshFile (d.impl.stat s0 h) bpb total h (render l') flags]⟩ _ s0 (by simp) rfl ⟨i1, c1, rfl, rfl⟩ ho
  obtain ⟨s', f', r1, r2, ⟨j1, _, _, j4⟩, r4⟩ := hrun
  obtain rfl : s' = s0 := j4
  refine ⟨f', run_opened d w p flags perm ops hopen (fun fuel => ?_), by rw [r2]; rfl, ?_, ?_⟩
  · rw [r1 fuel, List.set_append_right _ _ (Nat.le_refl _), Nat.sub_self]; rfl
  · rw [← r4]
    show f'.size = (f'.size.toNat : Int)
    have := j1.size_nn
    exact (Int.toNat_of_nonneg this).symm
  · rw [← r4]
    show f'.position = (f'.position.toNat : Int)
    have := j1.pos_nn
    exact (Int.toNat_of_nonneg this).symm

/-- C153, readers: a file opened without access for writing gives every history of methods exactly the answers of the machine (which refuses what it must refuse). -/
theorem C153_reader_partial (hread : Readable d.impl h bpb view) (hok : ∀ s' i buf, i < total → (d.impl.readBlocks s' h i buf).2.2 = none) (hro : ¬ WriteIntent flags)
    (ho : (Stream.Reference.open_ ((view s0).take (total * bpb)) bpb (d.impl.stat s0 h).size flags).1 = some m) (hp : Plays (fun _ _ => True) m ops as m') :
    ∃ f', Spec.Gives (runOps d · w (openAndUse w p flags perm ops)) s s0 (.ok (⟨w.wd, w.files ++ [f']⟩, .done :: as)) ∧ f'.objectHandle.inner = some h ∧ f'.size = (m'.size : Int) ∧ f'.position = (m'.pos : Int) := by
  have hnt : ¬ TruncIntent flags := fun h => hro (.inr h)
  exact C153_in_place_partial d hd Q wd hwd w hw s s0 hr p l hm flags perm ha l' h hf hfile bpb total view hst m m' ops as hread hok hnt ho (plays_inPlace hp (reader_opened hro ho))

/-- C153, all methods, when wrapObjectHandle keeps the handle, on an implementation whose callbacks do not fail and whose Resize counts blocks: the path is opened if and only if
the machine is (O_TRUNC together with O_SYNC gives an error), and then every history gets exactly the machine's answers. -/
theorem C153_all_partial (L : BlockCache.Spec.Lawful (backendOf d.impl h) bpb view) (R : Stream.Spec.AllReliable (backendOf d.impl h)) :
    (∀ e, (Stream.Reference.open_ ((view s0).take (total * bpb)) bpb (d.impl.stat s0 h).size flags).2 = some e → ∃ s', Spec.Gives (openFile { d with workingDirPath := w.wd } · p flags perm) s s' (.error (.stream e))) ∧
    (Stream.Reference.open_ ((view s0).take (total * bpb)) bpb (d.impl.stat s0 h).size flags = (some m, none) → Plays (fun _ _ => True) m ops as m' →
      ∃ s' f', Spec.Gives (runOps d · w (openAndUse w p flags perm ops)) s s' (.ok (⟨w.wd, w.files ++ [f']⟩, .done :: as)) ∧ f'.objectHandle.inner = some h ∧ f'.size = (m'.size : Int) ∧ f'.position = (m'.pos : Int)) := by
  refine ⟨fun e he => ?_, fun ho hp => ?_⟩
  · rcases ho : Stream.Reference.open_ ((view s0).take (total * bpb)) bpb (d.impl.stat s0 h).size flags with ⟨m, e1⟩
    rw [ho] at he
    simp only at he
    subst he
    obtain ⟨x, _, _, _, hn, _⟩ := newFile_machine { d with workingDirPath := w.wd } L R hst (render l') flags ho
    exact ⟨_, open_obtained { d with workingDirPath := w.wd } hd Q wd hwd hw s hr p l hm flags perm ha hf hfile (hn e rfl)⟩
  · obtain ⟨x, hx, i1, _, _, hn⟩ := newFile_machine { d with workingDirPath := w.wd } L R hst (render l') flags ho
    obtain ⟨f0, hn, hfs, hfh⟩ := hn rfl
    have hopen := open_obtained { d with workingDirPath := w.wd } hd Q wd hwd hw s hr p l hm flags perm ha hf hfile hn
    simp only [Option.some.injEq] at hx
    obtain ⟨s', f', r1, r2, j1, r4⟩ := run_plays d (h := h) (view := view) (ok := fun _ _ => True) (I := fun _ => Stream.Inv bpb view)
      (fun x c _ j1 hfit _ => by
        have hfx := callFits j1 (backendOf d.impl h) hfit
        rcases Stream.Reference.call_machine L R j1 c hfx with ⟨_, hnone⟩ | ⟨x', a, k1, k2, k3⟩
        · exfalso
          cases c <;> first | cases hnone | exact hfit
        · refine ⟨x', a, k1, k2, ?_, k3⟩
          have hst' := step_of_answer (by rintro W k w n rfl; exact hfit) k1
          rcases Stream.step_inv L j1 c hfx with h0 | ⟨y, h0, _, h2, _⟩
          · rw [hst'] at h0; cases h0
          · rw [hst'] at h0; cases h0; exact h2)
      w.files.length hp ⟨w.wd, w.files ++ [f0]⟩ f0 x.st.s (by simp) hfh (by rw [hfs]; exact i1) (by rw [hfs]; exact hx.symm)
    refine ⟨s', f', run_opened d w p flags perm ops hopen (fun fuel => ?_), by rw [r2]; exact hfh, ?_, ?_⟩
    · rw [r1 fuel, List.set_append_right _ _ (Nat.le_refl _), Nat.sub_self]; rfl
    · rw [← r4]
      exact (Int.toNat_of_nonneg j1.size_nn).symm
    · rw [← r4]
      exact (Int.toNat_of_nonneg j1.pos_nn).symm

end

/-- C153 in full: with a volume whose callbacks do not fail, opening a regular file that exists, or is created, and using it gives the machine's answers. -/
def C153_statement (cfg : Cfg) : Prop :=
  ∀ (σ H : Type) (impl : Impl σ H) (mf : MountFlags) (w : World H) (wd : Loc) (s s0 : σ) (p : Str) (l l' : Loc) (h : H) (flags : Flags.IOFlags) (perm : FileMode) (bpb total : Nat)
    (view : σ → Bytes) (m m' : Machine) (ops : List FileOp) (as : List Answer),
    Quiet impl → RootIsDir impl s → IsLoc wd → w.wd = render wd → Means wd p l → Allowed mf flags → Obtained impl s l flags perm s0 l' h → (impl.stat s0 h).isFile = true →
    StatFits impl s0 h bpb total view → BlockCache.Spec.Lawful (backendOf impl h) bpb view → Stream.Spec.AllReliable (backendOf impl h) →
    Stream.Reference.open_ ((view s0).take (total * bpb)) bpb (impl.stat s0 h).size flags = (some m, none) → Plays (fun _ _ => True) m ops as m' →
    ∃ s' w', Spec.Gives (runOps (new cfg impl mf) · w (openAndUse w p flags perm ops)) s s' (.ok (w', .done :: as))

theorem two_lawful : BlockCache.Spec.Lawful (backendOf two 1) 2 (·.1) where
  fetch_view _ _ _ := rfl
  fetch_ok s i buf _ h _ := by show slice (if (1 : Nat) = 1 then s.1 else s.2) (i * 2) buf.length = _; rw [h]; rfl
  flush_ok s i buf _ _ _ := rfl
  flush_fail s i buf _ _ h := absurd rfl h
  resize_ok s n _ _ := by
    show n * 2 ≤ (s.1.take (n * 2) ++ List.replicate (n * 2 - s.1.length) 0).length ∧ ∀ k, k < n * 2 → k < s.1.length → (s.1.take (n * 2) ++ List.replicate (n * 2 - s.1.length) 0)[k]? = s.1[k]?
    refine ⟨by rw [List.length_append, List.length_take, List.length_replicate]; omega, fun k h1 h2 => ?_⟩
    rw [List.getElem?_append_left (by rw [List.length_take]; omega), List.getElem?_take_of_lt h1]
  resize_fail s n h := absurd rfl h

theorem two_reliable : Stream.Spec.AllReliable (backendOf two 1) := ⟨⟨fun _ _ _ => rfl, fun _ _ _ => rfl⟩, fun _ _ => rfl⟩

theorem two_found (s : Bytes × Bytes) : Found two s [str! "a"] [str! "a"] 1 := 
  .entry (by decide) (.zero _) rfl (by unfold two FileStat.isSymlink; simp only [show ¬ ((1 : Nat) = 0) by decide, if_false]; decide)

theorem two_fits : StatFits two (str! "abcdef", []) 1 2 3 (·.1) :=
  ⟨by decide, by decide, rfl, rfl, by decide, by decide, by decide, by decide⟩

theorem two_quiet : Quiet two := ⟨fun _ _ _ => rfl, fun _ _ => rfl⟩

/-- C153 is false of the code as shipped: OpenFile panics. -/
theorem C153_refuted : ¬ C153_statement shipped := by
  intro hall
  obtain ⟨s', w', N, hN⟩ := hall _ _ two 3 .start [] (str! "abcdef", []) (str! "abcdef", []) (str! "/a") [str! "a"] [str! "a"] 1 Flags.O_RDONLY 0 2 3 (·.1) _ _ [] [] two_quiet ⟨rfl, rfl⟩ isLoc_nil rfl
    (.inl ⟨⟨_, rfl⟩, by decide⟩) (.inl (by unfold Writable; decide)) (.inl ⟨two_found _, rfl⟩) rfl two_fits two_lawful two_reliable rfl (.nil _)
  have h := hN N (Nat.le_refl _)
  simp only [openAndUse, runOps] at h
  have hn : ¬ Returns (stepOp (new shipped two 3) N .start (.openFile (str! "/a") Flags.O_RDONLY 0) (str! "abcdef", [])) := by
    simp only [stepOp, ask]
    refine not_returns_either ?_
    unfold openFile
    simp only [show Flags.requiresWritePerm Flags.O_RDONLY = false by decide, Bool.false_and, Bool.false_eq_true, if_false]
    exact not_returns_either (shipped_path (⟨shipped, two, 3, str! "/"⟩ : Drv _ _) rfl [] isLoc_nil rfl N (str! "/a") _)
  exact not_returns_andThen hn ⟨_, h⟩

/-- The machine of the file "a", which holds "abcdef", opened with O_RDWR. -/
def machineA : Machine := ⟨str! "abcdef", 2, 6, 0, true, true, false, false⟩

theorem _root_.Disko.Driver.Spec.Plays.next {ok : Machine → Stream.Spec.Call → Prop} {m m1 m2 : Machine} {op : FileOp} {c : Stream.Spec.Call} {b : Answer} {ops : List FileOp}
    {as : List Answer} (hop : asCall op = some c) (hc : (m.call c).map (fun r => (r.1, told r.2)) = some (m1, b)) (hfit : CallFits m c) (hok : ok m c) (rest : Plays ok m1 ops as m2) :
    Plays ok m (op :: ops) (b :: as) m2 := by
  rcases h : m.call c with _ | ⟨m', a⟩
  · rw [h] at hc; cases hc
  · rw [h] at hc
    cases hc
    exact .cons hop hfit hok h rest

/-- The hypotheses of C153_in_place_partial are met by a program that writes over "b" and reads it back; its answers: -/
theorem inPlaceA : Plays Machine.InPlace machineA [.read 1, .write (str! "Z"), .seek 1 0, .read 4, .truncate (-1), .sync]
    [.read 1 (str! "a") none, .count 1 none, .count 1 none, .read 4 (str! "Zcde") none, .count 0 (some .invalidArgument), .count 0 none]
    ⟨str! "aZcdef", 2, 6, 5, true, true, false, false⟩ :=
by
  refine .next (m1 := { machineA with pos := 1 }) rfl (by decide +kernel) (by show _ ≤ maxInt; decide) trivial ?_
  refine .next (m1 := { machineA with object := str! "aZcdef", pos := 2 }) rfl (by decide +kernel) ⟨by decide, by decide, by decide⟩ (.inr (by decide)) ?_
  refine .next (m1 := { machineA with object := str! "aZcdef", pos := 1 }) rfl (by decide +kernel) ⟨by decide, by decide⟩ trivial ?_
  refine .next (m1 := { machineA with object := str! "aZcdef", pos := 5 }) rfl (by decide +kernel) (by show _ ≤ maxInt; decide) trivial ?_
  refine .next (m1 := { machineA with object := str! "aZcdef", pos := 5 }) rfl (by decide +kernel) (by show (_ : Int) ≤ (maxInt : Int); decide) (.inr (by decide)) ?_
  exact .next (m1 := { machineA with object := str! "aZcdef", pos := 5 }) rfl (by decide +kernel) trivial trivial (.nil _)

example : Readable two 1 2 (·.1) ∧ (Stream.Reference.open_ (((str! "abcdef", []) : Bytes × Bytes).1.take (3 * 2)) 2 (two.stat (str! "abcdef", []) 1).size Flags.O_RDWR).1 = some machineA ∧
    ¬ TruncIntent Flags.O_RDWR ∧ Allowed 3 Flags.O_RDWR ∧ Means [] (str! "/a") [str! "a"] ∧ RootIsDir two (str! "abcdef", []) :=
  ⟨⟨fun _ _ _ => rfl, fun s i buf _ h _ => by show slice (if (1 : Nat) = 1 then s.1 else s.2) (i * 2) buf.length = _; rw [h]; rfl⟩, by decide +kernel, by unfold TruncIntent; decide,
    .inl (by unfold Writable; decide), .inl ⟨⟨_, rfl⟩, by decide⟩, rfl, rfl⟩

/-- ... so that is what the driver answers, and the volume still holds "abcdef". -/
example : ∃ f', Spec.Gives (runOps (new keeping two 3) · .start (openAndUse (H := Nat) .start (str! "/a") Flags.O_RDWR 0 [.read 1, .write (str! "Z"), .seek 1 0, .read 4, .truncate (-1), .sync])) (str! "abcdef", []) (str! "abcdef", [])
    (.ok (⟨str! "/", [f']⟩, [.done, .read 1 (str! "a") none, .count 1 none, .count 1 none, .read 4 (str! "Zcde") none, .count 0 (some .invalidArgument), .count 0 none])) := by
  obtain ⟨f', h, _⟩ := C153_in_place_partial (new keeping two 3) rfl two_quiet [] isLoc_nil .start rfl (str! "abcdef", []) (str! "abcdef", []) ⟨rfl, rfl⟩ (str! "/a") [str! "a"] (.inl ⟨⟨_, rfl⟩, by decide⟩)
    Flags.O_RDWR 0 (.inl (by unfold Writable; decide)) [str! "a"] 1 (.inl ⟨two_found _, rfl⟩) rfl 2 3 (·.1) two_fits machineA _ _ _
    ⟨fun _ _ _ => rfl, fun s i buf _ h _ => by show slice (if (1 : Nat) = 1 then s.1 else s.2) (i * 2) buf.length = _; rw [h]; rfl⟩ (fun _ _ _ _ => rfl) (by unfold TruncIntent; decide) (by decide +kernel) inPlaceA
  exact ⟨f', h⟩

/-- A reader: what it is refused, it is refused by the machine. -/
example : ¬ WriteIntent Flags.O_RDONLY ∧ Plays (fun _ _ => True) { machineA with canWrite := false } [.write (str! "Z"), .truncate 0, .read 4, .read 4]
    [.count 0 (some .notPermitted), .count 0 (some .notPermitted), .read 4 (str! "abcd") none, .read 2 (str! "ef" ++ [0, 0]) (some .eof)] { machineA with canWrite := false, pos := 4 } :=
  ⟨by unfold WriteIntent; decide, by
    refine .next (m1 := { machineA with canWrite := false }) rfl (by decide +kernel) ⟨by decide, by decide, by decide⟩ trivial ?_
    refine .next (m1 := { machineA with canWrite := false }) rfl (by decide +kernel) (by show (_ : Int) ≤ (maxInt : Int); decide) trivial ?_
    refine .next (m1 := { machineA with canWrite := false, pos := 4 }) rfl (by decide +kernel) (by show _ ≤ maxInt; decide) trivial ?_
    exact .next (m1 := { machineA with canWrite := false, pos := 4 }) rfl (by decide +kernel) (by show _ ≤ maxInt; decide) trivial (.nil _)⟩

/-- All methods: the file is emptied, written and read; the machine, and the driver. -/
example : Stream.Reference.open_ (((str! "abcdef", []) : Bytes × Bytes).1.take (3 * 2)) 2 (two.stat (str! "abcdef", []) 1).size (Flags.O_RDWR ||| Flags.O_TRUNC) = (some { machineA with object := [], size := 0 }, none) ∧
    Plays (fun _ _ => True) { machineA with object := [], size := 0 } [.truncate 9, .writeAt (str! "XYZ") 1, .readAt 5 0, .sync]
      [.count 0 none, .count 3 none, .read 5 ([0] ++ str! "XYZ" ++ [0]) none, .count 0 none] ⟨[0] ++ str! "XYZ" ++ [0, 0, 0, 0, 0, 0], 2, 9, 0, true, true, false, false⟩ :=
  ⟨by decide +kernel, by
    refine .next (m1 := { machineA with object := [0, 0, 0, 0, 0, 0, 0, 0, 0, 0], size := 9 }) rfl (by decide +kernel) (by show (_ : Int) ≤ (maxInt : Int); decide) trivial ?_
    refine .next (m1 := { machineA with object := [0] ++ str! "XYZ" ++ [0, 0, 0, 0, 0, 0], size := 9 }) rfl (by decide +kernel) ⟨⟨by decide, by decide, by decide⟩, by decide⟩ trivial ?_
    refine .next (m1 := { machineA with object := [0] ++ str! "XYZ" ++ [0, 0, 0, 0, 0, 0], size := 9 }) rfl (by decide +kernel) ⟨by decide, by decide⟩ trivial ?_
    exact .next (m1 := { machineA with object := [0] ++ str! "XYZ" ++ [0, 0, 0, 0, 0, 0], size := 9 }) rfl (by decide +kernel) trivial trivial (.nil _)⟩

example : (match runOps (new keeping two 3) 19 .start (openAndUse (H := Nat) .start (str! "/a") (Flags.O_RDWR ||| Flags.O_TRUNC) 0 [.truncate 9, .writeAt (str! "XYZ") 1, .readAt 5 0, .sync]) (str! "abcdef", []) with
    | .ret (_, .ok (_, as)) => decide (as = [.done, .count 0 none, .count 3 none, .read 5 ([0] ++ str! "XYZ" ++ [0]) none, .count 0 none])
    | _ => false) = true := by decide +kernel

end Disko.Driver

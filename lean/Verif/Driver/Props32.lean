import Verif.Driver.Props31
import Verif.Driver.Props7
import Verif.Stream.Props14
/-! C155: what a program leaves in the volume when it closes a file. -/
namespace Disko.Driver
open Disko Disko.BlockCache Spec
open Disko.Stream.Reference (Machine shown Stored held Waiting)

variable {σ H : Type}

namespace Spec

/-- The calls on the machine that the methods stand for. -/
def callsMade (ops : List FileOp) : List Stream.Spec.Call := ops.filterMap asCall

/-- What Close (which is Sync) returns. -/
def Closes (d : Drv σ H) (f : File H) (m : Machine) (s s' : σ) : Prop :=
  (m.object ≠ [] → ∃ f', f.close d s = .ret (s', .ok f')) ∧ (m.object = [] → f.close d s = .ret (s', .error (.stream (.cache .argumentOutOfRange))))

end Spec

theorem plays_run {ok : Machine → Stream.Spec.Call → Prop} {m m' : Machine} {ops : List FileOp} {as : List Answer} (hp : Plays ok m ops as m') :
    ∃ as', m.run (callsMade ops) = some (m', as') := by
  induction hp with
  | nil m => exact ⟨[], rfl⟩
  | cons hop _ _ hc _ ih =>
    obtain ⟨as', h⟩ := ih
    unfold callsMade at h ⊢
    rw [List.filterMap_cons_some hop]
    simp only [Machine.run, hc, Option.bind_eq_bind, Option.bind_some, h]
    exact ⟨_, rfl⟩

theorem plays_mem {P : Stream.Spec.Call → Prop} {m m' : Machine} {ops : List FileOp} {as : List Answer} (hp : Plays (fun _ c => P c) m ops as m') : ∀ c ∈ callsMade ops, P c := by
  induction hp with
  | nil m => intro c hc; cases hc
  | cons hop _ hok _ _ ih =>
    intro c hc
    unfold callsMade at hc ih
    rw [List.filterMap_cons_some hop] at hc
    rcases List.mem_cons.mp hc with rfl | hc
    · exact hok
    · exact ih c hc

theorem close_eq (d : Drv σ H) (f : File H) {h : H} (hh : f.objectHandle.inner = some h) (s : σ) {x : Stream.Stm σ} {e : Option Stream.SErr}
    (hs : Stream.sync (backendOf d.impl h) (f.streamIn s) = .ret (x, e)) :
    (e = none → f.close d s = .ret (x.st.s, .ok (f.after x))) ∧ (∀ z, e = some z → f.close d s = .ret (x.st.s, .error (.stream z))) := by
  have key : f.close d s = match Stream.sync (backendOf d.impl h) (f.streamIn s) with
      | .panic => .panic
      | .timeout => .timeout
      | .ret (x, none) => .ret (x.st.s, .ok (f.after x))
      | .ret (x, some e) => .ret (x.st.s, .error (.stream e)) := by
    unfold File.close
    rcases hi : f.objectHandle with ⟨i, ap⟩
    rw [hi] at hh
    simp only at hh
    subst hh
    rfl
  rw [key, hs]
  exact ⟨fun h => by rw [h], fun z h => by rw [h]⟩

/-- The volume after the history, and what waits to be written. -/
theorem run_held (d : Drv σ H) {h : H} {bpb : Nat} {view : σ → Bytes} (L : BlockCache.Spec.Lawful (backendOf d.impl h) bpb view) (R : Stream.Spec.AllReliable (backendOf d.impl h))
    {ok : Machine → Stream.Spec.Call → Prop} {m' : Machine} {ops : List FileOp} {as : List Answer} (w : World H) (f0 : File H) {x : Stream.Stm σ} (hp : Plays ok (shown view x) ops as m')
    (hfs : f0.streamIn x.st.s = x) (hfh : f0.objectHandle.inner = some h) (i1 : Stream.Inv bpb view x) :
    ∃ s' f', (∀ fuel, runOps d fuel ⟨w.wd, w.files ++ [f0]⟩ (ops.map (.file w.files.length)) x.st.s = .ret (s', .ok (⟨w.wd, w.files ++ [f']⟩, as))) ∧ f'.objectHandle.inner = some h ∧
      Stream.Inv bpb view (f'.streamIn s') ∧ shown view (f'.streamIn s') = m' ∧ held view (f'.streamIn s').st = Stored.run (shown view x) (held view x.st) (callsMade ops) := by
  obtain ⟨s', f', r1, r2, ⟨j1, j2⟩, r4⟩ := run_plays d (h := h) (view := view) (ok := ok)
    (I := fun cs y => Stream.Inv bpb view y ∧ Stored.run (shown view y) (held view y.st) cs = Stored.run (shown view x) (held view x.st) (callsMade ops))
    (fun y c cs ⟨j1, j2⟩ hfit _ => by
      have hfx := callFits j1 (backendOf d.impl h) hfit
      rcases Stream.Reference.call_machine L R j1 c hfx with ⟨_, hnone⟩ | ⟨x', a, k1, k2, k3⟩
      · exfalso
        cases c <;> first | cases hnone | exact hfit
      · refine ⟨x', a, k1, ⟨k2, ?_⟩, ?_, k3⟩
        · rw [← j2]
          simp only [Stored.run, k3]
          rw [Stream.Reference.call_held L R j1 c hfx k1]
        · have hst' := step_of_answer (by rintro W k w n rfl; exact hfit) k1
          rcases Stream.step_inv L j1 c hfx with h0 | ⟨y, h0, _, h2, _⟩
          · rw [hst'] at h0; cases h0
          · rw [hst'] at h0; cases h0; exact h2)
    w.files.length hp ⟨w.wd, w.files ++ [f0]⟩ f0 x.st.s (by simp) hfh (by rw [hfs]; exact ⟨i1, rfl⟩) (by rw [hfs])
  refine ⟨s', f', fun fuel => ?_, by rw [r2]; exact hfh, j1, r4, j2⟩
  rw [r1 fuel, List.set_append_right _ _ (Nat.le_refl _), Nat.sub_self]
  rfl

/-- With O_TRUNC the machine starts with an empty object (if it starts without an error). -/
theorem open_emptied {object : Bytes} {block : Nat} (hb : 0 < block) {size : Int} {flags : Flags.IOFlags} (ht : TruncIntent flags) {m : Machine}
    (ho : Stream.Reference.open_ object block size flags = (some m, none)) : m.object = [] := by
  have htr : Flags.truncate flags = true := (truncate_iff flags).mpr ht
  unfold Stream.Reference.open_ at ho
  split at ho
  · cases ho
  · simp only [htr, if_true, Prod.mk.injEq, Option.some.injEq] at ho
    obtain ⟨ho1, ho2⟩ := ho
    rw [← ho1]
    unfold Machine.truncate at ho2 ⊢
    split at ho2
    · cases ho2
    · next hcw =>
      rw [if_neg hcw]
      show Stream.Reference.fit _ (Stream.Reference.whole block 0) = []
      have : Stream.Reference.whole block 0 = 0 := by
        unfold Stream.Reference.whole
        rw [Nat.div_eq_of_lt (by omega), Nat.zero_mul]
      rw [this, ← List.length_eq_zero_iff]
      exact Stream.Reference.length_fit _ _

section
variable (d : Drv σ H) (hd : d.cfg.keepHandle = true) (Q : Quiet d.impl) (wd : Loc) (hwd : IsLoc wd) (w : World H) (hw : w.wd = render wd) (s s0 : σ) (hr : RootIsDir d.impl s)
  (p : Str) (l : Loc) (hm : Means wd p l) (flags : Flags.IOFlags) (perm : FileMode) (ha : Allowed d.mountFlags flags)
  (l' : Loc) (h : H) (hf : Obtained d.impl s l flags perm s0 l' h) (hfile : (d.impl.stat s0 h).isFile = true)
  (bpb total : Nat) (view : σ → Bytes) (hst : StatFits d.impl s0 h bpb total view)
  (L : BlockCache.Spec.Lawful (backendOf d.impl h) bpb view) (R : Stream.Spec.AllReliable (backendOf d.impl h))
  (m m' : Machine) (ops : List FileOp) (as : List Answer)
  (ho : Stream.Reference.open_ ((view s0).take (total * bpb)) bpb (d.impl.stat s0 h).size flags = (some m, none))
include hd Q hwd hw hr hm ha hf hfile hst L R ho

theorem opened_closed (hp : Plays (fun _ _ => True) m ops as m') :
    ∃ s' f' s'' t, Spec.Gives (runOps d · w (openAndUse w p flags perm ops)) s s' (.ok (⟨w.wd, w.files ++ [f']⟩, .done :: as)) ∧ Closes d f' m' s' s'' ∧
      (view s'').take m'.object.length = t ∧ Stored.run m (Stored.all ((view s0).take m.object.length)) (callsMade ops ++ [.sync]) = Stored.all t ∧ m'.size ≤ m'.object.length := by
  obtain ⟨x, hx, i1, hop, _, hn⟩ := newFile_machine { d with workingDirPath := w.wd } L R hst (render l') flags ho
  obtain ⟨f0, hn, hfs, hfh⟩ := hn rfl
  have hopen := open_obtained { d with workingDirPath := w.wd } hd Q wd hwd hw s hr p l hm flags perm ha hf hfile hn
  simp only [Option.some.injEq] at hx
  subst hx
  obtain ⟨s', f', r1, r2, j1, r4, r5⟩ := run_held d L R w f0 hp hfs hfh i1
  have hcap : total * bpb ≤ maxInt := by have := hst.fits; omega
  have SS : Stream.Spec.StreamSetup (backendOf d.impl h) bpb total view s0 := ⟨⟨L, hst.bpb_pos, hcap, hst.store⟩, hst.bpb_le⟩
  have h0 := (Stream.Reference.opened_held SS hop).2
  obtain ⟨x', e1, i2, st2, _⟩ := Stream.Reference.sync_machine L R j1
  have hh := Stream.Reference.sync_held L R j1 e1
  obtain ⟨c1, c2⟩ := close_eq d f' r2 s' e1
  have hobj : BlockCache.Spec.contents view (f'.streamIn s').st = m'.object := by rw [← r4]; rfl
  have hflush : held view x'.st = Stored.run (shown view x) (Stored.all ((view s0).take (shown view x).object.length)) (callsMade ops ++ [.sync]) := by
    obtain ⟨as', hr'⟩ := plays_run hp
    rw [Stream.Reference.run_sync _ _ _ hr', hh, r5, h0, hobj]
  obtain ⟨as', hr'⟩ := plays_run hp
  have hall : ∃ t : Bytes, held view x'.st = Stored.all t ∧ t.length = m'.object.length := by
    rw [hh, hobj, r5]
    have hlen : (Stored.run (shown view x) (held view x.st) (callsMade ops)).length = m'.object.length := by
      rw [← r5, Stream.Reference.length_held, ← hobj]
      exact (BlockCache.length_contents view _).symm
    refine ⟨List.zipWith (fun now held => held.getD now) m'.object (Stored.run (shown view x) (held view x.st) (callsMade ops)), ?_, by rw [List.length_zipWith, hlen, Nat.min_self]⟩
    unfold Stored.flushed Stored.all
    rw [List.map_zipWith]
  obtain ⟨t, ht, htl⟩ := hall
  refine ⟨s', f', x'.st.s, t, run_opened d w p flags perm ops hopen r1, ⟨fun hne => ?_, fun hne => ?_⟩, ?_, ?_, ?_⟩
  · rw [r4] at c1
    exact ⟨_, c1 (by unfold Machine.sync; rw [if_neg hne])⟩
  · rw [r4] at c2
    exact c2 _ (by unfold Machine.sync; rw [if_pos hne])
  · rw [← htl]; exact (Stream.Reference.held_all ht).1
  · rw [← hflush, ht]
  · rw [← r4]
    show (f'.streamIn s').size.toNat ≤ (BlockCache.Spec.contents view (f'.streamIn s').st).length
    rw [BlockCache.length_contents]
    have := j1.size_le
    have := j1.size_nn
    omega

/-- C155, when wrapObjectHandle keeps the handle, on an implementation whose callbacks do not fail and whose Resize counts blocks: a regular file is opened, any methods are called
on it, and it is closed.  The volume then holds of the object exactly the bytes that the account of C149 gives for the machine's history. -/
theorem C155_account_partial (hp : Plays (fun _ _ => True) m ops as m') :
    ∃ s' f' s'' t, Spec.Gives (runOps d · w (openAndUse w p flags perm ops)) s s' (.ok (⟨w.wd, w.files ++ [f']⟩, .done :: as)) ∧ Closes d f' m' s' s'' ∧
      (view s'').take m'.object.length = t ∧ Stored.run m (Stored.all ((view s0).take m.object.length)) (callsMade ops ++ [.sync]) = Stored.all t := by
  obtain ⟨s', f', s'', t, g1, g2, g3, g4, _⟩ := opened_closed d hd Q wd hwd w hw s s0 hr p l hm flags perm ha l' h hf hfile bpb total view hst L R m m' ops as ho hp
  exact ⟨s', f', s'', t, g1, g2, g3, g4⟩

theorem opened_unsynced (hns : m.syncs = false) (hp : Plays (fun _ c => c ≠ .sync) m ops as m') :
    ∃ s' f' s'', Spec.Gives (runOps d · w (openAndUse w p flags perm ops)) s s' (.ok (⟨w.wd, w.files ++ [f']⟩, .done :: as)) ∧ Closes d f' m' s' s'' ∧
      (view s'').take m'.object.length = (view s0).take (m.lowest (callsMade ops)) ++ m'.object.drop (m.lowest (callsMade ops)) ∧ m'.size ≤ m'.object.length := by
  have hp' : Plays (fun _ _ => True) m ops as m' := by
    clear ho hns
    induction hp with
    | nil m => exact .nil m
    | cons hop hfit _ hc _ ih => exact .cons hop hfit trivial hc ih
  obtain ⟨s', f', s'', t, g1, g2, g3, g4, g5⟩ := opened_closed d hd Q wd hwd w hw s s0 hr p l hm flags perm ha l' h hf hfile bpb total view hst L R m m' ops as ho hp'
  refine ⟨s', f', s'', g1, g2, ?_, g5⟩
  rw [g3]
  obtain ⟨x, hx, i1, hop, _, _⟩ := newFile_machine { d with workingDirPath := w.wd } L R hst (render l') flags ho
  simp only [Option.some.injEq] at hx
  have hcap : total * bpb ≤ maxInt := by have := hst.fits; omega
  have SS : Stream.Spec.StreamSetup (backendOf d.impl h) bpb total view s0 := ⟨⟨L, hst.bpb_pos, hcap, hst.store⟩, hst.bpb_le⟩
  have h0 := (Stream.Reference.opened_held SS hop).2
  rw [← hx] at h0
  have hdl : ((view s0).take m.object.length).length = m.object.length := by
    have := congrArg List.length h0
    rw [Stream.Reference.length_held] at this
    unfold Stored.all at this
    rw [List.length_map] at this
    rw [← this, hx]
    exact (BlockCache.length_contents view x.st).symm
  have hbp : 0 < m.block := by rw [hx]; exact i1.weak.bpb_pos
  have hw0 : Waiting ((view s0).take m.object.length) m.object.length m.object.length (Stored.all ((view s0).take m.object.length)) := by
    have := Stream.Reference.waiting_all (d := (view s0).take m.object.length)
    rwa [hdl] at this
  obtain ⟨as', hr'⟩ := plays_run hp
  have hw1 := Waiting.run _ (callsMade ops) hbp hns hw0 (plays_mem hp) hr'
  have hlow : m.lowest (callsMade ops) ≤ m.object.length := by
    cases callsMade ops with
    | nil => exact Nat.le_refl _
    | cons c cs => simp only [Machine.lowest]; split <;> omega
  rw [Nat.min_eq_right hlow] at hw1
  have hf1 := hw1.flushed
  rw [Stream.Reference.run_sync _ _ _ hr', hf1] at g4
  unfold Stored.all at g4
  have := List.map_inj_right (f := some) (fun _ _ h => Option.some.inj h) |>.mp g4
  rw [← this, List.take_take, Nat.min_eq_left hlow]

/-- C155, with no Sync before Close: the blocks that the object had all the time are what they were, and all others are as the program left them.  (With O_TRUNC the object has no blocks when it is opened.) -/
theorem C155_unsynced_partial (hns : m.syncs = false) (hp : Plays (fun _ c => c ≠ .sync) m ops as m') :
    ∃ s' f' s'', Spec.Gives (runOps d · w (openAndUse w p flags perm ops)) s s' (.ok (⟨w.wd, w.files ++ [f']⟩, .done :: as)) ∧ Closes d f' m' s' s'' ∧
      (view s'').take m'.object.length = (view s0).take (m.lowest (callsMade ops)) ++ m'.object.drop (m.lowest (callsMade ops)) := by
  obtain ⟨s', f', s'', g1, g2, g3, _⟩ := opened_unsynced d hd Q wd hwd w hw s s0 hr p l hm flags perm ha l' h hf hfile bpb total view hst L R m m' ops as ho hns hp
  exact ⟨s', f', s'', g1, g2, g3⟩

/-- C155, files written anew: a file that has no blocks when it has been opened (because of O_TRUNC, or because it was created) is used with any methods but Sync, and closed.
The volume then holds exactly the bytes of the file; if Stat tells the size that the file had, ReadFile returns them. -/
theorem C155_anew_partial (hm0 : m.object = []) (hns : m.syncs = false) (hp : Plays (fun _ c => c ≠ .sync) m ops as m') :
    ∃ s' f' s'', Spec.Gives (runOps d · w (openAndUse w p flags perm ops)) s s' (.ok (⟨w.wd, w.files ++ [f']⟩, .done :: as)) ∧ Closes d f' m' s' s'' ∧
      (view s'').take m'.size = m'.file ∧
      ∀ total', StatFits d.impl s'' h bpb total' view → (d.impl.stat s'' h).size = m'.size → Readable d.impl h bpb view → RootIsDir d.impl s'' → Found d.impl s'' l l' h →
        Spec.Gives (readFile { d with workingDirPath := w.wd } · p) s'' s'' (.ok m'.file) := by
  obtain ⟨s', f', s'', g1, g2, g3, g4⟩ := opened_unsynced d hd Q wd hwd w hw s s0 hr p l hm flags perm ha l' h hf hfile bpb total view hst L R m m' ops as ho hns hp
  have hlow : m.lowest (callsMade ops) = 0 := by
    have : m.lowest (callsMade ops) ≤ m.object.length := by
      cases callsMade ops with
      | nil => exact Nat.le_refl _
      | cons c cs => simp only [Machine.lowest]; split <;> omega
    rw [hm0] at this
    exact Nat.le_zero.mp this
  rw [hlow, List.take_zero, List.nil_append, List.drop_zero] at g3
  have hv : (view s'').take m'.size = m'.file := by
    unfold Machine.file
    rw [← g3, List.take_take, Nat.min_eq_left g4]
  refine ⟨s', f', s'', g1, g2, hv, fun total' hst' hsz hrd hr' hf' => ?_⟩
  refine C81_contents_partial { d with workingDirPath := w.wd } hd Q wd hwd hw s'' hr' p l hm l' h _ hf' ⟨bpb, total', view, hrd, hst', fun s i buf => R.cache.fetch s i buf, ?_⟩
  rw [hsz, Int.toNat_natCast, hv]

end

/-- C155 in full: with a volume whose callbacks do not fail, a regular file that was opened, used in any way and closed is in the volume as the program left it. -/
def C155_statement (cfg : Cfg) : Prop :=
  ∀ (σ H : Type) (impl : Impl σ H) (mf : MountFlags) (w : World H) (wd : Loc) (s s0 : σ) (p : Str) (l l' : Loc) (h : H) (flags : Flags.IOFlags) (perm : FileMode) (bpb total : Nat)
    (view : σ → Bytes) (m m' : Machine) (ops : List FileOp) (as : List Answer),
    Quiet impl → RootIsDir impl s → IsLoc wd → w.wd = render wd → Means wd p l → Allowed mf flags → Obtained impl s l flags perm s0 l' h → (impl.stat s0 h).isFile = true →
    StatFits impl s0 h bpb total view → BlockCache.Spec.Lawful (backendOf impl h) bpb view → Stream.Spec.AllReliable (backendOf impl h) →
    Stream.Reference.open_ ((view s0).take (total * bpb)) bpb (impl.stat s0 h).size flags = (some m, none) → Plays (fun _ _ => True) m ops as m' → m'.object ≠ [] →
    ∃ s' w' f' s'' f'', Spec.Gives (runOps (new cfg impl mf) · w (openAndUse w p flags perm ops)) s s' (.ok (w', .done :: as)) ∧ w'.files[w.files.length]? = some f' ∧
      f'.close (new cfg impl mf) s' = .ret (s'', .ok f'') ∧ (view s'').take m'.size = m'.file

/-- C155 is false of the code as shipped: OpenFile panics. -/
theorem C155_refuted : ¬ C155_statement shipped := by
  intro hall
  obtain ⟨s', w', _, _, _, ⟨N, hN⟩, _⟩ := hall _ _ two 3 .start [] (str! "abcdef", []) (str! "abcdef", []) (str! "/a") [str! "a"] [str! "a"] 1 Flags.O_RDONLY 0 2 3 (·.1) _ _ [] [] two_quiet ⟨rfl, rfl⟩ isLoc_nil rfl
    (.inl ⟨⟨_, rfl⟩, by decide⟩) (.inl (by unfold Writable; decide)) (.inl ⟨two_found _, rfl⟩) rfl two_fits two_lawful two_reliable rfl (.nil _) (by decide)
  have h := hN N (Nat.le_refl _)
  simp only [openAndUse, runOps] at h
  have hn : ¬ Returns (stepOp (new shipped two 3) N .start (.openFile (str! "/a") Flags.O_RDONLY 0) (str! "abcdef", [])) := by
    simp only [stepOp, ask]
    refine not_returns_either ?_
    unfold openFile
    simp only [show Flags.requiresWritePerm Flags.O_RDONLY = false by decide, Bool.false_and, Bool.false_eq_true, if_false]
    exact not_returns_either (shipped_path (⟨shipped, two, 3, str! "/"⟩ : Drv _ _) rfl [] isLoc_nil rfl N (str! "/a") _)
  exact not_returns_andThen hn ⟨_, h⟩

theorem anyA {ok : Machine → Stream.Spec.Call → Prop} {m m' : Machine} {ops : List FileOp} {as : List Answer} (hp : Plays ok m ops as m') : Plays (fun _ _ => True) m ops as m' := by
  induction hp with
  | nil m => exact .nil m
  | cons hop hfit _ hc _ ih => exact .cons hop hfit trivial hc ih

/-- C155 is false even with the wrapper repaired: the program of `inPlaceA` changes "b" to "Z", reads it back, and closes the file; the volume still has "abcdef". -/
theorem C155_refuted_keeping : ¬ C155_statement keeping := by
  intro hall
  have ho : Stream.Reference.open_ (((str! "abcdef", []) : Bytes × Bytes).1.take (3 * 2)) 2 (two.stat (str! "abcdef", []) 1).size Flags.O_RDWR = (some machineA, none) := by decide +kernel
  have hpath : Means [] (str! "/a") [str! "a"] := .inl ⟨⟨_, rfl⟩, by decide⟩
  have hall' : Allowed 3 Flags.O_RDWR := .inl (by unfold Writable; decide)
  obtain ⟨s', w', f', s'', f'', ⟨N, hN⟩, h1, h2, h3⟩ := hall _ _ two 3 .start [] (str! "abcdef", []) (str! "abcdef", []) (str! "/a") [str! "a"] [str! "a"] 1 Flags.O_RDWR 0 2 3 (·.1) _ _ _ _ two_quiet ⟨rfl, rfl⟩ isLoc_nil rfl
    hpath hall' (.inl ⟨two_found _, rfl⟩) rfl two_fits two_lawful two_reliable ho (anyA inPlaceA) (by decide)
  obtain ⟨s1, f1, s2, t, ⟨N', hN'⟩, g2, g3, g4⟩ := C155_account_partial (new keeping two 3) rfl two_quiet [] isLoc_nil .start rfl (str! "abcdef", []) (str! "abcdef", []) ⟨rfl, rfl⟩ (str! "/a") [str! "a"] hpath
    Flags.O_RDWR 0 hall' [str! "a"] 1 (.inl ⟨two_found _, rfl⟩) rfl 2 3 (·.1) two_fits two_lawful two_reliable machineA _ _ _ ho (anyA inPlaceA)
  have e1 := hN (max N N') (Nat.le_max_left _ _)
  rw [hN' (max N N') (Nat.le_max_right _ _)] at e1
  simp only [Outcome.ret.injEq, Prod.mk.injEq, Except.ok.injEq] at e1
  obtain ⟨rfl, rfl, _⟩ := e1
  have e2 : f1 = f' := by simpa [World.start] using h1
  subst e2
  obtain ⟨_, g5⟩ := g2.1 (by decide)
  rw [h2] at g5
  simp only [Outcome.ret.injEq, Prod.mk.injEq] at g5
  obtain ⟨rfl, _⟩ := g5
  have e3 : Stored.run machineA (Stored.all (((str! "abcdef", []) : Bytes × Bytes).1.take machineA.object.length)) (callsMade [.read 1, .write (str! "Z"), .seek 1 0, .read 4, .truncate (-1), .sync] ++ [.sync]) =
      Stored.all (str! "abcdef") := by decide +kernel
  rw [e3] at g4
  have e4 : str! "abcdef" = t := by
    unfold Stored.all at g4
    exact List.map_inj_right (f := some) (fun _ _ h => Option.some.inj h) |>.mp g4
  rw [← e4] at g3
  have h3' : s''.1.take 6 = str! "aZcdef" := h3
  have g3' : s''.1.take 6 = str! "abcdef" := g3
  rw [g3'] at h3'
  exact absurd h3' (by decide)

/-- A file is emptied, written in two pieces, one over the other, and closed: the machine's history ... -/
theorem anewA : Plays (fun _ c => c ≠ .sync) { machineA with object := [], size := 0 } [.write (str! "XYZ"), .truncate 4, .writeAt (str! "Q") 1]
    [.count 3 none, .count 0 none, .count 1 none] ⟨str! "XQZ" ++ [0], 2, 4, 3, true, true, false, false⟩ := by
  refine .next (m1 := { machineA with object := str! "XYZ" ++ [0], size := 3, pos := 3 }) rfl (by decide +kernel) ⟨by decide, by decide, by decide⟩ (by intro h; cases h) ?_
  refine .next (m1 := { machineA with object := str! "XYZ" ++ [0], size := 4, pos := 3 }) rfl (by decide +kernel) (by show (_ : Int) ≤ (maxInt : Int); decide) (by intro h; cases h) ?_
  exact .next (m1 := { machineA with object := str! "XQZ" ++ [0], size := 4, pos := 3 }) rfl (by decide +kernel) ⟨⟨by decide, by decide, by decide⟩, by decide⟩ (by intro h; cases h) (.nil _)

/-- ... the other hypotheses of C155_anew_partial (those on the volume are met by `two`, as for C153) ... -/
example : TruncIntent (Flags.O_RDWR ||| Flags.O_TRUNC) ∧ Allowed 3 (Flags.O_RDWR ||| Flags.O_TRUNC) ∧
    Stream.Reference.open_ (((str! "abcdef", []) : Bytes × Bytes).1.take (3 * 2)) 2 (two.stat (str! "abcdef", []) 1).size (Flags.O_RDWR ||| Flags.O_TRUNC) = (some { machineA with object := [], size := 0 }, none) ∧
    StatFits two (str! "XQZ" ++ [0], []) 1 2 2 (·.1) ∧ (two.stat (str! "XQZ" ++ [0], []) 1).size = 4 ∧ RootIsDir two (str! "XQZ" ++ [0], []) ∧ Found two (str! "XQZ" ++ [0], []) [str! "a"] [str! "a"] 1 :=
  ⟨by unfold TruncIntent; decide, .inl (by unfold Writable; decide), by decide +kernel, ⟨by decide, by decide, rfl, rfl, by decide, by decide, by decide, by decide⟩, rfl, ⟨rfl, rfl⟩, two_found _⟩

/-- ... and what the driver does. -/
example : (match runOps (new keeping two 3) 19 .start (openAndUse (H := Nat) .start (str! "/a") (Flags.O_RDWR ||| Flags.O_TRUNC) 0 [.write (str! "XYZ"), .truncate 4, .writeAt (str! "Q") 1]) (str! "abcdef", []) with
    | .ret (s', .ok (⟨_, [f']⟩, _)) =>
      match f'.close (new keeping two 3) s' with
      | .ret (s'', .ok _) => decide (s'' = (str! "XQZ" ++ [0], [])) && (match readFile (new keeping two 3) 19 (str! "/a") s'' with | .ret (_, .ok b) => decide (b = str! "XQZ" ++ [0]) | _ => false)
      | _ => false
    | _ => false) = true := by decide +kernel

/-- Without O_TRUNC: the two bytes that the object always has stay as they are in the volume, whatever is written there. -/
example : (match runOps (new keeping two 3) 19 .start (openAndUse (H := Nat) .start (str! "/a") Flags.O_RDWR 0 [.truncate 1, .write (str! "1234567")]) (str! "abcdef", []) with
    | .ret (s', .ok (⟨_, [f']⟩, _)) =>
      match f'.close (new keeping two 3) s' with
      | .ret (s'', .ok _) => decide (s'' = (str! "ab34567" ++ [0], []))
      | _ => false
    | _ => false) = true := by decide +kernel

/-- For examples: a volume in whose "/" (handle 0) the file "a" (handle 1) can be created; blocks of two bytes; resizing to `n` makes room for `n` blocks. -/
def nursery : Impl (Option Bytes) Nat where
  features := ⟨true, true, true⟩
  getRootDirectory _ := 0
  getObject s n h := (s, if h = 0 ∧ n = str! "a" ∧ s.isSome then .ok 1 else .error .notFound)
  createObject s n h _ := if h = 0 ∧ n = str! "a" ∧ s.isNone then (some [], .ok 1) else (s, .error .notImplemented)
  createHardLink := none
  stat s h := if h = 0 then { FileStat.zero with modeFlags := Flags.ModeDir, blockSize := 2 }
    else { FileStat.zero with size := (s.getD []).length, blockSize := 2, numBlocks := ((s.getD []).length / 2 : Nat), inodeNumber := h }
  name _ h := [UInt8.ofNat (96 + h)]
  sameAs _ a b := a = b
  resize s _ n := (some ((s.getD []).take (n * 2) ++ List.replicate (n * 2 - (s.getD []).length) 0), none)
  readBlocks s _ i buf := (s, slice (s.getD []) (i * 2) buf.length, none)
  writeBlocks s _ i buf := (some (splice (s.getD []) (i * 2) buf), none)
  unlink s _ := (s, none)
  close s _ := (s, none)
  listDir _ := none
  chmod _ := none
  chown _ := none
  chtimes _ := none

theorem nursery_lawful : BlockCache.Spec.Lawful (backendOf nursery 1) 2 (·.getD []) where
  fetch_view _ _ _ := rfl
  fetch_ok s i buf _ h _ := by show slice (s.getD []) (i * 2) buf.length = _; rw [h]
  flush_ok s i buf _ _ _ := rfl
  flush_fail s i buf _ _ h := absurd rfl h
  resize_ok s n _ _ := by
    show n * 2 ≤ ((s.getD []).take (n * 2) ++ List.replicate (n * 2 - (s.getD []).length) 0).length ∧ ∀ k, k < n * 2 → k < (s.getD []).length → ((s.getD []).take (n * 2) ++ List.replicate (n * 2 - (s.getD []).length) 0)[k]? = (s.getD [])[k]?
    refine ⟨by rw [List.length_append, List.length_take, List.length_replicate]; omega, fun k h1 h2 => ?_⟩
    rw [List.getElem?_append_left (by rw [List.length_take]; omega), List.getElem?_take_of_lt h1]
  resize_fail s n h := absurd rfl h

/-- Create and Close: the file "a" is created, written in two pieces, one over the other, and closed; then the volume holds it and ReadFile returns it. -/
example : ∃ s' f' s'', Spec.Gives (runOps (new keeping nursery 3) · .start (openAndUse (H := Nat) .start (str! "/a") (Flags.O_RDWR ||| Flags.O_CREATE) 0 [.write (str! "XYZ"), .truncate 4, .writeAt (str! "Q") 1]))
      none s' (.ok (⟨str! "/", [f']⟩, [.done, .count 3 none, .count 0 none, .count 1 none])) ∧ (∃ f'', f'.close (new keeping nursery 3) s' = .ret (s'', .ok f'')) ∧ (s''.getD []).take 4 = str! "XQZ" ++ [0] := by
  obtain ⟨s', f', s'', h1, h2, h3, _⟩ := C155_anew_partial (new keeping nursery 3) rfl ⟨fun _ _ _ => rfl, fun _ _ => rfl⟩ [] isLoc_nil .start rfl none (some []) ⟨rfl, rfl⟩ (str! "/a") [str! "a"]
    (.inl ⟨⟨_, rfl⟩, by decide⟩) (Flags.O_RDWR ||| Flags.O_CREATE) 0 (.inl (by unfold Writable; decide)) [str! "a"] 1 (.inr ⟨str! "a", rfl, rfl, rfl, by unfold CreateIntent; decide, rfl⟩) rfl 2 0 (·.getD [])
    ⟨by decide, by decide, rfl, rfl, by decide, by decide, by decide, by decide⟩ nursery_lawful ⟨⟨fun _ _ _ => rfl, fun _ _ _ => rfl⟩, fun _ _ => rfl⟩
    { machineA with object := [], size := 0 } _ _ _ (by decide +kernel) rfl rfl anewA
  exact ⟨s', f', s'', h1, h2.1 (by decide), h3⟩

end Disko.Driver

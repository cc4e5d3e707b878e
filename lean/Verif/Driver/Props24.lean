import Verif.Driver.Lifetimes
import Verif.Driver.Props21
/-! C122: no method but Close is called on a handle that has been closed. -/
namespace Disko.Driver
open Disko Spec BlockCache

variable {σ H α β : Type}

namespace Mortal

section
variable (cfg : Cfg) (I : Impl σ H) (mf : MountFlags) (wd : Str) (g g' : Garbage σ H)

local notation "d" => md cfg I mf wd g
local notation "d'" => md cfg I mf wd g'

theorem writeAt_frame {S : Type} {R : S → S → Prop} (hrefl : ∀ s, R s s) (htrans : ∀ {a b c}, R a b → R b c → R a c) (b : Backend S)
    (hf : ∀ s i buf, R s (b.fetch s i buf).1) (hw : ∀ s i buf, R s (b.flush s i buf).1) (hr : ∀ s n, R s (b.resize s n).1) (x : Stream.Stm S) (buf : Bytes) (off : Int) :
    (Stream.writeAt b x buf off).All fun r => R x.st.s r.1.st.s := by
  unfold Stream.writeAt
  exact .ite (fun _ => .ret (hrefl _)) fun _ => Stream.implWriteAt_frame hrefl htrans b hf hw hr x buf off

theorem seek_st {S : Type} (y : Stream.Stm S) (off whence : Int) : (Stream.seek y off whence).1.st = y.st := by
  unfold Stream.seek
  simp only
  repeat' split
  all_goals rfl

/-- A call whose errors are only seen. -/
theorem ask_safe {A : Nat → Prop} {t : Lives σ} {m m' : M (Lives σ) α} {Q : Lives σ → α → Prop} (h : SafeAt A t m m' Q) (w : β) (k : α → β × Answer) {Q2 : Lives σ → β × Answer → Prop}
    (hq : ∀ t1 a, Step A t t1 → Q t1 a → Q2 t1 (k a)) (hw : ∀ t1 e, Step A t t1 → Q2 t1 (w, .failed e)) : SafeAt A t (ask m w k) (ask m' w k) Q2 :=
  .either h (fun t1 a s1 j1 q => .ok j1 (hq t1 a s1 q)) fun t1 e s1 j1 => .ok j1 (hw t1 e s1)

theorem fileReadDir_safe (t : Lives σ) (hi : Lives.Inv t) {f : File (Tagged H)} (hf : Good t f) (n : Int) :
    SafeAt (New t) t (f.readDir d n) (f.readDir d' n) fun t1 r => Good t1 r.1 := by
  unfold File.readDir
  refine .andThen (stat_safe cfg I mf wd g g' hi hf) fun t1 st s1 j1 q => ?_
  obtain ⟨rfl, _⟩ := q
  refine .ite (fun _ => .ok j1 hf) fun _ => ?_
  rcases f.lastReadDirResult with _ | es
  · exact .either (readDirObject_safe cfg I mf wd g g' t1 j1 hf) (fun t2 es s2 j2 _ => .ok j2 (Live.stepNew hf s2)) fun t2 er s2 j2 => .ok j2 (Live.stepNew hf s2)
  · exact .ok j1 hf

theorem stepFile_safe (t : Lives σ) (hi : Lives.Inv t) {f : File (Tagged H)} (hf : Good t f) (op : FileOp) :
    SafeAt (New t) t (stepFile d f op) (stepFile d' f op) fun t1 r => Good t1 r.1.2 := by
  have hw : ∀ t1 (e : Err), Step (New t) t t1 → Good t1 f := fun t1 _ s1 => Live.stepNew hf s1
  have P := fun h : Tagged H => Calm.pre (σ := σ) h
  have u1 : ∀ (h : Tagged H) (s : Lives σ) (i : Nat) (buf : Bytes), Calm h s ((backendOf (d').impl h).fetch s i buf).1 := fun h s _ _ => calm_use h s _
  have u2 : ∀ (h : Tagged H) (s : Lives σ) (i : Nat) (buf : Bytes), Calm h s ((backendOf (d').impl h).flush s i buf).1 := fun h s _ _ => calm_use h s _
  have u3 : ∀ (h : Tagged H) (s : Lives σ) (n : Nat), Calm h s ((backendOf (d').impl h).resize s n).1 := fun h s _ => calm_use h s _
  cases op with
  | read len =>
    exact ask_safe (onStream_safe cfg I mf wd g g' hi hf fun h _ r hr => (Stream.read_frame (P h).refl (P h).trans (backendOf (d').impl h) (f.streamIn t)
      (fun s i buf _ => u1 h s i buf) (List.replicate len 0) r hr).rel) _ _ (fun t1 a _ q => q.2) hw
  | readAt len off =>
    exact ask_safe (onStream_safe cfg I mf wd g g' hi hf fun h _ r hr => (Stream.readAt_frame (P h).refl (P h).trans (backendOf (d').impl h) (f.streamIn t)
      (fun s i buf _ => u1 h s i buf) (List.replicate len 0) off r hr).rel) _ _ (fun t1 a _ q => q.2) hw
  | write data =>
    exact ask_safe (onStream_safe cfg I mf wd g g' hi hf fun h _ r hr => Stream.write_frame (P h).refl (P h).trans (backendOf (d').impl h) (u1 h) (u2 h) (u3 h) (f.streamIn t) data r hr) _ _ (fun t1 a _ q => q.2) hw
  | writeAt data off =>
    exact ask_safe (onStream_safe cfg I mf wd g g' hi hf fun h _ r hr => writeAt_frame (P h).refl (P h).trans (backendOf (d').impl h) (u1 h) (u2 h) (u3 h) (f.streamIn t) data off r hr) _ _ (fun t1 a _ q => q.2) hw
  | seek off whence =>
    refine ask_safe (onStream_safe cfg I mf wd g g' hi hf fun h _ r hr => ?_) _ _ (fun t1 a _ q => q.2) hw
    cases hr
    rw [seek_st]
    exact (P h).refl _
  | truncate n =>
    exact ask_safe (onStream_safe cfg I mf wd g g' hi hf fun h _ r hr => Stream.truncate_frame (P h).refl (P h).trans (backendOf (d').impl h) (u1 h) (u2 h) (u3 h) (f.streamIn t) n r hr) _ _ (fun t1 a _ q => q.2) hw
  | sync =>
    exact ask_safe (onStream_safe cfg I mf wd g g' hi hf fun h _ r hr => Stream.sync_frame (P h).refl (P h).trans (backendOf (d').impl h) (u1 h) (u2 h) (f.streamIn t) r hr) _ _ (fun t1 a _ q => q.2) hw
  | chdir => exact ask_safe (chdirTo_safe cfg I mf wd g g' hi hf) _ _ (fun t1 _ s1 _ => hw t1 .eof s1) hw
  | chmod mode =>
    refine ask_safe (Q := fun _ _ => True) ?_ _ _ (fun t1 _ s1 _ => hw t1 .eof s1) hw
    unfold File.chmod
    rw [show Ext.optional (d).cfg f.objectHandle (d).impl.chmod = f.objectHandle.optional cfg (mortal I g).chmod from rfl, show Ext.optional (d').cfg f.objectHandle (d').impl.chmod = f.objectHandle.optional cfg (mortal I g).chmod from rfl]
    rcases he : f.objectHandle.optional cfg (mortal I g).chmod with _ | m
    · exact .fail hi
    · obtain ⟨x, hx, hm⟩ := optional_tag he
      exact callE_safe ((chmod_calm I g mode x _ (by rw [hm]; rfl) t).safe (live_dead hf hx) hi)
  | chown u v =>
    refine ask_safe (Q := fun _ _ => True) ?_ _ _ (fun t1 _ s1 _ => hw t1 .eof s1) hw
    unfold File.chown
    rw [show Ext.optional (d).cfg f.objectHandle (d).impl.chown = f.objectHandle.optional cfg (mortal I g).chown from rfl, show Ext.optional (d').cfg f.objectHandle (d').impl.chown = f.objectHandle.optional cfg (mortal I g).chown from rfl]
    rcases he : f.objectHandle.optional cfg (mortal I g).chown with _ | m
    · exact .fail hi
    · obtain ⟨x, hx, hm⟩ := optional_tag he
      exact callE_safe ((chown_calm I g u v x _ (by rw [hm]; rfl) t).safe (live_dead hf hx) hi)
  | name =>
    refine ask_safe (Q := fun _ _ => True) ?_ _ _ (fun t1 _ s1 _ => hw t1 .eof s1) hw
    refine .method fun h he => ?_
    have hs : ∀ g : Garbage σ H, (fun s => .ret (s, .ok ((md cfg I mf wd g).impl.name s h)) : M (Lives σ) Str) t = .ret (t, .ok (I.name t.s h.1)) := fun g => by
      show (Outcome.ret (t, .ok (if t.dead h then _ else _)) : Outcome (Lives σ × Except Err Str)) = _
      rw [live_dead hf he]; rfl
    exact ⟨(hs g).trans (hs g').symm, fun t' r hr => by rw [hs g'] at hr; cases hr; exact ⟨.refl _, hi, fun _ _ => trivial⟩⟩
  | readDir n => exact ask_safe (fileReadDir_safe cfg I mf wd g g' t hi hf n) _ _ (fun t1 a _ q => q) hw
  | readdir n =>
    refine ask_safe (Q := fun t1 r => Good t1 r.1) (.andThen (fileReadDir_safe cfg I mf wd g g' t hi hf n) fun t1 r _ j1 q => ?_) _ _ (fun t1 a _ q => q) hw
    rcases r with ⟨f', es, _ | e⟩
    · exact .ok j1 q
    · exact .ok j1 q
  | readdirnames n =>
    refine ask_safe (Q := fun t1 r => Good t1 r.1) (.andThen (fileReadDir_safe cfg I mf wd g g' t hi hf n) fun t1 r _ j1 q => ?_) _ _ (fun t1 a _ q => q) hw
    rcases r with ⟨f', es, _ | e⟩
    · exact .ok j1 q
    · exact .ok j1 q
  | stat => exact .ok hi hf

end

/-- All files the program holds have open handles. -/
def AllGood (t : Lives σ) (w : World (Tagged H)) : Prop := ∀ f ∈ w.files, Good t f

theorem AllGood.step {t t' : Lives σ} {w : World (Tagged H)} (h : AllGood t w) (k : Step (New t) t t') : AllGood t' w := fun f hf => Live.stepNew (h f hf) k

section
variable (cfg : Cfg) (I : Impl σ H) (mf : MountFlags) (g g' : Garbage σ H) (fuel : Nat)

theorem stepOp_safe (wd : Str) (t : Lives σ) (hi : Lives.Inv t) (w : World (Tagged H)) (hw : AllGood t w) (op : Op) :
    SafeAt (New t) t (stepOp (md cfg I mf wd g) fuel w op) (stepOp (md cfg I mf wd g') fuel w op) fun t1 r => AllGood t1 r.1 := by
  have hs : ∀ t1, Step (New t) t t1 → AllGood t1 w := fun t1 s1 => hw.step s1
  have hw' : ∀ t1 (e : Err), Step (New t) t t1 → AllGood t1 w := fun t1 _ s1 => hw.step s1
  have plain : ∀ {α : Type} {m m' : M (Lives σ) α} {Q : Lives σ → α → Prop} (k : α → World (Tagged H) × Answer), SafeAt (New t) t m m' Q → (∀ a, (k a).1.files = w.files) →
      SafeAt (New t) t (ask m w k) (ask m' w k) fun t1 r => AllGood t1 r.1 := fun k h hk =>
    ask_safe h w k (fun t1 a s1 _ f hf => hs t1 s1 f (by rw [hk a] at hf; exact hf)) hw'
  have opened : ∀ {m m' : M (Lives σ) (File (Tagged H))}, SafeAt (New t) t m m' Good →
      SafeAt (New t) t (ask m w fun f => (⟨w.wd, w.files ++ [f]⟩, .done)) (ask m' w fun f => (⟨w.wd, w.files ++ [f]⟩, .done)) fun t1 r => AllGood t1 r.1 := fun h =>
    ask_safe h w _ (fun t1 a s1 q f hf => by
      rcases List.mem_append.mp hf with hf | hf
      · exact hs t1 s1 f hf
      · rw [List.mem_singleton] at hf; subst hf; exact q) hw'
  have onPath : ∀ {α : Type} (p : Str) {body body' : Ext (Tagged H) → M (Lives σ) α}, (∀ t1 e, Lives.Inv t1 → Live t1 e → SafeAt (New t1) t1 (body e) (body' e) fun _ _ => True) →
      SafeAt (New t) t (M.andThen (getFollow (md cfg I mf w.wd g) fuel p) body) (M.andThen (getFollow (md cfg I mf w.wd g') fuel p) body') fun _ _ => True := fun p _ _ hb =>
    .andThen (follow_safe cfg I mf w.wd g g' fuel t p hi) fun t1 e s1 j1 o => (hb t1 e j1 o.live).room ((room_new t).step s1)
  cases op with
  | openFile p flags perm => exact opened (openFile_safe cfg I mf w.wd g g' fuel t p flags perm hi)
  | open_ p => exact opened (openFile_safe cfg I mf w.wd g g' fuel t p _ _ hi)
  | create p => exact opened (openFile_safe cfg I mf w.wd g g' fuel t p _ _ hi)
  | chdir p => exact plain _ (path_safe cfg I mf w.wd g g' fuel t _ hi fun t1 e j1 l1 => chdirTo_safe cfg I mf w.wd g g' j1 l1) fun _ => rfl
  | chmod p mode => exact plain _ (onPath _ fun t1 e j1 l1 => optional_safe cfg I mf w.wd g g' j1 l1 _ (chmod_calm I g mode)) fun _ => rfl
  | chown p u v => exact plain _ (onPath _ fun t1 e j1 l1 => optional_safe cfg I mf w.wd g g' j1 l1 _ (chown_calm I g u v)) fun _ => rfl
  | lchown p u v =>
    exact plain _ (.andThen (Q2 := fun _ _ => True) (nofollow_safe cfg I mf w.wd g g' fuel t _ hi) fun t1 e s1 j1 o => optional_safe cfg I mf w.wd g g' j1 o.live _ (chown_calm I g u v)) fun _ => rfl
  | chtimes p a m => exact plain _ (onPath _ fun t1 e j1 l1 => optional_safe cfg I mf w.wd g g' j1 l1 _ (chtimes_calm I g _ _ _ _ _)) fun _ => rfl
  | readFile p => exact plain _ (path_safe cfg I mf w.wd g g' fuel t _ hi fun t1 e j1 l1 => (contents_safe cfg I mf w.wd g g' j1 l1).imp fun _ _ _ _ => trivial) fun _ => rfl
  | stat p => exact plain _ (path_safe cfg I mf w.wd g g' fuel t _ hi fun t1 e j1 l1 => (stat_safe cfg I mf w.wd g g' j1 l1).imp fun _ _ _ _ => trivial) fun _ => rfl
  | readDir p => exact plain _ (path_safe cfg I mf w.wd g g' fuel t _ hi fun t1 e j1 l1 => readDirObject_safe cfg I mf w.wd g g' t1 j1 l1) fun _ => rfl
  | link o n => exact plain _ (link_safe cfg I mf w.wd g g' fuel t o n hi) fun _ => rfl
  | readlink p => exact plain _ (readlink_safe cfg I mf w.wd g g' fuel t p hi) fun _ => rfl
  | lstat p => exact plain _ (lstat_safe cfg I mf w.wd g g' fuel t p hi) fun _ => rfl
  | remove p => exact plain _ (remove_safe cfg I mf w.wd g g' fuel t p hi) fun _ => rfl
  | truncate p =>
    refine plain _ (path_safe cfg I mf w.wd g g' fuel t _ hi fun t1 e j1 l1 => .andThen (stat_safe cfg I mf w.wd g g' j1 l1) fun t2 st _ j2 q => .ite (fun _ => .fail j2) fun _ => ?_) fun _ => rfl
    obtain ⟨rfl, _⟩ := q
    exact resize_safe cfg I mf w.wd g g' j2 l1 0
  | writeFile p data perm => exact plain _ (writeFile_safe cfg I mf w.wd g g' fuel t p data perm hi) fun _ => rfl
  | mkdir p perm =>
    refine plain _ (path_safe cfg I mf w.wd g g' fuel t _ hi fun t1 e j1 l1 => .andThen (stat_safe cfg I mf w.wd g g' j1 l1) fun t2 st _ j2 q => .ite (fun _ => .fail j2) fun _ => ?_) fun _ => rfl
    obtain ⟨rfl, _⟩ := q
    exact createAndClose_safe cfg I mf w.wd g g' t2 j2 (room_new t2) _ _ l1
  | mkdirAll p perm => exact plain _ (mkdirAll_safe cfg I mf w.wd g g' fuel t p perm hi) fun _ => rfl
  | removeAll p => exact plain _ (removeAll_safe cfg I mf w.wd g g' fuel t p hi) fun _ => rfl
  | getwd => exact .ok hi hw
  | file i op =>
    simp only [stepOp]
    rcases hf : w.files[i]? with _ | f
    · exact .ok hi hw
    · refine .andThen (stepFile_safe cfg I mf w.wd g g' t hi (hw f (List.mem_of_getElem? hf)) op) fun t1 r s1 j1 q => .ok j1 fun f' hf' => ?_
      rcases List.mem_or_eq_of_mem_set hf' with h | h
      · exact hs t1 s1 f' h
      · subst h; exact q

theorem runOps_safe (wd : Str) (ops : List Op) : ∀ (t : Lives σ) (w : World (Tagged H)), Lives.Inv t → AllGood t w →
    SafeAt (New t) t (runOps (md cfg I mf wd g) fuel w ops) (runOps (md cfg I mf wd g') fuel w ops) fun t1 r => AllGood t1 r.1 := by
  induction ops with
  | nil => intro t w hi hw; exact .ok hi hw
  | cons op ops ih =>
    intro t w hi hw
    rw [runOps, runOps]
    refine .andThen (stepOp_safe cfg I mf g g' fuel wd t hi w hw op) fun t1 r s1 j1 q => ?_
    exact .andThen ((ih t1 r.1 j1 q).room ((room_new t).step s1)) fun t2 _ _ j2 q => .ok j2 q

end

end Mortal
open Mortal

/-- C122: a program makes any calls on a volume it has mounted and on the files it opens; object handles become useless when they are closed.
Then no call ever uses a closed handle: a method other than Close is never called on one (which would leave its mark), and what the
program sees does not depend on what Stat, Name and SameAs would say about closed handles. -/
theorem C122_no_use_after_close (cfg : Cfg) (I : Impl σ H) (mf : MountFlags) (g g' : Garbage σ H) (fuel : Nat) (s : σ) (ops : List Op) :
    runOps (new cfg (mortal I g) mf) fuel .start ops (.start s) = runOps (new cfg (mortal I g') mf) fuel .start ops (.start s) ∧
    ∀ t r, runOps (new cfg (mortal I g) mf) fuel .start ops (.start s) = .ret (t, r) → t.misused = false := by
  have h := fun g' => runOps_safe cfg I mf g g' fuel (str! "/") ops (.start s) .start (fun k hk => nomatch hk) fun f hf => nomatch hf
  exact ⟨(h g').1, fun t r hr => ((h g).2 _ _ hr).1.fine⟩


/-- Closed handles lie about everything. -/
def liar : Garbage σ H := ⟨fun _ _ => statWith Flags.ModeSymlink 7 7 7, fun _ _ => str! "gone", fun _ _ _ => true⟩

/-- A program on `linked`: "a" is a link to "b" and "b" a link to the file "c".  Handles are given out, and all but that of the open file
are closed. -/
example : (match runOps (new keeping (mortal linked liar) 3) 19 .start
      [.stat (str! "a"), .openFile (str! "a") Flags.O_RDONLY 0, .lstat (str! "b"), .readlink (str! "b"), .readFile (str! "c"), .file 0 (.read 2), .file 0 .name] (.start ()) with
    | .ret (t, .ok (_, as)) => decide (t.misused = false ∧ t.issued = 10 ∧ t.closed.eraseDups.length = 9 ∧
        as = [.stat (statWith 0 2 1 99), .done, .stat (statWith 0 2 1 99), .bytes (str! "/c"), .bytes (str! "hi"), .read 2 (str! "hi") none, .text (str! "c")])
    | _ => false) = true := by decide +kernel

/-- On a volume whose handles can list directories: removing a tree. -/
example : (match runOps (new passing (mortal store liar) 31) 19 .start
      [.mkdir (str! "/x") 0o755, .removeAll (str! "/d"), .remove (str! "/d"), .readDir (str! "/"), .chdir (str! "x"), .getwd] (.start nested) with
    | .ret (t, .ok (_, as)) => decide (t.misused = false ∧ t.issued = 7 ∧ t.closed.eraseDups.length = 7 ∧ as = [.done, .done, .done, .entries [⟨str! "x", statWith Flags.ModeDir 0 0 0⟩] none, .done, .text (str! "/x")])
    | _ => false) = true := by decide +kernel

/-- Misuse would be seen: Unlink after Close leaves the mark, and Stat after Close lies. -/
example : let I := mortal linked liar
    let (t, _) := I.getObject (.start ()) (str! "c") (0, none)
    let h := (99, some 0)
    let (t1, _) := I.close t h
    t.misused = false ∧ I.stat t h = statWith 0 2 1 99 ∧ I.stat t1 h ≠ statWith 0 2 1 99 ∧ t1.misused = false ∧ (I.close t1 h).1.misused = false ∧
      (I.unlink t1 h).1.misused = true ∧ (I.readBlocks t1 h 0 []).1.misused = true ∧ (I.getObject t1 (str! "c") h).1.misused = true := by decide +kernel

end Disko.Driver

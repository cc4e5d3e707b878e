import Verif.Driver.Props19
import Verif.Stream.FrameLen
/-! C104: WriteBlocks is called with whole blocks of the object. -/
namespace Disko.Driver
open Disko Spec BlockCache

variable {σ H α : Type}

namespace Spec

/-- Every WriteBlocks call is within the object as Stat describes it at that moment (unless it is too large to be addressed). -/
def WritesWithin (impl : Impl σ H) (s : σ) (c : Call H) : Prop :=
  ∀ h i data, c = .writeBlocks h i data → Addressable (impl.stat s h) → Within (impl.stat s h) i data.length

/-- Resizing, reading and writing an object do not change its block size. -/
structure FixedBlocks (impl : Impl σ H) : Prop where
  resize : ∀ s h n, (impl.stat (impl.resize s h n).1 h).blockSize = (impl.stat s h).blockSize
  read : ∀ s h i buf, (impl.stat (impl.readBlocks s h i buf).1 h).blockSize = (impl.stat s h).blockSize
  write : ∀ s h i buf, (impl.stat (impl.writeBlocks s h i buf).1 h).blockSize = (impl.stat s h).blockSize

/-- Every WriteBlocks call is for exactly one block. -/
def WritesOne (impl : Impl σ H) (s : σ) (c : Call H) : Prop :=
  ∀ h i data, c = .writeBlocks h i data → 0 ≤ (impl.stat s h).blockSize → (impl.stat s h).blockSize < 2 ^ 63 → (data.length : Int) = (impl.stat s h).blockSize

end Spec

/-- C104: what api.go:241-248 guarantees: WriteFile calls WriteBlocks within the object only.  The implementation has blocks of a fixed size, and a file
of `n` bytes has the blocks it needs. -/
def C104_statement (cfg : Cfg) : Prop :=
  ∀ (σ H : Type) (impl : Impl σ H) (mf : MountFlags) (wd p : Str) (fuel : Nat) (data : Bytes) (perm : FileMode),
    FixedBlocks impl → (∀ s h n, (impl.stat s h).isFile = true → (impl.stat (impl.resize s h n).1 h).numBlocks = ((n + ((impl.stat s h).blockSize.toNat - 1)) / (impl.stat s h).blockSize.toNat : Nat)) →
    Only (WritesWithin impl) (writeFile (recorded cfg impl mf wd) fuel p data perm)

/-! ### The implementation of the examples keeps the contract -/

theorem find_changed (s : List Obj) (n m : Str) (f : Obj → Obj) (hf : ∀ o, (f o).name = o.name) :
    Obj.find (Obj.change s n f) m = (Obj.find s m).map fun o => if o.name = n then f o else o := by
  unfold Obj.find Obj.change
  induction s with
  | nil => rfl
  | cons o s ih =>
    rw [List.map_cons, List.find?_cons, List.find?_cons]
    have hname : (if o.name = n then f o else o).name = o.name := by split <;> simp [hf]
    rw [hname]
    rcases h : decide (o.name = m) with _ | _
    · simpa using ih
    · rfl

theorem found_name {s : List Obj} {n : Str} {o : Obj} (h : Obj.find s n = some o) : o.name = n := by
  have := List.find?_some h
  simpa using this

theorem flat_blockSize (b : Nat) (s : List Obj) (n m : Str) (f : Obj → Obj) (hf : ∀ o, (f o).name = o.name) :
    ((flat b).stat (Obj.change s n f) (some m)).blockSize = ((flat b).stat s (some m)).blockSize := by
  simp only [flat, find_changed s n m f hf]
  rcases Obj.find s m with _ | o <;> rfl

theorem flat_fixed (b : Nat) : FixedBlocks (flat b) where
  resize s h n := by
    rcases h with _ | x
    · rfl
    · exact flat_blockSize b s x x _ fun _ => rfl
  read s h i buf := by rw [(flat_still b).read]
  write s h i buf := by
    rcases h with _ | x
    · rfl
    · exact flat_blockSize b s x x _ fun _ => rfl

theorem flat_resized (b : Nat) (s : List Obj) (h : Option Str) (n : Nat) (hf : ((flat b).stat s h).isFile = true) :
    ((flat b).stat ((flat b).resize s h n).1 h).numBlocks = ((n + (((flat b).stat s h).blockSize.toNat - 1)) / ((flat b).stat s h).blockSize.toNat : Nat) := by
  rcases h with _ | x
  · have : ((flat b).stat s none).isFile = false := by
      show Flags.isFile Flags.ModeDir = false
      decide
    rw [this] at hf; cases hf
  · have hch := find_changed s x x (fun o => { o with data := o.data.take n ++ List.replicate (n - o.data.length) 0 }) (fun _ => rfl)
    simp only [flat]
    rw [hch]
    rcases h1 : Obj.find s x with _ | o
    · simp [FileStat.zero]
    · simp only [Option.map_some, if_pos (found_name h1), List.length_append, List.length_take, List.length_replicate, Int.toNat_natCast]
      have : min n o.data.length + (n - o.data.length) = n := by omega
      rw [this]

/-- Has WriteBlocks been called beyond the end of an object? -/
def wroteBeyond (impl : Impl σ H) (o : Outcome ((σ × List (σ × Call H)) × α)) : Bool :=
  match o with
  | .ret ((_, log), _) => log.any fun e => match e.2 with
    | .writeBlocks h i _ => decide (0 < (impl.stat e.1 h).blockSize ∧ 0 ≤ (impl.stat e.1 h).numBlocks ∧ ((impl.stat e.1 h).numBlocks + 8) * (impl.stat e.1 h).blockSize < 2 ^ 64 ∧
        (impl.stat e.1 h).numBlocks < i + 1)
    | _ => false
  | _ => false

theorem beyond_not_within {impl : Impl σ H} {m : M (σ × List (σ × Call H)) α} {s : σ} (h : wroteBeyond impl (m (s, [])) = true) : ¬ Only (WritesWithin impl) m := by
  intro ho
  unfold wroteBeyond at h
  split at h
  · rename_i s' log r hm
    obtain ⟨calls, hl, hc⟩ := ho _ _ _ _ _ hm
    rw [List.nil_append] at hl
    subst hl
    obtain ⟨e, he, hb⟩ := List.any_eq_true.mp h
    split at hb
    · rename_i h' i data heq
      obtain ⟨h1, h2, h3, h4⟩ := of_decide_eq_true hb
      obtain ⟨k, k1, _, k3⟩ := hc e he h' i data heq (.inr ⟨h1, h2, h3⟩)
      omega
    · cases hb
  · cases h

/-- C104 is FALSE of the code even with the handle kept: Resize is given a number of blocks, so the object is smaller than the driver believes, and the blocks of a
file of 5 bytes are written beyond its end. -/
theorem C104_refuted : ¬ C104_statement keeping := by
  intro h
  refine beyond_not_within (s := oneFile) ?_ (h (List Obj) (Option Str) (flat 4) 3 (str! "/") (str! "/g") 9 [1, 2, 3, 4, 5] 0x1a4 (flat_fixed 4) (flat_resized 4))
  decide +kernel

/-! ### What is left of it -/

/-- The block size the file's cache works with is that of the object. -/
def Sized (impl : Impl σ H) (f : File H) (s : σ) : Prop := ∃ h, f.objectHandle.inner = some h ∧ f.cache.bpb = Stream.toUint (impl.stat s h).blockSize

/-- The block size stays, and every block written has that size. -/
def Blocked (impl : Impl σ H) (h : H) (bpb : Nat) (x y : σ × List (σ × Call H)) : Prop :=
  Stream.toUint (impl.stat x.1 h).blockSize = bpb → Stream.toUint (impl.stat y.1 h).blockSize = bpb ∧ Added (WritesOne impl) x y

theorem Blocked.pre (impl : Impl σ H) (h : H) (bpb : Nat) : Pre (Blocked impl h bpb) :=
  ⟨fun x hx => ⟨hx, (Added.pre _).refl x⟩, fun h k hx => by
    obtain ⟨h1, h2⟩ := h hx
    obtain ⟨k1, k2⟩ := k h1
    exact ⟨k1, (Added.pre _).trans h2 k2⟩⟩

section
variable {impl : Impl σ H} (hi : FixedBlocks impl)
include hi

theorem blocked_fetch (h : H) (bpb : Nat) (x : σ × List (σ × Call H)) (i : Nat) (buf : Bytes) : Blocked impl h bpb x ((recording impl).readBlocks x h i buf).1 :=
  fun hx => ⟨(congrArg Stream.toUint (hi.read x.1 h i buf)).trans hx, Added.one fun _ _ _ hc => by cases hc⟩

theorem blocked_resize (h : H) (bpb : Nat) (x : σ × List (σ × Call H)) (n : Nat) : Blocked impl h bpb x ((recording impl).resize x h n).1 :=
  fun hx => ⟨(congrArg Stream.toUint (hi.resize x.1 h n)).trans hx, Added.one fun _ _ _ hc => by cases hc⟩

theorem blocked_flush (h : H) (bpb : Nat) (x : σ × List (σ × Call H)) (i : Nat) (buf : Bytes) (hl : buf.length = bpb) : Blocked impl h bpb x ((recording impl).writeBlocks x h i buf).1 := by
  refine fun hx => ⟨(congrArg Stream.toUint (hi.write x.1 h i buf)).trans hx, Added.one fun h' i' d' hc h0 h1 => ?_⟩
  cases hc
  rw [hl, ← hx, Stream.toUint_of h0 h1]
  omega

theorem newFile_sized (d : Drv (σ × List (σ × Call H)) H) (hd : d.impl = recording impl) {e : Ext H} {flags : Flags.IOFlags} {x x' : σ × List (σ × Call H)} {f : File H}
    (hn : newFile d e flags x = .ret (x', .ok f)) : Sized impl f x'.1 := by
  obtain ⟨_, _, k3⟩ := newFile_spec d e _ hn
  have hoh := k3 f rfl
  rcases e with ⟨_ | h, p⟩
  · unfold newFile M.andThen statOf Ext.method at hn; cases hn
  refine ⟨h, by rw [hoh], ?_⟩
  unfold newFile at hn
  rw [andThen_ok (a := d.impl.stat x h) (s' := x) rfl] at hn
  simp only [Ext.method] at hn
  rcases hc : BlockCache.new (Stream.toUint (d.impl.stat x h).blockSize) (Stream.toUint (d.impl.stat x h).numBlocks) with c | _ | _
  · rw [hc] at hn
    simp only at hn
    have hbp : c.bpb = Stream.toUint (d.impl.stat x h).blockSize := congrArg Shape.bpb (new_shape hc)
    rcases hs : Stream.new (backendOf d.impl h) (d.impl.stat x h).size ⟨c, x⟩ flags with ⟨o, er⟩ | _ | _
    · have B := Blocked.pre impl h (Stream.toUint (d.impl.stat x h).blockSize)
      have k := Stream.new_len B.refl B.trans (backendOf d.impl h) _ (by unfold Stream.toUint; omega) (fun s i buf => by rw [hd]; exact blocked_fetch hi h _ s i buf)
        (fun s i buf hl => by rw [hd] at hl ⊢; exact blocked_flush hi h _ s i buf hl) (fun s n => by rw [hd]; exact blocked_resize hi h _ s n) _ ⟨c, x⟩ hbp flags _ hs
      rw [hs] at hn
      rcases o with _ | y <;> rcases er with _ | er
      · simp only at hn; cases hn
      · simp only at hn; cases hn
      · simp only at hn
        cases hn
        obtain ⟨k1, k2⟩ := k y rfl
        simp only
        rw [k2]
        refine ((k1 ?_).1).symm
        rw [hd]; rfl
      · simp only at hn; cases hn
    · rw [hs] at hn; cases hn
    · rw [hs] at hn; cases hn
  · rw [hc] at hn; cases hn
  · rw [hc] at hn; cases hn

end

/-- What OpenFile returns comes from NewFileFromObjectHandle. -/
theorem openFile_from {d : Drv σ H} {fuel : Nat} {p : Str} {flags : Flags.IOFlags} {perm : FileMode} {x x' : σ} {f : File H}
    (hn : openFile d fuel p flags perm x = .ret (x', .ok f)) : ∃ e x1, newFile d e flags x1 = .ret (x', .ok f) := by
  unfold openFile at hn
  split at hn
  · cases hn
  · unfold M.either at hn
    rcases h1 : getFollow d fuel (normalizePath d.workingDirPath p) x with ⟨x1, r⟩ | _ | _
    · rw [h1] at hn
      simp only at hn
      have tail : ∀ (m : M σ (Ext H)), M.andThen m (fun object => M.andThen (statOf d object) fun st =>
          if (!st.isFile) = true then M.fail .isADirectory else newFile d object flags) x1 = .ret (x', .ok f) → ∃ e x1, newFile d e flags x1 = .ret (x', .ok f) := by
        intro m hm
        unfold M.andThen at hm
        rcases h2 : m x1 with ⟨x2, er | e⟩ | _ | _
        · rw [h2] at hm; cases hm
        · rw [h2] at hm
          simp only at hm
          rcases h3 : statOf d e x2 with ⟨x3, er | st⟩ | _ | _
          · rw [h3] at hm; cases hm
          · rw [h3] at hm
            simp only at hm
            split at hm
            · cases hm
            · exact ⟨_, _, hm⟩
          · rw [h3] at hm; cases hm
          · rw [h3] at hm; cases hm
        · rw [h2] at hm; cases hm
        · rw [h2] at hm; cases hm
      exact tail _ hn
    · rw [h1] at hn; cases hn
    · rw [h1] at hn; cases hn

namespace Spec
/-- A call of an open file. -/
inductive FileCall where
  | read (n : Nat)
  | write (data : Bytes)
  | truncate (n : Int)
  | close

/-- One call of an open file; if it fails, nothing more is done. -/
def FileCall.run (d : Drv σ H) : FileCall → File H → M σ (File H)
  | .read n, f => M.andThen (f.read d n) fun r => M.ok r.1
  | .write data, f => M.andThen (f.write d data) fun r => M.ok r.1
  | .truncate n, f => f.truncate d n
  | .close, f => f.close d

/-- One call after the other. -/
def runCalls (d : Drv σ H) : List FileCall → File H → M σ (File H)
  | [], f => M.ok f
  | c :: cs, f => M.andThen (c.run d f) (runCalls d cs)
end Spec

theorem andThen_ret {m : M σ α} {β : Type} {f : α → M σ β} {s s' : σ} {r : Except Err β} (h : M.andThen m f s = .ret (s', r)) :
    (∃ e, m s = .ret (s', .error e) ∧ r = .error e) ∨ ∃ s1 a, m s = .ret (s1, .ok a) ∧ f a s1 = .ret (s', r) := by
  unfold M.andThen at h
  rcases h1 : m s with ⟨s1, e | a⟩ | _ | _
  · rw [h1] at h; cases h; exact .inl ⟨e, rfl, rfl⟩
  · rw [h1] at h; exact .inr ⟨s1, a, rfl, h⟩
  · rw [h1] at h; cases h
  · rw [h1] at h; cases h

section
variable {impl : Impl σ H} (hi : FixedBlocks impl)
include hi

theorem run_sized (d : Drv (σ × List (σ × Call H)) H) (hd : d.impl = recording impl) (c : FileCall) {f : File H} {x x' : σ × List (σ × Call H)} {r : Except Err (File H)}
    (hf : Sized impl f x.1) (hn : c.run d f x = .ret (x', r)) : Added (WritesOne impl) x x' ∧ ∀ g, r = .ok g → Sized impl g x'.1 := by
  obtain ⟨h, hin, hb⟩ := hf
  have B := Blocked.pre impl h f.cache.bpb
  have hlt : f.cache.bpb < 2 ^ 64 := by rw [hb]; unfold Stream.toUint; omega
  have hfe : ∀ (s : σ × List (σ × Call H)) i buf, Blocked impl h f.cache.bpb s ((backendOf d.impl h).fetch s i buf).1 := fun s i buf => by rw [hd]; exact blocked_fetch hi h _ s i buf
  have hfl : ∀ (s : σ × List (σ × Call H)) i buf, buf.length = f.cache.bpb → Blocked impl h f.cache.bpb s ((backendOf d.impl h).flush s i buf).1 := fun s i buf hl => by
    rw [hd]; exact blocked_flush hi h _ s i buf hl
  have hre : ∀ (s : σ × List (σ × Call H)) n, Blocked impl h f.cache.bpb s ((backendOf d.impl h).resize s n).1 := fun s n => by rw [hd]; exact blocked_resize hi h _ s n
  have done : ∀ y : Stream.Stm (σ × List (σ × Call H)), Blocked impl h f.cache.bpb x y.st.s → y.st.c.bpb = f.cache.bpb →
      Added (WritesOne impl) x y.st.s ∧ Sized impl (f.after y) y.st.s.1 := by
    intro y k1 k2
    obtain ⟨k3, k4⟩ := k1 hb.symm
    exact ⟨k4, h, hin, k2.trans k3.symm⟩
  rcases c with n | data | n | _
  · rcases andThen_ret hn with ⟨e, h1, rfl⟩ | ⟨s1, a, h1, h2⟩
    · simp only [File.read, Ext.method, hin] at h1
      rcases h3 : Stream.read (backendOf d.impl h) (f.streamIn x) (List.replicate n 0) with ⟨y, rr⟩ | _ | _ <;> rw [h3] at h1 <;> cases h1
    · cases h2
      simp only [File.read, Ext.method, hin] at h1
      rcases h3 : Stream.read (backendOf d.impl h) (f.streamIn x) (List.replicate n 0) with ⟨y, rr⟩ | _ | _ <;> rw [h3] at h1 <;> cases h1
      have k := Stream.read_len B.refl B.trans (backendOf d.impl h) _ hlt hfe hfl (f.streamIn x) rfl _ _ h3
      obtain ⟨k1, k2⟩ := done y k.1 k.2
      exact ⟨k1, fun g hg => by cases hg; exact k2⟩
  · rcases andThen_ret hn with ⟨e, h1, rfl⟩ | ⟨s1, a, h1, h2⟩
    · simp only [File.write, Ext.method, hin] at h1
      rcases h3 : Stream.write (backendOf d.impl h) (f.streamIn x) data with ⟨y, n, _ | er⟩ | _ | _ <;> rw [h3] at h1 <;> simp only at h1 <;> cases h1
      have k := Stream.write_len B.refl B.trans (backendOf d.impl h) _ hlt hfe hfl hre (f.streamIn x) rfl _ _ h3
      exact ⟨(done y k.1 k.2).1, fun g hg => by cases hg⟩
    · cases h2
      simp only [File.write, Ext.method, hin] at h1
      rcases h3 : Stream.write (backendOf d.impl h) (f.streamIn x) data with ⟨y, n, _ | er⟩ | _ | _ <;> rw [h3] at h1 <;> simp only at h1 <;> cases h1
      have k := Stream.write_len B.refl B.trans (backendOf d.impl h) _ hlt hfe hfl hre (f.streamIn x) rfl _ _ h3
      obtain ⟨k1, k2⟩ := done y k.1 k.2
      exact ⟨k1, fun g hg => by cases hg; exact k2⟩
  · simp only [FileCall.run, File.truncate, Ext.method, hin] at hn
    rcases h3 : Stream.truncate (backendOf d.impl h) (f.streamIn x) n with ⟨y, _ | er⟩ | _ | _ <;> rw [h3] at hn <;> simp only at hn <;> cases hn
    · have k := Stream.truncate_len B.refl B.trans (backendOf d.impl h) _ hlt hfe hfl hre (f.streamIn x) rfl _ _ h3
      obtain ⟨k1, k2⟩ := done y k.1 k.2
      exact ⟨k1, fun g hg => by cases hg; exact k2⟩
    · have k := Stream.truncate_len B.refl B.trans (backendOf d.impl h) _ hlt hfe hfl hre (f.streamIn x) rfl _ _ h3
      exact ⟨(done y k.1 k.2).1, fun g hg => by cases hg⟩
  · simp only [FileCall.run, File.close, Ext.method, hin] at hn
    rcases h3 : Stream.sync (backendOf d.impl h) (f.streamIn x) with ⟨y, _ | er⟩ | _ | _ <;> rw [h3] at hn <;> simp only at hn <;> cases hn
    · have k := Stream.sync_len B.refl B.trans (backendOf d.impl h) _ hlt hfe hfl (f.streamIn x) rfl _ h3
      obtain ⟨k1, k2⟩ := done y k.1 k.2
      exact ⟨k1, fun g hg => by cases hg; exact k2⟩
    · have k := Stream.sync_len B.refl B.trans (backendOf d.impl h) _ hlt hfe hfl (f.streamIn x) rfl _ h3
      exact ⟨(done y k.1 k.2).1, fun g hg => by cases hg⟩

theorem runCalls_one (d : Drv (σ × List (σ × Call H)) H) (hd : d.impl = recording impl) : ∀ (cs : List FileCall) (f : File H) (x x' : σ × List (σ × Call H)) (r : Except Err (File H)),
    Sized impl f x.1 → runCalls d cs f x = .ret (x', r) → Added (WritesOne impl) x x'
  | [], f, x, x', r, _, hn => by cases hn; exact (Added.pre _).refl _
  | c :: cs, f, x, x', r, hf, hn => by
    rcases andThen_ret hn with ⟨e, h1, _⟩ | ⟨s1, a, h1, h2⟩
    · exact (run_sized hi d hd c hf h1).1
    · obtain ⟨k1, k2⟩ := run_sized hi d hd c hf h1
      exact (Added.pre _).trans k1 (runCalls_one d hd cs a s1 x' r (k2 a rfl) h2)

omit hi in
theorem openFile_one (cfg : Cfg) (mf : MountFlags) (wd : Str) (fuel : Nat) (p : Str) (flags : Flags.IOFlags) (perm : FileMode) :
    Only (WritesOne impl) (openFile (recorded cfg impl mf wd) fuel p flags perm) := by
  intro s log s' log' r hn
  obtain ⟨calls, h1, h2⟩ := C102_openFile cfg impl mf wd fuel p flags perm s log s' log' r hn
  refine ⟨calls, h1, fun c hc h i data heq => ?_⟩
  rcases h2 c hc with h3 | ⟨_, n, h', h3⟩ | ⟨_, h', h3⟩
  · rw [heq] at h3; cases h3
  · rw [heq] at h3; cases h3
  · rw [heq] at h3; cases h3

/-- C104, partial: what is written is one block at a time, of the object's block size: by a file opened with any flags, in any sequence of calls, ... (Missing: that the
block is a block of the object, which is false.) -/
theorem C104_file_partial (cfg : Cfg) (mf : MountFlags) (wd : Str) (fuel : Nat) (p : Str) (flags : Flags.IOFlags) (perm : FileMode) (cs : List FileCall) :
    Only (WritesOne impl) (M.andThen (openFile (recorded cfg impl mf wd) fuel p flags perm) (runCalls (recorded cfg impl mf wd) cs)) := by
  intro s log s' log' r hn
  rcases andThen_ret hn with ⟨e, h1, _⟩ | ⟨⟨s1, log1⟩, f, h1, h2⟩
  · exact openFile_one cfg mf wd fuel p flags perm _ _ _ _ _ h1
  · obtain ⟨c1, e1, k1⟩ := openFile_one cfg mf wd fuel p flags perm _ _ _ _ _ h1
    obtain ⟨e, x1, h3⟩ := openFile_from h1
    obtain ⟨c2, e2, k2⟩ := runCalls_one hi (recorded cfg impl mf wd) rfl cs f _ _ _ (newFile_sized hi _ rfl h3) h2
    simp only at e2
    exact ⟨c1 ++ c2, by rw [e2, e1, List.append_assoc], fun c hc => (List.mem_append.mp hc).elim (k1 c) (k2 c)⟩

/-- ... and by WriteFile. -/
theorem C104_writeFile_partial (cfg : Cfg) (mf : MountFlags) (wd : Str) (fuel : Nat) (p : Str) (data : Bytes) (perm : FileMode) :
    Only (WritesOne impl) (writeFile (recorded cfg impl mf wd) fuel p data perm) := by
  intro s log s' log' r hn
  rcases andThen_ret hn with ⟨e, h1, _⟩ | ⟨⟨s1, log1⟩, f, h1, h2⟩
  · exact openFile_one cfg mf wd fuel p _ perm _ _ _ _ _ h1
  · obtain ⟨c1, e1, k1⟩ := openFile_one cfg mf wd fuel p _ perm _ _ _ _ _ h1
    obtain ⟨e, x1, h3⟩ := openFile_from h1
    obtain ⟨h, hin, hb⟩ := newFile_sized hi _ rfl h3
    simp only [Ext.method, hin] at h2
    have B := Blocked.pre impl h f.cache.bpb
    have hlt : f.cache.bpb < 2 ^ 64 := by rw [hb]; unfold Stream.toUint; omega
    rcases h4 : Stream.write (backendOf (recording impl) h) (f.streamIn (s1, log1)) data with ⟨y, n, er⟩ | _ | _
    · rw [h4] at h2
      simp only at h2
      have k := Stream.write_len B.refl B.trans (backendOf (recording impl) h) _ hlt (blocked_fetch hi h _) (blocked_flush hi h _) (blocked_resize hi h _) (f.streamIn (s1, log1)) rfl _ _ h4
      rcases h5 : Stream.sync (backendOf (recording impl) h) y with ⟨y', er'⟩ | _ | _
      · rw [h5] at h2
        simp only [Outcome.ret.injEq, Prod.mk.injEq] at h2
        have k' := Stream.sync_len B.refl B.trans (backendOf (recording impl) h) _ hlt (blocked_fetch hi h _) (blocked_flush hi h _) y k.2 _ h5
        obtain ⟨c2, e2, k2⟩ := (B.trans k.1 k'.1 hb.symm).2
        refine ⟨c1 ++ c2, ?_, fun c hc => (List.mem_append.mp hc).elim (k1 c) (k2 c)⟩
        have : log' = log1 ++ c2 := by rw [h2.1] at e2; exact e2
        rw [this, e1, List.append_assoc]
      · rw [h5] at h2; cases h2
      · rw [h5] at h2; cases h2
    · rw [h4] at h2; cases h2
    · rw [h4] at h2; cases h2

end

/-- A file is opened and emptied, and 5 bytes are written in blocks of 4. -/
example : callsOf (M.andThen (openFile (recorded keeping (flat 4) 3 (str! "/")) 9 (str! "/f") (Flags.O_RDWR ||| Flags.O_TRUNC) 0)
    (runCalls (recorded keeping (flat 4) 3 (str! "/")) [.write [9, 8, 7, 6, 5], .close]) (fileOfFive, [])) =
    some [.getObject (str! "f") none, .close none, .resize (some (str! "f")) 0, .resize (some (str! "f")) 2, .writeBlocks (some (str! "f")) 0 [9, 8, 7, 6],
      .writeBlocks (some (str! "f")) 1 [5, 0, 0, 0]] := by decide +kernel
example : 0 ≤ ((flat 4).stat fileOfFive (some (str! "f"))).blockSize ∧ ((flat 4).stat fileOfFive (some (str! "f"))).blockSize < 2 ^ 63 := by decide +kernel

end Disko.Driver

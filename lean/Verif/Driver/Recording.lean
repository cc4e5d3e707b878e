import Verif.Stream.Frame
import Verif.Driver.Props12
/-! Which calls of the implementation a call of the driver makes: an implementation that records the
calls made on it, and what the driver's calls can do to the state, given what the implementation's can. -/
namespace Disko.Driver
open Disko Spec BlockCache

variable {σ H α β : Type}

namespace Spec

/-- A call of a method of the implementation that can change something (the others are Stat, Name,
SameAs, GetRootDirectory and GetFSFeatures). -/
inductive Call (H : Type) where
  | getObject (name : Str) (parent : H)
  | createObject (name : Str) (parent : H) (mode : FileMode)
  | createHardLink (source targetParentDir : H) (targetName : Str)
  | resize (h : H) (newSize : Nat)
  | readBlocks (h : H) (index : Nat) (bufferLength : Nat)
  | writeBlocks (h : H) (index : Nat) (data : Bytes)
  | unlink (h : H)
  | close (h : H)
  | listDir (h : H)
  | chmod (h : H) (mode : FileMode)
  | chown (h : H) (uid gid : Int)
  | chtimes (h : H) (createdAt lastAccessed lastModified lastChanged deletedAt : Time)
deriving DecidableEq, Repr

/-- The implementation, keeping a list of the calls made on it, each with the state it was made in. -/
def recording (impl : Impl σ H) : Impl (σ × List (σ × Call H)) H where
  features := impl.features
  getRootDirectory x := impl.getRootDirectory x.1
  getObject x n h := (((impl.getObject x.1 n h).1, x.2 ++ [(x.1, .getObject n h)]), (impl.getObject x.1 n h).2)
  createObject x n h m := (((impl.createObject x.1 n h m).1, x.2 ++ [(x.1, .createObject n h m)]), (impl.createObject x.1 n h m).2)
  createHardLink := impl.createHardLink.map fun f x o p n => (((f x.1 o p n).1, x.2 ++ [(x.1, .createHardLink o p n)]), (f x.1 o p n).2)
  stat x h := impl.stat x.1 h
  name x h := impl.name x.1 h
  sameAs x h h' := impl.sameAs x.1 h h'
  resize x h n := (((impl.resize x.1 h n).1, x.2 ++ [(x.1, .resize h n)]), (impl.resize x.1 h n).2)
  readBlocks x h i buf := (((impl.readBlocks x.1 h i buf).1, x.2 ++ [(x.1, .readBlocks h i buf.length)]), (impl.readBlocks x.1 h i buf).2)
  writeBlocks x h i buf := (((impl.writeBlocks x.1 h i buf).1, x.2 ++ [(x.1, .writeBlocks h i buf)]), (impl.writeBlocks x.1 h i buf).2)
  unlink x h := (((impl.unlink x.1 h).1, x.2 ++ [(x.1, .unlink h)]), (impl.unlink x.1 h).2)
  close x h := (((impl.close x.1 h).1, x.2 ++ [(x.1, .close h)]), (impl.close x.1 h).2)
  listDir h := (impl.listDir h).map fun f x => (((f x.1).1, x.2 ++ [(x.1, .listDir h)]), (f x.1).2)
  chmod h := (impl.chmod h).map fun f x m => (((f x.1 m).1, x.2 ++ [(x.1, .chmod h m)]), (f x.1 m).2)
  chown h := (impl.chown h).map fun f x u g => (((f x.1 u g).1, x.2 ++ [(x.1, .chown h u g)]), (f x.1 u g).2)
  chtimes h := (impl.chtimes h).map fun f x a b c e g => (((f x.1 a b c e g).1, x.2 ++ [(x.1, .chtimes h a b c e g)]), (f x.1 a b c e g).2)

/-- Whenever the call returns, all calls it has made satisfy `P`. -/
def Only (P : σ → Call H → Prop) (m : M (σ × List (σ × Call H)) α) : Prop :=
  ∀ s log s' log' r, m (s, log) = .ret ((s', log'), r) → ∃ calls, log' = log ++ calls ∧ ∀ c ∈ calls, P c.1 c.2

end Spec

/-! ### Frames -/

/-- The relation between states of a recording implementation behind `Only`. -/
def Added (P : σ → Call H → Prop) (x y : σ × List (σ × Call H)) : Prop := ∃ calls, y.2 = x.2 ++ calls ∧ ∀ c ∈ calls, P c.1 c.2

theorem Added.pre (P : σ → Call H → Prop) : Pre (Added P) :=
  ⟨fun s => ⟨[], by simp, by simp⟩, fun ⟨c1, h1, k1⟩ ⟨c2, h2, k2⟩ => ⟨c1 ++ c2, by rw [h2, h1, List.append_assoc], fun c hc =>
    (List.mem_append.mp hc).elim (k1 c) (k2 c)⟩⟩

theorem Added.one {P : σ → Call H → Prop} {x : σ × List (σ × Call H)} {s : σ} {c : Call H} (h : P x.1 c) : Added P x (s, x.2 ++ [(x.1, c)]) :=
  ⟨[(x.1, c)], rfl, by simp [h]⟩

theorem only_of_keeps {P : σ → Call H → Prop} {E : Err → Prop} {m : M (σ × List (σ × Call H)) α} (h : Keeps (Added P) E m) : Only P m :=
  fun _ _ _ _ _ e => (h _ _ _ e).1

/-- The shape of the cache of a file, by what Stat says. -/
def statShape (st : FileStat) : Shape :=
  ⟨Stream.toUint st.blockSize, Stream.toUint st.numBlocks, bitmapLen (Stream.toUint st.numBlocks), u64 (Stream.toUint st.blockSize * Stream.toUint st.numBlocks)⟩

theorem new_shape {bpb total : Nat} {c : Cache} (h : BlockCache.new bpb total = .ret c) :
    c.shape = ⟨bpb, total, bitmapLen total, u64 (bpb * total)⟩ := by
  unfold BlockCache.new at h
  split at h
  · cases h
    simp [Cache.shape]
  · cases h

/-- Opening a file without O_TRUNC: the shape of its cache. -/
theorem newFile_shape (d : Drv σ H) {e : Ext H} {flags : Flags.IOFlags} (ht : Flags.truncate flags = false) {s s' : σ} {h : H} (he : e.inner = some h) {f : File H}
    (hn : newFile d e flags s = .ret (s', .ok f)) : f.cache.shape = statShape (d.impl.stat s h) := by
  rcases e with ⟨i, p⟩
  simp only at he
  subst he
  unfold newFile at hn
  rw [andThen_ok (a := d.impl.stat s h) (s' := s) rfl] at hn
  simp only [Ext.method] at hn
  rcases hc : BlockCache.new (Stream.toUint (d.impl.stat s h).blockSize) (Stream.toUint (d.impl.stat s h).numBlocks) with c | _ | _
  · rw [hc] at hn
    simp only at hn
    rcases hs : Stream.new (backendOf d.impl h) (d.impl.stat s h).size ⟨c, s⟩ flags with ⟨o, er⟩ | _ | _
    · rw [hs] at hn
      rcases o with _ | y <;> rcases er with _ | er
      · simp only at hn; cases hn
      · simp only at hn; cases hn
      · simp only at hn; cases hn
        have : y.st = ⟨c, s⟩ := by
          unfold Stream.new at hs
          split at hs
          · simp only [Outcome.pure_eq] at hs; cases hs
          · simp only [ht] at hs; cases hs; rfl
        simp only [this]
        exact new_shape hc
      · simp only at hn; cases hn
    · rw [hs] at hn; cases hn
    · rw [hs] at hn; cases hn
  · rw [hc] at hn; cases hn
  · rw [hc] at hn; cases hn

section
variable {R : σ → σ → Prop} (P : Pre R) (d : Drv σ H)
include P

/-- Reading the contents of an object only fetches blocks. -/
theorem contents_frame (e : Ext H) (s0 : σ)
    (hr : ∀ h, e.inner = some h → ∀ s i buf, (statShape (d.impl.stat s0 h)).Fetchable i buf.length → R s (d.impl.readBlocks s h i buf).1)
    {s' : σ} {r : Except Err Bytes} (h : getContentsOfObject d e s0 = .ret (s', r)) : R s0 s' := by
  unfold getContentsOfObject M.either at h
  rcases h1 : newFile d e Flags.O_RDONLY s0 with ⟨s1, er | f⟩ | _ | _
  · obtain ⟨k, k2, _⟩ := newFile_spec d e _ h1
    obtain ⟨se, rfl⟩ := k2 er rfl
    rw [h1] at h
    cases h
    rw [(k (by decide)).1]
    exact P.refl _
  · obtain ⟨k, _, k3⟩ := newFile_spec d e _ h1
    obtain ⟨hs1, hcl⟩ := k (by decide)
    subst hs1
    have hcl := hcl f rfl
    have hoh := k3 f rfl
    rcases e with ⟨_ | x, p⟩
    · unfold newFile M.andThen statOf Ext.method at h1; cases h1
    · have hsh := newFile_shape d (e := ⟨some x, p⟩) (by decide) rfl h1
      rw [h1] at h
      simp only at h
      rw [andThen_ok (a := d.impl.stat s1 x) (s' := s1) rfl] at h
      split at h
      · cases h
      · unfold File.read at h
        rw [hoh] at h
        rcases h2 : Stream.read (backendOf d.impl x) (f.streamIn s1) (List.replicate (d.impl.stat s1 x).size.toNat 0) with ⟨y, rr⟩ | _ | _
        · have hL : Loaded R (f.streamIn s1).st y.st := Stream.read_frame P.refl P.trans (backendOf d.impl x) (f.streamIn s1)
            (fun s i buf hfe => hr x rfl s i buf (by rw [← hsh]; exact hfe)) _ _ h2
          have hR : R s1 y.st.s := hL.rel
          rw [andThen_ok (a := (f.after y, rr.buf, rr.err)) (s' := y.st.s) (by simp only [Ext.method, h2])] at h
          simp only at h
          have hb : ∀ (m : M σ Bytes), (∀ q q' t, m q = .ret (q', t) → q' = q) →
              M.deferred (M.andThen ((f.after y).close d) fun _ => M.ok ()) m y.st.s = .ret (s', r) → s' = y.st.s := by
            intro m hm h3
            unfold M.deferred M.either at h3
            rcases h4 : m y.st.s with ⟨s2, r2⟩ | _ | _
            · rw [h4] at h3
              have hs2 := hm _ _ _ h4
              subst hs2
              simp only at h3
              have hin : ((f.after y).streamIn y.st.s).st.c.dirty = y.st.c.dirty := rfl
              have hq3 : ∀ j, ((f.after y).streamIn y.st.s).st.c.dirty.getD j false = false := fun j => by rw [hin]; exact hL.clean hcl j
              have hclose : ∀ q t, (f.after y).close d y.st.s = .ret (q, t) → q = y.st.s := by
                intro q t h5
                unfold File.close at h5
                rw [show (f.after y).objectHandle = f.objectHandle from rfl, hoh] at h5
                simp only [Ext.method] at h5
                rcases h6 : Stream.sync (backendOf d.impl x) ((f.after y).streamIn y.st.s) with ⟨z, ez⟩ | _ | _
                · have := sync_clean hq3 h6
                  rw [h6] at h5
                  rcases ez with _ | ez <;> (simp only at h5; cases h5; exact this)
                · rw [h6] at h5; cases h5
                · rw [h6] at h5; cases h5
              unfold M.andThen at h3
              rcases h7 : (f.after y).close d y.st.s with ⟨q, er | t⟩ | _ | _
              · rw [h7] at h3; cases h3; exact hclose _ _ h7
              · rw [h7] at h3; cases h3; exact hclose _ _ h7
              · rw [h7] at h3; cases h3
              · rw [h7] at h3; cases h3
            · rw [h4] at h3; cases h3
            · rw [h4] at h3; cases h3
          rw [hb _ ?_ h]
          · exact hR
          intro q q' t h8
          rcases e9 : rr.err with _ | e
          · rw [e9] at h8; cases h8; rfl
          · rw [e9] at h8; cases h8; rfl
        · rw [andThen_panic (by simp only [Ext.method, h2])] at h; cases h
        · rw [andThen_timeout (by simp only [Ext.method, h2])] at h; cases h
  · rw [h1] at h; cases h
  · rw [h1] at h; cases h

end

/-- What looking up, reading and closing do to the state. -/
structure Looks (R : σ → σ → Prop) (impl : Impl σ H) : Prop extends Pre R where
  getObject : ∀ s n h, R s (impl.getObject s n h).1
  close : ∀ s h, R s (impl.close s h).1
  contents : ∀ (d : Drv σ H), d.impl = impl → ∀ e, Keeps R (fun _ => True) (getContentsOfObject d e)

theorem Looks.of_reads {R : σ → σ → Prop} {impl : Impl σ H} (P : Pre R) (hg : ∀ s n h, R s (impl.getObject s n h).1) (hc : ∀ s h, R s (impl.close s h).1)
    (hr : ∀ s h i buf, R s (impl.readBlocks s h i buf).1) : Looks R impl :=
  ⟨P, hg, hc, fun d hd e s s' r h => ⟨contents_frame P d e s (fun h _ s i buf _ => by rw [hd]; exact hr s h i buf) h, fun _ _ => trivial⟩⟩

/-- Any error. -/
abbrev KeepsAny (R : σ → σ → Prop) (m : M σ α) : Prop := Keeps R (fun _ => True) m

section
variable {R : σ → σ → Prop} (d : Drv σ H) (L : Looks R d.impl)
include L

theorem resolve_frame (n : Nat) :
    (∀ p, KeepsAny R (getNoFollow d n p)) ∧ (∀ p, KeepsAny R (getFollow d n p)) ∧ (∀ e, KeepsAny R (followLoop d n e)) ∧
    (∀ e, KeepsAny R (resolveSymlink d n e)) ∧ (∀ c e, KeepsAny R (symlinkLoop d n c e)) :=
  resolve_keeps L.toPre d (fun s n h => ⟨L.getObject s n h, fun _ _ => trivial⟩) L.close (L.contents d rfl) trivial trivial n

theorem close_frame (e : Ext H) : KeepsAny R (closeOf d e) := Keeps.method fun h => Keeps.callE fun s => ⟨L.close s h, fun _ _ => trivial⟩

/-- An operation on the object a path leads to. -/
theorem path_frame (fuel : Nat) (p : Str) {body : Ext H → M σ α} (hb : ∀ e, KeepsAny R (body e)) :
    KeepsAny R (M.andThen (getFollow d fuel p) body) :=
  Keeps.andThen L.toPre ((resolve_frame d L fuel).2.1 p) hb

theorem chdirTo_frame (e : Ext H) : KeepsAny R (chdirToObject d e) :=
  Keeps.andThen L.toPre (Keeps.statOf L.toPre d e) fun _ => Keeps.ite (fun _ => Keeps.fail L.toPre trivial) fun _ => Keeps.ok L.toPre _

theorem optionalCall_frame (e : Ext H) (f : H → Option (σ → σ × Option Err)) (hf : ∀ h m, f h = some m → ∀ s, R s (m s).1) : KeepsAny R (optionalCall d e f) := by
  unfold optionalCall
  rcases he : e.optional d.cfg f with _ | m
  · exact Keeps.fail L.toPre trivial
  · unfold Ext.optional at he
    split at he
    · rcases hi : e.inner with _ | h
      · rw [hi] at he; cases he
      · rw [hi] at he
        exact Keeps.callE fun s => ⟨hf h m he s, fun _ _ => trivial⟩
    · cases he

omit L in
theorem optional_some {d : Drv σ H} {e : Ext H} {f : H → Option α} {a : α} (h : e.optional d.cfg f = some a) : ∃ x, e.inner = some x ∧ f x = some a := by
  unfold Ext.optional at h
  split at h
  · rcases hi : e.inner with _ | x
    · rw [hi] at h; cases h
    · rw [hi] at h; exact ⟨x, rfl, h⟩
  · cases h

theorem readDirLoop_frame (h : H) : ∀ (names : List Str) (out : List DirEntry), KeepsAny R (readDirLoop d h names out)
  | [], out => Keeps.ok L.toPre _
  | n :: ns, out => by
    rw [readDirLoop]
    refine Keeps.ite (fun _ => readDirLoop_frame h ns out) fun _ => Keeps.andThen L.toPre
      (Keeps.call fun s => ⟨L.getObject s _ _, fun _ _ => trivial⟩) fun x => ?_
    intro s s' r h1
    exact (Keeps.either L.toPre (E' := fun _ => True) (Keeps.callE fun s => ⟨L.close s x, fun _ _ => trivial⟩) (fun _ => readDirLoop_frame h ns _)
      fun _ _ => readDirLoop_frame h ns _) s s' r h1

theorem readDirObject_frame (hl : ∀ h f, d.impl.listDir h = some f → ∀ s, R s (f s).1) (e : Ext H) : KeepsAny R (readDirObject d e) := by
  unfold readDirObject
  rcases he : e.optional d.cfg d.impl.listDir with _ | f
  · exact Keeps.crash
  · obtain ⟨x, hx, hf⟩ := optional_some he
    exact Keeps.andThen L.toPre (Keeps.call fun s => ⟨hl x f hf s, fun _ _ => trivial⟩) fun names => Keeps.method fun h => readDirLoop_frame d L h names []

omit L in
theorem unlink_frame (hu : ∀ s h, R s (d.impl.unlink s h).1) (e : Ext H) : KeepsAny R (unlinkOf d e) :=
  Keeps.method fun h => Keeps.callE fun s => ⟨hu s h, fun _ _ => trivial⟩

theorem getExt_frame (n : Str) (e : Ext H) : KeepsAny R (getExtObjectInDir d n e) :=
  Keeps.method fun h => Keeps.andThen L.toPre (Keeps.call fun s => ⟨L.getObject s n h, fun _ _ => trivial⟩) fun _ => Keeps.ok L.toPre _

theorem removeLoop_frame (hu : ∀ s h, R s (d.impl.unlink s h).1) (rec : Ext H → M σ Unit) (hrec : ∀ e, KeepsAny R (rec e)) (dir : Ext H) :
    ∀ names, KeepsAny R (removeLoop d rec dir names)
  | [] => Keeps.ok L.toPre _
  | n :: ns => by
    rw [removeLoop]
    refine Keeps.ite (fun _ => removeLoop_frame hu rec hrec dir ns) fun _ => Keeps.andThen L.toPre (getExt_frame d L n dir) fun e =>
      Keeps.andThen L.toPre (Keeps.statOf L.toPre d e) fun st => Keeps.andThen L.toPre (Keeps.ite (fun _ => ?_) fun _ => Keeps.ok L.toPre _) fun _ =>
      Keeps.andThen L.toPre (Keeps.deferred L.toPre (close_frame d L e) (unlink_frame d hu e)) fun _ => removeLoop_frame hu rec hrec dir ns
    refine Keeps.either L.toPre (E' := fun _ => True) (hrec _) (fun _ => Keeps.ok L.toPre _) fun er _ => ?_
    exact Keeps.either L.toPre (E' := fun _ => True) (close_frame d L e) (fun _ => Keeps.fail L.toPre trivial) fun _ _ => Keeps.fail L.toPre trivial

theorem removeDirectory_frame (hu : ∀ s h, R s (d.impl.unlink s h).1) (hl : ∀ h f, d.impl.listDir h = some f → ∀ s, R s (f s).1) :
    ∀ (fuel : Nat) (e : Ext H), KeepsAny R (removeDirectory d fuel e)
  | 0, e => by rw [removeDirectory]; exact Keeps.timeout
  | fuel + 1, e => by
    rw [removeDirectory]
    rcases he : e.optional d.cfg d.impl.listDir with _ | f
    · exact Keeps.crash
    · obtain ⟨x, hx, hf⟩ := optional_some he
      exact Keeps.andThen L.toPre (Keeps.call fun s => ⟨hl x f hf s, fun _ _ => trivial⟩) fun names =>
        removeLoop_frame d L hu _ (removeDirectory_frame hu hl fuel) e names

theorem createAndClose_frame (n : Str) (m : FileMode) (hc : ∀ s h, R s (d.impl.createObject s n h m).1) (e : Ext H) : KeepsAny R (createAndClose d n e m) :=
  Keeps.method fun h => Keeps.andThen L.toPre (Keeps.call fun s => ⟨hc s h, fun _ _ => trivial⟩) fun x =>
    Keeps.either L.toPre (E' := fun _ => True) (Keeps.callE fun s => ⟨L.close s x, fun _ _ => trivial⟩) (fun _ => Keeps.ok L.toPre _) fun _ _ => Keeps.ok L.toPre _

/-- Opening. -/
theorem newFile_frame (e : Ext H) (flags : Flags.IOFlags) (hr : Flags.truncate flags = true → ∀ s h, R s (d.impl.resize s h 0).1) : KeepsAny R (newFile d e flags) := by
  refine Keeps.andThen L.toPre (Keeps.statOf L.toPre d e) fun st => Keeps.method fun h => ?_
  intro s s' r hn
  refine ⟨?_, fun _ _ => trivial⟩
  rcases hc : BlockCache.new (Stream.toUint st.blockSize) (Stream.toUint st.numBlocks) with c | _ | _
  · rw [hc] at hn
    simp only at hn
    have hfr := Stream.new_frame (R := R) L.refl (backendOf d.impl h) st.size ⟨c, s⟩ flags fun ht s => hr ht s h
    rcases hs : Stream.new (backendOf d.impl h) st.size ⟨c, s⟩ flags with ⟨o, er⟩ | _ | _
    · have hx := hfr _ hs
      rw [hs] at hn
      rcases o with _ | y <;> rcases er with _ | er
      · simp only at hn; cases hn
      · simp only at hn; cases hn; exact L.refl _
      · simp only at hn; cases hn; exact hx y rfl
      · simp only at hn; cases hn; exact hx y rfl
    · rw [hs] at hn; cases hn
    · rw [hs] at hn; cases hn
  · rw [hc] at hn; cases hn
  · rw [hc] at hn; cases hn

theorem createMissing_frame (fuel : Nat) (p : Str) (perm : FileMode) (hc : ∀ s n h, R s (d.impl.createObject s n h perm).1) : KeepsAny R (createMissing d fuel p perm) :=
  path_frame d L fuel _ fun e => Keeps.deferred L.toPre (close_frame d L e) <| Keeps.method fun h =>
    Keeps.andThen L.toPre (Keeps.call fun s => ⟨hc s _ h, fun _ _ => trivial⟩) fun _ => Keeps.ok L.toPre _

theorem openFile_frame (fuel : Nat) (p : Str) (flags : Flags.IOFlags) (perm : FileMode)
    (hc : Flags.create flags = true → ∀ s n h, R s (d.impl.createObject s n h perm).1) (hr : Flags.truncate flags = true → ∀ s h, R s (d.impl.resize s h 0).1) :
    KeepsAny R (openFile d fuel p flags perm) := by
  have P := L.toPre
  have tail : ∀ m : M σ (Ext H), KeepsAny R m → KeepsAny R (M.andThen m fun object => M.andThen (statOf d object) fun st =>
      if !st.isFile then M.fail .isADirectory else newFile d object flags) := fun m hm =>
    Keeps.andThen P hm fun e => Keeps.andThen P (Keeps.statOf P d e) fun st => Keeps.ite (fun _ => Keeps.fail P trivial) fun _ => newFile_frame d L e flags hr
  unfold openFile
  refine Keeps.ite (fun _ => Keeps.fail P trivial) fun _ => Keeps.either P ((resolve_frame d L fuel).2.1 _) (fun e => tail _ (Keeps.ok P e)) fun er _ => tail _ ?_
  refine Keeps.ite (fun h => ?_) fun _ => Keeps.fail P trivial
  rw [Bool.and_eq_true] at h
  exact createMissing_frame d L fuel _ perm (hc h.2)

/-- What WriteFile does after opening the file. -/
theorem writeTail_frame (f : File H) (data : Bytes) (hr : ∀ s h n, R s (d.impl.resize s h n).1) (hf : ∀ s h i buf, R s (d.impl.readBlocks s h i buf).1)
    (hw : ∀ s h i buf, R s (d.impl.writeBlocks s h i buf).1) : KeepsAny R (f.objectHandle.method fun h s =>
      match Stream.write (backendOf d.impl h) (f.streamIn s) data with
      | .panic => .panic
      | .timeout => .timeout
      | .ret (x, _, e) =>
        match Stream.sync (backendOf d.impl h) x with
        | .panic => .panic
        | .timeout => .timeout
        | .ret (x', _) => .ret (x'.st.s, match e with | none => .ok () | some e => .error (.stream e)) : M σ Unit) := by
  refine Keeps.method fun h => ?_
  intro s s' r hn
  refine ⟨?_, fun _ _ => trivial⟩
  simp only at hn
  rcases h1 : Stream.write (backendOf d.impl h) (f.streamIn s) data with ⟨x, n, e⟩ | _ | _
  · have k1 := Stream.write_frame L.refl L.trans (backendOf d.impl h) (fun s i buf => hf s h i buf) (fun s i buf => hw s h i buf) (fun s n => hr s h n) _ _ _ h1
    rw [h1] at hn
    simp only at hn
    rcases h2 : Stream.sync (backendOf d.impl h) x with ⟨x', e'⟩ | _ | _
    · have k2 := Stream.sync_frame L.refl L.trans (backendOf d.impl h) (fun s i buf => hf s h i buf) (fun s i buf => hw s h i buf) _ _ h2
      rw [h2] at hn
      simp only at hn
      cases hn
      exact L.trans k1 k2
    · rw [h2] at hn; cases hn
    · rw [h2] at hn; cases hn
  · rw [h1] at hn; cases hn
  · rw [h1] at hn; cases hn

theorem writeFile_frame (fuel : Nat) (p : Str) (data : Bytes) (perm : FileMode) (hc : ∀ s n h, R s (d.impl.createObject s n h perm).1)
    (hr : ∀ s h n, R s (d.impl.resize s h n).1) (hf : ∀ s h i buf, R s (d.impl.readBlocks s h i buf).1) (hw : ∀ s h i buf, R s (d.impl.writeBlocks s h i buf).1) :
    KeepsAny R (writeFile d fuel p data perm) :=
  Keeps.andThen L.toPre (openFile_frame d L fuel p _ perm (fun _ => hc) fun _ s h => hr s h 0) fun f => writeTail_frame d L f data hr hf hw

theorem mkdir_frame (fuel : Nat) (p : Str) (perm : FileMode) (hc : ∀ s n h, R s (d.impl.createObject s n h (dirPerm perm)).1) : KeepsAny R (mkdir d fuel p perm) :=
  path_frame d L fuel _ fun e => Keeps.deferred L.toPre (close_frame d L e) <| Keeps.andThen L.toPre (Keeps.statOf L.toPre d e) fun _ =>
    Keeps.ite (fun _ => Keeps.fail L.toPre trivial) fun _ => createAndClose_frame d L _ _ (fun s h => hc s _ h) e

theorem mkdirAll_frame (perm : FileMode) (hc : ∀ s n h, R s (d.impl.createObject s n h (dirPerm perm)).1) (hi : dirPerm (dirPerm perm) = dirPerm perm) :
    ∀ (fuel : Nat) (p : Str) (q : FileMode), dirPerm q = dirPerm perm → KeepsAny R (mkdirAll d fuel p q)
  | 0, p, q, hq => by rw [mkdirAll]; exact Keeps.timeout
  | fuel + 1, p, q, hq => by
    rw [mkdirAll]
    refine Keeps.either L.toPre ((resolve_frame d L fuel).2.1 _) (fun e => ?_) fun er _ => ?_
    · exact Keeps.deferred L.toPre (close_frame d L e) (createAndClose_frame d L _ _ (fun s h => by rw [hq]; exact hc s _ h) e)
    · refine Keeps.ite (fun _ => ?_) fun _ => Keeps.fail L.toPre trivial
      exact Keeps.either L.toPre (E' := fun _ => True) (mkdirAll_frame perm hc hi fuel _ _ (by rw [hq]; exact hi)) (fun _ => Keeps.crash) fun _ _ => Keeps.crash

theorem link_frame (fuel : Nat) (o n : Str) (hl : ∀ f, d.impl.createHardLink = some f → ∀ s a b c, R s (f s a b c).1) : KeepsAny R (link d fuel o n) := by
  have P := L.toPre
  unfold link
  rcases hh : d.impl.createHardLink with _ | f
  · exact Keeps.fail P trivial
  · refine path_frame d L fuel _ fun e => Keeps.either P ((resolve_frame d L fuel).2.1 _) (fun _ => Keeps.fail P trivial) fun er _ => ?_
    exact path_frame d L fuel _ fun q => Keeps.method fun a => Keeps.method fun b =>
      Keeps.andThen P (Keeps.call fun s => ⟨hl f hh s a b _, fun _ _ => trivial⟩) fun _ => Keeps.ok P _

end

end Disko.Driver

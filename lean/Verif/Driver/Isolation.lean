import Verif.Driver.Framing
import Verif.Stream.Sim
/-! What a program sees of an open file depends only on what it does with this file (for C127). -/
namespace Disko.Driver
open Disko Spec BlockCache

variable {σ H α β : Type}

namespace Spec

/-- The implementation keeps the contents of the object `h` apart from everything else.  `E s t` says that the contents of `h` are the
same in the states `s` and `t`: using the object in either gives the same results; and all other calls keep them. -/
structure Apart (impl : Impl σ H) (h : H) (E : σ → σ → Prop) : Prop where
  refl : ∀ s, E s s
  symm : ∀ s t, E s t → E t s
  trans : ∀ s t u, E s t → E t u → E s u
  readSame : ∀ s t i buf, E s t → (impl.readBlocks t h i buf).2 = (impl.readBlocks s h i buf).2
  writeSame : ∀ s t i buf, E s t → (impl.writeBlocks t h i buf).2 = (impl.writeBlocks s h i buf).2 ∧ E (impl.writeBlocks s h i buf).1 (impl.writeBlocks t h i buf).1
  resizeSame : ∀ s t n, E s t → (impl.resize t h n).2 = (impl.resize s h n).2 ∧ E (impl.resize s h n).1 (impl.resize t h n).1
  read : ∀ s h' i buf, E s (impl.readBlocks s h' i buf).1
  writeOther : ∀ s h' i buf, h' ≠ h → E s (impl.writeBlocks s h' i buf).1
  resizeOther : ∀ s h' n, h' ≠ h → E s (impl.resize s h' n).1
  getObject : ∀ s n p, E s (impl.getObject s n p).1
  createObject : ∀ s n p m, E s (impl.createObject s n p m).1
  createHardLink : ∀ f, impl.createHardLink = some f → ∀ s a b n, E s (f s a b n).1
  close : ∀ s h', E s (impl.close s h').1
  listDir : ∀ h' f, impl.listDir h' = some f → ∀ s, E s (f s).1
  chmod : ∀ h' f, impl.chmod h' = some f → ∀ s m, E s (f s m).1
  chown : ∀ h' f, impl.chown h' = some f → ∀ s u g, E s (f s u g).1
  chtimes : ∀ h' f, impl.chtimes h' = some f → ∀ s t1 t2 t3 t4 t5, E s (f s t1 t2 t3 t4 t5).1

/-- Reading, writing, seeking, truncating, syncing and describing. -/
def isIO : FileOp → Bool
  | .read _ | .readAt _ _ | .write _ | .writeAt _ _ | .seek _ _ | .truncate _ | .sync | .stat => true
  | _ => false

/-- Such a call on file number `i`. -/
def own (i : Nat) : Op → Bool
  | .file j op => j == i && isIO op
  | _ => false

/-- The answers such calls got. -/
def ownAnswers (i : Nat) : List Op → List Answer → List Answer
  | op :: ops, a :: as => if own i op then a :: ownAnswers i ops as else ownAnswers i ops as
  | _, _ => []

/-- Calls that do not write to or remove what a path leads to, and do not open it for writing; calls of open files are all allowed. -/
def NoPathWrites : Op → Prop
  | .openFile _ flags _ => ¬ WriteIntent flags
  | .create _ | .writeFile _ _ _ | .truncate _ | .remove _ | .removeAll _ => False
  | _ => True

end Spec

section
variable {impl : Impl σ H} {h : H} {E : σ → σ → Prop} (A : Apart impl h E)
include A

theorem Spec.Apart.pre : Pre E := ⟨A.refl, fun h k => A.trans _ _ _ h k⟩

theorem Spec.Apart.looks : Looks E impl := Looks.of_reads A.pre A.getObject A.close A.read

theorem Spec.Apart.alike : Alike (backendOf impl h) (backendOf impl h) E where
  fetch s t i buf e := ⟨A.readSame s t i buf e, A.trans _ _ _ (A.trans _ _ _ (A.symm _ _ (A.read s h i buf)) e) (A.read t h i buf)⟩
  flush s t i buf e := A.writeSame s t i buf e
  resize s t n e := A.resizeSame s t n e

end

/-- The calls of a file of another object. -/
theorem stepFile_other {d : Drv σ H} {h : H} {E : σ → σ → Prop} (A : Apart d.impl h E) {f : File H} (hf : f.objectHandle.inner ≠ some h) (op : FileOp) :
    Gives E (fun r => r.1.2.objectHandle.inner ≠ some h) (stepFile d f op) := by
  have P := A.pre
  have L := A.looks
  have hin : ∀ {α : Type} (m : Backend σ → Stream.Stm σ → Outcome (Stream.Stm σ × α)),
      (∀ x, x ≠ h → ∀ y, (m (backendOf d.impl x) y).All fun r => E y.st.s r.1.st.s) →
      Gives E (fun r => r.1.objectHandle.inner ≠ some h) (f.onStream d m) := by
    intro α m hm s s' r e
    unfold File.onStream at e
    rcases he : f.objectHandle with ⟨_ | x, q⟩
    · rw [he] at e; cases e
    · have hx : x ≠ h := fun hx => hf (by rw [he, hx])
      rw [he] at e
      simp only [Ext.method] at e
      rcases e1 : m (backendOf d.impl x) (f.streamIn s) with ⟨y, a⟩ | _ | _
      · rw [e1] at e
        cases e
        exact ⟨hm x hx _ _ e1, fun _ hb => by cases hb; exact hf⟩
      · rw [e1] at e; cases e
      · rw [e1] at e; cases e
  have hask : ∀ {α : Type} (m : M σ α) (k : α → (Str × File H) × Answer), KeepsAny E m → (∀ a, (k a).1.2 = f) →
      Gives E (fun r => r.1.2.objectHandle.inner ≠ some h) (ask m (d.workingDirPath, f) k) :=
    fun m k hmm hk => Gives.ask P (Gives.ofKeeps (Q := fun _ => True) hmm fun _ => trivial) (fun _ => hf) fun a _ => by rw [hk a]; exact hf
  have hrd : ∀ n, Gives E (fun r => r.1.objectHandle.inner ≠ some h) (f.readDir d n) := fun n =>
    File.readDir_gives d L A.read A.listDir f n (J := fun g => g.objectHandle.inner ≠ some h) (fun _ _ => hf) hf
  cases op with
  | read n => exact Gives.ask P (hin _ fun x hx y => (Stream.read_frame P.refl P.trans _ y (fun s i buf _ => A.read s x i buf) _).imp fun r k => k.rel) (fun _ => hf) fun a ha => ha
  | readAt n off => exact Gives.ask P (hin _ fun x hx y => (Stream.readAt_frame P.refl P.trans _ y (fun s i buf _ => A.read s x i buf) _ _).imp fun r k => k.rel) (fun _ => hf) fun a ha => ha
  | write data => exact Gives.ask P (hin _ fun x hx y => Stream.write_frame P.refl P.trans _ (fun s i buf => A.read s x i buf) (fun s i buf => A.writeOther s x i buf hx) (fun s n => A.resizeOther s x n hx) y _) (fun _ => hf) fun a ha => ha
  | writeAt data off =>
    refine Gives.ask P (hin _ fun x hx y => ?_) (fun _ => hf) fun a ha => ha
    unfold Stream.writeAt
    exact .ite (fun _ => .ret (P.refl _)) fun _ => Stream.implWriteAt_frame P.refl P.trans _ (fun s i buf => A.read s x i buf) (fun s i buf => A.writeOther s x i buf hx) (fun s n => A.resizeOther s x n hx) y _ _
  | seek off wh =>
    refine Gives.ask P (hin _ fun x hx y => .ret ?_) (fun _ => hf) fun a ha => ha
    have : (Stream.seek y off wh).1.st = y.st := by
      unfold Stream.seek
      simp only
      split
      · rfl
      · split <;> rfl
    rw [this]; exact P.refl _
  | truncate n => exact Gives.ask P (hin _ fun x hx y => Stream.truncate_frame P.refl P.trans _ (fun s i buf => A.read s x i buf) (fun s i buf => A.writeOther s x i buf hx) (fun s n => A.resizeOther s x n hx) y _) (fun _ => hf) fun a ha => ha
  | sync => exact Gives.ask P (hin _ fun x hx y => Stream.sync_frame P.refl P.trans _ (fun s i buf => A.read s x i buf) (fun s i buf => A.writeOther s x i buf hx) y) (fun _ => hf) fun a ha => ha
  | chdir => exact hask _ _ (chdirTo_frame d L _) fun _ => rfl
  | chmod mode =>
    refine hask _ _ ?_ fun _ => rfl
    unfold File.chmod
    rcases he : f.objectHandle.optional d.cfg d.impl.chmod with _ | m
    · exact Keeps.fail P trivial
    · obtain ⟨x, hx, hm'⟩ := optional_some he
      exact Keeps.callE fun s => ⟨A.chmod x m hm' s mode, fun _ _ => trivial⟩
  | chown u g =>
    refine hask _ _ ?_ fun _ => rfl
    unfold File.chown
    rcases he : f.objectHandle.optional d.cfg d.impl.chown with _ | m
    · exact Keeps.fail P trivial
    · obtain ⟨x, hx, hm'⟩ := optional_some he
      exact Keeps.callE fun s => ⟨A.chown x m hm' s u g, fun _ _ => trivial⟩
  | name => exact hask _ _ (Keeps.method fun h s s' r e => by cases e; exact ⟨P.refl _, fun _ _ => trivial⟩) fun _ => rfl
  | readDir n => exact Gives.ask P (hrd n) (fun _ => hf) fun a ha => ha
  | readdir n =>
    refine Gives.ask P (Q := fun r => r.1.objectHandle.inner ≠ some h) ?_ (fun _ => hf) fun a ha => ha
    unfold File.readdir
    refine Gives.andThen P (hrd n) fun a ha => ?_
    rcases a with ⟨f', es, _ | e⟩ <;> exact Gives.ok P ha
  | readdirnames n =>
    refine Gives.ask P (Q := fun r => r.1.objectHandle.inner ≠ some h) ?_ (fun _ => hf) fun a ha => ha
    unfold File.readdirnames
    refine Gives.andThen P (hrd n) fun a ha => ?_
    rcases a with ⟨f', es, _ | e⟩ <;> exact Gives.ok P ha
  | stat => exact Gives.ok P hf

/-- Equal but for what has been listed. -/
def SameStream (f g : File H) : Prop := ∃ q k, g = { f with lastReadDirResult := q, readDirResultPointer := k }

theorem SameStream.refl (f : File H) : SameStream f f := ⟨_, _, rfl⟩

/-- The other calls of the file itself leave its stream as it is. -/
theorem stepFile_aside {d : Drv σ H} {h : H} {E : σ → σ → Prop} (A : Apart d.impl h E) {f f0 : File H} (hf : SameStream f0 f) {op : FileOp} (hop : isIO op = false) :
    Gives E (fun r => SameStream f0 r.1.2) (stepFile d f op) := by
  have P := A.pre
  have L := A.looks
  have hask : ∀ {α : Type} (m : M σ α) (k : α → (Str × File H) × Answer), KeepsAny E m → (∀ a, (k a).1.2 = f) →
      Gives E (fun r => SameStream f0 r.1.2) (ask m (d.workingDirPath, f) k) :=
    fun m k hmm hk => Gives.ask P (Gives.ofKeeps (Q := fun _ => True) hmm fun _ => trivial) (fun _ => hf) fun a _ => by rw [hk a]; exact hf
  have hrd : ∀ n, Gives E (fun r => SameStream f0 r.1) (f.readDir d n) := fun n =>
    File.readDir_gives d L A.read A.listDir f n (J := SameStream f0) (fun q k => by obtain ⟨_, _, rfl⟩ := hf; exact ⟨q, k, rfl⟩) hf
  cases op with
  | chdir => exact hask _ _ (chdirTo_frame d L _) fun _ => rfl
  | chmod mode =>
    refine hask _ _ ?_ fun _ => rfl
    unfold File.chmod
    rcases he : f.objectHandle.optional d.cfg d.impl.chmod with _ | m
    · exact Keeps.fail P trivial
    · obtain ⟨x, hx, hm'⟩ := optional_some he
      exact Keeps.callE fun s => ⟨A.chmod x m hm' s mode, fun _ _ => trivial⟩
  | chown u g =>
    refine hask _ _ ?_ fun _ => rfl
    unfold File.chown
    rcases he : f.objectHandle.optional d.cfg d.impl.chown with _ | m
    · exact Keeps.fail P trivial
    · obtain ⟨x, hx, hm'⟩ := optional_some he
      exact Keeps.callE fun s => ⟨A.chown x m hm' s u g, fun _ _ => trivial⟩
  | name => exact hask _ _ (Keeps.method fun h s s' r e => by cases e; exact ⟨P.refl _, fun _ _ => trivial⟩) fun _ => rfl
  | readDir n => exact Gives.ask P (hrd n) (fun _ => hf) fun a ha => ha
  | readdir n =>
    refine Gives.ask P (Q := fun r => SameStream f0 r.1) ?_ (fun _ => hf) fun a ha => ha
    unfold File.readdir
    refine Gives.andThen P (hrd n) fun a ha => ?_
    rcases a with ⟨f', es, _ | e⟩ <;> exact Gives.ok P ha
  | readdirnames n =>
    refine Gives.ask P (Q := fun r => SameStream f0 r.1) ?_ (fun _ => hf) fun a ha => ha
    unfold File.readdirnames
    refine Gives.andThen P (hrd n) fun a ha => ?_
    rcases a with ⟨f', es, _ | e⟩ <;> exact Gives.ok P ha
  | _ => cases hop

/-- The same I/O call on the same stream, in states with the same contents. -/
theorem stepFile_io {d d' : Drv σ H} {h : H} {E : σ → σ → Prop} (A : Apart d.impl h E) (hd : d'.impl = d.impl) {f g : File H} (hf : SameStream f g) (hh : f.objectHandle.inner = some h)
    {op : FileOp} (hop : isIO op = true) {s t s' : σ} (hE : E s t) {wd : Str} {f' : File H} {a : Answer} (e : stepFile d f op s = .ret (s', .ok ((wd, f'), a))) :
    ∃ t' wd' g', stepFile d' g op t = .ret (t', .ok ((wd', g'), a)) ∧ E s' t' ∧ SameStream f' g' ∧ f'.objectHandle = f.objectHandle := by
  have key : ∀ {α : Type} (m : Backend σ → Stream.Stm σ → Outcome (Stream.Stm σ × α)) (k k' : File H × α → (Str × File H) × Answer)
      (hm : (m (backendOf d.impl h) (f.streamIn s)).Rel (Stream.OutRel E) (m (backendOf d.impl h) (f.streamIn t)))
      (hk : ∀ u v, (k u).1.2 = u.1 ∧ (u.2 = v.2 → (k u).2 = (k' v).2) ∧ (k' v).1.2 = v.1)
      (e : ask (f.onStream d m) (d.workingDirPath, f) k s = .ret (s', .ok ((wd, f'), a))),
      ∃ t' wd' g', ask (g.onStream d' m) (d'.workingDirPath, g) k' t = .ret (t', .ok ((wd', g'), a)) ∧ E s' t' ∧ SameStream f' g' ∧ f'.objectHandle = f.objectHandle := by
    intro α m k k' hm hk e
    obtain ⟨q, p, rfl⟩ := hf
    have hret : ∀ (d : Drv σ H) (f : File H) s, f.objectHandle.inner = some h → f.onStream d m s = match m (backendOf d.impl h) (f.streamIn s) with
        | .panic => .panic
        | .timeout => .timeout
        | .ret (x, a) => .ret (x.st.s, .ok (f.after x, a)) := by
      intro d f s hh
      unfold File.onStream
      rcases hi : f.objectHandle with ⟨i, ap⟩
      rw [hi] at hh
      simp only at hh
      subst hh
      rfl
    rcases e1 : m (backendOf d.impl h) (f.streamIn s) with ⟨x, r⟩ | _ | _
    · rw [e1] at hm
      rcases e2 : m (backendOf d.impl h) (f.streamIn t) with ⟨y, r'⟩ | _ | _
      · rw [e2] at hm
        cases hm with
        | ret hr =>
          obtain ⟨hs, hr2⟩ := hr
          simp only at hs hr2
          subst hr2
          unfold ask M.either at e
          rw [hret d f s hh, e1] at e
          have h2 := hret d' { f with lastReadDirResult := q, readDirResultPointer := p } t hh
          rw [hd, show ({ f with lastReadDirResult := q, readDirResultPointer := p } : File H).streamIn t = f.streamIn t from rfl, e2] at h2
          simp only at h2 e
          generalize hg' : ({ f with lastReadDirResult := q, readDirResultPointer := p } : File H).after y = g' at h2
          have hk1 := hk (f.after x, r') (g', r')
          simp only [M.ok, Outcome.ret.injEq, Prod.mk.injEq, Except.ok.injEq] at e
          obtain ⟨rfl, e5⟩ := e
          rw [e5] at hk1
          simp only at hk1
          obtain ⟨hf', ha, hg2⟩ := hk1
          refine ⟨y.st.s, (k' (g', r')).1.1, g', ?_, hs.st.2, ?_, ?_⟩
          · unfold ask M.either
            rw [h2]
            simp only [M.ok, Outcome.ret.injEq, Prod.mk.injEq, Except.ok.injEq, true_and]
            rw [ha trivial]
            rw [show k' (g', r') = (((k' (g', r')).1.1, (k' (g', r')).1.2), (k' (g', r')).2) from rfl, hg2]
          · subst hf' hg'
            refine ⟨q, p, ?_⟩
            unfold File.after
            rw [hs.size, hs.position, hs.st.1]
          · subst hf'; rfl
      · rw [e2] at hm; cases hm
      · rw [e2] at hm; cases hm
    · unfold ask M.either at e
      rw [hret d f s hh, e1] at e; cases e
    · unfold ask M.either at e
      rw [hret d f s hh, e1] at e; cases e
  have hx : Stream.StmRel E (f.streamIn s) (f.streamIn t) := ⟨rfl, rfl, rfl, rfl, hE⟩
  cases op with
  | read n => exact key _ _ _ (A.alike.read _ hx) (fun u v => ⟨rfl, fun h => by simp only [h], rfl⟩) e
  | readAt n off => exact key _ _ _ (A.alike.readAt _ _ hx) (fun u v => ⟨rfl, fun h => by simp only [h], rfl⟩) e
  | write data => exact key _ _ _ (A.alike.write _ hx) (fun u v => ⟨rfl, fun h => by simp only [h], rfl⟩) e
  | writeAt data off => exact key _ _ _ (A.alike.writeAt _ _ hx) (fun u v => ⟨rfl, fun h => by simp only [h], rfl⟩) e
  | seek off wh => exact key _ _ _ (.ret (Alike.seek _ _ hx)) (fun u v => ⟨rfl, fun h => by simp only [h], rfl⟩) e
  | truncate n => exact key _ _ _ (A.alike.truncate _ hx) (fun u v => ⟨rfl, fun h => by simp only [h], rfl⟩) e
  | sync => exact key _ _ _ (A.alike.sync hx) (fun u v => ⟨rfl, fun h => by simp only [h], rfl⟩) e
  | stat =>
    unfold stepFile at e ⊢
    cases e
    refine ⟨t, d'.workingDirPath, g, ?_, hE, hf, rfl⟩
    obtain ⟨q, p, rfl⟩ := hf
    rfl
  | _ => cases hop

/-- The files but number `i`: open for reading only, or of another object. -/
def Others (i : Nat) (h : H) (files : List (File H)) : Prop := ∀ j g, j ≠ i → files[j]? = some g → Tame g ∨ g.objectHandle.inner ≠ some h

/-- The whole history, and the file's own part of it. -/
theorem runOps_own {d : Drv σ H} {h : H} {E : σ → σ → Prop} (A : Apart d.impl h E) (fuel i : Nat) :
    ∀ (ops : List Op), (∀ op ∈ ops, NoPathWrites op) → ∀ (w v : World H) (f g : File H) (s t s' : σ) (w' : World H) (as : List Answer),
      w.files[i]? = some f → v.files[i]? = some g → SameStream f g → f.objectHandle.inner = some h → Others i h w.files → E s t →
      runOps d fuel w ops s = .ret (s', .ok (w', as)) →
      ∃ t' v', runOps d fuel v (ops.filter (own i)) t = .ret (t', .ok (v', ownAnswers i ops as)) ∧ E s' t'
  | [], _, w, v, f, g, s, t, s', w', as, hf, hg, hfg, hh, ho, hE, e => by
    rw [runOps] at e
    cases e
    exact ⟨t, v, by rw [List.filter_nil, runOps]; rfl, hE⟩
  | op :: ops, hn, w, v, f, g, s, t, s', w', as, hf, hg, hfg, hh, ho, hE, e => by
    have hn0 := hn op (List.mem_cons_self ..)
    have hn1 : ∀ o ∈ ops, NoPathWrites o := fun o hm => hn o (List.mem_cons_of_mem _ hm)
    have P := A.pre
    rw [runOps] at e
    obtain ⟨s1, ⟨w1, a⟩, e1, e2⟩ := andThen_inv e
    obtain ⟨s2, ⟨w2, as1⟩, e3, e4⟩ := andThen_inv e2
    simp only at e3 e4
    cases e4
    have hlt : i < w.files.length := by
      rcases Nat.lt_or_ge i w.files.length with h | h
      · exact h
      · rw [List.getElem?_eq_none h] at hf; cases hf
    by_cases hown : own i op = true
    · -- the file's own call
      obtain ⟨j, fop, rfl⟩ : ∃ j fop, op = .file j fop := by cases op <;> first | exact ⟨_, _, rfl⟩ | cases hown
      unfold own at hown
      simp only [Bool.and_eq_true, beq_iff_eq] at hown
      obtain ⟨rfl, hio⟩ := hown
      rw [stepOp, hf] at e1
      simp only at e1
      obtain ⟨s3, ⟨⟨wd, f1⟩, a1⟩, e5, e6⟩ := andThen_inv e1
      simp only at e5 e6
      cases e6
      obtain ⟨t3, wd', g1, k1, k2, k3, k4⟩ := stepFile_io (d' := { d with workingDirPath := v.wd }) (d := { d with workingDirPath := w.wd }) A rfl hfg hh hio hE e5
      have hltv : j < v.files.length := by
        rcases Nat.lt_or_ge j v.files.length with h | h
        · exact h
        · rw [List.getElem?_eq_none h] at hg; cases hg
      obtain ⟨t4, v4, l1, l2⟩ := runOps_own A fuel j ops hn1 ⟨wd, w.files.set j f1⟩ ⟨wd', v.files.set j g1⟩ f1 g1 s1 t3 s' w' as1 (by simp [hlt]) (by simp [hltv])
        k3 (by rw [k4]; exact hh) (fun m q hm hq => ho m q hm (by simpa [List.getElem?_set_ne (Ne.symm hm)] using hq)) k2 e3
      refine ⟨t4, v4, ?_, l2⟩
      have hown : own j (.file j fop) = true := by simp [own, hio]
      rw [List.filter_cons_of_pos hown, runOps]
      have e7 : stepOp d fuel v (.file j fop) t = .ret (t3, .ok (⟨wd', v.files.set j g1⟩, a)) := by
        rw [stepOp, hg]
        simp only
        rw [andThen_ok k1]
        rfl
      rw [andThen_ok e7]
      simp only
      rw [andThen_ok l1]
      simp only [ownAnswers, hown, if_true]
      rfl
    · -- another call
      have hown : own i op = false := Bool.not_eq_true _ ▸ hown
      have key : E s s1 ∧ ∃ f1, w1.files[i]? = some f1 ∧ SameStream f f1 ∧ Others i h w1.files := by
        by_cases hop : ∃ j o, op = .file j o
        · obtain ⟨j, o, rfl⟩ := hop
          rw [stepOp] at e1
          rcases hj : w.files[j]? with _ | q
          · rw [hj] at e1
            cases e1
            exact ⟨P.refl _, f, hf, SameStream.refl f, ho⟩
          · rw [hj] at e1
            simp only at e1
            obtain ⟨s3, ⟨⟨wd, f1⟩, a1⟩, e5, e6⟩ := andThen_inv e1
            simp only at e5 e6
            cases e6
            by_cases hji : j = i
            · subst hji
              rw [hf] at hj
              cases hj
              have hio : isIO o = false := by
                unfold own at hown
                simpa using hown
              obtain ⟨m1, m2⟩ := stepFile_aside (d := { d with workingDirPath := w.wd }) A (SameStream.refl f) hio _ _ _ e5
              exact ⟨m1, f1, by simp [hlt], m2 _ rfl, fun m q hm hq => ho m q hm (by simpa [List.getElem?_set_ne (Ne.symm hm)] using hq)⟩
            · have hset : (w.files.set j f1)[i]? = some f := by rw [List.getElem?_set_ne hji]; exact hf
              have hgive : E s s1 ∧ (Tame f1 ∨ f1.objectHandle.inner ≠ some h) := by
                rcases ho j q hji hj with ht | ht
                · obtain ⟨m1, m2⟩ := stepFile_tame (d := { d with workingDirPath := w.wd }) A.looks A.read A.listDir ht o
                    (fun mode _ h' m hm s => A.chmod h' m hm s mode) (fun u g _ h' m hm s => A.chown h' m hm s u g) _ _ _ e5
                  exact ⟨m1, .inl (m2 _ rfl)⟩
                · obtain ⟨m1, m2⟩ := stepFile_other (d := { d with workingDirPath := w.wd }) A ht o _ _ _ e5
                  exact ⟨m1, .inr (m2 _ rfl)⟩
              refine ⟨hgive.1, f, hset, SameStream.refl f, fun m q' hm hq => ?_⟩
              by_cases hmj : m = j
              · subst hmj
                rw [List.getElem?_set_self (by
                  rcases Nat.lt_or_ge m w.files.length with h | h
                  · exact h
                  · rw [List.getElem?_eq_none h] at hj; cases hj)] at hq
                cases hq
                exact hgive.2
              · rw [List.getElem?_set_ne (Ne.symm hmj)] at hq
                exact ho m q' hm hq
        · have hnd : Needs E d op := by
            cases op with
            | openFile p flags perm => exact .inr ⟨hn0, fun _ s n h => A.createObject s n h perm⟩
            | create => exact hn0.elim
            | writeFile => exact hn0.elim
            | truncate => exact hn0.elim
            | remove => exact hn0.elim
            | removeAll => exact hn0.elim
            | chmod p mode => exact fun h m hm s => A.chmod h m hm s mode
            | chown p u g => exact fun h m hm s => A.chown h m hm s u g
            | lchown p u g => exact fun h m hm s => A.chown h m hm s u g
            | chtimes => exact fun h m hm s a b c e g => A.chtimes h m hm s a b c e g
            | link => exact fun f hf s a b c => A.createHardLink f hf s a b c
            | mkdir p perm => exact fun s n h => A.createObject s n h _
            | mkdirAll p perm => exact fun s n h => A.createObject s n h _
            | file j o => exact absurd ⟨j, o, rfl⟩ hop
            | _ => trivial
          obtain ⟨m1, m2⟩ := stepPath_frame d A.looks A.read A.listDir fuel w op (fun j o hjo => hop ⟨j, o, hjo⟩) hnd _ _ _ e1
          obtain ⟨l, hl, hlt'⟩ := m2 _ rfl
          simp only at hl
          refine ⟨m1, f, by rw [hl, List.getElem?_append_left hlt]; exact hf, SameStream.refl f, fun m q hm hq => ?_⟩
          rw [hl] at hq
          rcases Nat.lt_or_ge m w.files.length with hm' | hm'
          · rw [List.getElem?_append_left hm'] at hq
            exact ho m q hm hq
          · rw [List.getElem?_append_right hm'] at hq
            exact .inl (hlt' q (List.mem_of_getElem? hq))
      obtain ⟨k1, f1, k2, k3, k4⟩ := key
      have hh1 : f1.objectHandle.inner = some h := by obtain ⟨_, _, rfl⟩ := k3; exact hh
      have hfg1 : SameStream f1 g := by obtain ⟨_, _, rfl⟩ := k3; obtain ⟨q, p, rfl⟩ := hfg; exact ⟨q, p, rfl⟩
      obtain ⟨t4, v4, l1, l2⟩ := runOps_own A fuel i ops hn1 w1 v f1 g s1 t s' w' as1 k2 hg hfg1 hh1 k4 (A.trans _ _ _ (A.symm _ _ k1) hE) e3
      refine ⟨t4, v4, ?_, l2⟩
      rw [List.filter_cons_of_neg (by simp [hown])]
      simp only [ownAnswers, hown]
      exact l1

end Disko.Driver

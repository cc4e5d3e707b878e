import Verif.Driver.Recording
import Verif.Driver.History
import Verif.Driver.Props18
import Verif.Driver.Props20
import Verif.Driver.Props23
/-! What a history of calls can do to the state of the implementation, given what the implementation's own methods can (for C125). -/
namespace Disko.Driver
open Disko Spec BlockCache

variable {σ H α β : Type}

/-- If the call returns, the states are related, and its result, if it has one, is as `Q` says. -/
def Gives (R : σ → σ → Prop) (Q : α → Prop) (m : M σ α) : Prop := ∀ s s' r, m s = .ret (s', r) → R s s' ∧ ∀ a, r = .ok a → Q a

namespace Gives
variable {R : σ → σ → Prop} {Q : α → Prop} {Q' : β → Prop}

theorem ofKeeps {E : Err → Prop} {m : M σ α} (h : Keeps R E m) (hq : ∀ a, Q a) : Gives R Q m := fun s s' r e => ⟨(h s s' r e).1, fun a _ => hq a⟩

theorem ok (P : Pre R) {a : α} (h : Q a) : Gives R Q (M.ok a : M σ α) := by
  intro s s' r e
  cases e
  exact ⟨P.refl _, fun b hb => by cases hb; exact h⟩

theorem andThen (P : Pre R) {m : M σ α} {f : α → M σ β} (h : Gives R Q m) (hf : ∀ a, Q a → Gives R Q' (f a)) : Gives R Q' (M.andThen m f) := by
  intro s s' r e
  unfold M.andThen at e
  rcases e1 : m s with ⟨s1, er | a⟩ | _ | _
  · rw [e1] at e; cases e; exact ⟨(h _ _ _ e1).1, fun _ hb => by cases hb⟩
  · rw [e1] at e
    obtain ⟨k1, k2⟩ := h _ _ _ e1
    obtain ⟨k3, k4⟩ := hf a (k2 a rfl) _ _ _ e
    exact ⟨P.trans k1 k3, k4⟩
  · rw [e1] at e; cases e
  · rw [e1] at e; cases e

theorem ask (P : Pre R) {m : M σ α} {w : β} {k : α → β × Answer} {Q' : β × Answer → Prop} (h : Gives R Q m) (hw : ∀ e, Q' (w, .failed e)) (hk : ∀ a, Q a → Q' (k a)) :
    Gives R Q' (Driver.ask m w k) := by
  intro s s' r e
  unfold Driver.ask M.either at e
  rcases e1 : m s with ⟨s1, er | a⟩ | _ | _
  · rw [e1] at e; cases e; exact ⟨(h _ _ _ e1).1, fun _ hb => by cases hb; exact hw er⟩
  · rw [e1] at e; cases e
    obtain ⟨k1, k2⟩ := h _ _ _ e1
    exact ⟨k1, fun _ hb => by cases hb; exact hk a (k2 a rfl)⟩
  · rw [e1] at e; cases e
  · rw [e1] at e; cases e

end Gives

/-- A property of all open files is kept by a whole history if each call keeps it. -/
theorem runOps_gives {R : σ → σ → Prop} (P : Pre R) (d : Drv σ H) (fuel : Nat) (J : File H → Prop) (A : Op → Prop)
    (hstep : ∀ op, A op → ∀ w : World H, (∀ f ∈ w.files, J f) → Gives R (fun r => ∀ f ∈ r.1.files, J f) (stepOp d fuel w op)) :
    ∀ ops : List Op, (∀ op ∈ ops, A op) → ∀ w : World H, (∀ f ∈ w.files, J f) → Gives R (fun r => ∀ f ∈ r.1.files, J f) (runOps d fuel w ops)
  | [], _, w, hw => by rw [runOps]; exact Gives.ok P hw
  | op :: ops, ha, w, hw => by
    rw [runOps]
    refine Gives.andThen P (hstep op (ha op (List.mem_cons_self ..)) w hw) fun r hr => ?_
    exact Gives.andThen P (runOps_gives P d fuel J A hstep ops (fun o ho => ha o (List.mem_cons_of_mem _ ho)) r.1 hr) fun r' hr' => Gives.ok P hr'

/-! ### Files that cannot be written to -/

/-- The file is not open for writing and has nothing to write. -/
structure Tame (f : File H) : Prop where
  flags : Flags.write f.ioFlags = false
  clean : f.cache.Clean

theorem sync_tame {b : Backend σ} {x x' : Stream.Stm σ} {e : Option Stream.SErr} (hc : x.st.c.Clean) (h : Stream.sync b x = .ret (x', e)) : x' = x := by
  have key : ∀ st1 e, flushBlockRange b x.st 0 x.st.c.total = .ret (st1, e) → st1 = x.st := by
    intro st1 e h1
    unfold flushBlockRange at h1
    rcases hb : x.st.c.checkBounds 0 (u64 (x.st.c.total * x.st.c.bpb)) with o | _ | _
    · rw [hb] at h1
      rcases o with _ | e'
      · simp only [Outcome.bind_ret] at h1
        have : ∀ n i st, st.c.Clean → ∀ st1 e, flushLoop b n i st = .ret (st1, e) → st1 = st := by
          intro n
          induction n with
          | zero => intro i st _ st1 e h; cases h; rfl
          | succ n ih =>
            intro i st hcl st1 e h
            rw [flushLoop] at h
            unfold bitGet at h
            rcases hg : st.c.dirty[i]? with _ | v
            · rw [hg] at h; cases h
            · rw [hg] at h
              have : v = false := by have := hcl i; rw [List.getD_eq_getElem?_getD, hg] at this; exact this
              subst this
              exact ih _ _ hcl _ _ h
        exact this _ _ _ hc _ _ h1
      · cases h1; rfl
    · rw [hb] at h1; cases h1
    · rw [hb] at h1; cases h1
  unfold Stream.sync BlockCache.flush at h
  rcases h2 : flushBlockRange b x.st 0 x.st.c.total with ⟨st1, _ | e1⟩ | _ | _
  · rw [h2] at h
    have := key _ _ h2
    subst this
    cases h; rfl
  · rw [h2] at h
    have := key _ _ h2
    subst this
    cases h; rfl
  · rw [h2] at h; cases h
  · rw [h2] at h; cases h

theorem onStream_gives {R : σ → σ → Prop} (d : Drv σ H) {f : File H} {op : Backend σ → Stream.Stm σ → Outcome (Stream.Stm σ × α)} {J : File H → Prop}
    (h : ∀ x s, (op (backendOf d.impl x) (f.streamIn s)).All fun r => R s r.1.st.s ∧ J (f.after r.1)) : Gives R (fun r => J r.1) (f.onStream d op) := by
  intro s s' r e
  unfold File.onStream at e
  rcases he : f.objectHandle with ⟨_ | x, q⟩
  · rw [he] at e; cases e
  · rw [he] at e
    simp only [Ext.method] at e
    rcases e1 : op (backendOf d.impl x) (f.streamIn s) with ⟨y, a⟩ | _ | _
    · rw [e1] at e
      cases e
      obtain ⟨k1, k2⟩ := h x s _ e1
      exact ⟨k1, fun _ hb => by cases hb; exact k2⟩
    · rw [e1] at e; cases e
    · rw [e1] at e; cases e

section
variable {R : σ → σ → Prop} (d : Drv σ H) (L : Looks R d.impl) (hr : ∀ s h i buf, R s (d.impl.readBlocks s h i buf).1)
  (hl : ∀ h f, d.impl.listDir h = some f → ∀ s, R s (f s).1)
include L hr hl

theorem File.readDir_gives (f : File H) (n : Int) {J : File H → Prop} (hj : ∀ q k, J { f with lastReadDirResult := q, readDirResultPointer := k }) (hf : J f) :
    Gives R (fun r => J r.1) (f.readDir d n) := by
  unfold File.readDir
  refine Gives.andThen L.toPre (Gives.ofKeeps (Q := fun _ => True) (Keeps.statOf (E := fun _ => True) L.toPre d _) fun _ => trivial) fun st _ => ?_
  split
  · exact Gives.ok L.toPre hf
  · split
    · exact Gives.ok L.toPre (hj _ _)
    · intro s s' r e
      unfold M.either at e
      rcases e1 : readDirObject d f.objectHandle s with ⟨s1, er | es⟩ | _ | _
      · rw [e1] at e; cases e; exact ⟨(readDirObject_frame d L hl _ _ _ _ e1).1, fun _ hb => by cases hb; exact hf⟩
      · rw [e1] at e; cases e; exact ⟨(readDirObject_frame d L hl _ _ _ _ e1).1, fun _ hb => by cases hb; exact hj _ _⟩
      · rw [e1] at e; cases e
      · rw [e1] at e; cases e

/-- A call on a file that is not open for writing reads at most. -/
theorem stepFile_tame {f : File H} (hf : Tame f) (op : FileOp) (hm : ∀ mode, op = .chmod mode → ∀ h m, d.impl.chmod h = some m → ∀ s, R s (m s mode).1)
    (ho : ∀ u g, op = .chown u g → ∀ h m, d.impl.chown h = some m → ∀ s, R s (m s u g).1) : Gives R (fun r => Tame r.1.2) (stepFile d f op) := by
  have P := L.toPre
  have hload : ∀ s (x : Stream.Stm σ), Loaded R (f.streamIn s).st x.st → R s x.st.s ∧ Tame (f.after x) := fun s x k => ⟨k.rel, hf.flags, k.clean hf.clean⟩
  have hsame : ∀ (x : Stream.Stm σ) s, x = f.streamIn s → R s x.st.s ∧ Tame (f.after x) := fun x s e => by subst e; exact ⟨P.refl _, hf.flags, hf.clean⟩
  have hw : ∀ s : σ, Flags.write (f.streamIn s).flags = false := fun s => hf.flags
  have himp : ∀ (b : Backend σ) (s : σ) data off, (Stream.implWriteAt b (f.streamIn s) data off).All fun r => R s r.1.st.s ∧ Tame (f.after r.1) := fun b s data off => by
    unfold Stream.implWriteAt
    rw [hw]
    exact .ret (hsame _ s rfl)
  have hask : ∀ {α : Type} (m : M σ α) (k : α → (Str × File H) × Answer), KeepsAny R m → (∀ a, Tame (k a).1.2) → Gives R (fun r => Tame r.1.2) (ask m (d.workingDirPath, f) k) :=
    fun m k hmm hk => Gives.ask P (Gives.ofKeeps (Q := fun _ => True) hmm fun _ => trivial) (fun _ => hf) fun a _ => hk a
  cases op with
  | read n =>
    exact Gives.ask P (onStream_gives d (J := Tame) fun x s => (Stream.read_frame P.refl P.trans _ _ (fun s i buf _ => hr s x i buf) _).imp fun r k => hload s _ k)
      (fun _ => hf) fun a ha => ha
  | readAt n off =>
    exact Gives.ask P (onStream_gives d (J := Tame) fun x s => (Stream.readAt_frame P.refl P.trans _ _ (fun s i buf _ => hr s x i buf) _ _).imp fun r k => hload s _ k)
      (fun _ => hf) fun a ha => ha
  | write data =>
    refine Gives.ask P (onStream_gives d (J := Tame) fun x s => ?_) (fun _ => hf) fun a ha => ha
    unfold Stream.write
    rw [hw]
    exact .ret (hsame _ s rfl)
  | writeAt data off =>
    refine Gives.ask P (onStream_gives d (J := Tame) fun x s => ?_) (fun _ => hf) fun a ha => ha
    unfold Stream.writeAt
    exact .ite (fun _ => .ret (hsame _ s rfl)) fun _ => himp _ _ _ _
  | seek off wh =>
    refine Gives.ask P (onStream_gives d (J := Tame) fun x s => .ret ?_) (fun _ => hf) fun a ha => ha
    have : (Stream.seek (f.streamIn s) off wh).1.st = (f.streamIn s).st := by
      unfold Stream.seek
      simp only
      split
      · rfl
      · split <;> rfl
    exact ⟨by rw [this]; exact P.refl _, hf.flags, by show (Stream.seek (f.streamIn s) off wh).1.st.c.Clean; rw [this]; exact hf.clean⟩
  | truncate n =>
    refine Gives.ask P (onStream_gives d (J := Tame) fun x s => ?_) (fun _ => hf) fun a ha => ha
    unfold Stream.truncate
    rw [hw]
    exact .ret (hsame _ s rfl)
  | sync =>
    exact Gives.ask P (onStream_gives d (J := Tame) fun x s r hs => hsame _ s (sync_tame (e := r.2) hf.clean hs)) (fun _ => hf) fun a ha => ha
  | chdir => exact hask _ _ (chdirTo_frame d L _) fun _ => hf
  | chmod mode =>
    refine hask _ _ ?_ fun _ => hf
    unfold File.chmod
    rcases he : f.objectHandle.optional d.cfg d.impl.chmod with _ | m
    · exact Keeps.fail P trivial
    · obtain ⟨x, hx, hm'⟩ := optional_some he
      exact Keeps.callE fun s => ⟨hm mode rfl x m hm' s, fun _ _ => trivial⟩
  | chown u g =>
    refine hask _ _ ?_ fun _ => hf
    unfold File.chown
    rcases he : f.objectHandle.optional d.cfg d.impl.chown with _ | m
    · exact Keeps.fail P trivial
    · obtain ⟨x, hx, hm'⟩ := optional_some he
      exact Keeps.callE fun s => ⟨ho u g rfl x m hm' s, fun _ _ => trivial⟩
  | name => exact hask _ _ (Keeps.method fun h s s' r e => by cases e; exact ⟨P.refl _, fun _ _ => trivial⟩) fun _ => hf
  | readDir n => exact Gives.ask P (File.readDir_gives d L hr hl f n (J := Tame) (fun _ _ => ⟨hf.flags, hf.clean⟩) hf) (fun _ => hf) fun a ha => ha
  | readdir n =>
    refine Gives.ask P (Q := fun r => Tame r.1) ?_ (fun _ => hf) fun a ha => ha
    unfold File.readdir
    refine Gives.andThen P (File.readDir_gives d L hr hl f n (J := Tame) (fun _ _ => ⟨hf.flags, hf.clean⟩) hf) fun a ha => ?_
    rcases a with ⟨f', es, _ | e⟩ <;> exact Gives.ok P ha
  | readdirnames n =>
    refine Gives.ask P (Q := fun r => Tame r.1) ?_ (fun _ => hf) fun a ha => ha
    unfold File.readdirnames
    refine Gives.andThen P (File.readDir_gives d L hr hl f n (J := Tame) (fun _ _ => ⟨hf.flags, hf.clean⟩) hf) fun a ha => ?_
    rcases a with ⟨f', es, _ | e⟩ <;> exact Gives.ok P ha
  | stat => exact Gives.ok P hf

end

/-- What a call on a volume needs of the implementation for the states to stay related, if no file is opened for writing. -/
def Needs (R : σ → σ → Prop) (d : Drv σ H) : Op → Prop
  | .openFile _ flags perm => (¬ Writable d.mountFlags ∧ WriteIntent flags) ∨ (¬ WriteIntent flags ∧ (Flags.create flags = true → ∀ s n h, R s (d.impl.createObject s n h perm).1))
  | .create _ => ¬ Writable d.mountFlags
  | .writeFile _ _ _ => ¬ Writable d.mountFlags
  | .chmod _ mode => ∀ h m, d.impl.chmod h = some m → ∀ s, R s (m s mode).1
  | .chown _ u g => ∀ h m, d.impl.chown h = some m → ∀ s, R s (m s u g).1
  | .lchown _ u g => ∀ h m, d.impl.chown h = some m → ∀ s, R s (m s u g).1
  | .chtimes _ _ _ => ∀ h m, d.impl.chtimes h = some m → ∀ s a b c e g, R s (m s a b c e g).1
  | .link _ _ => ∀ f, d.impl.createHardLink = some f → ∀ s a b c, R s (f s a b c).1
  | .remove _ => ∀ s h, R s (d.impl.unlink s h).1
  | .removeAll _ => ∀ s h, R s (d.impl.unlink s h).1
  | .truncate _ => ∀ s h, R s (d.impl.resize s h 0).1
  | .mkdir _ perm => ∀ s n h, R s (d.impl.createObject s n h (dirPerm perm)).1
  | .mkdirAll _ perm => ∀ s n h, R s (d.impl.createObject s n h (dirPerm perm)).1
  | .file _ op => (∀ mode, op = .chmod mode → ∀ h m, d.impl.chmod h = some m → ∀ s, R s (m s mode).1) ∧
    ∀ u g, op = .chown u g → ∀ h m, d.impl.chown h = some m → ∀ s, R s (m s u g).1
  | _ => True

theorem newFile_ioFlags {d : Drv σ H} {e : Ext H} {flags : Flags.IOFlags} (ht : Flags.truncate flags = false) {s s' : σ} {f : File H} (h : newFile d e flags s = .ret (s', .ok f)) : f.ioFlags = flags := by
  unfold newFile at h
  rcases e with ⟨_ | x, p⟩
  · cases h
  · rw [andThen_ok (a := d.impl.stat s x) (s' := s) rfl] at h
    simp only [Ext.method] at h
    rcases hc : BlockCache.new (Stream.toUint (d.impl.stat s x).blockSize) (Stream.toUint (d.impl.stat s x).numBlocks) with c | _ | _
    · rw [hc] at h
      simp only at h
      rcases hs : Stream.new (backendOf d.impl x) (d.impl.stat s x).size ⟨c, s⟩ flags with ⟨o, er⟩ | _ | _
      · rw [hs] at h
        rcases o with _ | y <;> rcases er with _ | er <;> simp only at h <;> cases h
        show y.flags = flags
        unfold Stream.new at hs
        split at hs
        · simp only [Outcome.pure_eq] at hs; cases hs
        · simp only [ht] at hs; cases hs; rfl
      · rw [hs] at h; cases h
      · rw [hs] at h; cases h
    · rw [hc] at h; cases h
    · rw [hc] at h; cases h

theorem not_write {flags : Flags.IOFlags} (h : ¬ WriteIntent flags) : Flags.write flags = false ∧ Flags.truncate flags = false := by
  rw [← requires_iff, Bool.not_eq_true] at h
  unfold Flags.requiresWritePerm at h
  rw [Bool.or_eq_false_iff] at h
  exact h

section
variable {R : σ → σ → Prop} (d : Drv σ H) (L : Looks R d.impl) (hr : ∀ s h i buf, R s (d.impl.readBlocks s h i buf).1)
  (hl : ∀ h f, d.impl.listDir h = some f → ∀ s, R s (f s).1) (fuel : Nat)
include L

theorem openFile_tame (p : Str) (flags : Flags.IOFlags) (perm : FileMode)
    (h : (¬ Writable d.mountFlags ∧ WriteIntent flags) ∨ (¬ WriteIntent flags ∧ (Flags.create flags = true → ∀ s n h, R s (d.impl.createObject s n h perm).1))) :
    Gives R Tame (openFile d fuel p flags perm) := by
  rcases h with ⟨h1, h2⟩ | ⟨h1, h2⟩
  · intro s s' r e
    rw [C64_refused_partial d fuel p flags perm s h1 h2] at e
    cases e
    exact ⟨L.refl _, fun _ hb => by cases hb⟩
  · obtain ⟨k1, k2⟩ := not_write h1
    intro s s' r e
    refine ⟨(openFile_frame d L fuel p flags perm h2 (fun ht => by rw [k2] at ht; cases ht) s s' r e).1, fun f hf => ?_⟩
    subst hf
    obtain ⟨x, t, hx⟩ := openFile_from e
    exact ⟨by rw [newFile_ioFlags k2 hx]; exact k1, fun j => ((newFile_spec d x flags hx).1 k2).2 f rfl j⟩

include hr hl

/-- A call that is not one of an open file opens at most one file. -/
theorem stepPath_frame (w : World H) (op : Op) (hop : ∀ i o, op ≠ .file i o) (hn : Needs R d op) :
    Gives R (fun r => ∃ l, r.1.files = w.files ++ l ∧ ∀ f ∈ l, Tame f) (stepOp d fuel w op) := by
  have P := L.toPre
  have L' : Looks R ({ d with workingDirPath := w.wd } : Drv σ H).impl := L
  obtain ⟨k1, k2, k3, k4, k5⟩ := resolve_frame _ L' fuel
  have kc := close_frame _ L'
  have ks := Keeps.statOf (E := fun _ => True) P ({ d with workingDirPath := w.wd } : Drv σ H)
  have hw : ∃ l, w.files = w.files ++ l ∧ ∀ f ∈ l, Tame f := ⟨[], by simp, fun _ hf => by cases hf⟩
  have hopen : ∀ (m : M σ (File H)), Gives R Tame m → Gives R (fun r => ∃ l, r.1.files = w.files ++ l ∧ ∀ f ∈ l, Tame f) (ask m w fun f => (⟨w.wd, w.files ++ [f]⟩, .done)) := fun m hm =>
    Gives.ask P hm (fun _ => hw) fun f hf => ⟨[f], rfl, fun g hg => by
      rw [List.mem_singleton] at hg; subst hg; exact hf⟩
  have hask : ∀ {α : Type} (m : M σ α) (k : α → World H × Answer), KeepsAny R m → (∀ a, (k a).1.files = w.files) →
      Gives R (fun r => ∃ l, r.1.files = w.files ++ l ∧ ∀ f ∈ l, Tame f) (ask m w k) := fun m k hmm hk =>
    Gives.ask P (Gives.ofKeeps (Q := fun _ => True) hmm fun _ => trivial) (fun _ => hw) fun a _ => by rw [hk a]; exact hw
  cases op with
  | openFile p flags perm => exact hopen _ (openFile_tame _ L' fuel p flags perm hn)
  | open_ p => exact hopen _ (openFile_tame _ L' fuel p _ _ (.inr ⟨by unfold WriteIntent; decide, fun h => by cases h⟩))
  | create p => exact hopen _ (openFile_tame _ L' fuel p _ _ (.inl ⟨hn, by unfold WriteIntent; decide⟩))
  | chdir p => exact hask _ _ (path_frame _ L' fuel _ fun e => Keeps.deferred P (kc e) (chdirTo_frame _ L' e)) fun _ => rfl
  | chmod p mode =>
    refine hask _ _ (path_frame _ L' fuel _ fun e => optionalCall_frame _ L' e _ fun h m hm s => ?_) fun _ => rfl
    simp only [Option.map_eq_some_iff] at hm
    obtain ⟨g, hg, rfl⟩ := hm
    exact hn h g hg s
  | chown p u g =>
    refine hask _ _ (path_frame _ L' fuel _ fun e => optionalCall_frame _ L' e _ fun h m hm s => ?_) fun _ => rfl
    simp only [Option.map_eq_some_iff] at hm
    obtain ⟨g, hg, rfl⟩ := hm
    exact hn h g hg s
  | lchown p u g =>
    refine hask _ _ (Keeps.andThen P (k1 _) fun e => optionalCall_frame _ L' e _ fun h m hm s => ?_) fun _ => rfl
    simp only [Option.map_eq_some_iff] at hm
    obtain ⟨g, hg, rfl⟩ := hm
    exact hn h g hg s
  | chtimes p a m =>
    refine hask _ _ (path_frame _ L' fuel _ fun e => optionalCall_frame _ L' e _ fun h m hm s => ?_) fun _ => rfl
    simp only [Option.map_eq_some_iff] at hm
    obtain ⟨g, hg, rfl⟩ := hm
    exact hn h g hg s _ _ _ _ _
  | readFile p => exact hask _ _ (path_frame _ L' fuel _ fun e => Keeps.deferred P (kc e) (L'.contents _ rfl e)) fun _ => rfl
  | stat p => exact hask _ _ (path_frame _ L' fuel _ fun e => Keeps.deferred P (kc e) (ks e)) fun _ => rfl
  | readDir p => exact hask _ _ (path_frame _ L' fuel _ fun e => Keeps.deferred P (kc e) (readDirObject_frame _ L' hl e)) fun _ => rfl
  | link o n => exact hask _ _ (link_frame _ L' fuel o n hn) fun _ => rfl
  | readlink p =>
    exact hask _ _ (Keeps.ite (fun _ => Keeps.fail P trivial) fun _ => Keeps.andThen P (k1 _) fun e => Keeps.deferred P (kc e) <|
      Keeps.andThen P (ks e) fun st => Keeps.ite (fun _ => Keeps.fail P trivial) fun _ => L'.contents _ rfl e) fun _ => rfl
  | lstat p =>
    exact hask _ _ (Keeps.andThen P (k1 _) fun e => Keeps.deferred P (kc e) (Keeps.andThen P (k4 e) fun e' => Keeps.deferred P (kc e') (ks e'))) fun _ => rfl
  | remove p =>
    have hu := unlink_frame (R := R) ({ d with workingDirPath := w.wd } : Drv σ H) hn
    refine hask _ _ (path_frame _ L' fuel _ fun e => Keeps.deferred P (kc e) <| Keeps.andThen P (ks e) fun st =>
      Keeps.ite (fun _ => ?_) fun _ => Keeps.ite (fun _ => Keeps.fail P trivial) fun _ => hu e) fun _ => rfl
    rcases he : e.optional d.cfg d.impl.listDir with _ | f
    · exact Keeps.crash
    · obtain ⟨x, hx, hf⟩ := optional_some he
      exact Keeps.andThen P (Keeps.call fun s => ⟨hl x f hf s, fun _ _ => trivial⟩) fun names =>
        Keeps.ite (fun _ => Keeps.fail P trivial) fun _ => hu e
  | truncate p =>
    refine hask _ _ (path_frame _ L' fuel _ fun e => Keeps.deferred P (kc e) <| Keeps.andThen P (ks e) fun st =>
      Keeps.ite (fun _ => Keeps.fail P trivial) fun _ => Keeps.method fun h => ?_) fun _ => rfl
    intro x x' r hx
    refine ⟨?_, fun _ _ => trivial⟩
    have hone := hn x h
    simp only at hx
    rcases hr : d.impl.resize x h 0 with ⟨y, _ | e⟩
    · rw [hr] at hx hone; simp only at hx; cases hx; exact hone
    · rw [hr] at hx hone; simp only at hx; cases hx; exact hone
  | writeFile p data perm =>
    refine hask _ _ (fun s s' r e => ?_) fun _ => rfl
    unfold writeFile at e
    rw [andThen_err (C64_refused_partial ({ d with workingDirPath := w.wd } : Drv σ H) fuel p _ perm s hn (by unfold WriteIntent; decide))] at e
    cases e
    exact ⟨P.refl _, fun _ _ => trivial⟩
  | mkdir p perm => exact hask _ _ (mkdir_frame _ L' fuel p perm hn) fun _ => rfl
  | mkdirAll p perm => exact hask _ _ (mkdirAll_frame _ L' perm hn (dirPerm_idem perm) fuel p perm rfl) fun _ => rfl
  | removeAll p =>
    have hrd := removeDirectory_frame _ L' hn hl fuel
    refine hask _ _ (path_frame _ L' fuel _ fun e => Keeps.deferred P (kc e) <| Keeps.andThen P (ks e) fun st =>
      Keeps.ite (fun _ => Keeps.fail P trivial) fun _ => Keeps.method fun h => ?_) fun _ => rfl
    intro x x' r hx
    simp only at hx
    split at hx
    · exact Keeps.fail (E := fun _ => True) P trivial x x' r hx
    · exact hrd e x x' r hx
  | getwd => exact Gives.ok P hw
  | file i fop => exact absurd rfl (hop i fop)

theorem stepOp_tame (w : World H) (op : Op) (hw : ∀ f ∈ w.files, Tame f) (hn : Needs R d op) :
    Gives R (fun r => ∀ f ∈ r.1.files, Tame f) (stepOp d fuel w op) := by
  by_cases hop : ∃ i o, op = .file i o
  · obtain ⟨i, fop, rfl⟩ := hop
    have P := L.toPre
    have L' : Looks R ({ d with workingDirPath := w.wd } : Drv σ H).impl := L
    rw [stepOp]
    rcases hi : w.files[i]? with _ | f
    · exact Gives.ok P hw
    · have hf : Tame f := hw f (List.mem_of_getElem? hi)
      refine Gives.andThen P (stepFile_tame _ L' hr hl hf fop hn.1 hn.2) fun r hr => Gives.ok P ?_
      intro g hg
      rcases List.mem_or_eq_of_mem_set hg with hg | hg
      · exact hw g hg
      · subst hg; exact hr
  · intro s s' r e
    obtain ⟨h1, h2⟩ := stepPath_frame d L hr hl fuel w op (fun i o h => hop ⟨i, o, h⟩) hn s s' r e
    refine ⟨h1, fun a ha f hf => ?_⟩
    obtain ⟨l, hl, h3⟩ := h2 a ha
    rw [hl] at hf
    rcases List.mem_append.mp hf with hf | hf
    · exact hw f hf
    · exact h3 f hf

theorem runOps_tame (ops : List Op) (hn : ∀ op ∈ ops, Needs R d op) : Gives R (fun r => ∀ f ∈ r.1.files, Tame f) (runOps d fuel .start ops) :=
  runOps_gives L.toPre d fuel Tame (Needs R d) (fun op h w hw => stepOp_tame d L hr hl fuel w op hw h) ops hn .start fun _ hf => by cases hf

end

end Disko.Driver

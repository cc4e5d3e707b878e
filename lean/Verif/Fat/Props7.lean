import Verif.Fat.History
import Verif.Fat.Props2
/-! C135: what programs do to a FAT volume. -/
namespace Disko.Fat
open Disko

variable {σ : Type}

namespace Spec

/-- A call of a method of the version-specific driver that changes the volume, with the error it returned. -/
inductive Event where
  | updated (d : Dirent) (e : Option Err)
  | deleted (d parent : Dirent) (e : Option Err)
  | freed (cluster : UInt32) (e : Option Err)

/-- The same volume, keeping a record of the calls that change it. -/
def logged (fs : FS σ) : FS (σ × List Event) where
  bootSector := fs.bootSector
  getClusterAtIndex := fun st => fs.getClusterAtIndex st.1
  isValidCluster := fs.isValidCluster
  isEndOfChain := fs.isEndOfChain
  listRootDirectory := fun st => fs.listRootDirectory st.1
  freeCluster := fun st c => ((( fs.freeCluster st.1 c).1, st.2 ++ [.freed c (fs.freeCluster st.1 c).2]), (fs.freeCluster st.1 c).2)
  updateDirent := fun st d => (((fs.updateDirent st.1 d).1, st.2 ++ [.updated d (fs.updateDirent st.1 d).2]), (fs.updateDirent st.1 d).2)
  deleteDirent := fun st d p => (((fs.deleteDirent st.1 d p).1, st.2 ++ [.deleted d p (fs.deleteDirent st.1 d p).2]), (fs.deleteDirent st.1 d p).2)
  readAt := fun st => fs.readAt st.1

/-- The methods a FAT volume cannot support: it has no links and no owners. -/
def Unsupported : Op → Prop
  | .readlink _ | .chown _ _ _ | .lchown _ _ _ | .link _ _ | .symlink _ _ => True
  | _ => False

/-- The methods that only ask. -/
def Asks : Op → Prop
  | .readdir _ | .readFile _ | .stat _ | .lstat _ => True
  | _ => False

/-- The methods that change a directory entry. -/
def Alters : Op → Prop
  | .chmod _ _ | .chtimes _ _ _ => True
  | _ => False

/-- `NotSupported a`: the answer is the error "not supported". -/
def NotSupported (a : Answer) : Prop := a = .done (some .notSupported) ∨ a = .text [] (some .notSupported)

/-- The calls that free clusters, one after the other, until one fails. -/
inductive Frees : List Event → Prop where
  | none : Frees []
  | last (c : UInt32) (e : Option Err) : Frees [.freed c e]
  | more {c : UInt32} {es : List Event} (h : Frees es) : Frees (.freed c .none :: es)

/-- What one call of a method does to the volume. -/
inductive Does : Op → List Event → Prop where
  | nothing (op : Op) : Does op []
  | update {op : Op} (h : Alters op) (d : Dirent) (e : Option Err) : Does op [.updated d e]
  | deleteFailed (path : Str) (d parent : Dirent) (e : Err) : Does (.remove path) [.deleted d parent (some e)]
  | delete (path : Str) (d parent : Dirent) {es : List Event} (h : Frees es) : Does (.remove path) (.deleted d parent .none :: es)

/-- What a program does to the volume, call by call. -/
inductive DoesAll : List Op → List Event → Prop where
  | nil : DoesAll [] []
  | cons {op : Op} {ops : List Op} {es fs : List Event} (h : Does op es) (hs : DoesAll ops fs) : DoesAll (op :: ops) (es ++ fs)

end Spec

open Spec

/-! ### The record does not change what happens -/
namespace HistoryLemmas

variable (cfg : Cfg) (fs : FS σ) (st : σ) (l : List Event)

theorem readCluster_logged (c : UInt32) : readCluster (logged fs) (st, l) c = readCluster fs st c := rfl

theorem listLoop_logged : ∀ (fuel : Nat) (c : UInt32) (chain : List UInt32), listLoop (logged fs) (st, l) fuel c chain = listLoop fs st fuel c chain
  | 0, _, _ => by rw [listLoop, listLoop]
  | n + 1, c, chain => by
    rw [listLoop, listLoop]
    simp only [listLoop_logged n]
    rfl

theorem listClusters_logged (fuel : Nat) (c : UInt32) : listClusters fuel (logged fs) (st, l) c = listClusters fuel fs st c := by
  unfold listClusters; rw [listLoop_logged]; rfl

theorem getClusterInChain_logged : ∀ (i : Nat) (c : UInt32), getClusterInChain (logged fs) (st, l) c i = getClusterInChain fs st c i
  | 0, _ => rfl
  | n + 1, c => by
    rw [getClusterInChain, getClusterInChain]
    simp only [getClusterInChain_logged n]
    rfl

theorem readDirLoop_logged (d : Dirent) : ∀ (fuel i : Nat) (acc : List Dirent), readDirLoop cfg (logged fs) (st, l) d fuel i acc = readDirLoop cfg fs st d fuel i acc
  | 0, _, _ => by rw [readDirLoop, readDirLoop]
  | n + 1, i, acc => by
    rw [readDirLoop, readDirLoop]
    simp only [readDirLoop_logged d n, readClusterOfDirent, getClusterInChain_logged, readCluster_logged]
    rfl

theorem readDirFromDirent_logged (fuel : Nat) (d : Dirent) : readDirFromDirent cfg fuel (logged fs) (st, l) d = readDirFromDirent cfg fuel fs st d := by
  unfold readDirFromDirent; rw [readDirLoop_logged]

theorem matchEntries_logged (fuel : Nat) (component : Str) : ∀ (es : List Dirent) (cur : Dirent) (cs : List Dirent),
    matchEntries cfg fuel (logged fs) (st, l) component es cur cs = matchEntries cfg fuel fs st component es cur cs
  | [], _, _ => rfl
  | e :: es, cur, cs => by
    rw [matchEntries, matchEntries]
    simp only [matchEntries_logged fuel component es, readDirFromDirent_logged]

theorem walk_logged (fuel : Nat) : ∀ (ps : List Str) (cur : Dirent) (cs : List Dirent), walk cfg fuel (logged fs) (st, l) ps cur cs = walk cfg fuel fs st ps cur cs
  | [], _, _ => rfl
  | p :: ps, cur, cs => by
    rw [walk, walk]
    simp only [walk_logged fuel ps, matchEntries_logged]

theorem resolve_logged (fuel : Nat) (p : Str) : resolvePathToDirent cfg fuel (logged fs) (st, l) p = resolvePathToDirent cfg fuel fs st p := by
  unfold resolvePathToDirent
  simp only [walk_logged]
  rfl

theorem readFileLoop_logged : ∀ (cs : List UInt32) (r : Int) (b : Bytes), readFileLoop (logged fs) (st, l) cs r b = readFileLoop fs st cs r b
  | [], _, _ => rfl
  | c :: cs, r, b => by
    rw [readFileLoop, readFileLoop]
    simp only [readFileLoop_logged cs, readCluster_logged]
    rfl

/-- Forgetting the record. -/
def forget {α : Type} (r : Outcome ((σ × List Event) × α)) : Outcome (σ × α) := r.bind fun x => .ret (x.1.1, x.2)

theorem forget_bind {α β : Type} (r : Outcome α) (f : α → Outcome ((σ × List Event) × β)) : forget (r.bind f) = r.bind fun a => forget (f a) := by
  cases r <;> rfl

theorem freeLoop_logged : ∀ (n : Nat) (st : σ) (l : List Event), ∃ es, Frees es ∧ freeLoop (logged fs) n (st, l) = (((freeLoop fs n st).1, l ++ es), (freeLoop fs n st).2)
  | 0, st, l => ⟨[], .none, by simp [freeLoop]⟩
  | n + 1, st, l => by
    rw [freeLoop, freeLoop]
    rcases hf : fs.freeCluster st (UInt32.ofNat n) with ⟨st', _ | e⟩
    · obtain ⟨es, h1, h2⟩ := freeLoop_logged n st' (l ++ [.freed (UInt32.ofNat n) none])
      refine ⟨_, .more (c := UInt32.ofNat n) h1, ?_⟩
      simp only [logged, hf]
      simp only [logged] at h2
      rw [h2]
      simp
    · refine ⟨_, .last (UInt32.ofNat n) (some e), ?_⟩
      simp only [logged, hf]

theorem step_logged (fatEpoch : Time) (fuel : Nat) (op : Op) (st : σ) (l : List Event) :
    (∀ st' a, stepOp cfg fatEpoch fuel fs st op = .ret (st', a) → ∃ es, Does op es ∧ stepOp cfg fatEpoch fuel (logged fs) (st, l) op = .ret ((st', l ++ es), a)) ∧
    (stepOp cfg fatEpoch fuel fs st op = .panic → stepOp cfg fatEpoch fuel (logged fs) (st, l) op = .panic) ∧
    (stepOp cfg fatEpoch fuel fs st op = .timeout → stepOp cfg fatEpoch fuel (logged fs) (st, l) op = .timeout) := by
  have ask : ∀ {α : Type} (r : Outcome α) (k : α → Answer),
      (∀ st' a, (r.bind fun x => .ret (st, k x)) = .ret (st', a) → ∃ es, Does op es ∧ (r.bind fun x => Outcome.ret ((st, l), k x)) = .ret ((st', l ++ es), a)) ∧
      ((r.bind fun x => Outcome.ret (st, k x)) = .panic → (r.bind fun x => Outcome.ret ((st, l), k x)) = .panic) ∧
      ((r.bind fun x => Outcome.ret (st, k x)) = .timeout → (r.bind fun x => Outcome.ret ((st, l), k x)) = .timeout) := by
    intro α r k
    cases r with
    | ret x =>
      refine ⟨fun st' a h => ?_, (fun h => by cases h), (fun h => by cases h)⟩
      simp only [Outcome.bind, Outcome.ret.injEq, Prod.mk.injEq] at h
      refine ⟨[], .nothing op, ?_⟩
      simp only [Outcome.bind, List.append_nil, h.1, h.2]
    | panic => exact ⟨(fun _ _ h => by cases h), fun _ => rfl, (fun h => by cases h)⟩
    | timeout => exact ⟨(fun _ _ h => by cases h), (fun h => by cases h), fun _ => rfl⟩
  have upd : ∀ d : Dirent, Alters op →
      (∀ st' a, Outcome.ret ((fs.updateDirent st d).1, Answer.done (fs.updateDirent st d).2) = .ret (st', a) → ∃ es, Does op es ∧
        Outcome.ret (((logged fs).updateDirent (st, l) d).1, Answer.done ((logged fs).updateDirent (st, l) d).2) = .ret ((st', l ++ es), a)) ∧
      (Outcome.ret ((fs.updateDirent st d).1, Answer.done (fs.updateDirent st d).2) = .panic →
        Outcome.ret (((logged fs).updateDirent (st, l) d).1, Answer.done ((logged fs).updateDirent (st, l) d).2) = .panic) ∧
      (Outcome.ret ((fs.updateDirent st d).1, Answer.done (fs.updateDirent st d).2) = .timeout →
        Outcome.ret (((logged fs).updateDirent (st, l) d).1, Answer.done ((logged fs).updateDirent (st, l) d).2) = .timeout) := by
    intro d ha
    refine ⟨fun st' a h => ?_, (fun h => by cases h), (fun h => by cases h)⟩
    simp only [Outcome.ret.injEq, Prod.mk.injEq] at h
    refine ⟨[.updated d (fs.updateDirent st d).2], .update ha _ _, ?_⟩
    simp only [logged, ← h.1, ← h.2]
  cases op with
  | readlink p => exact ask (.ret ()) fun _ => .text (readlink p).1 (readlink p).2
  | chown p u g => exact ask (.ret ()) fun _ => .done (chown p u g)
  | lchown p u g => exact ask (.ret ()) fun _ => .done (lchown p u g)
  | link p q => exact ask (.ret ()) fun _ => .done (link p q)
  | symlink p q => exact ask (.ret ()) fun _ => .done (symlink p q)
  | readdir p =>
    simp only [stepOp, readdir, resolve_logged, readDirFromDirent_logged]
    exact ask _ Answer.entries
  | readFile p =>
    simp only [stepOp, readFile, resolve_logged, listClusters_logged, readFileLoop_logged]
    exact ask _ Answer.bytes
  | stat p =>
    simp only [stepOp, stat, resolve_logged]
    exact ask _ Answer.stat
  | lstat p =>
    simp only [stepOp, lstat, stat, resolve_logged]
    exact ask _ Answer.stat
  | chmod p m =>
    simp only [stepOp, chmod, resolve_logged]
    rcases resolvePathToDirent cfg fuel fs st p with (e | d) | _ | _
    · exact ask (.ret ()) fun _ => .done (some e)
    · exact upd _ trivial
    · exact ⟨(fun _ _ h => by cases h), fun _ => rfl, (fun h => by cases h)⟩
    · exact ⟨(fun _ _ h => by cases h), (fun h => by cases h), fun _ => rfl⟩
  | chtimes p a m =>
    simp only [stepOp, chtimes, resolve_logged]
    rcases resolvePathToDirent cfg fuel fs st p with (e | d) | _ | _
    · exact ask (.ret ()) fun _ => .done (some e)
    · exact upd _ trivial
    · exact ⟨(fun _ _ h => by cases h), fun _ => rfl, (fun h => by cases h)⟩
    · exact ⟨(fun _ _ h => by cases h), (fun h => by cases h), fun _ => rfl⟩
  | remove p =>
    simp only [stepOp, remove, resolve_logged]
    rcases resolvePathToDirent cfg fuel fs st p with (e | d) | _ | _
    · exact ask (.ret ()) fun _ => .done (some e)
    · simp only [W.from]
      by_cases hd : d.isDir
      · simp only [hd, if_true]
        exact ask (.ret ()) fun _ => .done (some .isADirectory)
      · simp only [hd]
        rcases resolvePathToDirent cfg fuel fs st (Path.dir p) with (e | parent) | _ | _
        · exact ask (.ret ()) fun _ => .done (some e)
        · simp only [Bool.false_eq_true, if_false]
          rcases hx : fs.deleteDirent st d parent with ⟨st1, _ | e⟩
          · simp only [logged, hx]
            have hl := listClusters_logged fs st1 (l ++ [.deleted d parent none]) fuel d.firstCluster
            simp only [logged] at hl
            rw [hl]
            rcases listClusters fuel fs st1 d.firstCluster with (e | cs) | _ | _
            · refine ⟨fun st' a h => ?_, (fun h => by cases h), (fun h => by cases h)⟩
              simp only [Outcome.bind, Outcome.ret.injEq, Prod.mk.injEq] at h
              refine ⟨_, .delete p d parent .none, ?_⟩
              simp only [Outcome.bind, h.1, h.2]
            · refine ⟨fun st' a h => ?_, (fun h => by cases h), (fun h => by cases h)⟩
              simp only [Outcome.bind, Outcome.ret.injEq, Prod.mk.injEq] at h
              obtain ⟨es, h1, h2⟩ := freeLoop_logged fs cs.length st1 (l ++ [.deleted d parent none])
              refine ⟨_, .delete p d parent h1, ?_⟩
              simp only [logged] at h2
              simp only [Outcome.bind, h2, ← h.1, ← h.2, List.append_assoc, List.singleton_append]
            · exact ⟨(fun _ _ h => by cases h), fun _ => rfl, (fun h => by cases h)⟩
            · exact ⟨(fun _ _ h => by cases h), (fun h => by cases h), fun _ => rfl⟩
          · simp only [logged, hx]
            refine ⟨fun st' a h => ?_, (fun h => by cases h), (fun h => by cases h)⟩
            simp only [Outcome.bind, Outcome.ret.injEq, Prod.mk.injEq] at h
            refine ⟨_, .deleteFailed p d parent e, ?_⟩
            simp only [Outcome.bind, h.1, h.2]
        · exact ⟨(fun _ _ h => by cases h), fun _ => rfl, (fun h => by cases h)⟩
        · exact ⟨(fun _ _ h => by cases h), (fun h => by cases h), fun _ => rfl⟩
    · exact ⟨(fun _ _ h => by cases h), fun _ => rfl, (fun h => by cases h)⟩
    · exact ⟨(fun _ _ h => by cases h), (fun h => by cases h), fun _ => rfl⟩

end HistoryLemmas
open HistoryLemmas

/-- C135: the methods FAT cannot support say so, in every state, and change nothing. -/
theorem C135_unsupported (cfg : Cfg) (fatEpoch : Time) (fuel : Nat) (fs : FS σ) (st : σ) (op : Op) (h : Unsupported op) :
    ∃ a, NotSupported a ∧ stepOp cfg fatEpoch fuel fs st op = .ret (st, a) := by
  cases op with
  | readlink p => exact ⟨_, .inr rfl, rfl⟩
  | chown p u g => exact ⟨_, .inl rfl, rfl⟩
  | lchown p u g => exact ⟨_, .inl rfl, rfl⟩
  | link p q => exact ⟨_, .inl rfl, rfl⟩
  | symlink p q => exact ⟨_, .inl rfl, rfl⟩
  | _ => exact absurd h id

/-- C135: Lstat is Stat. -/
theorem C135_lstat (cfg : Cfg) (fatEpoch : Time) (fuel : Nat) (fs : FS σ) (st : σ) (p : Str) :
    stepOp cfg fatEpoch fuel fs st (.lstat p) = stepOp cfg fatEpoch fuel fs st (.stat p) := rfl

/-- C135: whatever a program does on a FAT volume, and however the version-specific driver answers, the volume is changed only by the calls
that are for it, in the right order: Chmod and Chtimes update at most one entry; Remove deletes one entry and only after that has
succeeded frees clusters, until one cannot be freed; everything else changes nothing.  (The second part says that the record
itself changes nothing.) -/
theorem C135_changes (cfg : Cfg) (fatEpoch : Time) (fuel : Nat) (fs : FS σ) : ∀ (ops : List Op) (st : σ) (l : List Event) (st' : σ) (as : List Answer),
    runOps cfg fatEpoch fuel fs st ops = .ret (st', as) →
    ∃ es, DoesAll ops es ∧ runOps cfg fatEpoch fuel (logged fs) (st, l) ops = .ret ((st', l ++ es), as)
  | [], st, l, st', as, h => by
    simp only [runOps, Outcome.ret.injEq, Prod.mk.injEq] at h
    refine ⟨[], .nil, ?_⟩
    simp only [runOps, List.append_nil, h.1, h.2]
  | op :: ops, st, l, st', as, h => by
    unfold runOps at h ⊢
    rcases hs : stepOp cfg fatEpoch fuel fs st op with ⟨st1, a⟩ | _ | _
    · rw [hs] at h
      simp only [Outcome.bind] at h
      obtain ⟨es, h1, h2⟩ := (step_logged cfg fs fatEpoch fuel op st l).1 st1 a hs
      rcases hr : runOps cfg fatEpoch fuel fs st1 ops with ⟨st2, as2⟩ | _ | _
      · rw [hr] at h
        simp only [Outcome.ret.injEq, Prod.mk.injEq] at h
        obtain ⟨fs', h3, h4⟩ := C135_changes cfg fatEpoch fuel fs ops st1 (l ++ es) st2 as2 hr
        refine ⟨_, .cons h1 h3, ?_⟩
        rw [h2]
        simp only [Outcome.bind]
        rw [h4]
        simp only [h.1, h.2, List.append_assoc]
      · rw [hr] at h; cases h
      · rw [hr] at h; cases h
    · rw [hs] at h; cases h
    · rw [hs] at h; cases h

/-- A program that returns, on the small volume of Props2. -/
example : (match runOps shipped 0 9 exFS exState2 [.remove (str! "NO.SUC"), .symlink (str! "A") (str! "B"), .chmod (str! "NO.SUC") 0, .lstat (str! "NO.SUC")] with
    | .ret (st, as) => decide (st = { exState2 with freed := [1, 0] }) && as.length == 4
    | _ => false) = true := by decide +kernel

/-- C135, seen from a crash: whenever a cluster is freed, the entry of the file has been deleted before, successfully, and nothing but the freeing of
clusters has happened since. -/
theorem C135_entry_first {ops : List Op} {es before after : List Event} {c : UInt32} {e : Option Err} (h : DoesAll ops es) (hs : es = before ++ .freed c e :: after) :
    ∃ (earlier frees : List Event) (d parent : Dirent), before = earlier ++ .deleted d parent none :: frees ∧ ∀ x ∈ frees, ∃ c', x = .freed c' none := by
  have inFrees : ∀ {es : List Event}, Frees es → ∀ {before after : List Event} {c : UInt32} {e : Option Err}, es = before ++ .freed c e :: after → ∀ x ∈ before, ∃ c', x = .freed c' none := by
    intro es h
    induction h with
    | none => intro before after c e hs; cases before <;> cases hs
    | last c0 e0 =>
      intro before after c e hs x hx
      cases before with
      | nil => cases hx
      | cons b bs => simp at hs
    | @more c0 es h ih =>
      intro before after c e hs x hx
      cases before with
      | nil => cases hx
      | cons b bs =>
        simp only [List.cons_append, List.cons.injEq] at hs
        rcases List.mem_cons.mp hx with rfl | hx
        · exact ⟨_, hs.1.symm⟩
        · exact ih hs.2 x hx
  induction h generalizing before with
  | nil => cases before <;> cases hs
  | @cons op ops es1 es2 h1 h2 ih =>
    rcases List.append_eq_append_iff.mp hs with ⟨bs, hb, hr⟩ | ⟨cs, hb, hr⟩
    · obtain ⟨earlier, frees, d, p, h3, h4⟩ := ih hr
      exact ⟨es1 ++ earlier, frees, d, p, by rw [hb, h3, List.append_assoc], h4⟩
    · cases cs with
      | nil =>
        simp only [List.append_nil, List.nil_append] at hb hr
        obtain ⟨earlier, frees, d, p, h3, h4⟩ := ih (before := []) (by rw [← hr]; rfl)
        cases earlier <;> cases h3
      | cons x cs =>
        simp only [List.cons_append, List.cons.injEq] at hr
        obtain ⟨rfl, rfl⟩ := hr
        cases h1 with
        | nothing => cases before <;> cases hb
        | update _ d e' =>
          cases before with
          | nil => cases hb
          | cons b bs => simp at hb
        | deleteFailed p d q e' =>
          cases before with
          | nil => cases hb
          | cons b bs => simp at hb
        | @delete p d q es hf =>
          cases before with
          | nil => cases hb
          | cons b bs =>
            simp only [List.cons_append, List.cons.injEq] at hb
            exact ⟨[], bs, d, q, by rw [hb.1]; rfl, inFrees hf hb.2⟩

/-- C135: a program that only asks, or asks for what FAT cannot do, changes nothing. -/
theorem C135_asking (cfg : Cfg) (fatEpoch : Time) (fuel : Nat) (fs : FS σ) : ∀ (ops : List Op) (st st' : σ) (as : List Answer),
    (∀ op ∈ ops, Asks op ∨ Unsupported op) → runOps cfg fatEpoch fuel fs st ops = .ret (st', as) → st' = st
  | [], st, st', as, _, h => by
    simp only [runOps, Outcome.ret.injEq, Prod.mk.injEq] at h
    exact h.1.symm
  | op :: ops, st, st', as, ha, h => by
    unfold runOps at h
    rcases hs : stepOp cfg fatEpoch fuel fs st op with ⟨st1, a⟩ | _ | _
    · rw [hs] at h
      simp only [Outcome.bind] at h
      have h1 : st1 = st := by
        have keep : ∀ {α : Type} (r : Outcome α) (k : α → Answer), (r.bind fun x => .ret (st, k x)) = .ret (st1, a) → st1 = st := by
          intro α r k hr
          cases r with
          | ret x => simp only [Outcome.bind, Outcome.ret.injEq, Prod.mk.injEq] at hr; exact hr.1.symm
          | panic => cases hr
          | timeout => cases hr
        rcases ha op (List.mem_cons_self ..) with hq | hq
        · cases op with
          | readdir p => exact keep _ _ hs
          | readFile p => exact keep _ _ hs
          | stat p => exact keep _ _ hs
          | lstat p => exact keep _ _ hs
          | _ => exact absurd hq id
        · obtain ⟨a', _, h2⟩ := C135_unsupported cfg fatEpoch fuel fs st op hq
          rw [h2] at hs
          simp only [Outcome.ret.injEq, Prod.mk.injEq] at hs
          exact hs.1.symm
      subst h1
      rcases hr : runOps cfg fatEpoch fuel fs st1 ops with ⟨st2, as2⟩ | _ | _
      · rw [hr] at h
        simp only [Outcome.ret.injEq, Prod.mk.injEq] at h
        rw [← h.1]
        exact C135_asking cfg fatEpoch fuel fs ops st1 st2 as2 (fun o ho => ha o (List.mem_cons_of_mem _ ho)) hr
      · rw [hr] at h; cases h
      · rw [hr] at h; cases h
    · rw [hs] at h; cases h
    · rw [hs] at h; cases h

example : DoesAll [.stat (str! "A"), .remove (str! "B")] [.deleted Dirent.zero Dirent.zero none, .freed 1 none, .freed 0 none] :=
  .cons (es := []) (.nothing _) (.cons (es := [.deleted Dirent.zero Dirent.zero none, .freed 1 none, .freed 0 none])
    (.delete _ _ _ (.more (.more .none))) .nil)
example : Asks (.readFile (str! "A")) ∧ Unsupported (.link (str! "A") (str! "B")) ∧ ¬ Asks (.remove (str! "A")) := ⟨trivial, trivial, id⟩

end Disko.Fat

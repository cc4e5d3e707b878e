import Verif.Driver.Props24
/-! C123: which calls close all the handles they get. -/
namespace Disko.Driver
open Disko Spec BlockCache

variable {σ H α β : Type}

namespace Spec

/-- The numbers of the handles given out between `t` and `t'` that are still open. -/
def Leaked (t t' : Lives σ) (k : Nat) : Prop := t.issued ≤ k ∧ k < t'.issued ∧ k ∉ t'.closed

/-- When the call returns, with or without an error, it has closed all handles it got. -/
def ClosesAll (m : M (Lives σ) α) : Prop := ∀ t t' r, m t = .ret (t', r) → ∀ k, ¬ Leaked t t' k

/-- When the call succeeds and the program then closes the file it has opened, all handles it got are closed. -/
def ClosesAllAfter (d : Drv (Lives σ) (Tagged H)) (m : M (Lives σ) (File (Tagged H))) : Prop := ClosesAll (M.andThen m fun f => f.close d)

end Spec

namespace Mortal

/-- Whenever the call returns, the handles it got and the handle `O` are closed, but for the handle its result
holds. -/
def Tidy (O : Option Nat) (own : α → Option Nat) (m : M (Lives σ) α) : Prop :=
  ∀ t t' r, m t = .ret (t', r) → t.issued ≤ t'.issued ∧ (∀ k ∈ t.closed, k ∈ t'.closed) ∧
    ∀ k, (t.issued ≤ k ∧ k < t'.issued) ∨ O = some k → k ∈ t'.closed ∨ ∃ a, r = .ok a ∧ own a = some k

/-- The result holds no handle. -/
def nothing : α → Option Nat := fun _ => none

theorem Tidy.closesAll {O : Option Nat} {m : M (Lives σ) α} (h : Tidy O nothing m) : ClosesAll m := fun t t' r hr k hk => by
  obtain ⟨_, _, h3⟩ := h t t' r hr
  rcases h3 k (.inl ⟨hk.1, hk.2.1⟩) with h | ⟨a, _, h⟩
  · exact hk.2.2 h
  · cases h

namespace Tidy
variable {O : Option Nat} {own : α → Option Nat} {own2 : β → Option Nat} {m : M (Lives σ) α}

theorem weaken (h : Tidy O own m) : Tidy none own m := fun t t' r hr =>
  ⟨(h t t' r hr).1, (h t t' r hr).2.1, fun k hk => (h t t' r hr).2.2 k (hk.elim .inl fun e => by cases e)⟩
theorem ok (a : α) : Tidy (own a) own (M.ok a : M (Lives σ) α) := fun t t' r hr => by
  cases hr
  exact ⟨Nat.le_refl _, fun _ h => h, fun k hk => hk.elim (fun h => absurd h.2 (by omega)) fun e => .inr ⟨a, rfl, e⟩⟩
theorem okNone (a : α) : Tidy none own (M.ok a : M (Lives σ) α) := (ok a).weaken
theorem fail {e : Err} : Tidy none own (M.fail e : M (Lives σ) α) := fun t t' r hr => by
  cases hr
  exact ⟨Nat.le_refl _, fun _ h => h, fun k hk => hk.elim (fun h => absurd h.2 (by omega)) fun e => by cases e⟩
theorem crash : Tidy O own (M.crash : M (Lives σ) α) := fun t t' r hr => by cases hr
theorem timeout : Tidy O own (fun _ => .timeout : M (Lives σ) α) := fun t t' r hr => by cases hr
theorem ite {p : Prop} [Decidable p] {k : M (Lives σ) α} (h : p → Tidy O own m) (hk : ¬ p → Tidy O own k) : Tidy O own (if p then m else k) := by
  by_cases hp : p
  · rw [if_pos hp]; exact h hp
  · rw [if_neg hp]; exact hk hp
theorem method {e : Ext (Tagged H)} {f : Tagged H → M (Lives σ) α} (h : ∀ x, e.inner = some x → Tidy O own (f x)) : Tidy O own (e.method f) := by
  unfold Ext.method
  split
  · exact crash
  · rename_i x hx; exact h x hx
theorem andThen {f : α → M (Lives σ) β} (h : Tidy O own m) (hf : ∀ a, Tidy (own a) own2 (f a)) : Tidy O own2 (M.andThen m f) := by
  intro t t' r hr
  unfold M.andThen at hr
  rcases e : m t with ⟨t1, er | a⟩ | _ | _
  · rw [e] at hr
    cases hr
    obtain ⟨h1, h2, h3⟩ := h _ _ _ e
    exact ⟨h1, h2, fun k hk => (h3 k hk).imp id fun ⟨a, ha, _⟩ => by cases ha⟩
  · rw [e] at hr
    obtain ⟨h1, h2, h3⟩ := h _ _ _ e
    obtain ⟨k1, k2, k3⟩ := hf a _ _ _ hr
    refine ⟨Nat.le_trans h1 k1, fun k hk => k2 k (h2 k hk), fun k hk => ?_⟩
    by_cases hn : t1.issued ≤ k ∧ k < t'.issued
    · exact k3 k (.inl hn)
    · have : t.issued ≤ k ∧ k < t1.issued ∨ O = some k := hk.imp (fun h => ⟨h.1, by omega⟩) id
      rcases h3 k this with h | ⟨a', ha, hw⟩
      · exact .inl (k2 k h)
      · cases ha
        exact k3 k (.inr hw)
  · rw [e] at hr; cases hr
  · rw [e] at hr; cases hr
theorem either {f : Except Err α → M (Lives σ) β} (h : Tidy O own m) (hf : ∀ a, Tidy (own a) own2 (f (.ok a))) (hfe : ∀ e, Tidy none own2 (f (.error e))) :
    Tidy O own2 (M.either m f) := by
  intro t t' r hr
  unfold M.either at hr
  rcases e : m t with ⟨t1, er | a⟩ | _ | _
  · rw [e] at hr
    obtain ⟨h1, h2, h3⟩ := h _ _ _ e
    obtain ⟨k1, k2, k3⟩ := hfe er _ _ _ hr
    refine ⟨Nat.le_trans h1 k1, fun k hk => k2 k (h2 k hk), fun k hk => ?_⟩
    by_cases hn : t1.issued ≤ k ∧ k < t'.issued
    · exact k3 k (.inl hn)
    · have : t.issued ≤ k ∧ k < t1.issued ∨ O = some k := hk.imp (fun h => ⟨h.1, by omega⟩) id
      rcases h3 k this with h | ⟨a', ha, hw⟩
      · exact .inl (k2 k h)
      · cases ha
  · rw [e] at hr
    obtain ⟨h1, h2, h3⟩ := h _ _ _ e
    obtain ⟨k1, k2, k3⟩ := hf a _ _ _ hr
    refine ⟨Nat.le_trans h1 k1, fun k hk => k2 k (h2 k hk), fun k hk => ?_⟩
    by_cases hn : t1.issued ≤ k ∧ k < t'.issued
    · exact k3 k (.inl hn)
    · have : t.issued ≤ k ∧ k < t1.issued ∨ O = some k := hk.imp (fun h => ⟨h.1, by omega⟩) id
      rcases h3 k this with h | ⟨a', ha, hw⟩
      · exact .inl (k2 k h)
      · cases ha
        exact k3 k (.inr hw)
  · rw [e] at hr; cases hr
  · rw [e] at hr; cases hr
/-- A call that gives out and closes nothing. -/
theorem still (h : Keeps (fun t t' : Lives σ => Still t t') (fun _ => True) m) : Tidy none own m := fun t t' r hr => by
  obtain ⟨h1, h2⟩ := (h _ _ _ hr).1
  exact ⟨Nat.le_of_eq h1.symm, fun k hk => by rw [h2]; exact hk, fun k hk => hk.elim (fun h => absurd h.2 (by omega)) fun e => by cases e⟩

end Tidy

theorem still_pre : Pre (fun t t' : Lives σ => Still t t') := ⟨Still.refl, Still.trans⟩

theorem still_use (t : Lives σ) (h : Tagged H) (s' : σ) : Still t (t.use h s') := ⟨rfl, rfl⟩

section
variable (cfg : Cfg) (I : Impl σ H) (mf : MountFlags) (wd : Str) (g : Garbage σ H)

local notation "d" => md cfg I mf wd g

theorem stat_then {O : Option Nat} {own : α → Option Nat} (e : Ext (Tagged H)) {f : FileStat → M (Lives σ) α} (h : ∀ st, Tidy O own (f st)) :
    Tidy O own (M.andThen (statOf d e) f) := by
  intro t t' r hr
  unfold M.andThen statOf Ext.method at hr
  rcases he : e.inner with _ | x
  · rw [he] at hr; cases hr
  · rw [he] at hr
    exact h _ t t' r hr

theorem closeH_tidy (h : Tagged H) : Tidy h.2 nothing (M.callE ((d).impl.close · h)) := by
  intro t t' r hr
  obtain ⟨k1, _, k3⟩ := close_tag t h (I.close t.s h.1).1
  have hc : (d).impl.close t h = (t.close h (I.close t.s h.1).1, (I.close t.s h.1).2) := rfl
  simp only [M.callE, hc] at hr
  have : t' = t.close h (I.close t.s h.1).1 := by
    rcases e2 : (I.close t.s h.1).2 with _ | er <;> rw [e2] at hr <;> cases hr <;> rfl
  subst this
  exact ⟨Nat.le_of_eq k1.symm, fun k hk => (k3 k).mpr (.inl hk), fun k hk => .inl <| hk.elim (fun h => absurd h.2 (by omega)) fun e => (k3 k).mpr (.inr e)⟩

theorem close_tidy (e : Ext (Tagged H)) : Tidy (tag e) nothing (closeOf d e) :=
  .method fun h he => by rw [tag_some he]; exact closeH_tidy cfg I mf wd g h

/-- Closing on the way out. -/
theorem defer_tidy (e : Ext (Tagged H)) {own : α → Option Nat} {m : M (Lives σ) α} (h : Tidy none own m) : Tidy (tag e) own (M.deferred (closeOf d e) m) := by
  intro t t' r hr
  unfold M.deferred M.either at hr
  rcases e1 : m t with ⟨t1, r1⟩ | _ | _
  · rw [e1] at hr
    simp only at hr
    rcases e2 : closeOf d e t1 with ⟨t2, r2⟩ | _ | _
    · rw [e2] at hr
      cases hr
      obtain ⟨h1, h2, h3⟩ := h _ _ _ e1
      obtain ⟨k1, k2, k3⟩ := close_tidy cfg I mf wd g e _ _ _ e2
      have ki := (close_does cfg I mf wd g e2).1
      refine ⟨Nat.le_trans h1 k1, fun k hk => k2 k (h2 k hk), fun k hk => ?_⟩
      rcases hk with hk | hk
      · exact (h3 k (.inl ⟨hk.1, by omega⟩)).imp (k2 k) id
      · rcases k3 k (.inr hk) with h | ⟨_, _, h⟩
        · exact .inl h
        · cases h
    · rw [e2] at hr; cases hr
    · rw [e2] at hr; cases hr
  · rw [e1] at hr; cases hr
  · rw [e1] at hr; cases hr

/-- Giving out a handle. -/
theorem issue_tidy {f : Lives σ → Lives σ × Except Err (Tagged H)} (h : Lives σ → Lives σ) (hs : ∀ t, Still t (h t)) (r : Lives σ → Except Err H) (hf : ∀ t, f t = (h t).issue (r t)) :
    Tidy none (fun x : Tagged H => x.2) (M.call f) := by
  intro t t' q hr
  unfold M.call at hr
  rw [hf] at hr
  obtain ⟨s1, s2⟩ := hs t
  rcases e : r t with er | x
  · rw [e] at hr
    simp only [Lives.issue] at hr
    cases hr
    exact ⟨Nat.le_of_eq s1.symm, fun k hk => by rw [s2]; exact hk, fun k hk => hk.elim (fun h => absurd h.2 (by omega)) fun e => by cases e⟩
  · rw [e] at hr
    simp only [Lives.issue] at hr
    cases hr
    refine ⟨by simp only; omega, fun k hk => by rw [s2]; exact hk, fun k hk => .inr ⟨_, rfl, ?_⟩⟩
    rcases hk with hk | hk
    · simp only at hk ⊢; exact congrArg some (by omega)
    · cases hk

theorem getObject_tidy (n : Str) (p : Tagged H) : Tidy none (fun x : Tagged H => x.2) (M.call ((d).impl.getObject · n p)) :=
  issue_tidy (fun t => t.use p (I.getObject t.s n p.1).1) (fun t => still_use t p _) (fun t => (I.getObject t.s n p.1).2) fun _ => rfl

theorem createObject_tidy (n : Str) (p : Tagged H) (m : FileMode) : Tidy none (fun x : Tagged H => x.2) (M.call ((d).impl.createObject · n p m)) :=
  issue_tidy (fun t => t.use p (I.createObject t.s n p.1 m).1) (fun t => still_use t p _) (fun t => (I.createObject t.s n p.1 m).2) fun _ => rfl

/-- The wrapper keeps the handle, so that nothing is lost; if it does not, nothing returns. -/
theorem getExt_tidy (hk : cfg.keepHandle = true) (n : Str) (p : Ext (Tagged H)) : Tidy none tag (getExtObjectInDir d n p) :=
  .method fun h _ => .andThen (getObject_tidy cfg I mf wd g n h) fun x => by
    have : tag (wrapObjectHandle cfg (some x) (Path.join p.absolutePath n)) = x.2 := by unfold tag wrapObjectHandle; rw [hk]; rfl
    show Tidy x.2 tag _
    rw [← this]
    exact .ok _

theorem contents_tidy (e : Ext (Tagged H)) : Tidy none nothing (getContentsOfObject d e) :=
  .still fun t t' r hr => ⟨contents_frame still_pre d e t (fun h _ s i buf _ => still_use s h _) hr, fun _ _ => trivial⟩

theorem resolve_tidy (hk : cfg.keepHandle = true) : ∀ n : Nat,
    (∀ p, Tidy none tag (getNoFollow d n p)) ∧ (∀ p, Tidy none tag (getFollow d n p)) ∧ (∀ e, Tidy (tag e) tag (followLoop d n e)) ∧
    (∀ e, Tidy none tag (resolveSymlink d n e)) ∧ (∀ c e, Tidy (tag e) tag (symlinkLoop d n c e))
  | 0 => ⟨fun p => by rw [getNoFollow]; exact .timeout, fun p => by rw [getFollow]; exact .timeout, fun e => by rw [followLoop]; exact .timeout,
      fun e => by rw [resolveSymlink]; exact .timeout, fun c e => by rw [symlinkLoop]; exact .timeout⟩
  | n + 1 => by
    obtain ⟨i1, i2, i3, i4, i5⟩ := resolve_tidy hk n
    refine ⟨fun p => ?_, fun p => ?_, fun e => ?_, fun e => ?_, fun c e => ?_⟩
    · rw [getNoFollow]
      refine .ite (fun _ => ?_) fun _ => .andThen (i2 _) fun parent => defer_tidy cfg I mf wd g parent <| stat_then cfg I mf wd g _ fun st => .ite (fun _ => .fail) fun _ => getExt_tidy cfg I mf wd g hk _ parent
      exact .still fun t t' r hr => by cases hr; exact ⟨.refl _, fun _ _ => trivial⟩
    · rw [getFollow]
      exact .andThen (i1 _) fun e => i3 e
    · rw [followLoop]
      exact stat_then cfg I mf wd g _ fun st => .ite (fun _ => .ok e) fun _ => .andThen (defer_tidy cfg I mf wd g e (i4 e)) fun e' => i3 e'
    · rw [resolveSymlink]
      exact stat_then cfg I mf wd g _ fun st => .ite (fun _ => .okNone e) fun _ => (i5 _ e).weaken
    · rw [symlinkLoop]
      refine .andThen (defer_tidy cfg I mf wd g e (contents_tidy cfg I mf wd g e)) fun text => .ite (fun _ => .fail) fun _ => .andThen (i1 _) fun e' => ?_
      exact stat_then cfg I mf wd g _ fun st => .ite (fun _ => .ok e') fun _ => i5 _ e'

/-- Find, do, close. -/
theorem path_tidy (hk : cfg.keepHandle = true) (n : Nat) (p : Str) {body : Ext (Tagged H) → M (Lives σ) α} (hb : ∀ e, Tidy none nothing (body e)) :
    Tidy none nothing (M.andThen (getFollow d n p) fun e => M.deferred (closeOf d e) (body e)) :=
  .andThen ((resolve_tidy cfg I mf wd g hk n).2.1 p) fun e => defer_tidy cfg I mf wd g e (hb e)

theorem stat_tidy (e : Ext (Tagged H)) : Tidy none nothing (statOf d e) := .still (Keeps.statOf still_pre _ e)

theorem unlink_tidy (e : Ext (Tagged H)) : Tidy none nothing (unlinkOf d e) :=
  .still (Keeps.method fun h => Keeps.callE fun s => ⟨still_use s h _, fun _ _ => trivial⟩)

theorem listDir_tidy {h : Tagged H} {f : Lives σ → Lives σ × Except Err (List Str)} (hf : (mortal I g).listDir h = some f) :
    Tidy none nothing (M.call f) := by
  have hf : (I.listDir h.1).map (fun f (t : Lives σ) => (t.use h (f t.s).1, (f t.s).2)) = some f := hf
  rcases e : I.listDir h.1 with _ | q
  · rw [e] at hf; cases hf
  · rw [e] at hf; cases hf
    exact .still (Keeps.call fun s => ⟨still_use s h _, fun _ _ => trivial⟩)

theorem createAndClose_tidy (n : Str) (e : Ext (Tagged H)) (m : FileMode) : Tidy none nothing (createAndClose d n e m) :=
  .method fun h _ => .andThen (createObject_tidy cfg I mf wd g n h m) fun x =>
    .either (closeH_tidy cfg I mf wd g x) (fun _ => .okNone ()) fun _ => .okNone ()

theorem readDirLoop_tidy (h : Tagged H) (names : List Str) : ∀ out, Tidy none nothing (readDirLoop d h names out) := by
  induction names with
  | nil => intro out; exact .okNone out
  | cons n ns ih =>
    intro out
    rw [readDirLoop]
    refine .ite (fun _ => ih out) fun _ => .andThen (getObject_tidy cfg I mf wd g n h) fun x => ?_
    intro t t' r hr
    exact (Tidy.either (f := fun _ => readDirLoop d h ns (out ++ [newDirectoryEntry (d).impl t x])) (closeH_tidy cfg I mf wd g x) (fun _ => ih _) fun _ => ih _) t t' r hr

theorem readDirObject_tidy (e : Ext (Tagged H)) : Tidy none nothing (readDirObject d e) := by
  unfold readDirObject
  rcases he : e.optional (d).cfg (d).impl.listDir with _ | f
  · exact .crash
  · obtain ⟨x, hx, hf⟩ := optional_tag he
    exact .andThen (listDir_tidy I g hf) fun names => .method fun h _ => readDirLoop_tidy cfg I mf wd g h names []

theorem removeLoop_tidy (hk : cfg.keepHandle = true) {rec : Ext (Tagged H) → M (Lives σ) Unit} (hrec : ∀ e, Tidy none nothing (rec e)) (dir : Ext (Tagged H)) (names : List Str) :
    Tidy none nothing (removeLoop d rec dir names) := by
  induction names with
  | nil => exact .okNone ()
  | cons n ns ih =>
    rw [removeLoop]
    refine .ite (fun _ => ih) fun _ => .andThen (getExt_tidy cfg I mf wd g hk n dir) fun e => stat_then cfg I mf wd g e fun st => ?_
    have last : Tidy (tag e) nothing (M.andThen (M.deferred (closeOf d e) (unlinkOf d e)) fun _ => removeLoop d rec dir ns) :=
      .andThen (defer_tidy cfg I mf wd g e (unlink_tidy cfg I mf wd g e)) fun _ => ih
    refine .andThen (own := fun _ => tag e) ?_ fun _ => last
    refine .ite (fun _ => ?_) fun _ => Tidy.ok (own := fun _ : Unit => tag e) ()
    intro t t' r hr
    unfold M.either at hr
    rcases e1 : rec (wrapObjectHandle (d).cfg e.inner (Path.join dir.absolutePath n)) t with ⟨t1, er | u⟩ | _ | _
    · rw [e1] at hr
      obtain ⟨h1, h2, h3⟩ := hrec _ _ _ _ e1
      have hc := Tidy.either (own2 := fun _ : Unit => tag e) (close_tidy cfg I mf wd g e) (f := fun _ => M.fail er) (fun _ => .fail) (fun _ => .fail)
      obtain ⟨k1, k2, k3⟩ := hc _ _ _ hr
      refine ⟨Nat.le_trans h1 k1, fun k hk => k2 k (h2 k hk), fun k hk => ?_⟩
      by_cases hn : (t1.issued ≤ k ∧ k < t'.issued) ∨ tag e = some k
      · exact k3 k hn
      · rcases hk with hk | hk
        · rcases h3 k (.inl ⟨hk.1, by omega⟩) with h | ⟨_, _, h⟩
          · exact .inl (k2 k h)
          · cases h
        · exact absurd (.inr hk) hn
    · rw [e1] at hr
      cases hr
      obtain ⟨h1, h2, h3⟩ := hrec _ _ _ _ e1
      refine ⟨h1, h2, fun k hk => ?_⟩
      rcases hk with hk | hk
      · rcases h3 k (.inl hk) with h | ⟨_, _, h⟩
        · exact .inl h
        · cases h
      · exact .inr ⟨u, rfl, hk⟩
    · rw [e1] at hr; cases hr
    · rw [e1] at hr; cases hr

theorem removeDirectory_tidy (hk : cfg.keepHandle = true) : ∀ (n : Nat) (e : Ext (Tagged H)), Tidy none nothing (removeDirectory d n e)
  | 0, e => by rw [removeDirectory]; exact .timeout
  | n + 1, e => by
    rw [removeDirectory]
    rcases he : e.optional (d).cfg (d).impl.listDir with _ | f
    · exact .crash
    · obtain ⟨x, hx, hf⟩ := optional_tag he
      exact .andThen (listDir_tidy I g hf) fun names => removeLoop_tidy cfg I mf wd g hk (removeDirectory_tidy hk n) e names

theorem remove_tidy (hk : cfg.keepHandle = true) (n : Nat) (p : Str) : Tidy none nothing (remove d n p) := by
  refine path_tidy cfg I mf wd g hk n _ fun e => stat_then cfg I mf wd g e fun st => .ite (fun _ => ?_) fun _ => .ite (fun _ => .fail) fun _ => unlink_tidy cfg I mf wd g e
  rcases he : e.optional (d).cfg (d).impl.listDir with _ | f
  · exact .crash
  · obtain ⟨x, hx, hf⟩ := optional_tag he
    exact .andThen (listDir_tidy I g hf) fun names => .ite (fun _ => .fail) fun _ => unlink_tidy cfg I mf wd g e

theorem removeAll_tidy (hk : cfg.keepHandle = true) (n : Nat) (p : Str) : Tidy none nothing (removeAll d n p) := by
  refine path_tidy cfg I mf wd g hk n _ fun e => stat_then cfg I mf wd g e fun st => .ite (fun _ => .fail) fun _ => .method fun h _ => ?_
  intro t t' r hr
  simp only at hr
  split at hr
  · exact (Tidy.fail (own := nothing) : Tidy none nothing (M.fail .permissionDenied : M (Lives σ) Unit)) t t' r hr
  · exact removeDirectory_tidy cfg I mf wd g hk n e t t' r hr

theorem mkdirAll_tidy (hk : cfg.keepHandle = true) : ∀ (n : Nat) (p : Str) (perm : FileMode), Tidy none nothing (mkdirAll d n p perm)
  | 0, p, perm => by rw [mkdirAll]; exact .timeout
  | n + 1, p, perm => by
    rw [mkdirAll]
    refine .either ((resolve_tidy cfg I mf wd g hk n).2.1 _) (fun e => ?_) fun er => .ite (fun _ => ?_) fun _ => .fail
    · exact defer_tidy cfg I mf wd g e (createAndClose_tidy cfg I mf wd g _ e _)
    · exact .either (mkdirAll_tidy hk n _ _) (fun _ => .crash) fun _ => .crash

theorem onStream_tidy (f : File (Tagged H)) {op : Backend (Lives σ) → Stream.Stm (Lives σ) → Outcome (Stream.Stm (Lives σ) × α)}
    (hop : ∀ h t r, op (backendOf (d).impl h) (f.streamIn t) = .ret r → Still t r.1.st.s) : Tidy none nothing (f.onStream d op) := by
  refine .method fun h _ => .still fun t t' r hn => ⟨?_, fun _ _ => trivial⟩
  rcases h2 : op (backendOf (d).impl h) (f.streamIn t) with ⟨x, a⟩ | _ | _
  · have := hop h t _ h2
    rw [h2] at hn
    cases hn
    exact this
  · rw [h2] at hn; cases hn
  · rw [h2] at hn; cases hn

theorem ask_tidy {m : M (Lives σ) α} (h : Tidy none nothing m) (w : β) (k : α → β × Answer) : Tidy none nothing (ask m w k) :=
  .either h (fun a => .okNone _) fun e => .okNone _

theorem fileReadDir_tidy (f : File (Tagged H)) (n : Int) : Tidy none nothing (f.readDir d n) := by
  unfold File.readDir
  refine stat_then cfg I mf wd g _ fun st => .ite (fun _ => .okNone _) fun _ => ?_
  rcases f.lastReadDirResult with _ | es
  · exact .either (readDirObject_tidy cfg I mf wd g _) (fun es => .okNone _) fun er => .okNone _
  · exact .okNone _

theorem stepFile_tidy (f : File (Tagged H)) (op : FileOp) : Tidy none nothing (stepFile d f op) := by
  have P := still_pre (σ := σ)
  have u1 : ∀ (h : Tagged H) (s : Lives σ) (i : Nat) (buf : Bytes), Still s ((backendOf (d).impl h).fetch s i buf).1 := fun h s _ _ => still_use s h _
  have u2 : ∀ (h : Tagged H) (s : Lives σ) (i : Nat) (buf : Bytes), Still s ((backendOf (d).impl h).flush s i buf).1 := fun h s _ _ => still_use s h _
  have u3 : ∀ (h : Tagged H) (s : Lives σ) (n : Nat), Still s ((backendOf (d).impl h).resize s n).1 := fun h s _ => still_use s h _
  cases op with
  | read len => exact ask_tidy (onStream_tidy cfg I mf wd g f fun h t r hr => (Stream.read_frame P.refl P.trans (backendOf (d).impl h) (f.streamIn t) (fun s i buf _ => u1 h s i buf) (List.replicate len 0) r hr).rel) _ _
  | readAt len off => exact ask_tidy (onStream_tidy cfg I mf wd g f fun h t r hr => (Stream.readAt_frame P.refl P.trans (backendOf (d).impl h) (f.streamIn t) (fun s i buf _ => u1 h s i buf) (List.replicate len 0) off r hr).rel) _ _
  | write data => exact ask_tidy (onStream_tidy cfg I mf wd g f fun h t r hr => Stream.write_frame P.refl P.trans (backendOf (d).impl h) (u1 h) (u2 h) (u3 h) (f.streamIn t) data r hr) _ _
  | writeAt data off => exact ask_tidy (onStream_tidy cfg I mf wd g f fun h t r hr => writeAt_frame P.refl P.trans (backendOf (d).impl h) (u1 h) (u2 h) (u3 h) (f.streamIn t) data off r hr) _ _
  | seek off whence =>
    refine ask_tidy (onStream_tidy cfg I mf wd g f fun h t r hr => ?_) _ _
    cases hr
    rw [seek_st]
    exact P.refl _
  | truncate n => exact ask_tidy (onStream_tidy cfg I mf wd g f fun h t r hr => Stream.truncate_frame P.refl P.trans (backendOf (d).impl h) (u1 h) (u2 h) (u3 h) (f.streamIn t) n r hr) _ _
  | sync => exact ask_tidy (onStream_tidy cfg I mf wd g f fun h t r hr => Stream.sync_frame P.refl P.trans (backendOf (d).impl h) (u1 h) (u2 h) (f.streamIn t) r hr) _ _
  | chdir => exact ask_tidy (stat_then cfg I mf wd g _ fun st => .ite (fun _ => .fail) fun _ => .okNone _) _ _
  | chmod mode =>
    refine ask_tidy ?_ _ _
    unfold File.chmod
    rcases he : f.objectHandle.optional (d).cfg (d).impl.chmod with _ | m
    · exact .fail
    · obtain ⟨x, hx, hm⟩ := optional_tag he
      have hm : (I.chmod x.1).map (fun f (t : Lives σ) m => (t.use x (f t.s m).1, (f t.s m).2)) = some m := hm
      rcases e : I.chmod x.1 with _ | q
      · rw [e] at hm; cases hm
      · rw [e] at hm; cases hm
        exact .still (Keeps.callE fun s => ⟨still_use s x _, fun _ _ => trivial⟩)
  | chown u v =>
    refine ask_tidy ?_ _ _
    unfold File.chown
    rcases he : f.objectHandle.optional (d).cfg (d).impl.chown with _ | m
    · exact .fail
    · obtain ⟨x, hx, hm⟩ := optional_tag he
      have hm : (I.chown x.1).map (fun f (t : Lives σ) u v => (t.use x (f t.s u v).1, (f t.s u v).2)) = some m := hm
      rcases e : I.chown x.1 with _ | q
      · rw [e] at hm; cases hm
      · rw [e] at hm; cases hm
        exact .still (Keeps.callE fun s => ⟨still_use s x _, fun _ _ => trivial⟩)
  | name => exact ask_tidy (.method fun h _ => .still fun t t' r hr => by cases hr; exact ⟨.refl _, fun _ _ => trivial⟩) _ _
  | readDir n => exact ask_tidy (fileReadDir_tidy cfg I mf wd g f n) _ _
  | readdir n =>
    refine ask_tidy (.andThen (fileReadDir_tidy cfg I mf wd g f n) fun r => ?_) _ _
    rcases r with ⟨f', es, _ | e⟩ <;> exact .okNone _
  | readdirnames n =>
    refine ask_tidy (.andThen (fileReadDir_tidy cfg I mf wd g f n) fun r => ?_) _ _
    rcases r with ⟨f', es, _ | e⟩ <;> exact .okNone _
  | stat => exact .okNone _

end

end Mortal
open Mortal

namespace Spec
/-- The calls that do not leave a handle to the program: all but those that open files, Chmod, Chown, Lchown, Chtimes, Link and WriteFile. -/
def Tidying : Op → Bool
  | .openFile .. | .open_ .. | .create .. | .chmod .. | .chown .. | .lchown .. | .chtimes .. | .link .. | .writeFile .. => false
  | _ => true
end Spec

section
variable (cfg : Cfg) (I : Impl σ H) (mf : MountFlags) (g : Garbage σ H) (fuel : Nat)

theorem stepOp_tidy (hk : cfg.keepHandle = true) (wd : Str) (w : World (Tagged H)) (op : Op) (ht : Tidying op = true) :
    Tidy none nothing (stepOp (md cfg I mf wd g) fuel w op) := by
  cases op with
  | openFile p flags perm => cases ht
  | open_ p => cases ht
  | create p => cases ht
  | chmod p m => cases ht
  | chown p u v => cases ht
  | lchown p u v => cases ht
  | chtimes p a m => cases ht
  | link o n => cases ht
  | writeFile p data perm => cases ht
  | chdir p => exact ask_tidy (path_tidy cfg I mf w.wd g hk fuel _ fun e => stat_then cfg I mf w.wd g e fun st => .ite (fun _ => .fail) fun _ => .okNone _) _ _
  | readFile p => exact ask_tidy (path_tidy cfg I mf w.wd g hk fuel _ fun e => contents_tidy cfg I mf w.wd g e) _ _
  | stat p => exact ask_tidy (path_tidy cfg I mf w.wd g hk fuel _ fun e => stat_tidy cfg I mf w.wd g e) _ _
  | readDir p => exact ask_tidy (path_tidy cfg I mf w.wd g hk fuel _ fun e => readDirObject_tidy cfg I mf w.wd g e) _ _
  | readlink p =>
    refine ask_tidy ?_ _ _
    unfold readlink
    exact .ite (fun _ => .fail) fun _ => .andThen ((resolve_tidy cfg I mf w.wd g hk fuel).1 _) fun e => defer_tidy cfg I mf w.wd g e <| stat_then cfg I mf w.wd g e fun st =>
      .ite (fun _ => .fail) fun _ => contents_tidy cfg I mf w.wd g e
  | lstat p =>
    exact ask_tidy (.andThen ((resolve_tidy cfg I mf w.wd g hk fuel).1 _) fun e => defer_tidy cfg I mf w.wd g e <| .andThen ((resolve_tidy cfg I mf w.wd g hk fuel).2.2.2.1 e) fun e' =>
      defer_tidy cfg I mf w.wd g e' (stat_tidy cfg I mf w.wd g e')) _ _
  | remove p => exact ask_tidy (remove_tidy cfg I mf w.wd g hk fuel p) _ _
  | truncate p =>
    exact ask_tidy (path_tidy cfg I mf w.wd g hk fuel _ fun e => stat_then cfg I mf w.wd g e fun st => .ite (fun _ => .fail) fun _ =>
      .still (Keeps.method fun h t t' r hr => by
        have hc : (md cfg I mf wd g).impl.resize t h 0 = (t.use h (I.resize t.s h.1 0).1, (I.resize t.s h.1 0).2) := rfl
        simp only [hc] at hr
        rcases e2 : (I.resize t.s h.1 0).2 with _ | er <;> rw [e2] at hr <;> cases hr <;> exact ⟨still_use t h _, fun _ _ => trivial⟩)) _ _
  | mkdir p perm =>
    exact ask_tidy (path_tidy cfg I mf w.wd g hk fuel _ fun e => stat_then cfg I mf w.wd g e fun st => .ite (fun _ => .fail) fun _ => createAndClose_tidy cfg I mf w.wd g _ e _) _ _
  | mkdirAll p perm => exact ask_tidy (mkdirAll_tidy cfg I mf w.wd g hk fuel p perm) _ _
  | removeAll p => exact ask_tidy (removeAll_tidy cfg I mf w.wd g hk fuel p) _ _
  | getwd => exact .okNone _
  | file i op =>
    simp only [stepOp]
    rcases hf : w.files[i]? with _ | f
    · exact .okNone _
    · exact .andThen (stepFile_tidy cfg I mf w.wd g f op) fun r => .okNone _

/-- C123, positive part: whatever files the program has open, Chdir, ReadFile, Stat, ReadDir, Readlink, Lstat, Remove, Truncate, Mkdir, MkdirAll,
RemoveAll, Getwd and all methods of open files close every handle they get, whether they succeed or fail and however many of them are
made. -/
theorem C123_tidy_partial (hk : cfg.keepHandle = true) (wd : Str) (w : World (Tagged H)) (ops : List Op) (ht : ∀ op ∈ ops, Tidying op = true) :
    ClosesAll (runOps ⟨cfg, mortal I g, mf, wd⟩ fuel w ops) := by
  have key : ∀ (ops : List Op) (w : World (Tagged H)), (∀ op ∈ ops, Tidying op = true) → Tidy none nothing (runOps (md cfg I mf wd g) fuel w ops) := by
    intro ops
    induction ops with
    | nil => intro w _; exact .okNone _
    | cons op ops ih =>
      intro w ht
      rw [runOps]
      exact .andThen (stepOp_tidy cfg I mf g fuel hk wd w op (ht op (by simp))) fun r => .andThen (ih r.1 fun o ho => ht o (by simp [ho])) fun r' => .okNone _
  exact (key ops w ht).closesAll

/-- C123 fails for open files: whatever a program has done, every file it has opened so far still holds an open handle; Close does not close
it (only the handle of the root directory has no number). -/
theorem C123_files_stay_open (s : σ) (ops : List Op) (t : Lives σ) (w : World (Tagged H)) (as : List Answer)
    (hr : runOps (new cfg (mortal I g) mf) fuel .start ops (.start s) = .ret (t, .ok (w, as))) :
    ∀ f ∈ w.files, ∀ h k, f.objectHandle.inner = some (h, some k) → k < t.issued ∧ k ∉ t.closed := by
  have h := runOps_safe cfg I mf g g fuel (str! "/") ops (.start s) .start (fun k hk => nomatch hk) fun f hf => nomatch hf
  intro f hf x k hx
  exact (h.2 _ _ hr).2.2 _ rfl f hf k (tag_some hx)

end

namespace Spec
/-- C123: every operation closes the handles it gets: the operations on paths before they return, those that open files when the file is
closed. -/
def C123_statement : Prop := ∀ (σ H : Type) (cfg : Cfg) (I : Impl σ H) (g : Garbage σ H) (mf : MountFlags) (wd : Str) (fuel : Nat),
  let d : Drv (Lives σ) (Tagged H) := ⟨cfg, mortal I g, mf, wd⟩
  (∀ w ops, (∀ op ∈ ops, Tidying op = true) → ClosesAll (runOps d fuel w ops)) ∧
  (∀ p mode, ClosesAll (chmod d fuel p mode)) ∧ (∀ p u v, ClosesAll (chown d fuel p u v)) ∧ (∀ p u v, ClosesAll (lchown d fuel p u v)) ∧
  (∀ p a m, ClosesAll (chtimes d fuel p a m)) ∧ (∀ o n, ClosesAll (link d fuel o n)) ∧ (∀ p data perm, ClosesAll (writeFile d fuel p data perm)) ∧
  (∀ p flags perm, ClosesAllAfter d (openFile d fuel p flags perm))
end Spec

/-- The open handles a call leaves, of those it got. -/
def leakedBy (m : M (Lives σ) α) (t : Lives σ) : Option (List Nat) :=
  match m t with
  | .ret (t', _) => some ((List.range t'.issued).filter fun k => decide (t.issued ≤ k) && !decide (k ∈ t'.closed))
  | _ => none

theorem leak_of {m : M (Lives σ) α} {t : Lives σ} {k : Nat} {ks : List Nat} (h : leakedBy m t = some (k :: ks)) : ¬ ClosesAll m := by
  intro hc
  unfold leakedBy at h
  rcases e : m t with ⟨t', r⟩ | _ | _
  · rw [e] at h
    injection h with h
    have hm : k ∈ (List.range t'.issued).filter fun k => decide (t.issued ≤ k) && !decide (k ∈ t'.closed) := by rw [h]; simp
    simp only [List.mem_filter, List.mem_range, Bool.and_eq_true, decide_eq_true_eq, Bool.not_eq_true', decide_eq_false_iff_not] at hm
    exact hc _ _ _ e k ⟨hm.2.1, hm.1, hm.2.2⟩
  · rw [e] at h; cases h
  · rw [e] at h; cases h

/-- `linked`, with hard links. -/
def linkable : Impl Unit Nat := { linked with createHardLink := some fun s _ _ _ => (s, .ok 120) }

/-- C123, what is false: on a volume with the file "c", Chmod, Chown, Lchown, Chtimes and WriteFile each leave the handle of "c" open, Link leaves
two handles open, and opening "c" and closing the file again leaves its handle open. -/
theorem C123_leaks :
    leakedBy (chmod (new keeping (mortal linked liar) 31) 19 (str! "c") 0o644) (.start ()) = some [0] ∧
    leakedBy (chown (new keeping (mortal linked liar) 31) 19 (str! "c") 1 2) (.start ()) = some [0] ∧
    leakedBy (lchown (new keeping (mortal linked liar) 31) 19 (str! "c") 1 2) (.start ()) = some [0] ∧
    leakedBy (chtimes (new keeping (mortal linked liar) 31) 19 (str! "c") 1 2) (.start ()) = some [0] ∧
    leakedBy (writeFile (new keeping (mortal linked liar) 31) 19 (str! "c") [1] 0o644) (.start ()) = some [0] ∧
    leakedBy (link (new keeping (mortal linkable liar) 31) 19 (str! "c") (str! "z")) (.start ()) = some [0, 1] ∧
    leakedBy (M.andThen (open_ (new keeping (mortal linked liar) 31) 19 (str! "c")) fun f => f.close (new keeping (mortal linked liar) 31)) (.start ()) = some [0] := by
  decide +kernel

/-- C123 is false of the code. -/
theorem C123_refuted : ¬ C123_statement := fun h => leak_of C123_leaks.1 ((h Unit Nat keeping linked liar 31 (str! "/") 19).2.1 (str! "c") 0o644)

/-- Removing a tree gives out and closes handles. -/
example : (match runOps (new passing (mortal store liar) 31) 19 .start [.removeAll (str! "/d"), .remove (str! "/d"), .readDir (str! "/q")] (.start nested) with
    | .ret (t, _) => decide (t.issued = 4 ∧ (∀ k ∈ List.range 4, k ∈ t.closed))
    | _ => false) = true := by decide +kernel

/-- A file that was opened and closed. -/
example : (match runOps (new keeping (mortal linked liar) 31) 19 .start [.open_ (str! "a"), .file 0 .sync] (.start ()) with
    | .ret (t, .ok (w, as)) => decide (w.files.map (·.objectHandle.inner) = [some (99, some 2)] ∧ t.issued = 3 ∧ 2 ∉ t.closed ∧ as = [.done, .count 0 none])
    | _ => false) = true := by decide +kernel

end Disko.Driver

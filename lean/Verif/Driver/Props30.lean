import Verif.Driver.Props20
/-! C136, C137: which objects the implementation is asked to create. -/
namespace Disko.Driver
open Disko Spec BlockCache

variable {σ H α β : Type}

namespace Spec

/-- Whenever CreateObject is called, the parent is a directory at that moment, and the implementation finds nothing by that name in it. -/
def CreatesNew (impl : Impl σ H) (s : σ) (c : Call H) : Prop :=
  ∀ n h m, c = .createObject n h m → (impl.stat s h).isDir = true ∧ ∀ x, (impl.getObject s n h).2 ≠ .ok x

/-- Whenever CreateHardLink is called, the source is no directory, the parent of the target is one, and the implementation finds nothing by the name of the target in it. -/
def LinksNew (impl : Impl σ H) (s : σ) (c : Call H) : Prop :=
  ∀ o h n, c = .createHardLink o h n → (impl.stat s o).isDir = false ∧ (impl.stat s h).isDir = true ∧ ∀ x, (impl.getObject s n h).2 ≠ .ok x

/-- Whenever CreateObject or CreateHardLink is called, the parent is the root directory, which is a directory at that moment. -/
def CreatesInRoot (impl : Impl σ H) (s : σ) (c : Call H) : Prop :=
  (∀ n h m, c = .createObject n h m → h = impl.getRootDirectory s ∧ (impl.stat s h).isDir = true) ∧
  ∀ o h n, c = .createHardLink o h n → h = impl.getRootDirectory s ∧ (impl.stat s h).isDir = true

/-- What Only says, starting from the state `s`. -/
def OnlyFrom (s : σ) (P : σ → Call H → Prop) (m : M (σ × List (σ × Call H)) α) : Prop :=
  ∀ log s' log' r, m (s, log) = .ret ((s', log'), r) → ∃ calls, log' = log ++ calls ∧ ∀ c ∈ calls, P c.1 c.2

/-- In the root directory `n` is not a symbolic link. -/
def NoLink (impl : Impl σ H) (s : σ) (n : Str) : Prop :=
  ∀ h, (impl.getObject s n (impl.getRootDirectory s)).2 = .ok h → (impl.stat s h).isSymlink = false

end Spec

/-! ### Frames from one state -/

/-- The relation, from one state. -/
def KeepsFrom (R : σ → σ → Prop) (x : σ) (m : M σ α) : Prop := ∀ y r, m x = .ret (y, r) → R x y

section
variable {R : σ → σ → Prop} (P : Pre R)

theorem Keeps.here {E : Err → Prop} {m : M σ α} (h : Keeps R E m) (x : σ) : KeepsFrom R x m := fun y r e => (h x y r e).1

include P

theorem KeepsFrom.andThen {x : σ} {m : M σ α} {f : α → M σ β} (h : KeepsFrom R x m) (hf : ∀ a, KeepsAny R (f a)) : KeepsFrom R x (M.andThen m f) := by
  intro y r e
  rcases hm : m x with ⟨z, er | a⟩ | _ | _
  · rw [andThen_err hm] at e; cases e; exact h _ _ hm
  · rw [andThen_ok hm] at e; exact P.trans (h _ _ hm) ((hf a _ _ _ e).1)
  · rw [andThen_panic hm] at e; cases e
  · rw [andThen_timeout hm] at e; cases e

theorem KeepsFrom.either {x : σ} {m : M σ α} {f : Except Err α → M σ β} (h : KeepsFrom R x m) (hf : ∀ a, KeepsAny R (f a)) : KeepsFrom R x (M.either m f) := by
  intro y r e
  rcases hm : m x with ⟨z, a⟩ | _ | _
  · rw [either_ret hm] at e; exact P.trans (h _ _ hm) ((hf a _ _ _ e).1)
  · rw [either_panic hm] at e; cases e
  · rw [either_timeout hm] at e; cases e

theorem KeepsFrom.deferred {x : σ} {c : M σ Unit} {m : M σ α} (hc : KeepsAny R c) (h : KeepsFrom R x m) : KeepsFrom R x (M.deferred c m) := by
  unfold M.deferred
  refine KeepsFrom.either P h fun a => Keeps.either P (E' := fun _ => True) hc (fun _ => ?_) fun _ _ => ?_
  all_goals
    intro s s' r e
    cases e
    exact ⟨P.refl _, fun _ _ => trivial⟩

end

theorem KeepsFrom.call {R : σ → σ → Prop} {x : σ} {f : σ → σ × Except Err α} (h : R x (f x).1) : KeepsFrom R x (M.call f) := by
  intro y r e
  unfold M.call at e
  injection e with e
  rw [e] at h
  exact h

/-! ### Looking up the parent, and a name in the root directory -/

section
variable (d : Drv σ H)

theorem root_only {x y : σ} {r : Except Err (Ext H)} (hr : RootIsDir d.impl x) {fuel : Nat} (h : getFollow d fuel (str! "/") x = .ret (y, r)) :
    d.cfg.keepHandle = true ∧ y = x ∧ r = .ok ⟨some (d.impl.getRootDirectory x), str! "/"⟩ := by
  rcases fuel with _ | _ | fuel
  · rw [getFollow] at h; cases h
  · rw [getFollow, andThen_timeout (by rw [getNoFollow])] at h; cases h
  · rcases hk : d.cfg.keepHandle with _ | _
    · rw [getFollow, getNoFollow, if_pos (.inl rfl)] at h
      unfold M.andThen at h
      simp only at h
      rw [followLoop, wrapObjectHandle, hk] at h
      rw [andThen_panic (by rfl)] at h
      cases h
    · rw [keep_root_follow d hk hr.2] at h
      cases h
      exact ⟨rfl, rfl, rfl⟩

theorem parent_only {l : Loc} (hl : IsLoc l) {x y : σ} {r : Except Err (Ext H)} (hr : RootIsDir d.impl x) {fuel : Nat}
    (h : getFollow d fuel (Path.splitLast (render l)).1 x = .ret (y, r)) :
    d.cfg.keepHandle = true ∧ (l = [] ∨ ∃ n, IsName n ∧ l = [n] ∧ (Path.splitLast (render l)).2 = n) ∧ y = x ∧ r = .ok ⟨some (d.impl.getRootDirectory x), str! "/"⟩ := by
  rcases loc_cases l with rfl | ⟨l', n, rfl⟩
  · obtain ⟨h1, h2, h3⟩ := root_only d hr h
    exact ⟨h1, .inl rfl, h2, h3⟩
  · have hn := hl n (by simp)
    by_cases hl' : l' = []
    · subst hl'
      have hs := splitLast_render [] hn
      rw [if_pos rfl] at hs
      rw [hs] at h ⊢
      obtain ⟨h1, h2, h3⟩ := root_only d hr h
      exact ⟨h1, .inr ⟨n, hn, rfl, rfl⟩, h2, h3⟩
    · rw [never_parent d l' hl' hn] at h
      cases h

/-- Where the lookup of the name `n` in the root directory leaves the implementation. -/
def looked (impl : Impl σ H) (s : σ) (n : Str) : σ := (impl.close (impl.getObject s n (impl.getRootDirectory s)).1 (impl.getRootDirectory s)).1

theorem noFollow_one {x : Str} (hx : IsName x) {s s' : σ} {r : Except Err (Ext H)} (hr : RootIsDir d.impl s) {fuel : Nat} (h : getNoFollow d fuel (render [x]) s = .ret (s', r)) :
    s' = looked d.impl s x ∧ r = (d.impl.getObject s x (d.impl.getRootDirectory s)).2.map fun h => ⟨some h, render [x]⟩ := by
  rcases fuel with _ | fuel
  · rw [getNoFollow] at h; cases h
  have hsp : Path.splitLast (render [x]) = (str! "/", x) := by
    have := splitLast_render [] hx
    rw [List.nil_append, if_pos rfl] at this
    exact this
  have hne := render_ne_root [] hx
  rw [List.nil_append] at hne
  rw [getNoFollow, if_neg hne, hsp] at h
  rcases hg : getFollow d fuel (str! "/") s with ⟨y, r'⟩ | _ | _
  · obtain ⟨hk, hy, rfl⟩ := root_only d hr hg
    rw [hy] at hg
    rw [andThen_ok hg] at h
    have hbody : (M.andThen (statOf d ⟨some (d.impl.getRootDirectory s), str! "/"⟩) fun st =>
        if !st.isDir then M.fail .notADirectory else getExtObjectInDir d x ⟨some (d.impl.getRootDirectory s), str! "/"⟩) s
        = .ret ((d.impl.getObject s x (d.impl.getRootDirectory s)).1, (d.impl.getObject s x (d.impl.getRootDirectory s)).2.map fun h => ⟨some h, render [x]⟩) := by
      rw [andThen_ok (a := d.impl.stat s (d.impl.getRootDirectory s)) (s' := s) rfl, hr.1]
      simp only [Bool.not_true, Bool.false_eq_true, if_false, getExtObjectInDir, Ext.method]
      rcases e : d.impl.getObject s x (d.impl.getRootDirectory s) with ⟨s1, r⟩
      rcases r with er | h
      · rw [andThen_err (e := er) (s' := s1) (by rw [M.call, e])]; rfl
      · rw [andThen_ok (a := h) (s' := s1) (by rw [M.call, e]), keep_wrap d hk, join_root hx]; rfl
    unfold M.deferred at h
    rw [either_ret hbody] at h
    simp only [closeOf, Ext.method, M.callE, M.either] at h
    unfold looked
    rcases hc : d.impl.close (d.impl.getObject s x (d.impl.getRootDirectory s)).1 (d.impl.getRootDirectory s) with ⟨s2, e2⟩
    rw [hc] at h
    rcases e2 with _ | e2 <;> · simp only at h; cases h; exact ⟨rfl, rfl⟩
  · rw [andThen_panic hg] at h; cases h
  · rw [andThen_timeout hg] at h; cases h

theorem follow_one {x : Str} (hx : IsName x) {s s' : σ} {r : Except Err (Ext H)} (hr : RootIsDir d.impl s) {fuel : Nat} (h : getFollow d fuel (render [x]) s = .ret (s', r)) :
    (∃ e, (d.impl.getObject s x (d.impl.getRootDirectory s)).2 = .error e ∧ r = .error e ∧ s' = looked d.impl s x) ∨
    ∃ o, (d.impl.getObject s x (d.impl.getRootDirectory s)).2 = .ok o ∧
      ((d.impl.stat (looked d.impl s x) o).isSymlink = false → r = .ok ⟨some o, render [x]⟩ ∧ s' = looked d.impl s x) := by
  rcases fuel with _ | fuel
  · rw [getFollow] at h; cases h
  rw [getFollow] at h
  rcases hg : getNoFollow d fuel (render [x]) s with ⟨y, r'⟩ | _ | _
  · obtain ⟨rfl, rfl⟩ := noFollow_one d hx hr hg
    rcases e : (d.impl.getObject s x (d.impl.getRootDirectory s)).2 with er | o
    · rw [e] at hg
      rw [andThen_err hg] at h
      cases h
      exact .inl ⟨er, rfl, rfl, rfl⟩
    · rw [e] at hg
      rw [andThen_ok hg] at h
      refine .inr ⟨o, rfl, fun hs => ?_⟩
      rcases fuel with _ | fuel
      · rw [followLoop] at h; cases h
      · rw [followLoop, andThen_ok (a := d.impl.stat (looked d.impl s x) o) (s' := looked d.impl s x) rfl, hs] at h
        cases h
        exact ⟨rfl, rfl⟩
  · rw [andThen_panic hg] at h; cases h
  · rw [andThen_timeout hg] at h; cases h

end

/-! ### The operations, given what CreateObject and CreateHardLink may be asked for -/

section
variable (cfg : Cfg) (impl : Impl σ H) (mf : MountFlags) {wd : Loc} (hwd : IsLoc wd) {P : σ → Call H → Prop}
  (hP : ∀ s c, (∀ n h m, c ≠ .createObject n h m) → (∀ o h n, c ≠ .createHardLink o h n) → P s c)
include hP

theorem looks_other : Looks (Added P) (recording impl) :=
  looks_recorded impl fun s c hc => hP s c (by cases hc <;> simp) (by cases hc <;> simp)

theorem only_from {x : σ} {m : M (σ × List (σ × Call H)) α} (h : ∀ log, KeepsFrom (Added P) (x, log) m) : OnlyFrom x P m :=
  fun log s' log' r e => h log _ _ e

theorem only_all {m : M (σ × List (σ × Call H)) α} (h : ∀ x, KeepsFrom (Added P) x m) : Only P m :=
  fun s log s' log' r e => h (s, log) _ _ e

theorem createMissing_creates {l : Loc} (hl : IsLoc l) {x : σ × List (σ × Call H)} (hr : RootIsDir impl x.1) (fuel : Nat) (perm : FileMode)
    (hc : P x.1 (.createObject (Path.splitLast (render l)).2 (impl.getRootDirectory x.1) perm)) :
    KeepsFrom (Added P) x (createMissing (recorded cfg impl mf (render wd)) fuel (render l) perm) := by
  have L := looks_other impl hP
  intro y r h
  unfold createMissing at h
  rcases hg : getFollow (recorded cfg impl mf (render wd)) fuel (Path.splitLast (render l)).1 x with ⟨z, q⟩ | _ | _
  · obtain ⟨_, _, rfl, rfl⟩ := parent_only (recorded cfg impl mf (render wd)) hl hr hg
    rw [andThen_ok hg] at h
    refine KeepsFrom.deferred L.toPre (close_frame (recorded cfg impl mf (render wd)) L _) ?_ y r h
    exact KeepsFrom.andThen L.toPre (KeepsFrom.call (Added.one hc)) fun _ => Keeps.ok L.toPre _
  · rw [andThen_panic hg] at h; cases h
  · rw [andThen_timeout hg] at h; cases h

theorem openFile_creates {l : Loc} (hl : IsLoc l) {p : Str} (hp : normalizePath (render wd) p = render l) {x : σ × List (σ × Call H)} (fuel : Nat) (flags : Flags.IOFlags) (perm : FileMode)
    (hc : ∀ y er, getFollow (recorded cfg impl mf (render wd)) fuel (render l) x = .ret (y, .error er) →
      RootIsDir impl y.1 ∧ P y.1 (.createObject (Path.splitLast (render l)).2 (impl.getRootDirectory y.1) perm)) :
    KeepsFrom (Added P) x (openFile (recorded cfg impl mf (render wd)) fuel p flags perm) := by
  have L := looks_other impl hP
  have Q := L.toPre
  have hres : ∀ x h n, Added P x ((recording impl).resize x h n).1 := fun x h n => Added.one (hP _ _ (by simp) (by simp))
  have tail : ∀ e : Ext H, KeepsAny (Added P) (M.andThen (statOf (recorded cfg impl mf (render wd)) e) fun st =>
      if !st.isFile then M.fail .isADirectory else newFile (recorded cfg impl mf (render wd)) e flags) := fun e =>
    Keeps.andThen Q (Keeps.statOf Q _ e) fun st => Keeps.ite (fun _ => Keeps.fail Q trivial) fun _ => newFile_frame _ L e flags fun _ x h => hres x h 0
  intro y r h
  unfold openFile at h
  simp only [hp] at h
  split at h
  · cases h; exact Q.refl _
  rcases hg : getFollow (recorded cfg impl mf (render wd)) fuel (render l) x with ⟨z, q⟩ | _ | _
  · have hxz := ((resolve_frame (recorded cfg impl mf (render wd)) L fuel).2.1 _ _ _ _ hg).1
    rw [either_ret hg] at h
    refine Q.trans hxz ?_
    rcases q with er | e
    · obtain ⟨h1, h2⟩ := hc z er hg
      refine KeepsFrom.andThen Q ?_ tail y r h
      simp only
      split
      · exact createMissing_creates cfg impl mf hP hl h1 fuel perm h2
      · exact (Keeps.fail Q (E := fun _ => True) trivial).here z
    · exact KeepsFrom.andThen Q ((Keeps.ok Q (E := fun _ => True) e).here z) tail y r h
  · rw [either_panic hg] at h; cases h
  · rw [either_timeout hg] at h; cases h

theorem writeFile_creates {x : σ × List (σ × Call H)} (fuel : Nat) (p : Str) (data : Bytes) (perm : FileMode)
    (h : ∀ flags, KeepsFrom (Added P) x (openFile (recorded cfg impl mf (render wd)) fuel p flags perm)) :
    KeepsFrom (Added P) x (writeFile (recorded cfg impl mf (render wd)) fuel p data perm) := by
  have L := looks_other impl hP
  exact KeepsFrom.andThen L.toPre (h _) fun f => writeTail_frame _ L f data (fun x h n => Added.one (hP _ _ (by simp) (by simp)))
    (fun x h i buf => Added.one (hP _ _ (by simp) (by simp))) fun x h i buf => Added.one (hP _ _ (by simp) (by simp))

theorem createAndClose_creates {x : σ × List (σ × Call H)} (n : Str) (h : H) (a : Str) (m : FileMode) (hc : P x.1 (.createObject n h m)) :
    KeepsFrom (Added P) x (createAndClose (recorded cfg impl mf (render wd)) n ⟨some h, a⟩ m) := by
  have L := looks_other impl hP
  exact KeepsFrom.andThen L.toPre (KeepsFrom.call (Added.one hc)) fun x =>
    Keeps.either L.toPre (E' := fun _ => True) (Keeps.callE fun s => ⟨L.close s x, fun _ _ => trivial⟩) (fun _ => Keeps.ok L.toPre _) fun _ _ => Keeps.ok L.toPre _

theorem mkdir_creates {l : Loc} (hl : IsLoc l) {p : Str} (hp : normalizePath (render wd) p = render l) {x : σ × List (σ × Call H)} (hr : RootIsDir impl x.1) (fuel : Nat) (perm : FileMode)
    (hc : P x.1 (.createObject (Path.splitLast (render l)).2 (impl.getRootDirectory x.1) (dirPerm perm))) :
    KeepsFrom (Added P) x (mkdir (recorded cfg impl mf (render wd)) fuel p perm) := by
  have L := looks_other impl hP
  intro y r h
  unfold mkdir at h
  simp only [hp] at h
  rcases hg : getFollow (recorded cfg impl mf (render wd)) fuel (Path.splitLast (render l)).1 x with ⟨z, q⟩ | _ | _
  · obtain ⟨_, _, rfl, rfl⟩ := parent_only (recorded cfg impl mf (render wd)) hl hr hg
    rw [andThen_ok hg] at h
    refine KeepsFrom.deferred L.toPre (close_frame (recorded cfg impl mf (render wd)) L _) ?_ y r h
    intro y r h
    rw [andThen_ok (a := impl.stat z.1 (impl.getRootDirectory z.1)) (s' := z) rfl, hr.1] at h
    exact createAndClose_creates cfg impl mf hP _ _ _ _ hc y r h
  · rw [andThen_panic hg] at h; cases h
  · rw [andThen_timeout hg] at h; cases h

theorem mkdirAll_creates {l : Loc} (hl : IsLoc l) {p : Str} (hp : normalizePath (render wd) p = render l) {x : σ × List (σ × Call H)} (hr : RootIsDir impl x.1) (fuel : Nat) (perm : FileMode)
    (hc : P x.1 (.createObject (Path.splitLast (render l)).2 (impl.getRootDirectory x.1) (dirPerm perm))) :
    KeepsFrom (Added P) x (mkdirAll (recorded cfg impl mf (render wd)) fuel p perm) := by
  have L := looks_other impl hP
  intro y r h
  rcases fuel with _ | fuel
  · rw [mkdirAll] at h; cases h
  rw [mkdirAll] at h
  simp only [hp] at h
  rcases hg : getFollow (recorded cfg impl mf (render wd)) fuel (Path.splitLast (render l)).1 x with ⟨z, q⟩ | _ | _
  · obtain ⟨_, _, rfl, rfl⟩ := parent_only (recorded cfg impl mf (render wd)) hl hr hg
    rw [either_ret hg] at h
    exact KeepsFrom.deferred L.toPre (close_frame (recorded cfg impl mf (render wd)) L _) (createAndClose_creates cfg impl mf hP _ _ _ _ hc) y r h
  · rw [either_panic hg] at h; cases h
  · rw [either_timeout hg] at h; cases h

theorem link_creates {l : Loc} (hl : IsLoc l) {old p : Str} (hp : normalizePath (render wd) p = render l) {x : σ × List (σ × Call H)} (fuel : Nat)
    (hc : ∀ y e z er, getFollow (recorded cfg impl mf (render wd)) fuel (normalizePath (render wd) old) x = .ret (y, .ok e) →
      getFollow (recorded cfg impl mf (render wd)) fuel (render l) y = .ret (z, .error er) →
      RootIsDir impl z.1 ∧ ∀ o, e.inner = some o → P z.1 (.createHardLink o (impl.getRootDirectory z.1) (Path.splitLast (render l)).2)) :
    KeepsFrom (Added P) x (link (recorded cfg impl mf (render wd)) fuel old p) := by
  have L := looks_other impl hP
  have Q := L.toPre
  have kf := (resolve_frame (recorded cfg impl mf (render wd)) L fuel).2.1
  intro y r h
  unfold link at h
  have hcl : (recorded cfg impl mf (render wd)).impl.createHardLink = impl.createHardLink.map fun f x o p n => (((f x.1 o p n).1, x.2 ++ [(x.1, .createHardLink o p n)]), (f x.1 o p n).2) := rfl
  rw [hcl] at h
  rcases hh : impl.createHardLink with _ | f <;> rw [hh] at h
  · cases h; exact Q.refl _
  simp only [Option.map_some, hp] at h
  rcases h1 : getFollow (recorded cfg impl mf (render wd)) fuel (normalizePath (render wd) old) x with ⟨y1, er | e⟩ | _ | _
  · rw [andThen_err h1] at h; cases h; exact (kf _ _ _ _ h1).1
  · rw [andThen_ok h1] at h
    refine Q.trans (kf _ _ _ _ h1).1 ?_
    rcases h2 : getFollow (recorded cfg impl mf (render wd)) fuel (render l) y1 with ⟨y2, er | e2⟩ | _ | _
    · rw [either_ret h2] at h
      refine Q.trans (kf _ _ _ _ h2).1 ?_
      obtain ⟨hr, hc⟩ := hc _ _ _ _ h1 h2
      simp only at h
      rcases h3 : getFollow (recorded cfg impl mf (render wd)) fuel (Path.splitLast (render l)).1 y2 with ⟨y3, q⟩ | _ | _
      · obtain ⟨_, _, rfl, rfl⟩ := parent_only (recorded cfg impl mf (render wd)) hl hr h3
        rw [andThen_ok h3] at h
        rcases he : e.inner with _ | o
        · simp only [Ext.method, he] at h; cases h
        · simp only [Ext.method, he] at h
          exact KeepsFrom.andThen Q (KeepsFrom.call (Added.one (hc o he))) (fun _ => Keeps.ok Q _) y r h
      · rw [andThen_panic h3] at h; cases h
      · rw [andThen_timeout h3] at h; cases h
    · rw [either_ret h2] at h; cases h; exact (kf _ _ _ _ h2).1
    · rw [either_panic h2] at h; cases h
    · rw [either_timeout h2] at h; cases h
  · rw [andThen_panic h1] at h; cases h
  · rw [andThen_timeout h1] at h; cases h

end

/-! ### C136 -/

/-- C136 for OpenFile: what api.go:106-107 guarantees. -/
def C136_open (cfg : Cfg) : Prop :=
  ∀ (σ H : Type) (impl : Impl σ H) (mf : MountFlags) (wd : Loc) (p : Str) (fuel : Nat) (flags : Flags.IOFlags) (perm : FileMode),
    Quiet impl → (∀ s, RootIsDir impl s) → IsLoc wd → Only (CreatesNew impl) (openFile (recorded cfg impl mf (render wd)) fuel p flags perm)

/-- C136 for WriteFile. -/
def C136_write (cfg : Cfg) : Prop :=
  ∀ (σ H : Type) (impl : Impl σ H) (mf : MountFlags) (wd : Loc) (p : Str) (fuel : Nat) (data : Bytes) (perm : FileMode),
    Quiet impl → (∀ s, RootIsDir impl s) → IsLoc wd → Only (CreatesNew impl) (writeFile (recorded cfg impl mf (render wd)) fuel p data perm)

/-- C136 for Mkdir. -/
def C136_mkdir (cfg : Cfg) : Prop :=
  ∀ (σ H : Type) (impl : Impl σ H) (mf : MountFlags) (wd : Loc) (p : Str) (fuel : Nat) (perm : FileMode),
    Quiet impl → (∀ s, RootIsDir impl s) → IsLoc wd → Only (CreatesNew impl) (mkdir (recorded cfg impl mf (render wd)) fuel p perm)

/-- C136 for MkdirAll. -/
def C136_mkdirAll (cfg : Cfg) : Prop :=
  ∀ (σ H : Type) (impl : Impl σ H) (mf : MountFlags) (wd : Loc) (p : Str) (fuel : Nat) (perm : FileMode),
    Quiet impl → (∀ s, RootIsDir impl s) → IsLoc wd → Only (CreatesNew impl) (mkdirAll (recorded cfg impl mf (render wd)) fuel p perm)

/-- C136: CreateObject is never called for an object that already exists, and its parent is always a directory. -/
def C136_statement (cfg : Cfg) : Prop := C136_open cfg ∧ C136_write cfg ∧ C136_mkdir cfg ∧ C136_mkdirAll cfg

/-- Has CreateObject been called for an object that is there? -/
def madeAgain (impl : Impl σ H) (o : Outcome ((σ × List (σ × Call H)) × α)) : Bool :=
  match o with
  | .ret ((_, log), _) => log.any fun e => match e.2 with
    | .createObject n h _ => (impl.getObject e.1 n h).2.toOption.isSome
    | _ => false
  | _ => false

theorem again_not_new {impl : Impl σ H} {m : M (σ × List (σ × Call H)) α} {s : σ} (h : madeAgain impl (m (s, [])) = true) : ¬ Only (CreatesNew impl) m := by
  intro ho
  unfold madeAgain at h
  split at h
  · rename_i s' log r hm
    obtain ⟨calls, hl, hc⟩ := ho _ _ _ _ _ hm
    rw [List.nil_append] at hl
    subst hl
    obtain ⟨e, he, hb⟩ := List.any_eq_true.mp h
    split at hb
    · rename_i n h' m' heq
      have := (hc e he n h' m' heq).2
      rcases hx : (impl.getObject e.1 n h').2 with er | x
      · rw [hx] at hb; cases hb
      · exact this x hx
    · cases hb
  · cases h

/-- A file "f", and a link "l" to "/x", where nothing is. -/
def fileAndDangling : List Obj := [⟨str! "f", 0o644, [1, 2, 3]⟩, ⟨str! "l", Flags.ModeSymlink, str! "/x"⟩]

/-- C136 is FALSE of Mkdir even with the handle kept: it does not look whether the directory, or a file by that name, is there. -/
theorem C136_refuted_mkdir : ¬ C136_mkdir keeping := by
  intro h
  refine again_not_new (s := fileAndDangling) ?_ (h (List Obj) (Option Str) (flat 4) 3 [] (str! "/f") 9 0 (flat_still 4).toQuiet (flat_root 4) isLoc_nil)
  decide +kernel

/-- Nor does MkdirAll, whose whole point is that directories may be there. -/
theorem C136_refuted_mkdirAll : ¬ C136_mkdirAll keeping := by
  intro h
  refine again_not_new (s := fileAndDangling) ?_ (h (List Obj) (Option Str) (flat 4) 3 [] (str! "/f") 9 0 (flat_still 4).toQuiet (flat_root 4) isLoc_nil)
  decide +kernel

/-- C136 is FALSE of OpenFile too: if the path is that of a link to nothing, OpenFile(O_CREATE) asks for an object at the path itself, where the link is. -/
theorem C136_refuted_open : ¬ C136_open keeping := by
  intro h
  refine again_not_new (s := fileAndDangling) ?_ (h (List Obj) (Option Str) (flat 4) 3 [] (str! "/l") 20 (Flags.O_RDWR ||| Flags.O_CREATE) 0o644 (flat_still 4).toQuiet
    (flat_root 4) isLoc_nil)
  decide +kernel

theorem C136_refuted : ¬ C136_statement keeping := fun h => C136_refuted_mkdir h.2.2.1

section
variable (cfg : Cfg) (impl : Impl σ H) (mf : MountFlags) {wd : Loc} (hwd : IsLoc wd)

theorem other_new (s : σ) (c : Call H) (h : ∀ n h m, c ≠ .createObject n h m) (_ : ∀ o h n, c ≠ .createHardLink o h n) : CreatesNew impl s c :=
  fun n h' m hc => absurd hc (h n h' m)

theorem other_inRoot (s : σ) (c : Call H) (h : ∀ n h m, c ≠ .createObject n h m) (h' : ∀ o h n, c ≠ .createHardLink o h n) : CreatesInRoot impl s c :=
  ⟨fun n x m hc => absurd hc (h n x m), fun o x n hc => absurd hc (h' o x n)⟩

theorem other_link (s : σ) (c : Call H) (_ : ∀ n h m, c ≠ .createObject n h m) (h' : ∀ o h n, c ≠ .createHardLink o h n) : LinksNew impl s c :=
  fun o x n hc => absurd hc (h' o x n)

include hwd

/-- C136 and C137, the part about the parent, whatever wrapObjectHandle does: whichever path is given, objects and links are only ever created in the root directory (and
the root is a directory).  The implementation need not be quiet. -/
theorem C136_parent (hr : ∀ s, RootIsDir impl s) (p q : Str) (fuel : Nat) (flags : Flags.IOFlags) (data : Bytes) (perm : FileMode) :
    Only (CreatesInRoot impl) (openFile (recorded cfg impl mf (render wd)) fuel p flags perm) ∧
    Only (CreatesInRoot impl) (writeFile (recorded cfg impl mf (render wd)) fuel p data perm) ∧
    Only (CreatesInRoot impl) (mkdir (recorded cfg impl mf (render wd)) fuel p perm) ∧
    Only (CreatesInRoot impl) (mkdirAll (recorded cfg impl mf (render wd)) fuel p perm) ∧
    Only (CreatesInRoot impl) (link (recorded cfg impl mf (render wd)) fuel q p) := by
  obtain ⟨l, hl, hp⟩ := C61_canonical wd p hwd
  have hP := other_inRoot (σ := σ) (impl := impl)
  have hc : ∀ s n m, CreatesInRoot impl s (.createObject n (impl.getRootDirectory s) m) := fun s n m =>
    ⟨fun _ _ _ hc => (by cases hc; exact ⟨rfl, (hr s).1⟩), fun _ _ _ hc => (by cases hc)⟩
  have ho : ∀ x flags, KeepsFrom (Added (CreatesInRoot impl)) x (openFile (recorded cfg impl mf (render wd)) fuel p flags perm) := fun x flags =>
    openFile_creates cfg impl mf hP hl hp fuel flags perm fun y er _ => ⟨hr y.1, hc _ _ _⟩
  refine ⟨only_all hP fun x => ho x flags, only_all hP fun x => writeFile_creates cfg impl mf hP fuel p data perm (ho x),
    only_all hP fun x => mkdir_creates cfg impl mf hP hl hp (hr _) fuel perm (hc _ _ _), only_all hP fun x => mkdirAll_creates cfg impl mf hP hl hp (hr _) fuel perm (hc _ _ _),
    only_all hP fun x => link_creates cfg impl mf hP hl hp fuel fun y e z er _ _ => ⟨hr _, fun o _ => ⟨fun _ _ _ hc => (by cases hc), fun _ _ _ hc => ?_⟩⟩⟩
  cases hc
  exact ⟨rfl, (hr _).1⟩

/-- C136, the part OpenFile and WriteFile keep: if the last component of the path is not a symbolic link, CreateObject is only called for an object that is not there. -/
theorem C136_open_partial (Q : Quiet impl) {s : σ} (hr : RootIsDir impl s) {p : Str} {l : Loc} (hm : Means wd p l) (hnl : ∀ n, l = [n] → NoLink impl s n) (fuel : Nat)
    (flags : Flags.IOFlags) (data : Bytes) (perm : FileMode) :
    OnlyFrom s (CreatesNew impl) (openFile (recorded cfg impl mf (render wd)) fuel p flags perm) ∧
    OnlyFrom s (CreatesNew impl) (writeFile (recorded cfg impl mf (render wd)) fuel p data perm) := by
  obtain ⟨hp, hl⟩ := normalize_means hwd hm
  have hP := other_new (σ := σ) (impl := impl)
  have ho : ∀ log flags, KeepsFrom (Added (CreatesNew impl)) (s, log) (openFile (recorded cfg impl mf (render wd)) fuel p flags perm) := fun log flags => by
    refine openFile_creates cfg impl mf hP hl hp fuel flags perm fun y er hg => ?_
    rcases loc_cases l with rfl | ⟨l', n, rfl⟩
    · obtain ⟨_, _, h3⟩ := root_only (recorded cfg impl mf (render wd)) (x := (s, log)) hr hg
      cases h3
    · have hn := hl n (by simp)
      by_cases hl' : l' = []
      · subst hl'
        have hlook : (looked (recording impl) (s, log) n).1 = s := by
          unfold looked
          simp only [recording]
          rw [Q.close, Q.getObject]
        rcases follow_one (recorded cfg impl mf (render wd)) hn (s := (s, log)) hr hg with ⟨e, h1, h2, rfl⟩ | ⟨o, h1, h2⟩
        · rw [hlook]
          refine ⟨hr, fun n' h' m' hc => ?_⟩
          have hs := splitLast_render [] hn
          rw [if_pos rfl] at hs
          rw [hs] at hc
          cases hc
          refine ⟨hr.1, fun x hx => ?_⟩
          have h1' : (impl.getObject s n (impl.getRootDirectory s)).2 = .error e := h1
          rw [h1'] at hx
          cases hx
        · have := (h2 ((congrArg (fun a => (impl.stat a o).isSymlink) hlook).trans (hnl n rfl o h1))).1
          cases this
      · rw [(never_deep _ l' hl' hn _ _).2] at hg
        cases hg
  exact ⟨only_from hP fun log => ho log flags, only_from hP fun log => writeFile_creates cfg impl mf hP fuel p data perm (ho log)⟩

/-- C136, the part Mkdir and MkdirAll keep: if nothing is there, they ask for an object that is not there.  (Two or more components: they never return, C89_deep.) -/
theorem C136_mkdir_partial {s : σ} (hr : RootIsDir impl s) {p : Str} {l : Loc} {n : Str} (hm : Means wd p (l ++ [n])) (hnew : l = [] → ∀ x, (impl.getObject s n (impl.getRootDirectory s)).2 ≠ .ok x)
    (fuel : Nat) (perm : FileMode) :
    OnlyFrom s (CreatesNew impl) (mkdir (recorded cfg impl mf (render wd)) fuel p perm) ∧
    OnlyFrom s (CreatesNew impl) (mkdirAll (recorded cfg impl mf (render wd)) fuel p perm) := by
  obtain ⟨hp, hl⟩ := normalize_means hwd hm
  have hP := other_new (σ := σ) (impl := impl)
  have hn := hl n (by simp)
  by_cases hl' : l = []
  · subst hl'
    have hc : CreatesNew impl s (.createObject (Path.splitLast (render ([] ++ [n]))).2 (impl.getRootDirectory s) (dirPerm perm)) := by
      intro n' h' m' hc
      have hs := splitLast_render [] hn
      rw [if_pos rfl] at hs
      rw [hs] at hc
      cases hc
      exact ⟨hr.1, hnew rfl⟩
    exact ⟨only_from hP fun log => mkdir_creates cfg impl mf hP hl hp (x := (s, log)) hr fuel perm hc,
      only_from hP fun log => mkdirAll_creates cfg impl mf hP hl hp (x := (s, log)) hr fuel perm hc⟩
  · constructor
    · intro log s' log' r h
      rw [C89_deep _ wd hwd rfl _ p l n hm hl'] at h
      cases h
    · intro log s' log' r h
      rcases fuel with _ | fuel
      · rw [mkdirAll] at h; cases h
      · rw [mkdirAll] at h
        simp only [hp] at h
        rw [either_timeout (never_parent _ l hl' hn _ _)] at h
        cases h

end

/-- Non-vacuity: OpenFile("/g", O_RDWR|O_CREATE) does call CreateObject, for "g", which is not there; nor are "f" and "g" links; and the link "l" is one. -/
example : (match openFile (recorded keeping (flat 4) 3 (render [])) 9 (str! "/g") (Flags.O_RDWR ||| Flags.O_CREATE) 0o644 (fileAndDangling, []) with
    | .ret ((_, log), .ok _) => decide ((fileAndDangling, Call.createObject (str! "g") none 0o644) ∈ log)
    | _ => false) = true := by decide +kernel

example : NoLink (flat 4) fileAndDangling (str! "g") ∧ NoLink (flat 4) fileAndDangling (str! "f") := by
  constructor
  · intro h hx
    have hx' : (Except.error .notFound : Except Err (Option Str)) = .ok h := hx
    cases hx'
  · intro h hx
    have : h = some (str! "f") := by
      have hx' : (Except.ok (some (str! "f")) : Except Err (Option Str)) = .ok h := hx
      cases hx'; rfl
    subst this
    decide

example : (match mkdir (recorded keeping (flat 4) 3 (render [])) 9 (str! "/g") 0o755 (fileAndDangling, []) with
    | .ret ((_, log), .ok _) => decide ((fileAndDangling, Call.createObject (str! "g") none (Flags.ModeDir ||| 0o755)) ∈ log)
    | _ => false) = true := by decide +kernel

/-! ### C137 -/

/-- C137: what api.go:163-165 guarantees: Link only calls CreateHardLink for a source that is no directory, in a directory, and for a target that is not there. -/
def C137_statement (cfg : Cfg) : Prop :=
  ∀ (σ H : Type) (impl : Impl σ H) (mf : MountFlags) (wd : Loc) (old new : Str) (fuel : Nat),
    Quiet impl → (∀ s, RootIsDir impl s) → IsLoc wd → Only (LinksNew impl) (link (recorded cfg impl mf (render wd)) fuel old new)

/-- Has CreateHardLink been called with a directory for its source? -/
def gaveDir (impl : Impl σ H) (o : Outcome ((σ × List (σ × Call H)) × α)) : Bool :=
  match o with
  | .ret ((_, log), _) => log.any fun e => match e.2 with
    | .createHardLink o _ _ => (impl.stat e.1 o).isDir
    | _ => false
  | _ => false

/-- Has CreateHardLink been called for a target that is there? -/
def linkedAgain (impl : Impl σ H) (o : Outcome ((σ × List (σ × Call H)) × α)) : Bool :=
  match o with
  | .ret ((_, log), _) => log.any fun e => match e.2 with
    | .createHardLink _ h n => (impl.getObject e.1 n h).2.toOption.isSome
    | _ => false
  | _ => false

theorem dir_not_links {impl : Impl σ H} {m : M (σ × List (σ × Call H)) α} {s : σ} (h : gaveDir impl (m (s, [])) = true) : ¬ Only (LinksNew impl) m := by
  intro ho
  unfold gaveDir at h
  split at h
  · rename_i s' log r hm
    obtain ⟨calls, hl, hc⟩ := ho _ _ _ _ _ hm
    rw [List.nil_append] at hl
    subst hl
    obtain ⟨e, he, hb⟩ := List.any_eq_true.mp h
    split at hb
    · rename_i o h' n heq
      rw [(hc e he o h' n heq).1] at hb
      cases hb
    · cases hb
  · cases h

theorem again_not_links {impl : Impl σ H} {m : M (σ × List (σ × Call H)) α} {s : σ} (h : linkedAgain impl (m (s, [])) = true) : ¬ Only (LinksNew impl) m := by
  intro ho
  unfold linkedAgain at h
  split at h
  · rename_i s' log r hm
    obtain ⟨calls, hl, hc⟩ := ho _ _ _ _ _ hm
    rw [List.nil_append] at hl
    subst hl
    obtain ⟨e, he, hb⟩ := List.any_eq_true.mp h
    split at hb
    · rename_i o h' n heq
      have := (hc e he o h' n heq).2.2
      rcases hx : (impl.getObject e.1 n h').2 with er | x
      · rw [hx] at hb; cases hb
      · exact this x hx
    · cases hb
  · cases h

/-- A file, a directory and a link to nothing. -/
def fileAndDir : List Obj := [⟨str! "f", 0o644, [1, 2, 3]⟩, ⟨str! "d", Flags.ModeDir, []⟩, ⟨str! "l", Flags.ModeSymlink, str! "/x"⟩]

/-- C137 is FALSE of the code even with the handle kept: Link does not look whether the source is a directory. -/
theorem C137_refuted : ¬ C137_statement keeping := by
  intro h
  refine dir_not_links (s := fileAndDir) ?_ (h (List Obj) (Option Str) (flat 4) 3 [] (str! "/d") (str! "/x") 20 (flat_still 4).toQuiet (flat_root 4) isLoc_nil)
  decide +kernel

/-- ... not even whether it is the root directory. -/
theorem C137_refuted_root : ¬ C137_statement keeping := by
  intro h
  refine dir_not_links (s := fileAndDir) ?_ (h (List Obj) (Option Str) (flat 4) 3 [] (str! "/") (str! "/x") 20 (flat_still 4).toQuiet (flat_root 4) isLoc_nil)
  decide +kernel

/-- C137 is FALSE for targets too: if the target is a link to nothing, it is there, but Link takes it to be missing. -/
theorem C137_refuted_target : ¬ C137_statement keeping := by
  intro h
  refine again_not_links (s := fileAndDir) ?_ (h (List Obj) (Option Str) (flat 4) 3 [] (str! "/f") (str! "/l") 20 (flat_still 4).toQuiet (flat_root 4) isLoc_nil)
  decide +kernel

/-- C137, the part that holds: if the source is an object of the root directory that is neither a directory nor a link, and the last component of the target is not a link,
CreateHardLink is called as promised.  (The parent is always a directory: C136_parent.) -/
theorem C137_link_partial (cfg : Cfg) (impl : Impl σ H) (mf : MountFlags) {wd : Loc} (hwd : IsLoc wd) (Q : Quiet impl) {s : σ} (hr : RootIsDir impl s) {old new o : Str} {l : Loc}
    (ho : Means wd old [o]) (hno : NoLink impl s o) (hdir : ∀ h, (impl.getObject s o (impl.getRootDirectory s)).2 = .ok h → (impl.stat s h).isDir = false)
    (hm : Means wd new l) (hnl : ∀ n, l = [n] → NoLink impl s n) (fuel : Nat) :
    OnlyFrom s (LinksNew impl) (link (recorded cfg impl mf (render wd)) fuel old new) := by
  obtain ⟨hpo, hlo⟩ := normalize_means hwd ho
  obtain ⟨hp, hl⟩ := normalize_means hwd hm
  have hP := other_link (σ := σ) (impl := impl)
  have hlook : ∀ n log, (looked (recording impl) (s, log) n).1 = s := fun n log => by
    unfold looked
    simp only [recording]
    rw [Q.close, Q.getObject]
  refine only_from hP fun log => link_creates cfg impl mf hP hl hp fuel fun y e z er h1 h2 => ?_
  rw [hpo] at h1
  rcases follow_one (recorded cfg impl mf (render wd)) (hlo o (by simp)) (s := (s, log)) hr h1 with ⟨e', _, h', _⟩ | ⟨x, k1, k2⟩
  · cases h'
  obtain ⟨k3, k4⟩ := k2 ((congrArg (fun a => (impl.stat a x).isSymlink) (hlook o log)).trans (hno x k1))
  cases k3
  have hy : y = (s, y.2) := by
    rw [k4]
    exact Prod.ext (hlook o log) rfl
  rw [hy] at h2
  rcases loc_cases l with rfl | ⟨l', n, rfl⟩
  · obtain ⟨_, _, h3⟩ := root_only (recorded cfg impl mf (render wd)) (x := (s, y.2)) hr h2
    cases h3
  · have hn := hl n (by simp)
    by_cases hl' : l' = []
    · subst hl'
      rcases follow_one (recorded cfg impl mf (render wd)) hn (s := (s, y.2)) hr h2 with ⟨e', q1, q2, q3⟩ | ⟨x', q1, q2⟩
      · rw [q3, hlook]
        refine ⟨hr, fun o' ho' => ?_⟩
        cases ho'
        intro o' h' n' hc
        have hs := splitLast_render [] hn
        rw [if_pos rfl] at hs
        rw [hs] at hc
        cases hc
        refine ⟨hdir x k1, hr.1, fun w hw => ?_⟩
        have q1' : (impl.getObject s n (impl.getRootDirectory s)).2 = .error e' := q1
        rw [q1'] at hw
        cases hw
      · have := (q2 ((congrArg (fun a => (impl.stat a x').isSymlink) (hlook n y.2)).trans (hnl n rfl x' q1))).1
        cases this
    · rw [(never_deep _ l' hl' hn _ _).2] at h2
      cases h2

/-- Non-vacuity: Link("/f", "/g") does call CreateHardLink. -/
example : (match link (recorded keeping (flat 4) 3 (render [])) 20 (str! "/f") (str! "/g") (fileAndDir, []) with
    | .ret ((_, log), .ok _) => decide ((fileAndDir, Call.createHardLink (some (str! "f")) none (str! "g")) ∈ log)
    | _ => false) = true := by decide +kernel

example : Means [] (str! "/f") [str! "f"] ∧ NoLink (flat 4) fileAndDir (str! "f") ∧ NoLink (flat 4) fileAndDir (str! "g") := by
  refine ⟨.inl ⟨⟨_, rfl⟩, by decide⟩, ?_, ?_⟩
  · intro h hx
    have : h = some (str! "f") := by
      have hx' : (Except.ok (some (str! "f")) : Except Err (Option Str)) = .ok h := hx
      cases hx'; rfl
    subst this
    decide
  · intro h hx
    have hx' : (Except.error .notFound : Except Err (Option Str)) = .ok h := hx
    cases hx'

end Disko.Driver

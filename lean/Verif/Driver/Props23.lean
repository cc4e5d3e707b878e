import Verif.Driver.Props8
/-! C83: where Chdir leads to, on every file system and in every configuration. -/
namespace Disko.Driver
open Disko Spec

variable {σ H α β : Type}

/-- If the call is made in a state that satisfies `P` and succeeds, its state and result satisfy `Q`. -/
def Tri (P : σ → Prop) (m : M σ α) (Q : σ → α → Prop) : Prop := ∀ s s' a, P s → m s = .ret (s', .ok a) → Q s' a

theorem andThen_inv {m : M σ α} {f : α → M σ β} {s s' : σ} {b : β} (h1 : M.andThen m f s = .ret (s', .ok b)) :
    ∃ s1 a, m s = .ret (s1, .ok a) ∧ f a s1 = .ret (s', .ok b) := by
  unfold M.andThen at h1
  rcases e : m s with ⟨s1, er | a⟩ | _ | _
  · rw [e] at h1; cases h1
  · rw [e] at h1; exact ⟨s1, a, rfl, h1⟩
  · rw [e] at h1; cases h1
  · rw [e] at h1; cases h1

namespace Tri
variable {P : σ → Prop} {Q : σ → α → Prop}

theorem andThen {m : M σ α} {f : α → M σ β} {R : σ → β → Prop} (h : Tri P m Q) (hf : ∀ a, Tri (Q · a) (f a) R) : Tri P (M.andThen m f) R := by
  intro s s' b hp h1
  unfold M.andThen at h1
  rcases e : m s with ⟨s1, er | a⟩ | _ | _
  · rw [e] at h1; cases h1
  · rw [e] at h1; exact hf a _ _ _ (h _ _ _ hp e) h1
  · rw [e] at h1; cases h1
  · rw [e] at h1; cases h1
theorem ok {a : α} (h : ∀ s, P s → Q s a) : Tri P (M.ok a) Q := by intro s s' b hp h1; cases h1; exact h _ hp
theorem fail {e : Err} : Tri P (M.fail e) Q := by intro s s' b _ h1; cases h1
theorem timeout : Tri P (fun _ => .timeout) Q := by intro s s' b _ h1; cases h1
theorem top (m : M σ α) : Tri P m fun _ _ => True := fun _ _ _ _ _ => trivial
theorem pre {P' : σ → Prop} {m : M σ α} (hp : ∀ s, P' s → P s) (h : Tri P m Q) : Tri P' m Q := fun s s' a k => h s s' a (hp s k)
theorem ite {p : Prop} [Decidable p] {m k : M σ α} (h : p → Tri P m Q) (hk : ¬ p → Tri P k Q) : Tri P (if p then m else k) Q := by
  by_cases hp : p
  · rw [if_pos hp]; exact h hp
  · rw [if_neg hp]; exact hk hp
theorem method {e : Ext H} {f : H → M σ α} (h : ∀ x, e.inner = some x → Tri P (f x) Q) : Tri P (e.method f) Q := by
  unfold Ext.method
  split
  · intro s s' a _ h1; cases h1
  · rename_i x hx; exact h x hx
theorem statOf (d : Drv σ H) (e : Ext H) : Tri P (statOf d e) fun s st => P s ∧ ∃ h, e.inner = some h ∧ st = d.impl.stat s h := by
  refine method fun h he s s' a hp h1 => ?_
  cases h1
  exact ⟨hp, h, he, rfl⟩
theorem deferred (d : Drv σ H) (hq : Quiet d.impl) {e : Ext H} {m : M σ α} (h : Tri P m Q) : Tri P (M.deferred (closeOf d e) m) Q := by
  intro s s' a hp h1
  rcases e with ⟨_ | x, q⟩
  · unfold M.deferred M.either at h1
    rcases e : m s with ⟨s1, r1⟩ | _ | _
    · rw [e] at h1; cases h1
    · rw [e] at h1; cases h1
    · rw [e] at h1; cases h1
  · rcases e : m s with ⟨s1, r1⟩ | _ | _
    · rw [deferred_close d hq e] at h1
      cases h1
      exact h _ _ _ hp e
    · rw [M.deferred, either_panic e] at h1; cases h1
    · rw [M.deferred, either_timeout e] at h1; cases h1
end Tri

/-- The object `h` is at location `l`, where the object itself may be a symbolic link. -/
def LAt (impl : Impl σ H) (s : σ) (l : Loc) (h : H) : Prop :=
  (l = [] ∧ h = impl.getRootDirectory s) ∨
  ∃ l' n dir, l = l' ++ [n] ∧ At impl s l' dir ∧ (impl.stat s dir).isDir = true ∧ (impl.getObject s n dir).2 = .ok h

theorem at_of_lat {impl : Impl σ H} {s : σ} {l : Loc} {h : H} (k : LAt impl s l h) (hn : (impl.stat s h).isSymlink = false) : At impl s l h := by
  rcases k with ⟨rfl, rfl⟩ | ⟨l', n, dir, rfl, ha, hd, hg⟩
  · exact .root hn
  · exact .down ha hd hg hn

/-- The wrapper says where its object is (which may be a link). -/
def Placed (d : Drv σ H) (s : σ) (e : Ext H) : Prop :=
  ∃ l, IsLoc l ∧ e.absolutePath = render l ∧ ∀ h, e.inner = some h → LAt d.impl s l h
/-- The wrapper says where its object is, and the object is not a link. -/
def PlacedAt (d : Drv σ H) (s : σ) (e : Ext H) : Prop :=
  ∃ l h, IsLoc l ∧ e.absolutePath = render l ∧ e.inner = some h ∧ At d.impl s l h

theorem placedAt_of {d : Drv σ H} {s : σ} {e : Ext H} {h : H} (k : Placed d s e) (he : e.inner = some h)
    (hn : (d.impl.stat s h).isSymlink = false) : PlacedAt d s e := by
  obtain ⟨l, hl, ea, k⟩ := k
  exact ⟨l, h, hl, ea, he, at_of_lat (k h he) hn⟩

theorem wrap_inner {cfg : Cfg} {x : H} {p : Str} {h : H} (e : (wrapObjectHandle cfg (some x) p).inner = some h) : h = x := by
  unfold wrapObjectHandle at e
  simp only at e
  split at e
  · cases e; rfl
  · cases e

theorem isLoc_snoc {l : Loc} {x : Str} (hl : IsLoc l) (hx : IsName x) : IsLoc (l ++ [x]) := fun y hy => by
  rw [List.mem_append, List.mem_singleton] at hy
  rcases hy with hy | rfl
  · exact hl y hy
  · exact hx

section
variable (d : Drv σ H) (hq : Quiet d.impl) {wd : Loc} (hwd : IsLoc wd) (hw : d.workingDirPath = render wd)
include hq hwd hw

/-- Path resolution finds objects where their paths say. -/
theorem resolve_placed : ∀ n : Nat,
    (∀ l, IsLoc l → Tri (fun _ => True) (getNoFollow d n (render l)) (Placed d)) ∧
    (∀ l, IsLoc l → Tri (fun _ => True) (getFollow d n (render l)) (PlacedAt d)) ∧
    (∀ e : Ext H, Tri (Placed d · e) (followLoop d n e) (PlacedAt d)) ∧
    (∀ e : Ext H, Tri (Placed d · e) (resolveSymlink d n e) (Placed d)) ∧
    (∀ c (e : Ext H), Tri (fun _ => True) (symlinkLoop d n c e) (Placed d))
  | 0 => ⟨fun l _ => by rw [getNoFollow]; exact Tri.timeout, fun l _ => by rw [getFollow]; exact Tri.timeout,
      fun e => by rw [followLoop]; exact Tri.timeout, fun e => by rw [resolveSymlink]; exact Tri.timeout,
      fun c e => by rw [symlinkLoop]; exact Tri.timeout⟩
  | n + 1 => by
    obtain ⟨i1, i2, i3, i4, i5⟩ := resolve_placed n
    refine ⟨fun l hl => ?_, fun l hl => ?_, fun e => ?_, fun e => ?_, fun c e => ?_⟩
    · rcases loc_cases l with rfl | ⟨l', x, rfl⟩
      · rw [getNoFollow, if_pos (.inl rfl)]
        intro s s' a _ h; cases h
        exact ⟨[], isLoc_nil, rfl, fun h e => .inl ⟨rfl, wrap_inner e⟩⟩
      · have hx : IsName x := hl x (by simp)
        by_cases hl' : l' = []
        · subst hl'
          rw [List.nil_append]
          have hsp : Path.splitLast (render [x]) = (str! "/", x) := by
            have := splitLast_render [] hx
            rw [List.nil_append, if_pos rfl] at this
            exact this
          have hne := render_ne_root [] hx
          rw [List.nil_append] at hne
          rw [getNoFollow, if_neg hne, hsp]
          refine Tri.andThen (i2 [] isLoc_nil) fun e => Tri.deferred d hq <| Tri.andThen (Tri.statOf d e) fun st => Tri.ite (fun _ => Tri.fail) fun hdir =>
            Tri.method fun q hq' => ?_
          intro s s' a ⟨⟨le, h, hle, ee, ei, ha⟩, h', ei', est⟩ hr
          rw [hq'] at ei ei'
          cases ei; cases ei'
          rw [M.andThen, M.call] at hr
          have hs := hq.getObject s x q
          rcases hg : d.impl.getObject s x q with ⟨s1, er | y⟩
          · rw [hg] at hr; cases hr
          · rw [hg] at hr hs
            simp only at hr hs
            cases hr
            subst hs
            refine ⟨le ++ [x], isLoc_snoc hle hx, ?_, fun h e => .inr ⟨le, x, q, rfl, ha, ?_, ?_⟩⟩
            · show Path.join e.absolutePath x = _
              rw [ee, join_canonical hle hx]
            · rw [est] at hdir; simpa using hdir
            · rw [hg, wrap_inner e]
        · intro s s' a _ h
          rw [(never_deep d l' hl' hx s (n + 1)).1] at h
          cases h
    · rw [getFollow]
      exact Tri.andThen (i1 l hl) fun e => i3 e
    · rw [followLoop]
      refine Tri.andThen (Tri.statOf d e) fun st => Tri.ite (fun hst => Tri.ok fun s ⟨hp, h, eh, est⟩ => ?_) fun _ =>
        Tri.pre (fun s k => k.1) (Tri.andThen (Tri.deferred d hq (i4 e)) fun e' => i3 e')
      exact placedAt_of hp eh (by rw [est] at hst; simpa using hst)
    · rw [resolveSymlink]
      exact Tri.andThen (Tri.statOf d e) fun st => Tri.ite (fun _ => Tri.ok fun s k => k.1) fun _ => Tri.pre (fun _ _ => trivial) (i5 _ _)
    · rw [symlinkLoop]
      refine Tri.andThen (Tri.top _) fun text => Tri.ite (fun _ => Tri.fail) fun _ => ?_
      obtain ⟨l, hl, el⟩ := C61_canonical wd text hwd
      rw [hw, el]
      exact Tri.andThen (i1 l hl) fun e' => Tri.andThen (Tri.statOf d e') fun st => Tri.ite (fun _ => Tri.ok fun s k => k.1) fun _ =>
        Tri.pre (fun _ _ => trivial) (i5 _ _)

/-- What a path leads to is at the location that the wrapper says. -/
theorem follow_placed (fuel : Nat) (p : Str) : Tri (fun _ => True) (getFollow d fuel (normalizePath d.workingDirPath p)) (PlacedAt d) := by
  obtain ⟨l, hl, el⟩ := C61_canonical wd p hwd
  rw [hw, el]
  exact (resolve_placed d hq hwd hw fuel).2.1 l hl

/-- C83: when Chdir succeeds, on any file system and in every configuration of the code, Getwd is afterwards the canonical path of a
location where there is a directory, reached without symbolic links, and this is the object that Stat describes for the path
given to Chdir. -/
theorem C83_where (fuel : Nat) (p : Str) (s s' : σ) (wd' : Str) (hc : chdir d fuel p s = .ret (s', .ok wd')) :
    ∃ l h, IsLoc l ∧ getwd { d with workingDirPath := wd' } = render l ∧ At d.impl s' l h ∧ (d.impl.stat s' h).isDir = true ∧
      stat d fuel p s = .ret (s', .ok (d.impl.stat s' h)) := by
  have ht := follow_placed d hq hwd hw fuel p
  unfold chdir at hc
  unfold stat
  rcases e : getFollow d fuel (normalizePath d.workingDirPath p) s with ⟨s1, er | x⟩ | _ | _
  · rw [andThen_err e] at hc; cases hc
  · obtain ⟨l, h, hl, ea, ei, ha⟩ := ht _ _ _ trivial e
    rcases x with ⟨_, q⟩
    simp only at ei ea
    subst ei ea
    rw [andThen_ok e] at hc ⊢
    have h2 : M.deferred (closeOf d ⟨some h, render l⟩) (statOf d ⟨some h, render l⟩) s1 = .ret (s1, .ok (d.impl.stat s1 h)) := deferred_close d hq rfl
    have h1 : M.deferred (closeOf d ⟨some h, render l⟩) (chdirToObject d ⟨some h, render l⟩) s1 =
        .ret (s1, if (d.impl.stat s1 h).isDir then .ok (render l) else .error .notADirectory) := by
      refine deferred_close d hq ?_
      unfold chdirToObject
      rw [andThen_ok (a := d.impl.stat s1 h) (s' := s1) rfl]
      rcases (d.impl.stat s1 h).isDir with _ | _ <;> rfl
    rw [h2]
    rw [h1] at hc
    rcases hdir : (d.impl.stat s1 h).isDir with _ | _
    · rw [hdir] at hc; cases hc
    · rw [hdir] at hc; cases hc
      exact ⟨l, h, hl, rfl, ha, hdir, rfl⟩
  · rw [andThen_panic e] at hc; cases hc
  · rw [andThen_timeout e] at hc; cases hc

end

/-- As `linked`, where "c" is a directory: "a" is a link to "b" and "b" a link to "c". -/
def linkedDir : Impl Unit Nat := { linked with stat := fun s h => if h = 99 then statWith Flags.ModeDir 0 0 99 else linked.stat s h }

/-- The link leads to "/c". -/
example : Quiet linkedDir ∧ chdir ⟨keeping, linkedDir, 3, str! "/"⟩ 19 (str! "a") () = .ret ((), .ok (str! "/c")) :=
  ⟨⟨fun _ _ _ => rfl, fun _ _ => rfl⟩, by decide +kernel⟩

namespace Spec
/-- Opening the path `p` in state `s` leads to the object `h` at location `l`: Stat describes it and it is there; or Stat finds nothing and
CreateObject made `h` under a name in a directory (found at the state `s2` that following the path of the parent leaves). -/
def OpenedAt (d : Drv σ H) (fuel : Nat) (p : Str) (perm : FileMode) (s : σ) (l : Loc) (h : H) : Prop :=
  (∃ s1, stat d fuel p s = .ret (s1, .ok (d.impl.stat s1 h)) ∧ At d.impl s1 l h) ∨
  (∃ s1 e s2 l' n dir, stat d fuel p s = .ret (s1, .error e) ∧ SaysNotFound e ∧ stat d fuel (str! "/") s1 = .ret (s2, .ok (d.impl.stat s2 dir)) ∧
    l = l' ++ [n] ∧ At d.impl s2 l' dir ∧ (d.impl.createObject s2 n dir perm).2 = .ok h)
end Spec

section
variable (d : Drv σ H) (hq : Quiet d.impl) {wd : Loc} (hwd : IsLoc wd) (hw : d.workingDirPath = render wd)
include hq hwd hw

theorem stat_of_placed {fuel : Nat} {p : Str} {s s1 : σ} {h : H} {q : Str}
    (e : getFollow d fuel (normalizePath d.workingDirPath p) s = .ret (s1, .ok ⟨some h, q⟩)) :
    stat d fuel p s = .ret (s1, .ok (d.impl.stat s1 h)) := by
  unfold stat
  rw [andThen_ok e]
  exact deferred_close d hq rfl

theorem openFile_placed (fuel : Nat) (p : Str) (flags : Flags.IOFlags) (perm : FileMode) (s s' : σ) (f : File H)
    (hr : (d.impl.stat s (d.impl.getRootDirectory s)).isSymlink = false)
    (ho : openFile d fuel p flags perm s = .ret (s', .ok f)) :
    ∃ l h, IsLoc l ∧ f.objectHandle = ⟨some h, render l⟩ ∧ OpenedAt d fuel p perm s l h := by
  unfold openFile at ho
  split at ho
  · cases ho
  have hlast : ∀ (e : Ext H) (s1 : σ), M.andThen (statOf d e) (fun st => if (!st.isFile) = true then M.fail .isADirectory else newFile d e flags) s1 =
      .ret (s', .ok f) → f.objectHandle = e ∧ ∃ h, e.inner = some h := by
    intro e s1 h1
    obtain ⟨s2, st, e2, h1⟩ := andThen_inv h1
    obtain ⟨_, h, eh, _⟩ := Tri.statOf (P := fun _ => True) d e _ _ _ trivial e2
    split at h1
    · cases h1
    · exact ⟨newFile_handle d hwd hw e flags _ _ _ h1, h, eh⟩
  rcases e : getFollow d fuel (normalizePath d.workingDirPath p) s with ⟨s1, er | x⟩ | _ | _
  · rw [either_ret e] at ho
    simp only at ho
    obtain ⟨s4, obj, hm, ho⟩ := andThen_inv ho
    obtain ⟨hobj, h, eh⟩ := hlast _ _ ho
    split at hm
    · rename_i hnf
      have hst : stat d fuel p s = .ret (s1, .error er) := by unfold stat; rw [andThen_err e]
      obtain ⟨l, hl, el⟩ := C61_canonical wd p hwd
      rw [hw, el] at hm e
      rcases loc_cases l with rfl | ⟨l', x, rfl⟩
      · exfalso
        rcases fuel with _ | _ | k
        · rw [getFollow] at e; cases e
        · rw [getFollow, andThen_timeout (by rw [getNoFollow])] at e; cases e
        · by_cases hk : d.cfg.keepHandle = true
          · rw [show render [] = str! "/" from rfl, keep_root_follow d hk hr k] at e; cases e
          · have hp : getFollow d (k + 1 + 1) (render []) s = .panic := by
              rw [getFollow, getNoFollow, if_pos (.inl rfl), M.andThen, wrapObjectHandle, if_neg hk]
              simp only
              rw [followLoop]
              rfl
            rw [hp] at e; cases e
      · have hx : IsName x := hl x (by simp)
        unfold createMissing at hm
        rw [splitLast_render l' hx] at hm
        by_cases hl' : l' = []
        · subst hl'
          rw [if_pos rfl] at hm
          obtain ⟨s2, ⟨_, q⟩, ep, hm⟩ := andThen_inv hm
          obtain ⟨lp, hp, hlp, ea, ei, ha⟩ := (resolve_placed d hq hwd hw fuel).2.1 [] isLoc_nil _ _ _ trivial ep
          simp only at ei ea
          subst ei ea
          have hobj2 : obj = wrapObjectHandle d.cfg (some h) (Path.join (render lp) x) ∧ (d.impl.createObject s2 x hp perm).2 = .ok h := by
            refine Tri.deferred d hq (P := (· = s2)) (Q := fun _ obj => obj.inner = some h →
              obj = wrapObjectHandle d.cfg (some h) (Path.join (render lp) x) ∧ (d.impl.createObject s2 x hp perm).2 = .ok h) ?_ _ _ _ rfl hm eh
            intro t t' o et h1 hi
            subst et
            unfold createExtObject Ext.method at h1
            obtain ⟨t1, z, e1, h1⟩ := andThen_inv h1
            cases h1
            unfold M.call at e1
            have := wrap_inner hi
            subst this
            injection e1 with e1
            simp only at e1
            exact ⟨rfl, congrArg Prod.snd e1⟩
          obtain ⟨ho2, hcr⟩ := hobj2
          refine ⟨lp ++ [x], h, isLoc_snoc hlp hx, ?_, .inr ⟨s1, er, s2, lp, x, hp, hst, (by simp at hnf; exact (isNotFound_iff er).mp hnf.1), ?_, rfl, ha, hcr⟩⟩
          · rw [hobj]
            rcases obj with ⟨i, q⟩
            simp only at eh
            rw [← join_canonical hlp hx]
            have := congrArg Ext.absolutePath ho2
            simp only [wrapObjectHandle] at this
            rw [eh, this]
          · refine stat_of_placed d hq hwd hw (q := render lp) ?_
            have : normalizePath d.workingDirPath (str! "/") = str! "/" := by
              have h1 : Path.clean (str! "/") = str! "/" := by decide
              have h2 : (str! "/" : Str) ≠ Path.dot := by decide
              have h3 : Path.isAbs (str! "/") = true := by decide
              unfold normalizePath
              simp only [h1, if_neg h2, h3, if_true]
            rw [this]
            exact ep
        · rw [if_neg hl'] at hm
          have hne : render l' ≠ [] := by
            obtain ⟨r, e⟩ := render_absolute l'
            rw [e]; simp
          rw [andThen_timeout (never_slash d _ hne s1 fuel).2] at hm
          cases hm
    · cases hm
  · obtain ⟨l, h, hl, ea, ei, ha⟩ := follow_placed d hq hwd hw fuel p _ _ _ trivial e
    rcases x with ⟨_, q⟩
    simp only at ei ea
    subst ei ea
    rw [either_ret e, andThen_ok (a := ⟨some h, render l⟩) (s' := s1) rfl] at ho
    exact ⟨l, h, hl, (hlast _ _ ho).1, .inl ⟨s1, stat_of_placed d hq hwd hw e, ha⟩⟩
  · rw [either_panic e] at ho; cases ho
  · rw [either_timeout e] at ho; cases ho

/-- C83, Chdir of a file that the driver opened, at any later time and whatever was done with it and to the file system in between: it
succeeds exactly if the object is a directory by then, and goes to the canonical path of the place where opening the file found or
created it. -/
theorem C83_file_where (fuel : Nat) (p : Str) (flags : Flags.IOFlags) (perm : FileMode) (s s' : σ) (f : File H)
    (hr : (d.impl.stat s (d.impl.getRootDirectory s)).isSymlink = false)
    (ho : openFile d fuel p flags perm s = .ret (s', .ok f)) :
    ∃ l h, IsLoc l ∧ OpenedAt d fuel p perm s l h ∧
      ∀ (f' : File H) (wd' : Str) (t : σ), f'.objectHandle = f.objectHandle →
        f'.chdir { d with workingDirPath := wd' } t = .ret (t, if (d.impl.stat t h).isDir then .ok (render l) else .error .notADirectory) := by
  obtain ⟨l, h, hl, e, k⟩ := openFile_placed d hq hwd hw fuel p flags perm s s' f hr ho
  refine ⟨l, h, hl, k, fun f' wd' t ef => ?_⟩
  unfold File.chdir chdirToObject
  rw [ef, e, andThen_ok (a := d.impl.stat t h) (s' := t) rfl]
  rcases (d.impl.stat t h).isDir with _ | _ <;> rfl

end

/-- Opening "a" opens the file at "/c"; it is not a directory. -/
example : (linked.stat () (linked.getRootDirectory ())).isSymlink = false ∧
    (match openFile ⟨keeping, linked, 3, str! "/"⟩ 19 (str! "a") Flags.O_RDONLY 0 () with
      | .ret (_, .ok f) => decide (f.objectHandle = ⟨some 99, str! "/c"⟩ ∧ f.chdir ⟨keeping, linked, 3, str! "/"⟩ () = .ret ((), .error .notADirectory))
      | _ => false) = true := ⟨by decide, by decide +kernel⟩

end Disko.Driver

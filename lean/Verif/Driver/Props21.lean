import Verif.Driver.Props20
/-! C105: Unlink is called on directories only when they are empty. -/
namespace Disko.Driver
open Disko Spec

variable {σ H α : Type}

namespace Spec

/-- What api.go guarantees of Unlink: if the object is a directory, ListDir gives nothing but "." and ".." at that moment. -/
def Emptied (impl : Impl σ H) (s : σ) (h : H) : Prop :=
  (impl.stat s h).isDir = true → ∃ list names, impl.listDir h = some list ∧ (list s).2 = .ok names ∧ ∀ n ∈ names, n = str! "." ∨ n = str! ".."

/-- The same, as a property of calls. -/
def UnlinksEmptied (impl : Impl σ H) (s : σ) (c : Call H) : Prop := ∀ h, c = .unlink h → Emptied impl s h

/-- Listing a directory changes nothing. -/
def ListsOnly (impl : Impl σ H) : Prop := ∀ h f, impl.listDir h = some f → ∀ s, (f s).1 = s

/-- The implementation, keeping a list of the objects Unlink has been called on, each with the state in which it was. -/
def watching (impl : Impl σ H) : Impl (σ × List (σ × H)) H where
  features := impl.features
  getRootDirectory x := impl.getRootDirectory x.1
  getObject x n h := (((impl.getObject x.1 n h).1, x.2), (impl.getObject x.1 n h).2)
  createObject x n h m := (((impl.createObject x.1 n h m).1, x.2), (impl.createObject x.1 n h m).2)
  createHardLink := impl.createHardLink.map fun f x o p n => (((f x.1 o p n).1, x.2), (f x.1 o p n).2)
  stat x h := impl.stat x.1 h
  name x h := impl.name x.1 h
  sameAs x h h' := impl.sameAs x.1 h h'
  resize x h n := (((impl.resize x.1 h n).1, x.2), (impl.resize x.1 h n).2)
  readBlocks x h i buf := (((impl.readBlocks x.1 h i buf).1, x.2), (impl.readBlocks x.1 h i buf).2)
  writeBlocks x h i buf := (((impl.writeBlocks x.1 h i buf).1, x.2), (impl.writeBlocks x.1 h i buf).2)
  unlink x h := (((impl.unlink x.1 h).1, x.2 ++ [(x.1, h)]), (impl.unlink x.1 h).2)
  close x h := (((impl.close x.1 h).1, x.2), (impl.close x.1 h).2)
  listDir h := (impl.listDir h).map fun f x => (((f x.1).1, x.2), (f x.1).2)
  chmod h := (impl.chmod h).map fun f x m => (((f x.1 m).1, x.2), (f x.1 m).2)
  chown h := (impl.chown h).map fun f x u g => (((f x.1 u g).1, x.2), (f x.1 u g).2)
  chtimes h := (impl.chtimes h).map fun f x a b c e g => (((f x.1 a b c e g).1, x.2), (f x.1 a b c e g).2)

end Spec

/-! ### Remove -/

/-- C105: Remove calls Unlink on a directory only if ListDir has just said that it is empty: in every configuration of the code, on every
implementation in which listing changes nothing, for every path, from every state. -/
theorem C105_remove (cfg : Cfg) {impl : Impl σ H} (hl : ListsOnly impl) (mf : MountFlags) (wd : Str) (fuel : Nat) (p : Str) :
    Only (UnlinksEmptied impl) (remove (recorded cfg impl mf wd) fuel p) := by
  have L := looks_recorded impl (P := UnlinksEmptied impl) (fun _ c hc h he => by subst he; cases hc)
  have P := L.toPre
  refine only_of_keeps (path_frame _ L fuel _ fun e => Keeps.deferred P (close_frame _ L e) ?_)
  rcases e with ⟨_ | h, q⟩
  · exact Keeps.andThen P (Keeps.statOf P _ _) fun st => by
      intro s s' r hr
      split at hr
      · rw [show (⟨none, q⟩ : Ext H).optional (recorded cfg impl mf wd).cfg (recorded cfg impl mf wd).impl.listDir = none by unfold Ext.optional; split <;> rfl] at hr
        cases hr
      · split at hr
        · cases hr; exact ⟨P.refl _, fun _ _ => trivial⟩
        · cases hr
  · rintro ⟨s, log⟩ x' r hr
    rw [andThen_ok (a := impl.stat s h) (s' := (s, log)) rfl] at hr
    refine ⟨?_, fun _ _ => trivial⟩
    have hun : ∀ (log1 : List (σ × Call H)), Emptied impl s h → ∀ x' r, unlinkOf (recorded cfg impl mf wd) ⟨some h, q⟩ (s, log1) = .ret (x', r) → Added (UnlinksEmptied impl) (s, log1) x' := by
      intro log1 he x' r hr
      simp only [unlinkOf, Ext.method, M.callE, recording] at hr
      have : x' = ((impl.unlink s h).1, log1 ++ [(s, .unlink h)]) := by
        rcases hu : (impl.unlink s h).2 with _ | er <;> rw [hu] at hr <;> cases hr <;> rfl
      rw [this]
      exact Added.one (x := (s, log1)) fun h' hh => by cases hh; exact he
    split at hr
    · rename_i hdir
      unfold Ext.optional at hr
      rcases hc : cfg.passOptional with _ | _
      · simp only [hc] at hr; cases hr
      · simp only [hc, if_true] at hr
        rcases hls : impl.listDir h with _ | list
        · simp only [recording, Option.bind_some, hls, Option.map_none] at hr; cases hr
        · simp only [recording, Option.bind_some, hls, Option.map_some] at hr
          rcases andThen_ret hr with ⟨e, h1, rfl⟩ | ⟨⟨s1, log1⟩, names, h1, h2⟩
          · simp only [M.call, Outcome.ret.injEq, Prod.mk.injEq] at h1
            rw [← h1.1]
            exact Added.one (x := (s, log)) fun h' hh => by cases hh
          · simp only [M.call, Outcome.ret.injEq, Prod.mk.injEq, hl h list hls] at h1
            obtain ⟨⟨rfl, rfl⟩, hnames⟩ := h1
            have h0 : Added (UnlinksEmptied impl) (s, log) (s, log ++ [(s, .listDir h)]) := Added.one (x := (s, log)) fun h' hh => by cases hh
            split at h2
            · cases h2; exact h0
            · rename_i hdots
              refine P.trans h0 (hun _ (fun _ => ⟨list, names, hls, hnames, fun n hn => ?_⟩) _ _ h2)
              by_cases e1 : n = str! "."
              · exact .inl e1
              · by_cases e2 : n = str! ".."
                · exact .inr e2
                · exact absurd ((removeDots_length names).mpr ⟨n, hn, e1, e2⟩) hdots
    · rename_i hdir
      split at hr
      · cases hr; exact P.refl _
      · exact hun _ (fun h => absurd h hdir) _ _ hr

/-! ### What a path leads to on a volume is there -/

theorem deferred_ret {c : M σ Unit} {m : M σ α} {s s' : σ} {r : Except Err α} (h : M.deferred c m s = .ret (s', r)) : ∃ s1, m s = .ret (s1, r) := by
  unfold M.deferred M.either at h
  rcases h1 : m s with ⟨s1, r1⟩ | _ | _
  · rw [h1] at h
    simp only at h
    rcases h2 : c s1 with ⟨s2, r2⟩ | _ | _
    · rw [h2] at h; cases h; exact ⟨s1, rfl⟩
    · rw [h2] at h; cases h
    · rw [h2] at h; cases h
  · rw [h1] at h; cases h
  · rw [h1] at h; cases h

theorem deferred_rel {R : σ → σ → Prop} {E : Err → Prop} {c : M σ Unit} {m : M σ α} {s s' : σ} {r : Except Err α} (hc : Keeps R E c) (h : M.deferred c m s = .ret (s', r)) :
    ∃ s1, m s = .ret (s1, r) ∧ R s1 s' := by
  unfold M.deferred M.either at h
  rcases h1 : m s with ⟨s1, r1⟩ | _ | _
  · rw [h1] at h
    simp only at h
    rcases h2 : c s1 with ⟨s2, r2⟩ | _ | _
    · rw [h2] at h; cases h; exact ⟨s1, rfl, (hc _ _ _ h2).1⟩
    · rw [h2] at h; cases h
    · rw [h2] at h; cases h
  · rw [h1] at h; cases h
  · rw [h1] at h; cases h

/-- A handle (if there is one) is of an object that is there. -/
def Good (kind : σ → Loc → Option Kind) (loc : H → Loc) (s : σ) (e : Ext H) : Prop := ∀ h, e.inner = some h → kind s (loc h) ≠ none

section
variable {impl : Impl σ H} {kind : σ → Loc → Option Kind} {loc : H → Loc} (V : Volume impl kind loc) (d : Drv σ H) (hi : d.impl = impl) {wd : Loc} (hwd : IsLoc wd) (hw : d.workingDirPath = render wd)
include V hi hwd hw

theorem resolve_good : ∀ n : Nat,
    (∀ l s s' e, IsLoc l → getNoFollow d n (render l) s = .ret (s', .ok e) → Good kind loc s e) ∧
    (∀ l s s' e, IsLoc l → getFollow d n (render l) s = .ret (s', .ok e) → Good kind loc s e) ∧
    (∀ e0 s s' e, Good kind loc s e0 → followLoop d n e0 s = .ret (s', .ok e) → Good kind loc s e) ∧
    (∀ e0 s s' e, Good kind loc s e0 → resolveSymlink d n e0 s = .ret (s', .ok e) → Good kind loc s e) ∧
    (∀ c e0 s s' e, Good kind loc s e0 → symlinkLoop d n c e0 s = .ret (s', .ok e) → Good kind loc s e)
  | 0 => ⟨fun _ _ _ _ _ h => (by rw [getNoFollow] at h; cases h), fun _ _ _ _ _ h => (by rw [getFollow] at h; cases h), fun _ _ _ _ _ h => (by rw [followLoop] at h; cases h),
      fun _ _ _ _ _ h => (by rw [resolveSymlink] at h; cases h), fun _ _ _ _ _ _ h => (by rw [symlinkLoop] at h; cases h)⟩
  | n + 1 => by
    obtain ⟨i1, i2, i3, i4, i5⟩ := resolve_good n
    have hp : Peaceful d.impl := by rw [hi]; exact V.toPeaceful
    obtain ⟨k1, k2, k3, k4, k5⟩ := all_still d hp n
    have kst : ∀ (e : Ext H) s s1 st, statOf d e s = .ret (s1, .ok st) → s1 = s ∧ ∃ h, e.inner = some h ∧ st = impl.stat s h := by
      intro e s s1 st h
      rcases e with ⟨_ | h', q⟩
      · cases h
      · cases h; exact ⟨rfl, h', rfl, by rw [hi]⟩
    refine ⟨fun l s s' e hl hr => ?_, fun l s s' e hl hr => ?_, fun e0 s s' e hg hr => ?_, fun e0 s s' e hg hr => ?_, fun c e0 s s' e hg hr => ?_⟩
    · rcases loc_cases l with rfl | ⟨l', x, rfl⟩
      · rw [getNoFollow, if_pos (.inl rfl)] at hr
        cases hr
        intro h hh
        unfold wrapObjectHandle at hh
        split at hh
        · cases hh
          rw [hi, (V.root _).1, (V.root _).2]; simp
        · cases hh
      · have hx : IsName x := hl x (by simp)
        by_cases hl' : l' = []
        · subst hl'
          rw [getNoFollow, if_neg (render_ne_root [] hx), splitLast_render [] hx, if_pos rfl] at hr
          rcases andThen_ret hr with ⟨_, _, he⟩ | ⟨s1, parent, h1, h2⟩
          · cases he
          · have hs1 : s1 = s := (k2 _ _ _ _ h1).1
            subst hs1
            have gp := i2 [] s1 s1 parent isLoc_nil h1
            obtain ⟨s2, h3⟩ := deferred_ret h2
            rcases andThen_ret h3 with ⟨_, _, he⟩ | ⟨s3, st, h4, h5⟩
            · cases he
            · obtain ⟨rfl, h, hin, rfl⟩ := kst _ _ _ _ h4
              split at h5
              · cases h5
              · rename_i hdir
                have hdir' : (impl.stat s3 h).isDir = true := by simpa using hdir
                obtain ⟨k, hk⟩ := Option.ne_none_iff_exists'.mp (gp h hin)
                have hkd : k = .dir := ((V.stat s3 h k hk).1.mp hdir')
                subst hkd
                unfold getExtObjectInDir Ext.method at h5
                rw [hin] at h5
                simp only at h5
                rcases andThen_ret h5 with ⟨_, _, he⟩ | ⟨s4, h', h6, h7⟩
                · cases he
                · simp only [M.call, Outcome.ret.injEq] at h6
                  have h6' : (impl.getObject s3 x h).2 = .ok h' := by rw [← hi, h6]
                  cases h7
                  intro h2' hh
                  unfold wrapObjectHandle at hh
                  split at hh
                  · cases hh
                    rcases hkx : kind s3 (loc h ++ [x]) with _ | kx
                    · rw [V.missing s3 x h hk hx hkx] at h6'; cases h6'
                    · obtain ⟨h3', h8, h9⟩ := V.found s3 x h kx hk hx hkx
                      rw [h8] at h6'
                      cases h6'
                      rw [h9, hkx]; simp
                  · cases hh
        · rw [(never_deep d l' hl' hx s (n + 1)).1] at hr; cases hr
    · rw [getFollow] at hr
      rcases andThen_ret hr with ⟨_, _, he⟩ | ⟨s1, e1, h1, h2⟩
      · cases he
      · have hs1 : s1 = s := (k1 _ _ _ _ h1).1
        subst hs1
        exact i3 _ _ _ _ (i1 _ _ _ _ hl h1) h2
    · rw [followLoop] at hr
      rcases andThen_ret hr with ⟨_, _, he⟩ | ⟨s1, st, h1, h2⟩
      · cases he
      · obtain ⟨rfl, _⟩ := kst _ _ _ _ h1
        split at h2
        · cases h2; exact hg
        · rcases andThen_ret h2 with ⟨_, _, he⟩ | ⟨s2, e2, h3, h4⟩
          · cases he
          · obtain ⟨s3, h5⟩ := deferred_ret h3
            have hs2 : s2 = s1 := by
              have := (Keeps.deferred Pre.eq (close_still d hp e0) (k4 e0) _ _ _ h3).1
              exact this
            subst hs2
            exact i3 _ _ _ _ (i4 _ _ _ _ hg h5) h4
    · rw [resolveSymlink] at hr
      rcases andThen_ret hr with ⟨_, _, he⟩ | ⟨s1, st, h1, h2⟩
      · cases he
      · obtain ⟨rfl, _⟩ := kst _ _ _ _ h1
        split at h2
        · cases h2; exact hg
        · exact i5 _ _ _ _ _ hg h2
    · rw [symlinkLoop] at hr
      rcases andThen_ret hr with ⟨_, _, he⟩ | ⟨s1, text, h1, h2⟩
      · cases he
      · have hs1 : s1 = s := (Keeps.deferred Pre.eq (close_still d hp e0) (contents_still d hp.read e0) _ _ _ h1).1
        subst hs1
        simp only at h2
        split at h2
        · cases h2
        · rcases andThen_ret h2 with ⟨_, _, he⟩ | ⟨s2, e2, h3, h4⟩
          · cases he
          · have hs2 : s2 = s1 := (k1 _ _ _ _ h3).1
            subst hs2
            obtain ⟨l, hl, hc⟩ := C61_canonical wd text hwd
            rw [hw, hc] at h3
            have g2 := i1 _ _ _ _ hl h3
            rcases andThen_ret h4 with ⟨_, _, he⟩ | ⟨s3, st, h5, h6⟩
            · cases he
            · obtain ⟨rfl, _⟩ := kst _ _ _ _ h5
              split at h6
              · cases h6; exact g2
              · exact i5 _ _ _ _ _ g2 h6

end

/-! ### RemoveAll -/

theorem watching_volume {impl : Impl σ H} {kind : σ → Loc → Option Kind} {loc : H → Loc} (V : Volume impl kind loc) :
    Volume (watching impl) (fun x => kind x.1) loc where
  getObject x n h := Prod.ext (V.toQuiet.getObject x.1 n h) rfl
  close x h := by simp [watching, V.toQuiet.close x.1 h]
  read x h i buf := Prod.ext (V.toPeaceful.read x.1 h i buf) rfl
  list h f hf x := by
    simp only [watching, Option.map_eq_some_iff] at hf
    obtain ⟨g, hg, rfl⟩ := hf
    exact Prod.ext (V.toStill.list h g hg x.1) rfl
  root x := V.root x.1
  found x := V.found x.1
  missing x := V.missing x.1
  stat x := V.stat x.1
  listing x h hk := by
    obtain ⟨f, names, h1, h2, h3⟩ := V.listing x.1 h hk
    refine ⟨fun x => (((f x.1).1, x.2), (f x.1).2), names, by simp only [watching, h1, Option.map_some], ?_, h3⟩
    simp [h2]
  unlink x h k h0 hk he := by
    obtain ⟨s', h1, h2⟩ := V.unlink x.1 h k h0 hk he
    refine ⟨(s', x.2 ++ [(x.1, h)]), ?_, h2⟩
    simp [watching, h1]
  create x h n mode hk hn hne := by
    obtain ⟨s', h', h1, h2⟩ := V.create x.1 h n mode hk hn hne
    refine ⟨(s', x.2), h', ?_, h2⟩
    simp [watching, h1]
  same x := V.same x.1
  bounded x := V.bounded x.1
  parents x := V.parents x.1
  names x := V.names x.1

/-- The relation behind the theorem. -/
def Unlinked (impl : Impl σ H) (x y : σ × List (σ × H)) : Prop := ∃ calls, y.2 = x.2 ++ calls ∧ ∀ c ∈ calls, Emptied impl c.1 c.2

theorem Unlinked.pre (impl : Impl σ H) : Pre (Unlinked impl) :=
  ⟨fun s => ⟨[], by simp, by simp⟩, fun ⟨c1, h1, k1⟩ ⟨c2, h2, k2⟩ => ⟨c1 ++ c2, by rw [h2, h1, List.append_assoc], fun c hc =>
    (List.mem_append.mp hc).elim (k1 c) (k2 c)⟩⟩

theorem unlink_emptied {impl : Impl σ H} {kind : σ → Loc → Option Kind} {loc : H → Loc} (V : Volume impl kind loc) (x : σ × List (σ × H)) (h : H) (k : Kind)
    (hk : kind x.1 (loc h) = some k) (he : k = .dir → ∀ n, kind x.1 (loc h ++ [n]) = none) : Unlinked impl x ((watching impl).unlink x h).1 := by
  refine ⟨[(x.1, h)], rfl, fun c hc hdir => ?_⟩
  rw [List.mem_singleton] at hc
  subst hc
  have hkd : k = .dir := (V.stat x.1 h k hk).1.mp hdir
  subst hkd
  obtain ⟨f, names, h1, h2, _, h4, _⟩ := V.listing x.1 h hk
  refine ⟨f, names, h1, by rw [h2], fun n hn => ?_⟩
  rcases h4 n hn with ⟨_, h5⟩ | h5
  · exact absurd (he rfl n) h5
  · exact h5

/-- C105: RemoveAll calls Unlink on a directory only when it is empty: in every configuration of the code, on every volume, for every path
and from every state, and however the call ends. -/
theorem C105_removeAll {cfg : Cfg} (hcfg : cfg = shipped ∨ cfg = keeping ∨ cfg = passing) {impl : Impl σ H} {kind : σ → Loc → Option Kind} {loc : H → Loc} (V : Volume impl kind loc)
    (mf : MountFlags) {wd : Loc} (hwd : IsLoc wd) (fuel : Nat) (p : Str) (s : σ) (log : List (σ × H)) (s' : σ) (log' : List (σ × H)) (r : Except Err Unit)
    (hr : removeAll ⟨cfg, watching impl, mf, render wd⟩ fuel p (s, log) = .ret ((s', log'), r)) :
    ∃ calls, log' = log ++ calls ∧ ∀ c ∈ calls, Emptied impl c.1 c.2 := by
  show Unlinked impl (s, log) (s', log')
  have W := watching_volume V
  have P := Unlinked.pre impl
  have L : Looks (Unlinked impl) (watching impl) := Looks.of_reads P (fun x n h => by rw [W.toQuiet.getObject]; exact P.refl _)
    (fun x h => by rw [W.toQuiet.close]; exact P.refl _) (fun x h i buf => by rw [W.toPeaceful.read]; exact P.refl _)
  generalize hdd : (⟨cfg, watching impl, mf, render wd⟩ : Drv (σ × List (σ × H)) H) = d at hr
  have hi : d.impl = watching impl := by rw [← hdd]
  have L' : Looks (Unlinked impl) d.impl := by rw [hi]; exact L
  have hw : d.workingDirPath = render wd := by rw [← hdd]
  unfold removeAll at hr
  obtain ⟨l, hl, hc⟩ := C61_canonical wd p hwd
  rw [hw, hc] at hr
  rcases andThen_ret hr with ⟨_, h1, _⟩ | ⟨x1, e, h1, h2⟩
  · exact ((resolve_frame d L' fuel).2.1 _ _ _ _ h1).1
  · have hx : x1 = (s, log) := ((all_still d (by rw [hi]; exact W.toPeaceful) fuel).2.1 _ _ _ _ h1).1
    subst hx
    have ge := (resolve_good W d hi hwd hw fuel).2.1 _ _ _ _ hl h1
    obtain ⟨x2, h3, hcl⟩ := deferred_rel (close_frame d L' e) h2
    refine P.trans ?_ hcl
    rcases e with ⟨_ | h, q⟩
    · rw [show statOf d (⟨none, q⟩ : Ext H) = fun _ => .panic from rfl] at h3
      cases h3
    · rw [andThen_ok (a := d.impl.stat (s, log) h) (s' := (s, log)) rfl] at h3
      split at h3
      · cases h3; exact P.refl _
      · rename_i hdir
        have hdir' : (impl.stat s h).isDir = true := by rw [hi] at hdir; simpa [watching] using hdir
        simp only [Ext.method] at h3
        split at h3
        · cases h3; exact P.refl _
        · obtain ⟨k, hk⟩ := Option.ne_none_iff_exists'.mp (ge h rfl)
          have hkd : k = .dir := (W.stat (s, log) h k hk).1.mp hdir'
          subst hkd
          have hopt : d.cfg.passOptional = false → removeDirectory d fuel ⟨some h, q⟩ (s, log) = .ret (x2, r) → False := by
            intro hno hr
            rcases fuel with _ | fuel
            · rw [removeDirectory] at hr; cases hr
            · rw [removeDirectory, show (⟨some h, q⟩ : Ext H).optional d.cfg d.impl.listDir = none by unfold Ext.optional; rw [hno]; rfl] at hr
              cases hr
          rcases hcfg with rfl | rfl | rfl
          · exact absurd h3 fun h3 => hopt (by rw [← hdd]; rfl) h3
          · exact absurd h3 fun h3 => hopt (by rw [← hdd]; rfl) h3
          · obtain ⟨D, hD⟩ := W.bounded (s, log)
            obtain ⟨x3, h4, h5, _⟩ := removeDirectory_rel W d (by rw [← hdd]) hi P (fun x h k _ hk he => unlink_emptied V x h k hk he) (fuel + D + 1) (s, log) h q D hk
              (fun l hl _ => hD l hl) (by omega)
            have h6 := (removeDirectory_mono d (show fuel ≤ fuel + D + 1 by omega) ⟨some h, q⟩).ret h3
            rw [h4] at h6
            cases h6
            exact h5

/-- What was unlinked, if the call returned. -/
def unlinkedOf {τ : Type} (o : Outcome ((σ × List (σ × H)) × τ)) : Option (List H) :=
  match o with
  | .ret (x, _) => some (x.2.map (·.2))
  | _ => none

/-- A directory "d" with a directory "e" with a file "f" in it. -/
def nested : Store := ⟨[([str! "d"], .dir), ([str! "d", str! "e"], .dir), ([str! "d", str! "e", str! "f"], .file)], by
  refine ⟨by decide, ?_, ?_⟩
  · intro l n k h
    have key : ∀ e ∈ ([([str! "d"], .dir), ([str! "d", str! "e"], .dir), ([str! "d", str! "e", str! "f"], .file)] : List (Loc × Kind)),
        (e.1.dropLast, Kind.dir) ∈ ([([str! "d"], .dir), ([str! "d", str! "e"], .dir), ([str! "d", str! "e", str! "f"], .file)] : List (Loc × Kind)) ∨ e.1.dropLast = [] := by decide
    have := key _ h
    rwa [List.dropLast_concat] at this
  · intro l k h
    have key : ∀ e ∈ ([([str! "d"], .dir), ([str! "d", str! "e"], .dir), ([str! "d", str! "e", str! "f"], .file)] : List (Loc × Kind)), e.1 ≠ [] ∧ IsLoc e.1 := by decide
    exact key _ h⟩

/-- The file is unlinked, then the directory it was in. -/
example : unlinkedOf (removeAll ⟨passing, watching store, 3, str! "/"⟩ 20 (str! "/d") (nested, [])) =
    some [[str! "d", str! "e", str! "f"], [str! "d", str! "e"]] := by decide +kernel

example : ListsOnly store := store_volume.toStill.list
/-- An empty directory is listed and unlinked; one that is not empty is only listed. -/
example : callsOf (remove (recorded passing store 3 (str! "/")) 20 (str! "/d") (⟨[([str! "d"], .dir)], by
    refine ⟨by decide, fun l n k h => ?_, fun l k h => ?_⟩
    · rcases l with _ | ⟨a, l⟩
      · exact .inr rfl
      · simp at h
    · simp only [List.mem_singleton, Prod.mk.injEq] at h
      rw [h.1]; decide⟩, [])) =
    some [.getObject (str! "d") [], .close [], .listDir [str! "d"], .unlink [str! "d"], .close [str! "d"]] := by decide +kernel
example : callsOf (remove (recorded passing store 3 (str! "/")) 20 (str! "/d") (nested, [])) =
    some [.getObject (str! "d") [], .close [], .listDir [str! "d"], .close [str! "d"]] := by decide +kernel

end Disko.Driver

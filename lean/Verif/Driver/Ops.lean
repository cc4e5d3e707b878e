import Verif.Driver.Props4
/-! Objects in the root directory, found by any spelling of their path, through links or not, when
wrapObjectHandle keeps the handle. -/
namespace Disko.Driver
open Disko Spec

variable {σ H α β : Type}

namespace Spec

/-- The call, given enough steps, returns with this state and result. -/
def Gives (m : Nat → M σ α) (s s' : σ) (r : Except Err α) : Prop := ∃ N, ∀ fuel, N ≤ fuel → m fuel s = .ret (s', r)

/-- From the directory `wd` the path `p` means the location `l`: an absolute path is walked from the
root, a relative one from `wd`.  (A relative path that leads nowhere from anywhere, such as ".", is
left out: see C61.) -/
def Means (wd : Loc) (p : Str) (l : Loc) : Prop :=
  (Absolute p ∧ walk [] p = l) ∨ (¬ Absolute p ∧ (∃ l0, IsLoc l0 ∧ walk l0 p ≠ l0) ∧ walk wd p = l)

/-- The object `h` is what location `l` stands for when links are followed, and `l'` is where it is.
Locations are the root and the names in the root directory. -/
inductive Found (impl : Impl σ H) (s : σ) : Loc → Loc → H → Prop where
  | root : Found impl s [] [] (impl.getRootDirectory s)
  | entry {k : Nat} {n m : Str} {h : H} (hn : IsName n) (hf : Follows impl s k n m) (hi : InRoot impl s m h)
      (hns : (impl.stat s h).isSymlink = false) : Found impl s [n] [m] h

/-- Following links from location `l`, a name of the root directory, leads to a name that the
implementation does not find, for the reason `e`. -/
inductive Missing (impl : Impl σ H) (s : σ) : Loc → Err → Prop where
  | entry {k : Nat} {n m : Str} {e : Err} (hn : IsName n) (hf : Follows impl s k n m)
      (hm : (impl.getObject s m (impl.getRootDirectory s)).2 = .error e) : Missing impl s [n] e

end Spec

theorem normalize_means {wd : Loc} (hwd : IsLoc wd) {p : Str} {l : Loc} (h : Means wd p l) :
    normalizePath (render wd) p = render l ∧ IsLoc l := by
  rcases h with ⟨ha, rfl⟩ | ⟨ha, hm, rfl⟩
  · exact ⟨C61_absolute_partial _ p ha, isLoc_walk isLoc_nil p⟩
  · exact ⟨C61_relative_partial wd p hwd ha hm, isLoc_walk hwd p⟩

theorem means_render {l : Loc} (h : IsLoc l) (wd : Loc) : Means wd (render l) l := .inl ⟨render_absolute l, walk_render h⟩

section
variable (d : Drv σ H) (hd : d.cfg.keepHandle = true)
include hd

theorem follow_found (Q : Quiet d.impl) {s : σ} (hr : RootIsDir d.impl s) {l l' : Loc} {h : H} (hf : Found d.impl s l l' h) :
    Gives (getFollow d · (render l)) s s (.ok ⟨some h, render l'⟩) := by
  cases hf with
  | root => exact ⟨2, fun fuel hfu => by
      obtain ⟨f, rfl⟩ : ∃ f, fuel = f + 2 := ⟨fuel - 2, by omega⟩
      exact keep_root_follow d hd hr.2 f⟩
  | entry hn hf hi hns =>
    rename_i k n m
    have hlast : ¬ ∃ m', LinksTo d.impl s m m' := by
      rintro ⟨m', h', t, hi', hsym, _⟩
      rw [inRoot_unique d hi' hi, hns] at hsym
      cases hsym
    refine ⟨k + 7, fun fuel hfuel => ?_⟩
    cases hf with
    | zero =>
      obtain ⟨f, rfl⟩ : ∃ f, fuel = f + 4 := ⟨fuel - 4, by omega⟩
      exact follow_plain d hd Q hr hn hi hns f
    | succ hl hf' =>
      rename_i k n'
      obtain ⟨f, rfl⟩ : ∃ f, fuel = (k + 3 + f) + 4 := ⟨fuel - (k + 7), by omega⟩
      obtain ⟨h0, t, hi0, hsym, hrest⟩ := id hl
      refine follow_link d hd Q hr hn hi0 hsym (r := .ok ⟨some h, render [m]⟩) ?_ ?_
      · rw [show k + 3 + f + 1 = k + 4 + f by omega]
        refine loop_chain d hd Q hr hi hns k (render [n]) f hi0 hl hf' ?_
        rintro j x hx rfl
        exact no_return d hlast (k + 1) (.succ hl hf') j (.succ hl hx)
      · intro x hx
        cases hx
        exact ⟨_, _, rfl, hns⟩

theorem follow_missing (Q : Quiet d.impl) {s : σ} (hr : RootIsDir d.impl s) {l : Loc} {e : Err} (hm : Missing d.impl s l e) :
    Gives (getFollow d · (render l)) s s (.error e) := by
  cases hm with
  | entry hn hf hm =>
    rename_i k n m
    have hlast : ¬ ∃ m', LinksTo d.impl s m m' := by
      rintro ⟨m', h', t, hi', _⟩
      unfold InRoot at hi'
      rw [hm] at hi'
      cases hi'
    refine ⟨k + 7, fun fuel hfuel => ?_⟩
    cases hf with
    | zero =>
      obtain ⟨f, rfl⟩ : ∃ f, fuel = f + 4 := ⟨fuel - 4, by omega⟩
      show getFollow d (f + 4) (render [n]) s = _
      rw [getFollow, andThen_err]
      rw [keep_one d hd Q hr hn f, hm]; rfl
    | succ hl hf' =>
      rename_i k n'
      obtain ⟨f, rfl⟩ : ∃ f, fuel = (k + 3 + f) + 4 := ⟨fuel - (k + 7), by omega⟩
      obtain ⟨h0, t, hi0, hsym, hrest⟩ := id hl
      refine follow_link d hd Q hr hn hi0 hsym (r := .error e) ?_ (by rintro x ⟨⟩)
      rw [show k + 3 + f + 1 = k + 4 + f by omega]
      refine loop_dangling d hd Q hr hm k (render [n]) f hi0 hl hf' ?_
      rintro j x hx rfl
      exact no_return d hlast (k + 1) (.succ hl hf') j (.succ hl hx)

/-- An operation that looks an object up and does `body` with it. -/
theorem gives_found (Q : Quiet d.impl) {s s' : σ} (hr : RootIsDir d.impl s) {wd : Loc} (hwd : IsLoc wd) (hw : d.workingDirPath = render wd)
    {p : Str} {l l' : Loc} {h : H} (hm : Means wd p l) (hf : Found d.impl s l l' h) {body : Nat → Ext H → M σ α} {r : Except Err α}
    (hb : Gives (body · ⟨some h, render l'⟩) s s' r) :
    Gives (fun fuel => M.andThen (getFollow d fuel (normalizePath d.workingDirPath p)) (body fuel)) s s' r := by
  obtain ⟨N, hN⟩ := follow_found d hd Q hr hf
  obtain ⟨K, hK⟩ := hb
  refine ⟨max N K, fun fuel hfu => ?_⟩
  show M.andThen (getFollow d fuel (normalizePath d.workingDirPath p)) (body fuel) s = _
  rw [hw, (normalize_means hwd hm).1, andThen_ok (hN fuel (by omega))]
  exact hK fuel (by omega)

theorem gives_missing (Q : Quiet d.impl) {s : σ} (hr : RootIsDir d.impl s) {wd : Loc} (hwd : IsLoc wd) (hw : d.workingDirPath = render wd)
    {p : Str} {l : Loc} {e : Err} (hm : Means wd p l) (hf : Missing d.impl s l e) {body : Nat → Ext H → M σ α} :
    Gives (fun fuel => M.andThen (getFollow d fuel (normalizePath d.workingDirPath p)) (body fuel)) s s (.error e) := by
  obtain ⟨N, hN⟩ := follow_missing d hd Q hr hf
  refine ⟨N, fun fuel hfu => ?_⟩
  show M.andThen (getFollow d fuel (normalizePath d.workingDirPath p)) (body fuel) s = _
  rw [hw, (normalize_means hwd hm).1, andThen_err (hN fuel hfu)]

end

theorem gives_const {m : M σ α} {s s' : σ} {r : Except Err α} (h : m s = .ret (s', r)) : Gives (fun _ => m) s s' r := ⟨0, fun _ _ => h⟩

/-- If a call returns with one step budget and gives something, that is what it returned. -/
theorem gives_unique {m : Nat → M σ α} {s s1 s2 : σ} {r1 r2 : Except Err α} (h1 : Gives m s s1 r1) (h2 : Gives m s s2 r2) :
    s1 = s2 ∧ r1 = r2 := by
  obtain ⟨N, h1⟩ := h1
  obtain ⟨K, h2⟩ := h2
  have a := h1 (max N K) (by omega)
  rw [h2 (max N K) (by omega)] at a
  cases a
  exact ⟨rfl, rfl⟩

end Disko.Driver

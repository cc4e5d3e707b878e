import Verif.Driver.Volume
/-! C86, C87: Remove and RemoveAll. -/
namespace Disko.Driver
open Disko Spec

variable {σ H α β : Type}

/-! ### Objects of a volume -/

section
variable {impl : Impl σ H} {kind : σ → Loc → Option Kind} {loc : H → Loc} (V : Volume impl kind loc)
include V

theorem volume_root (s : σ) : RootIsDir impl s := by
  obtain ⟨h1, h2⟩ := V.root s
  have := V.stat s (impl.getRootDirectory s) .dir (by rw [h1]; exact h2)
  refine ⟨this.1.mpr rfl, ?_⟩
  rw [Bool.eq_false_iff]
  exact fun h => by cases this.2.2.mp h

theorem volume_found {s : σ} {n : Str} {k : Kind} (hn : IsName n) (hk : kind s [n] = some k) (hl : k ≠ .link) :
    ∃ h, Found impl s [n] [n] h ∧ loc h = [n] := by
  obtain ⟨h1, h2⟩ := V.root s
  obtain ⟨h, hg, hh⟩ := V.found s n (impl.getRootDirectory s) k (by rw [h1]; exact h2) hn (by rw [h1]; exact hk)
  rw [h1, List.nil_append] at hh
  refine ⟨h, .entry hn (.zero n) hg ?_, hh⟩
  rw [Bool.eq_false_iff]
  intro h3
  exact hl ((V.stat s h k (by rw [hh]; exact hk)).2.2.mp h3)

theorem volume_ancestor (s : σ) : ∀ (m l : Loc), kind s (l ++ m) ≠ none → m ≠ [] → kind s l = some .dir := by
  intro m
  induction m with
  | nil => intro l _ h; exact absurd rfl h
  | cons a m ih =>
    intro l h _
    by_cases hm : m = []
    · subst hm; exact V.parents s l a h
    · have : kind s (l ++ [a]) = some .dir := ih (l ++ [a]) (by rw [List.append_assoc]; exact h) hm
      exact V.parents s l a (by rw [this]; simp)

end

/-! ### C86: Remove -/

/-- C86, what it says: the object at the location the path means, unless it is a directory that is not empty or the root,
is removed, and nothing else is. -/
def C86_statement (cfg : Cfg) : Prop :=
  ∀ (σ H : Type) (impl : Impl σ H) (kind : σ → Loc → Option Kind) (loc : H → Loc) (mf : MountFlags) (wd : Loc) (s : σ) (p : Str) (l : Loc) (k : Kind),
    Volume impl kind loc → IsLoc wd → Means wd p l → l ≠ [] → kind s l = some k → (k = .dir → ∀ n, kind s (l ++ [n]) = none) →
    ∃ s', Gives (remove ⟨cfg, impl, mf, render wd⟩ · p) s s' (.ok ()) ∧ ∀ l', kind s' l' = if l' = l then none else kind s l'

section
variable (d : Drv σ H) (hd : d.cfg.keepHandle = true) (Q : Quiet d.impl) (wd : Loc) (hwd : IsLoc wd) (hw : d.workingDirPath = render wd)
  (s : σ) (hr : RootIsDir d.impl s) (p : Str) (l : Loc) (hm : Means wd p l)

theorem unlink_body (h : H) (q : Str) : unlinkOf d ⟨some h, q⟩ s =
    .ret ((d.impl.unlink s h).1, match (d.impl.unlink s h).2 with | none => .ok () | some e => .error e) := by
  simp only [unlinkOf, Ext.method, M.callE]
  rcases d.impl.unlink s h with ⟨s', _ | e⟩ <;> rfl

theorem removeDots_length (names : List Str) :
    (removeDotsFromSlice names).length > 0 ↔ ∃ n ∈ names, n ≠ str! "." ∧ n ≠ str! ".." := by
  rw [gt_iff_lt, List.length_pos_iff_exists_mem]
  have : ∀ n, n ∈ removeDotsFromSlice names ↔ n ∈ names ∧ n ≠ str! "." ∧ n ≠ str! ".." := by
    intro n
    unfold removeDotsFromSlice
    simp only
    split
    · rename_i h0
      rw [List.countP_eq_zero] at h0
      refine ⟨fun h => ⟨h, ?_⟩, fun h => h.1⟩
      have := h0 n h
      rw [decide_eq_true_eq, not_or] at this
      exact this
    · rw [List.mem_filter, decide_eq_true_eq]; rfl
  exact ⟨fun ⟨n, h⟩ => ⟨n, (this n).mp h⟩, fun ⟨n, h⟩ => ⟨n, (this n).mpr h⟩⟩

include hd Q hwd hw hr hm

/-- C86, when wrapObjectHandle keeps the handle, for whatever the path leads to in the root directory, on any implementation:
a regular file is unlinked by exactly one call of Unlink, whose error is returned.  (Whatever the path leads to: if
it is the path of a link, what is unlinked is the object the link leads to, not the link: `C86_refuted`.) -/
theorem C86_file_partial (l' : Loc) (h : H) (hf : Found d.impl s l l' h) (hfile : (d.impl.stat s h).isFile = true) (hnd : (d.impl.stat s h).isDir = false) :
    Gives (remove d · p) s (d.impl.unlink s h).1 (match (d.impl.unlink s h).2 with | none => .ok () | some e => .error e) := by
  refine gives_found d hd Q hr hwd hw hm hf (gives_const (deferred_close d Q ?_))
  rw [andThen_ok (a := d.impl.stat s h) (s' := s) rfl, hfile, hnd]
  exact unlink_body d s h (render l')

/-- C86: an object that is neither a directory nor a regular file is refused. -/
theorem C86_special_partial (l' : Loc) (h : H) (hf : Found d.impl s l l' h) (hfile : (d.impl.stat s h).isFile = false) (hnd : (d.impl.stat s h).isDir = false) :
    Gives (remove d · p) s s (.error .invalidArgument) := by
  refine gives_found d hd Q hr hwd hw hm hf (gives_const (deferred_close d Q ?_))
  rw [andThen_ok (a := d.impl.stat s h) (s' := s) rfl, hfile, hnd]; rfl

/-- C86: if there is no such object, the implementation's error is returned and nothing changes. -/
theorem C86_missing_partial (e : Err) (hmi : Missing d.impl s l e) : Gives (remove d · p) s s (.error e) :=
  gives_missing d hd Q hr hwd hw hm hmi

/-- C86, when the wrapper also passes on ListDir: a directory is unlinked only if ListDir returns nothing but "." and "..";
otherwise ErrDirectoryNotEmpty; an error of ListDir is returned.  Nothing but that one Unlink changes anything. -/
theorem C86_directory_partial (hpo : d.cfg.passOptional = true) (l' : Loc) (h : H) (hf : Found d.impl s l l' h)
    (hdir : (d.impl.stat s h).isDir = true) (list : σ → σ × Except Err (List Str)) (hl : d.impl.listDir h = some list) (hq : (list s).1 = s) :
    (∀ names, (list s).2 = .ok names → (∃ n ∈ names, n ≠ str! "." ∧ n ≠ str! "..") → Gives (remove d · p) s s (.error .directoryNotEmpty)) ∧
    (∀ names, (list s).2 = .ok names → (∀ n ∈ names, n = str! "." ∨ n = str! "..") →
      Gives (remove d · p) s (d.impl.unlink s h).1 (match (d.impl.unlink s h).2 with | none => .ok () | some e => .error e)) ∧
    (∀ e, (list s).2 = .error e → Gives (remove d · p) s s (.error e)) := by
  have hopt : (⟨some h, render l'⟩ : Ext H).optional d.cfg d.impl.listDir = some list := by
    unfold Ext.optional; rw [hpo, if_pos rfl]; exact hl
  have hls : M.call list s = .ret (s, (list s).2) := by
    unfold M.call
    conv => lhs; rw [show list s = ((list s).1, (list s).2) from rfl, hq]
  refine ⟨fun names hn hne => ?_, fun names hn hne => ?_, fun e he => ?_⟩ <;>
    refine gives_found d hd Q hr hwd hw hm hf (gives_const (deferred_close d Q ?_)) <;>
    rw [andThen_ok (a := d.impl.stat s h) (s' := s) rfl, hdir, if_pos rfl, hopt] <;> simp only
  · rw [andThen_ok (hls.trans (by rw [hn])), if_pos ((removeDots_length names).mpr hne)]; rfl
  · rw [andThen_ok (hls.trans (by rw [hn])), if_neg (fun h => ?_)]
    · exact unlink_body d s h (render l')
    · obtain ⟨n, h1, h2, h3⟩ := (removeDots_length names).mp h
      rcases hne n h1 with e | e
      · exact h2 e
      · exact h3 e
  · rw [andThen_err (hls.trans (by rw [he]))]

end

/-- C86 in a volume, when the wrapper keeps the handle and passes on ListDir: a regular file or an empty directory in the root is
removed, and nothing else is; a directory that is not empty is left alone. -/
theorem C86_volume_partial {impl : Impl σ H} {kind : σ → Loc → Option Kind} {loc : H → Loc} (V : Volume impl kind loc) (mf : MountFlags) (wd : Loc)
    (hwd : IsLoc wd) (s : σ) (p : Str) (n : Str) (k : Kind) (hm : Means wd p [n]) (hn : IsName n) (hk : kind s [n] = some k) (hkk : k = .file ∨ k = .dir) :
    ((k = .dir → ∀ x, kind s [n, x] = none) →
      ∃ s', Gives (remove ⟨passing, impl, mf, render wd⟩ · p) s s' (.ok ()) ∧ ∀ l', kind s' l' = if l' = [n] then none else kind s l') ∧
    (k = .dir → (∃ x, kind s [n, x] ≠ none) → Gives (remove ⟨passing, impl, mf, render wd⟩ · p) s s (.error .directoryNotEmpty)) := by
  have Q : Quiet impl := V.toQuiet
  obtain ⟨h, hf, hh⟩ := volume_found V hn hk (by rcases hkk with rfl | rfl <;> simp)
  have hkh : kind s (loc h) = some k := by rw [hh]; exact hk
  obtain ⟨st1, st2, _⟩ := V.stat s h k hkh
  have hun := V.unlink s h k (by rw [hh]; simp) hkh
  rw [hh] at hun
  rcases hkk with rfl | rfl
  · refine ⟨fun _ => ?_, fun h => by cases h⟩
    obtain ⟨s', hu, hs'⟩ := hun (fun h => by cases h)
    refine ⟨s', ?_, hs'⟩
    have := C86_file_partial (⟨passing, impl, mf, render wd⟩ : Drv σ H) rfl Q wd hwd rfl s (volume_root V s) p [n] hm [n] h hf (st2.mpr rfl)
      (Bool.eq_false_iff.mpr fun h => by cases st1.mp h)
    rw [show (⟨passing, impl, mf, render wd⟩ : Drv σ H).impl.unlink s h = (s', none) from hu] at this
    exact this
  · obtain ⟨list, names, hls, hlist, _, hin, hall⟩ := V.listing s h hkh
    obtain ⟨c1, c2, _⟩ := C86_directory_partial (⟨passing, impl, mf, render wd⟩ : Drv σ H) rfl Q wd hwd rfl s (volume_root V s) p [n] hm rfl [n] h hf
      (st1.mpr rfl) list hls (by rw [hlist])
    refine ⟨fun hempty => ?_, fun _ ⟨x, hx⟩ => ?_⟩
    · obtain ⟨s', hu, hs'⟩ := hun (fun _ x => hempty rfl x)
      refine ⟨s', ?_, hs'⟩
      have := c2 names (by rw [hlist]) fun x hx => (hin x hx).resolve_left fun ⟨_, h2⟩ => h2 (by rw [hh]; exact hempty rfl x)
      rw [show (⟨passing, impl, mf, render wd⟩ : Drv σ H).impl.unlink s h = (s', none) from hu] at this
      exact this
    · have hxn : IsName x := V.names s [n, x] hx x (by simp)
      exact c1 names (by rw [hlist]) ⟨x, hall x hxn (by rw [hh]; exact hx), hxn.notDot, hxn.notDotDot⟩

/-- A directory "d" with a file and an empty directory in it, a file "f", and a link "l". -/
def sample : Store := ⟨[([str! "d"], .dir), ([str! "d", str! "f"], .file), ([str! "d", str! "e"], .dir), ([str! "f"], .file), ([str! "l"], .link)], by
  refine ⟨by decide, ?_, ?_⟩
  · intro l n k h
    have key : ∀ e ∈ ([([str! "d"], .dir), ([str! "d", str! "f"], .file), ([str! "d", str! "e"], .dir), ([str! "f"], .file), ([str! "l"], .link)] : List (Loc × Kind)),
        (e.1.dropLast, Kind.dir) ∈ ([([str! "d"], .dir), ([str! "d", str! "f"], .file), ([str! "d", str! "e"], .dir), ([str! "f"], .file), ([str! "l"], .link)] : List (Loc × Kind))
          ∨ e.1.dropLast = [] := by decide
    have := key _ h
    rwa [List.dropLast_concat] at this
  · intro l k h
    have key : ∀ e ∈ ([([str! "d"], .dir), ([str! "d", str! "f"], .file), ([str! "d", str! "e"], .dir), ([str! "f"], .file), ([str! "l"], .link)] : List (Loc × Kind)),
        e.1 ≠ [] ∧ IsLoc e.1 := by decide
    exact key _ h⟩

/-- "f" can be removed, "d" is not empty. -/
example : Means [] (str! "./f") [str! "f"] ∧ kindAt sample.1 [str! "f"] = some .file ∧ kindAt sample.1 [str! "d"] = some .dir ∧
    kindAt sample.1 [str! "d", str! "e"] ≠ none :=
  ⟨.inr ⟨fun ⟨_, h⟩ => absurd h (by simp [sep]), ⟨[], isLoc_nil, by decide⟩, by decide⟩, by decide, by decide, by decide⟩

theorem means_l : Means [] (str! "/l") [str! "l"] := .inl ⟨⟨_, rfl⟩, by decide⟩

/-- The call returned with this error. -/
def failedWith {α : Type} (r : Outcome (σ × Except Err α)) (e : Err) : Bool :=
  match r with
  | .ret (_, .error e') => decide (e' = e)
  | _ => false
theorem failedWith_iff {α : Type} {r : Outcome (σ × Except Err α)} {e : Err} (h : failedWith r e = true) : ∃ s, r = .ret (s, .error e) := by
  rcases r with ⟨s, e' | a⟩ | _ | _
  · exact ⟨s, by rw [of_decide_eq_true h]⟩
  · cases h
  · cases h
  · cases h

/-! More steps do no harm. -/

theorem remove_mono (d : Drv σ H) {n m : Nat} (h : n ≤ m) (p : Str) : Le (remove d n p) (remove d m p) :=
  Le.andThen (follow_mono d h _) fun _ => Le.rfl _

theorem removeLoop_mono (d : Drv σ H) {r r' : Ext H → M σ Unit} (h : ∀ e, Le (r e) (r' e)) (dir : Ext H) :
    ∀ names, Le (removeLoop d r dir names) (removeLoop d r' dir names)
  | [] => Le.rfl _
  | n :: names => by
    rw [removeLoop, removeLoop]
    exact Le.ite (removeLoop_mono d h dir names) (Le.andThen (Le.rfl _) fun _ => Le.andThen (Le.rfl _) fun _ =>
      Le.andThen (Le.ite (Le.either (h _) fun _ => Le.rfl _) (Le.rfl _)) fun _ => Le.andThen (Le.rfl _) fun _ => removeLoop_mono d h dir names)

theorem Le.trans {m m' m'' : M σ α} (h : Le m m') (h' : Le m' m'') : Le m m'' := fun s => by
  rcases h s with h1 | h1
  · exact .inl h1
  · rcases h' s with h2 | h2
    · exact .inl (h1.trans h2)
    · exact .inr (h1.trans h2)

theorem removeDirectory_mono1 (d : Drv σ H) : ∀ (n : Nat) (e : Ext H), Le (removeDirectory d n e) (removeDirectory d (n + 1) e)
  | 0, e => fun s => .inl (by rw [removeDirectory])
  | n + 1, e => by
    rw [removeDirectory, removeDirectory]
    split
    · exact Le.rfl _
    · exact Le.andThen (Le.rfl _) fun names => removeLoop_mono d (removeDirectory_mono1 d n) e names

theorem removeDirectory_mono (d : Drv σ H) {n m : Nat} (h : n ≤ m) (e : Ext H) : Le (removeDirectory d n e) (removeDirectory d m e) := by
  induction h with
  | refl => exact Le.rfl _
  | step _ ih => exact Le.trans ih (removeDirectory_mono1 d _ e)

theorem Le.ret {m m' : M σ α} (h : Le m m') {s : σ} {r} (e : m s = .ret r) : m' s = .ret r := by
  rcases h s with h1 | h1
  · rw [e] at h1; cases h1
  · rw [← h1, e]

/-- A link cannot be removed: Remove follows it (here to the root directory, which is not empty). -/
theorem remove_follows : ∀ fuel, 20 ≤ fuel → ∃ s, remove ⟨passing, store, 3, str! "/"⟩ fuel (str! "/l") sample = .ret (s, .error .directoryNotEmpty) := by
  have h20 : failedWith (remove ⟨passing, store, 3, str! "/"⟩ 20 (str! "/l") sample) .directoryNotEmpty = true := by decide +kernel
  intro fuel hfu
  obtain ⟨s, h⟩ := failedWith_iff h20
  exact ⟨s, (remove_mono _ hfu _).ret h⟩

/-- C86 is false even when the wrapper keeps the handle and passes on ListDir: of links, ... -/
theorem C86_refuted : ¬ C86_statement passing := by
  intro h
  obtain ⟨s', ⟨N, h1⟩, _⟩ := h Store Loc store (fun s => kindAt s.1) id 3 [] sample (str! "/l") [str! "l"] .link store_volume isLoc_nil means_l (by simp)
    (by decide) (fun h => by cases h)
  obtain ⟨s, h2⟩ := remove_follows (max N 20) (by omega)
  rw [show render [] = str! "/" from rfl] at h1
  have h1 := h1 (max N 20) (by omega)
  simp only at h1
  rw [h1] at h2
  cases h2

/-- ... and of anything below a directory of the root: the call does not return. -/
theorem C86_refuted_deep : ¬ C86_statement passing := by
  intro h
  have hloc : IsLoc [str! "d", str! "f"] := by decide
  obtain ⟨s', ⟨N, h1⟩, _⟩ := h Store Loc store (fun s => kindAt s.1) id 3 [] sample (render [str! "d", str! "f"]) [str! "d", str! "f"] .file store_volume isLoc_nil
    (means_render hloc []) (by simp) (by decide) (fun h => by cases h)
  have h1 := h1 N (by omega)
  simp only [remove] at h1
  rw [normalize_canonical hloc, andThen_timeout] at h1
  · cases h1
  · exact (never_deep _ [str! "d"] (by simp) (hloc _ (by simp)) _ N).2

/-- When the wrapper keeps the handle only, Remove of an empty directory in the root panics: the type assertion to
SupportsListDirHandle fails. -/
theorem C86_keeping_directory (impl : Impl σ H) (Q : Quiet impl) (mf : MountFlags) (wd : Loc) (hwd : IsLoc wd) (s : σ) (hr : RootIsDir impl s) (p : Str) (l l' : Loc)
    (hm : Means wd p l) (h : H) (hf : Found impl s l l' h) (hdir : (impl.stat s h).isDir = true) :
    ∃ N, ∀ fuel, N ≤ fuel → remove ⟨keeping, impl, mf, render wd⟩ fuel p s = .panic := by
  obtain ⟨N, hN⟩ := follow_found (⟨keeping, impl, mf, render wd⟩ : Drv σ H) rfl Q hr hf
  refine ⟨N, fun fuel hfu => ?_⟩
  unfold remove
  rw [show normalizePath (⟨keeping, impl, mf, render wd⟩ : Drv σ H).workingDirPath p = render l from (normalize_means hwd hm).1, andThen_ok (hN fuel hfu)]
  unfold M.deferred
  rw [either_panic]
  rw [andThen_ok (a := impl.stat s h) (s' := s) rfl, hdir]; rfl

/-- Remove does not protect the root: if ListDir finds it empty, it is unlinked. -/
theorem C86_root_unprotected (d : Drv σ H) (hd : d.cfg = passing) (Q : Quiet d.impl) (wd : Loc) (hwd : IsLoc wd) (hw : d.workingDirPath = render wd)
    (s : σ) (hr : RootIsDir d.impl s) (list : σ → σ × Except Err (List Str)) (hl : d.impl.listDir (d.impl.getRootDirectory s) = some list)
    (hq : list s = (s, .ok [])) : Gives (remove d · (str! "/")) s (d.impl.unlink s (d.impl.getRootDirectory s)).1
      (match (d.impl.unlink s (d.impl.getRootDirectory s)).2 with | none => .ok () | some e => .error e) :=
  (C86_directory_partial d (by rw [hd]; rfl) Q wd hwd hw s hr (str! "/") [] (means_render isLoc_nil wd) (by rw [hd]; rfl) [] _ .root hr.1 list hl (by rw [hq])).2.1
    [] (by rw [hq]) (fun _ h => (by cases h))

/-- An implementation with an empty root. -/
example : Quiet growing ∧ RootIsDir growing [] ∧ (growing.listDir (growing.getRootDirectory [])).map (fun f => f []) = some ([], .ok []) :=
  ⟨growing_peaceful.toQuiet, ⟨by decide, by decide⟩, by decide⟩

/-! ### C87: RemoveAll -/

/-- C87, what it says: a directory other than the root is removed with everything below it, and nothing else is. -/
def C87_statement (cfg : Cfg) : Prop :=
  ∀ (σ H : Type) (impl : Impl σ H) (kind : σ → Loc → Option Kind) (loc : H → Loc) (mf : MountFlags) (wd : Loc) (s : σ) (p : Str) (l : Loc),
    Volume impl kind loc → IsLoc wd → Means wd p l → l ≠ [] → kind s l = some .dir →
    ∃ s', Gives (removeAll ⟨cfg, impl, mf, render wd⟩ · p) s s' (.ok ()) ∧ ∀ l', kind s' l' = if l <+: l' then none else kind s l'

section
variable {impl : Impl σ H} {kind : σ → Loc → Option Kind} {loc : H → Loc} (V : Volume impl kind loc) (d : Drv σ H) (hd : d.cfg = passing) (hi : d.impl = impl)
include V hd hi

/-- The loop over the entries of a directory. -/
theorem removeLoop_rel {R : σ → σ → Prop} (P : Pre R)
    (hR : ∀ s h k, loc h ≠ [] → kind s (loc h) = some k → (k = .dir → ∀ n, kind s (loc h ++ [n]) = none) → R s (impl.unlink s h).1) (rec : Ext H → M σ Unit) (h : H) (q : Str) (D : Nat)
    (hrec : ∀ (s : σ) (h' : H) (q' : Str), kind s (loc h') = some .dir → (loc h').length = (loc h).length + 1 →
      (∀ l, kind s l ≠ none → loc h' <+: l → l.length ≤ D) →
      ∃ s', rec ⟨some h', q'⟩ s = .ret (s', .ok ()) ∧ R s s' ∧ ∀ l, kind s' l = if loc h' <+: l ∧ l ≠ loc h' then none else kind s l) :
    ∀ (names : List Str) (s : σ), names.Nodup → kind s (loc h) = some .dir → (∀ l, kind s l ≠ none → loc h <+: l → l.length ≤ D) →
      (∀ n ∈ names, (IsName n ∧ kind s (loc h ++ [n]) ≠ none) ∨ n = str! "." ∨ n = str! "..") →
      ∃ s', removeLoop d rec ⟨some h, q⟩ names s = .ret (s', .ok ()) ∧ R s s' ∧
        ∀ l, kind s' l = if ∃ n ∈ names, IsName n ∧ loc h ++ [n] <+: l then none else kind s l := by
  subst hi
  intro names
  induction names with
  | nil =>
    intro s _ _ _ _
    exact ⟨s, by rw [removeLoop]; rfl, P.refl s, fun l => by rw [if_neg (by rintro ⟨n, hn, _⟩; cases hn)]⟩
  | cons n names ih =>
    intro s hnd hdir hD hin
    rw [List.nodup_cons] at hnd
    rw [removeLoop]
    by_cases hdot : n = Path.dot ∨ n = Path.dotdot
    · rw [if_pos hdot]
      obtain ⟨s', h1, hrel, h2⟩ := ih s hnd.2 hdir hD (fun x hx => hin x (List.mem_cons_of_mem _ hx))
      refine ⟨s', h1, hrel, fun l => ?_⟩
      rw [h2]
      have : (∃ x ∈ n :: names, IsName x ∧ loc h ++ [x] <+: l) ↔ ∃ x ∈ names, IsName x ∧ loc h ++ [x] <+: l := by
        refine ⟨fun ⟨x, hx, h3, h4⟩ => ?_, fun ⟨x, hx, h3⟩ => ⟨x, List.mem_cons_of_mem _ hx, h3⟩⟩
        rcases List.mem_cons.mp hx with rfl | hx
        · rcases hdot with rfl | rfl
          · exact absurd rfl h3.notDot
          · exact absurd rfl h3.notDotDot
        · exact ⟨x, hx, h3, h4⟩
      simp only [this]
    · rw [if_neg hdot]
      obtain ⟨hn, hk⟩ : IsName n ∧ kind s (loc h ++ [n]) ≠ none := (hin n List.mem_cons_self).resolve_right hdot
      obtain ⟨k, hk⟩ := Option.ne_none_iff_exists'.mp hk
      obtain ⟨h', hg, hloc⟩ := V.found s n h k hdir hn hk
      have hkeep : d.cfg.keepHandle = true := by rw [hd]; rfl
      have hk' : kind s (loc h') = some k := by rw [hloc]; exact hk
      have hget : getExtObjectInDir d n ⟨some h, q⟩ s = .ret (s, .ok ⟨some h', Path.join q n⟩) := by
        simp only [getExtObjectInDir, Ext.method]
        have hs := V.getObject s n h
        rcases e : d.impl.getObject s n h with ⟨s1, r⟩
        rw [e] at hs hg
        simp only at hs hg
        subst hs hg
        rw [andThen_ok (a := h') (s' := s1) (by rw [M.call, e]), keep_wrap d hkeep]; rfl
      rw [andThen_ok hget, andThen_ok (a := d.impl.stat s h') (s' := s) rfl]
      -- the subdirectory is emptied
      suffices key : ∀ s1, R s s1 → (∀ l, kind s1 l = if loc h' <+: l ∧ l ≠ loc h' then none else kind s l) →
          ∃ s', (M.andThen (M.deferred (closeOf d ⟨some h', Path.join q n⟩) (unlinkOf d ⟨some h', Path.join q n⟩)) fun _ =>
            removeLoop d rec ⟨some h, q⟩ names) s1 = .ret (s', .ok ()) ∧ R s s' ∧
            ∀ l, kind s' l = if ∃ x ∈ n :: names, IsName x ∧ loc h ++ [x] <+: l then none else kind s l by
        by_cases hkd : k = .dir
        · subst hkd
          obtain ⟨s1, h1, hrel, h2⟩ := hrec s h' (Path.join q n) hk' (by rw [hloc]; simp) (fun l hl hp => hD l hl (by
            rw [hloc] at hp
            exact List.IsPrefix.trans (List.prefix_append _ _) hp))
          rw [if_pos ((V.stat s h' .dir hk').1.mpr rfl), andThen_ok (a := ()) (s' := s1)]
          · exact key s1 hrel h2
          · rw [keep_wrap d hkeep, either_ret h1]; rfl
        · rw [if_neg (fun h => hkd ((V.stat s h' k hk').1.mp h)), andThen_ok (a := ()) (s' := s) rfl]
          refine key s (P.refl s) fun l => ?_
          split
          · rename_i hp
            rcases hl : kind s l with _ | x
            · rfl
            · exfalso
              obtain ⟨⟨m, hm⟩, hne⟩ := hp
              have hmne : m ≠ [] := by rintro rfl; exact hne (by rw [← hm, List.append_nil])
              have := volume_ancestor V s m (loc h') (by rw [hm, hl]; simp) hmne
              rw [hk'] at this
              exact hkd (Option.some.inj this)
          · rfl
      intro s1 hs1 hm2
      have hk1 : kind s1 (loc h') = some k := by rw [hm2, if_neg (fun h => h.2 rfl)]; exact hk'
      have hempty : k = .dir → ∀ x, kind s1 (loc h' ++ [x]) = none := fun _ x => by
        rw [hm2, if_pos ⟨List.prefix_append _ _, by simp⟩]
      obtain ⟨s2, hu, hu2⟩ := V.unlink s1 h' k (by rw [hloc]; simp) hk1 hempty
      have hs12 : R s1 s2 := by
        have := hR s1 h' k (by rw [hloc]; simp) hk1 hempty
        rw [hu] at this
        exact this
      have hdel : M.deferred (closeOf d ⟨some h', Path.join q n⟩) (unlinkOf d ⟨some h', Path.join q n⟩) s1 = .ret (s2, .ok ()) := by
        refine deferred_close d V.toQuiet ?_
        rw [unlink_body, hu]
      rw [andThen_ok hdel]
      have hs2 : ∀ l, kind s2 l = if loc h' <+: l then none else kind s l := by
        intro l
        rw [hu2]
        by_cases e : l = loc h'
        · rw [if_pos e, if_pos (by rw [e]; exact List.prefix_refl _)]
        · rw [if_neg e, hm2]
          by_cases hp : loc h' <+: l
          · rw [if_pos hp, if_pos ⟨hp, e⟩]
          · rw [if_neg hp, if_neg (fun h => hp h.1)]
      have hnp : ∀ (l : Loc), kind s2 l ≠ none → kind s l ≠ none := by
        intro l hl
        rw [hs2] at hl
        split at hl
        · exact absurd rfl hl
        · exact hl
      obtain ⟨s3, h3, hs23, h4⟩ := ih s2 hnd.2 (by
          rw [hs2, if_neg]
          · exact hdir
          · intro hp
            have := hp.length_le
            rw [hloc, List.length_append, List.length_singleton] at this
            omega) (fun l hl hp => hD l (hnp l hl) hp)
        (fun x hx => (hin x (List.mem_cons_of_mem _ hx)).imp (fun ⟨hx1, hx2⟩ => ⟨hx1, by
          rw [hs2, if_neg]
          · exact hx2
          · intro hp
            rw [hloc, List.prefix_append_right_inj] at hp
            obtain ⟨t, ht⟩ := hp
            simp at ht
            exact hnd.1 (by rw [ht.1]; exact hx)⟩) id)
      refine ⟨s3, h3, P.trans (P.trans hs1 hs12) hs23, fun l => ?_⟩
      rw [h4]
      by_cases hx : ∃ x ∈ names, IsName x ∧ loc h ++ [x] <+: l
      · rw [if_pos hx, if_pos]
        obtain ⟨x, hx1, hx2⟩ := hx
        exact ⟨x, List.mem_cons_of_mem _ hx1, hx2⟩
      · rw [if_neg hx, hs2, hloc]
        by_cases hp : loc h ++ [n] <+: l
        · rw [if_pos hp, if_pos ⟨n, List.mem_cons_self, hn, hp⟩]
        · rw [if_neg hp, if_neg]
          rintro ⟨x, hx1, hx2, hx3⟩
          rcases List.mem_cons.mp hx1 with rfl | hx1
          · exact hp hx3
          · exact hx ⟨x, hx1, hx2, hx3⟩

/-- Everything below a directory is removed, and nothing else. -/
theorem removeDirectory_rel {R : σ → σ → Prop} (P : Pre R)
    (hR : ∀ s h k, loc h ≠ [] → kind s (loc h) = some k → (k = .dir → ∀ n, kind s (loc h ++ [n]) = none) → R s (impl.unlink s h).1) : ∀ (fuel : Nat) (s : σ) (h : H) (q : Str) (D : Nat), kind s (loc h) = some .dir →
    (∀ l, kind s l ≠ none → loc h <+: l → l.length ≤ D) → D < fuel + (loc h).length →
    ∃ s', removeDirectory d fuel ⟨some h, q⟩ s = .ret (s', .ok ()) ∧ R s s' ∧ ∀ l, kind s' l = if loc h <+: l ∧ l ≠ loc h then none else kind s l := by
  intro fuel
  induction fuel with
  | zero =>
    intro s h q D hk hD hf
    have := hD (loc h) (by rw [hk]; simp) (List.prefix_refl _)
    omega
  | succ fuel ih =>
    intro s h q D hk hD hf
    obtain ⟨list, names, hls, hlist, hnd, hin, hall⟩ := V.listing s h hk
    have hopt : (⟨some h, q⟩ : Ext H).optional d.cfg d.impl.listDir = some list := by
      unfold Ext.optional; rw [hd, hi]; exact hls
    rw [removeDirectory, hopt]
    simp only
    rw [andThen_ok (a := names) (s' := s) (by rw [M.call, hlist])]
    obtain ⟨s', h1, hrel, h2⟩ := removeLoop_rel V d hd hi P hR (removeDirectory d fuel) h q D (fun s' h' q' hk' hl' hD' =>
      ih s' h' q' D hk' hD' (by omega)) names s hnd hk hD hin
    refine ⟨s', h1, hrel, fun l => ?_⟩
    rw [h2]
    by_cases hp : loc h <+: l ∧ l ≠ loc h
    · rw [if_pos hp]
      obtain ⟨⟨m, hm⟩, hne⟩ := hp
      rcases m with _ | ⟨x, m⟩
      · exact absurd (by rw [← hm, List.append_nil]) hne
      · by_cases hx : ∃ n ∈ names, IsName n ∧ loc h ++ [n] <+: l
        · rw [if_pos hx]
        · rw [if_neg hx]
          rcases hl : kind s l with _ | k
          · rfl
          · exfalso
            have hloc := V.names s l (by rw [hl]; simp)
            have hxn : IsName x := hloc x (by rw [← hm]; simp)
            have hpre : loc h ++ [x] <+: l := ⟨m, by rw [← hm]; simp⟩
            refine hx ⟨x, hall x hxn ?_, hxn, hpre⟩
            by_cases hm0 : m = []
            · rw [hm0] at hm; rw [hm, hl]; simp
            · rw [volume_ancestor V s m (loc h ++ [x]) (by rw [List.append_assoc, List.singleton_append, hm, hl]; simp) hm0]; simp
    · rw [if_neg hp, if_neg]
      rintro ⟨x, _, _, t, ht⟩
      refine hp ⟨⟨x :: t, by rw [← ht]; simp⟩, fun e => ?_⟩
      have := congrArg List.length ht
      rw [e] at this
      simp at this

theorem removeDirectory_spec (fuel : Nat) (s : σ) (h : H) (q : Str) (D : Nat) (hk : kind s (loc h) = some .dir)
    (hD : ∀ l, kind s l ≠ none → loc h <+: l → l.length ≤ D) (hf : D < fuel + (loc h).length) :
    ∃ s', removeDirectory d fuel ⟨some h, q⟩ s = .ret (s', .ok ()) ∧ ∀ l, kind s' l = if loc h <+: l ∧ l ≠ loc h then none else kind s l := by
  obtain ⟨s', h1, _, h2⟩ := removeDirectory_rel V d hd hi Pre.top (fun _ _ _ _ _ _ => trivial) fuel s h q D hk hD hf
  exact ⟨s', h1, h2⟩

end

section
variable {impl : Impl σ H} {kind : σ → Loc → Option Kind} {loc : H → Loc} (V : Volume impl kind loc) (mf : MountFlags) (wd : Loc) (hwd : IsLoc wd)
  (s : σ) (p : Str) (l : Loc) (hm : Means wd p l)
include V hwd hm

/-- C87, when the wrapper keeps the handle and passes on ListDir, for a directory in the root of any volume: everything below the directory is
removed, however deep, and nothing else is.  (The laws of a volume promise nothing about Unlink of a directory that is not empty;
so this also says that Unlink is never called on one.)  Missing: the directory itself stays (`C87_refuted`); directories further down
cannot be named. -/
theorem C87_below_partial (n : Str) (hn : IsName n) (hl : l = [n]) (hk : kind s [n] = some .dir) :
    ∃ s', Gives (removeAll ⟨passing, impl, mf, render wd⟩ · p) s s' (.ok ()) ∧ ∀ l', kind s' l' = if l <+: l' ∧ l' ≠ l then none else kind s l' := by
  subst hl
  obtain ⟨h, hf, hh⟩ := volume_found V hn hk (by simp)
  obtain ⟨D, hD⟩ := V.bounded s
  have hkh : kind s (loc h) = some .dir := by rw [hh]; exact hk
  have hrem := fun fuel (hfu : D < fuel + (loc h).length) => removeDirectory_spec V ⟨passing, impl, mf, render wd⟩ rfl rfl fuel s h (render [n]) D hkh
    (fun l hl _ => hD l hl) hfu
  obtain ⟨s', h1, h2⟩ := hrem (D + 1) (by omega)
  rw [hh] at h2
  refine ⟨s', gives_found _ rfl V.toQuiet (volume_root V s) hwd rfl hm hf ⟨D + 1, fun fuel hfu => deferred_close _ V.toQuiet ?_⟩, h2⟩
  rw [andThen_ok (a := impl.stat s h) (s' := s) rfl, (V.stat s h .dir hkh).1.mpr rfl]
  show (if impl.sameAs s (impl.getRootDirectory s) h = true then M.fail .permissionDenied else removeDirectory ⟨passing, impl, mf, render wd⟩ fuel ⟨some h, render [n]⟩) s = _
  rw [if_neg]
  · exact (removeDirectory_mono _ hfu _).ret h1
  · intro e
    rw [V.same, hh, (V.root s).1] at e
    cases e

/-- C87: the root, by whatever path, is refused and nothing changes. -/
theorem C87_root_partial (hl : l = []) : Gives (removeAll ⟨passing, impl, mf, render wd⟩ · p) s s (.error .permissionDenied) := by
  subst hl
  refine gives_found _ rfl V.toQuiet (volume_root V s) hwd rfl hm .root ⟨0, fun fuel _ => deferred_close _ V.toQuiet ?_⟩
  rw [andThen_ok (a := impl.stat s (impl.getRootDirectory s)) (s' := s) rfl, (volume_root V s).1]
  show (if impl.sameAs s (impl.getRootDirectory s) (impl.getRootDirectory s) = true then M.fail .permissionDenied else _) s = _
  rw [if_pos ((V.same s _ _).mpr rfl)]; rfl

/-- C87: an object in the root that is not a directory is refused with ErrNotADirectory and nothing changes.  (os.RemoveAll would remove it.) -/
theorem C87_not_a_directory_partial (n : Str) (k : Kind) (hn : IsName n) (hl : l = [n]) (hk : kind s [n] = some k) (hkd : k ≠ .dir) (hkl : k ≠ .link) :
    Gives (removeAll ⟨passing, impl, mf, render wd⟩ · p) s s (.error .notADirectory) := by
  subst hl
  obtain ⟨h, hf, hh⟩ := volume_found V hn hk hkl
  refine gives_found _ rfl V.toQuiet (volume_root V s) hwd rfl hm hf ⟨0, fun fuel _ => deferred_close _ V.toQuiet ?_⟩
  rw [andThen_ok (a := impl.stat s h) (s' := s) rfl,
    show (impl.stat s h).isDir = false from Bool.eq_false_iff.mpr fun e => hkd ((V.stat s h k (by rw [hh]; exact hk)).1.mp e)]; rfl

end

/-- Of the sample, everything below "d" is removed and "d", "f" and "l" are not. -/
example : ∃ s', Gives (removeAll ⟨passing, store, 3, render []⟩ · (str! "/d")) sample s' (.ok ()) ∧
    kindAt s'.1 [str! "d", str! "e"] = none ∧ kindAt s'.1 [str! "d"] = some .dir ∧ kindAt s'.1 [str! "f"] = some .file := by
  obtain ⟨s', h1, h2⟩ := C87_below_partial store_volume 3 [] isLoc_nil sample (str! "/d") [str! "d"] (.inl ⟨⟨_, rfl⟩, by decide⟩) (str! "d") (by decide) rfl (by decide)
  refine ⟨s', h1, ?_, ?_, ?_⟩ <;> refine (h2 _).trans (by decide)

/-- C87 is false even when the wrapper keeps the handle and passes on ListDir: the directory itself stays. -/
theorem C87_refuted : ¬ C87_statement passing := by
  intro h
  obtain ⟨s1, h1, h2⟩ := h Store Loc store (fun s => kindAt s.1) id 3 [] sample (str! "/d") [str! "d"] store_volume isLoc_nil (.inl ⟨⟨_, rfl⟩, by decide⟩) (by simp) (by decide)
  obtain ⟨s2, h3, h4⟩ := C87_below_partial store_volume 3 [] isLoc_nil sample (str! "/d") [str! "d"] (.inl ⟨⟨_, rfl⟩, by decide⟩) (str! "d") (by decide) rfl (by decide)
  obtain ⟨rfl, _⟩ := gives_unique h1 h3
  have e := (h2 [str! "d"]).symm.trans (h4 [str! "d"])
  exact absurd e (by decide)

/-- When the wrapper keeps the handle only, RemoveAll of any directory panics before anything is removed. -/
theorem C87_keeping (impl : Impl σ H) (Q : Quiet impl) (mf : MountFlags) (wd : Loc) (hwd : IsLoc wd) (s : σ) (hr : RootIsDir impl s) (p : Str) (l l' : Loc)
    (hm : Means wd p l) (h : H) (hf : Found impl s l l' h) (hdir : (impl.stat s h).isDir = true) (hnr : impl.sameAs s (impl.getRootDirectory s) h = false) :
    ∃ N, ∀ fuel, N ≤ fuel → removeAll ⟨keeping, impl, mf, render wd⟩ fuel p s = .panic := by
  obtain ⟨N, hN⟩ := follow_found (⟨keeping, impl, mf, render wd⟩ : Drv σ H) rfl Q hr hf
  refine ⟨N + 1, fun fuel hfu => ?_⟩
  obtain ⟨f, rfl⟩ : ∃ f, fuel = f + 1 := ⟨fuel - 1, by omega⟩
  unfold removeAll
  rw [show normalizePath (⟨keeping, impl, mf, render wd⟩ : Drv σ H).workingDirPath p = render l from (normalize_means hwd hm).1, andThen_ok (hN _ (by omega))]
  unfold M.deferred
  rw [either_panic]
  rw [andThen_ok (a := impl.stat s h) (s' := s) rfl, hdir]
  show (if impl.sameAs s (impl.getRootDirectory s) h = true then M.fail .permissionDenied else removeDirectory ⟨keeping, impl, mf, render wd⟩ (f + 1) ⟨some h, render l'⟩) s = _
  rw [hnr, if_neg (by simp), removeDirectory]
  rfl

example : Found tiny () [str! "a"] [str! "a"] 1 ∧ (tiny.stat () 1).isDir = true ∧ tiny.sameAs () (tiny.getRootDirectory ()) 1 = false :=
  ⟨.entry (k := 0) (name_of (by decide)) (.zero _) rfl (by decide), by decide, by decide⟩

end Disko.Driver

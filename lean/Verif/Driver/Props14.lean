import Verif.Driver.Props13
/-! C96: listing a directory. -/
namespace Disko.Driver
open Disko Spec

variable {σ H α β : Type}

namespace Spec

/-- The entries that belong to the names `ListDir` gave: in the same order, none for "." and "..", and for any other name the name and the
information of the object that is found under it. -/
inductive Lists (impl : Impl σ H) (s : σ) (dir : H) : List Str → List DirEntry → Prop where
  | nil : Lists impl s dir [] []
  | dots {n : Str} {ns : List Str} {es : List DirEntry} (hn : n = str! "." ∨ n = str! "..") (h : Lists impl s dir ns es) : Lists impl s dir (n :: ns) es
  | entry {n : Str} {ns : List Str} {es : List DirEntry} {x : H} (h1 : n ≠ str! ".") (h2 : n ≠ str! "..") (hx : (impl.getObject s n dir).2 = .ok x)
      (h : Lists impl s dir ns es) : Lists impl s dir (n :: ns) (⟨impl.name s x, impl.stat s x⟩ :: es)

/-- The name of an object is the last name of its location. -/
def NamesFit (impl : Impl σ H) (loc : H → Loc) : Prop := ∀ s h l n, loc h = l ++ [n] → impl.name s h = n

/-- `es` are the entries of the directory at `l`: one for each object directly below, with its name and its type. -/
def EntriesOf (kind : σ → Loc → Option Kind) (s : σ) (l : Loc) (es : List DirEntry) : Prop :=
  (es.map (·.name)).Nodup ∧ (∀ n, IsName n → (n ∈ es.map (·.name) ↔ kind s (l ++ [n]) ≠ none)) ∧
  ∀ e ∈ es, ∃ k, kind s (l ++ [e.name]) = some k ∧ (e.shown.isDir = true ↔ k = .dir)

end Spec

theorem call_ret {f : σ → σ × Except Err α} {s s' : σ} {r : Except Err α} (h1 : (f s).1 = s') (h2 : (f s).2 = r) : M.call f s = .ret (s', r) := by
  unfold M.call; rw [← h1, ← h2]

section
variable (d : Drv σ H) (S : Still d.impl)
include S

theorem readDirLoop_step (dir x : H) (s : σ) (n : Str) (ns : List Str) (out : List DirEntry) (h1 : n ≠ str! ".") (h2 : n ≠ str! "..")
    (hx : (d.impl.getObject s n dir).2 = .ok x) :
    readDirLoop d dir (n :: ns) out s = readDirLoop d dir ns (out ++ [⟨d.impl.name s x, d.impl.stat s x⟩]) s := by
  rw [readDirLoop, if_neg (fun h => h.elim h1 h2)]
  have hc : M.call (d.impl.getObject · n dir) s = .ret (s, .ok x) := call_ret (S.getObject s n dir) hx
  rw [andThen_ok hc, either_ret (s' := s) (r := .ok ())]
  · rfl
  · simp only [M.callE, S.close]

theorem readDirLoop_lists {dir : H} {s : σ} {ns : List Str} {es : List DirEntry} (h : Lists d.impl s dir ns es) :
    ∀ out, readDirLoop d dir ns out s = .ret (s, .ok (out ++ es)) := by
  induction h with
  | nil => intro out; rw [List.append_nil]; rfl
  | dots hn h ih => intro out; rw [readDirLoop]; exact (congrFun (if_pos hn) s).trans (ih out)
  | entry h1 h2 hx h ih => intro out; rw [readDirLoop_step d S dir _ s _ _ out h1 h2 hx, ih, List.append_assoc]; rfl

/-- The first name that is not found stops the listing. -/
theorem readDirLoop_error {dir : H} {s : σ} {ns : List Str} {es : List DirEntry} (h : Lists d.impl s dir ns es) {n : Str} (ns' : List Str) {e : Err}
    (h1 : n ≠ str! ".") (h2 : n ≠ str! "..") (hx : (d.impl.getObject s n dir).2 = .error e) :
    ∀ out, readDirLoop d dir (ns ++ n :: ns') out s = .ret (s, .error e) := by
  induction h with
  | nil =>
    intro out
    rw [List.nil_append, readDirLoop, if_neg (fun h => h.elim h1 h2)]
    have hc : M.call (d.impl.getObject · n dir) s = .ret (s, .error e) := call_ret (S.getObject s n dir) hx
    rw [andThen_err hc]
  | dots hn h ih => intro out; rw [List.cons_append, readDirLoop]; exact (congrFun (if_pos hn) s).trans (ih out)
  | entry h1 h2 hx h ih => intro out; rw [List.cons_append, readDirLoop_step d S dir _ s _ _ out h1 h2 hx, ih]

variable (hd : d.cfg.keepHandle = true) (hpo : d.cfg.passOptional = true) (wd : Loc) (hwd : IsLoc wd) (hw : d.workingDirPath = render wd)
  (s : σ) (hr : RootIsDir d.impl s) (p : Str) (l l' : Loc) (hm : Means wd p l) (h : H) (hf : Found d.impl s l l' h)
  (list : σ → σ × Except Err (List Str)) (hl : d.impl.listDir h = some list)
include hd hpo hwd hw hr hm hf hl

/-- C96, with the wrapper repaired, on any implementation: ReadDir returns the entries that belong to the names ListDir gives, and changes nothing. -/
theorem C96_listing_partial (names : List Str) (hn : (list s).2 = .ok names) (es : List DirEntry) (hes : Lists d.impl s h names es) :
    Gives (readDir d · p) s s (.ok es) := by
  refine gives_found d hd S.toQuiet hr hwd hw hm hf (gives_const (deferred_close d S.toQuiet ?_))
  unfold readDirObject Ext.optional
  rw [if_pos hpo]
  simp only [Option.bind_some, hl]
  have hc : M.call list s = .ret (s, .ok names) := call_ret (S.list h list hl s) hn
  rw [andThen_ok hc]
  exact readDirLoop_lists d S hes []

/-- C96: an error of ListDir is returned. -/
theorem C96_list_error_partial (e : Err) (hn : (list s).2 = .error e) : Gives (readDir d · p) s s (.error e) := by
  refine gives_found d hd S.toQuiet hr hwd hw hm hf (gives_const (deferred_close d S.toQuiet ?_))
  unfold readDirObject Ext.optional
  rw [if_pos hpo]
  simp only [Option.bind_some, hl]
  have hc : M.call list s = .ret (s, .error e) := call_ret (S.list h list hl s) hn
  rw [andThen_err hc]

/-- C96: if one of the names is not found, that error is returned and no entries. -/
theorem C96_entry_error_partial (ns ns' : List Str) (n : Str) (es : List DirEntry) (e : Err) (hn : (list s).2 = .ok (ns ++ n :: ns')) (hes : Lists d.impl s h ns es)
    (h1 : n ≠ str! ".") (h2 : n ≠ str! "..") (hx : (d.impl.getObject s n h).2 = .error e) : Gives (readDir d · p) s s (.error e) := by
  refine gives_found d hd S.toQuiet hr hwd hw hm hf (gives_const (deferred_close d S.toQuiet ?_))
  unfold readDirObject Ext.optional
  rw [if_pos hpo]
  simp only [Option.bind_some, hl]
  have hc : M.call list s = .ret (s, .ok (ns ++ n :: ns')) := call_ret (S.list h list hl s) hn
  rw [andThen_ok hc]
  exact readDirLoop_error d S hes ns' h1 h2 hx []

end

/-- C96, what it says: of a directory ReadDir returns one entry for each object directly in it, with its name and type; on anything but a
directory it fails with ErrNotADirectory; it changes nothing. -/
def C96_statement (cfg : Cfg) : Prop :=
  ∀ (σ H : Type) (impl : Impl σ H) (kind : σ → Loc → Option Kind) (loc : H → Loc) (mf : MountFlags) (wd : Loc) (s : σ) (p : Str) (l : Loc) (k : Kind),
    Volume impl kind loc → NamesFit impl loc → IsLoc wd → Means wd p l → kind s l = some k →
    (k = .dir → ∃ es, Gives (readDir ⟨cfg, impl, mf, render wd⟩ · p) s s (.ok es) ∧ EntriesOf kind s l es) ∧
    (k = .file → Gives (readDir ⟨cfg, impl, mf, render wd⟩ · p) s s (.error .notADirectory))

/-- The entries that belong to the names of a directory. -/
theorem volume_lists {impl : Impl σ H} {kind : σ → Loc → Option Kind} {loc : H → Loc} (V : Volume impl kind loc) (N : NamesFit impl loc) (s : σ) (h : H)
    (hk : kind s (loc h) = some .dir) : ∀ (names : List Str), names.Nodup →
    (∀ n ∈ names, (IsName n ∧ kind s (loc h ++ [n]) ≠ none) ∨ n = str! "." ∨ n = str! "..") →
    ∃ es, Lists impl s h names es ∧ (es.map (·.name)).Nodup ∧ (∀ n, n ∈ es.map (·.name) ↔ n ∈ names ∧ IsName n) ∧
      ∀ e ∈ es, ∃ k, kind s (loc h ++ [e.name]) = some k ∧ (e.shown.isDir = true ↔ k = .dir)
  | [], _, _ => ⟨[], .nil, by simp, by simp, by simp⟩
  | n :: ns, hnd, hall => by
    obtain ⟨hn1, hn2⟩ := List.nodup_cons.mp hnd
    obtain ⟨es, h1, h2, h3, h4⟩ := volume_lists V N s h hk ns hn2 fun m hm => hall m (List.mem_cons_of_mem _ hm)
    rcases hall n List.mem_cons_self with ⟨hn, hkn⟩ | hdot
    · rcases hkk : kind s (loc h ++ [n]) with _ | k
      · exact absurd hkk hkn
      · obtain ⟨x, hx, hlx⟩ := V.found s n h k hk hn hkk
        have hname : impl.name s x = n := N s x _ _ hlx
        refine ⟨⟨impl.name s x, impl.stat s x⟩ :: es, .entry hn.notDot hn.notDotDot hx h1, ?_, ?_, ?_⟩
        · rw [List.map_cons, List.nodup_cons]
          refine ⟨fun hm => hn1 ?_, h2⟩
          simp only [hname] at hm
          exact ((h3 n).mp hm).1
        · intro m
          rw [List.map_cons, List.mem_cons, List.mem_cons, h3]
          simp only [hname]
          constructor
          · rintro (rfl | ⟨a, b⟩)
            · exact ⟨.inl rfl, hn⟩
            · exact ⟨.inr a, b⟩
          · rintro ⟨rfl | a, b⟩
            · exact .inl rfl
            · exact .inr ⟨a, b⟩
        · intro e he
          rcases List.mem_cons.mp he with rfl | he
          · refine ⟨k, ?_, ?_⟩
            · simp only [hname]; exact hkk
            · exact (V.stat s x k (by rw [hlx]; exact hkk)).1
          · exact h4 e he
    · refine ⟨es, .dots hdot h1, h2, fun m => ?_, h4⟩
      rw [h3, List.mem_cons]
      constructor
      · rintro ⟨a, b⟩; exact ⟨.inr a, b⟩
      · rintro ⟨rfl | a, b⟩
        · rcases hdot with h | h
          · exact absurd h b.notDot
          · exact absurd h b.notDotDot
        · exact ⟨a, b⟩

/-- C96, with the wrapper repaired, in any volume: the root and the directories in the root are listed completely.  Missing: directories further
down, files (`C96_refuted`), and the code as it is (`C96_panics_partial`). -/
theorem C96_volume_partial {impl : Impl σ H} {kind : σ → Loc → Option Kind} {loc : H → Loc} (V : Volume impl kind loc) (N : NamesFit impl loc) (mf : MountFlags)
    (wd : Loc) (hwd : IsLoc wd) (s : σ) (p : Str) (l : Loc) (hm : Means wd p l) (hlen : l.length ≤ 1) (hk : kind s l = some .dir) :
    ∃ es, Gives (readDir ⟨passing, impl, mf, render wd⟩ · p) s s (.ok es) ∧ EntriesOf kind s l es := by
  have hfound : ∃ h, Found impl s l l h ∧ loc h = l := by
    match l, hlen with
    | [], _ => exact ⟨_, .root, (V.root s).1⟩
    | [n], _ =>
      obtain ⟨h, h1, h2⟩ := volume_found V ((normalize_means hwd hm).2 n (by simp)) hk (by simp)
      exact ⟨h, h1, h2⟩
  obtain ⟨h, hf, hloc⟩ := hfound
  obtain ⟨list, names, h1, h2, h3, h4, h5⟩ := V.listing s h (by rw [hloc]; exact hk)
  obtain ⟨es, e1, e2, e3, e4⟩ := volume_lists V N s h (by rw [hloc]; exact hk) names h3 h4
  refine ⟨es, C96_listing_partial (⟨passing, impl, mf, render wd⟩ : Drv σ H) V.toStill rfl rfl wd hwd rfl s (volume_root V s) p l l hm h hf list h1 names
    (by rw [h2]) es e1, e2, fun n hn => ?_, ?_⟩
  · rw [e3]
    constructor
    · rintro ⟨hmem, _⟩
      rcases h4 n hmem with h | h | h
      · rw [← hloc]; exact h.2
      · exact absurd h hn.notDot
      · exact absurd h hn.notDotDot
    · intro hne
      exact ⟨h5 n hn (by rw [hloc]; exact hne), hn⟩
  · rw [← hloc]; exact e4

theorem store_names : NamesFit store id := by
  intro s h l n e
  simp only [id] at e
  subst e
  simp [store]

/-- "/" of the sample has three entries, d, f and l, in that order; d is a directory. -/
example : (match readDir ⟨passing, store, 3, render []⟩ 9 (str! "/") sample with
    | .ret (_, .ok es) => es.map (fun e => (e.shown.name, e.shown.isDir))
    | _ => []) = [(str! "d", true), (str! "f", false), (str! "l", false)] := by decide +kernel

example : Lists store sample [str! "d"] [str! ".", str! "f"] [⟨str! "f", store.stat sample [str! "d", str! "f"]⟩] :=
  .dots (.inl rfl) (.entry (x := [str! "d", str! "f"]) (by decide) (by decide) (by rfl) .nil)

/-- When wrapObjectHandle only keeps the handle, ReadDir panics on every object that is found, because a type assertion fails; with the wrapper
repaired as well, if the handle has no ListDir method. -/
theorem C96_panics_partial (d : Drv σ H) (hd : d.cfg.keepHandle = true) (Q : Quiet d.impl) (wd : Loc) (hwd : IsLoc wd) (hw : d.workingDirPath = render wd)
    (s : σ) (hr : RootIsDir d.impl s) (p : Str) (l l' : Loc) (hm : Means wd p l) (h : H) (hf : Found d.impl s l l' h)
    (hno : d.cfg.passOptional = false ∨ d.impl.listDir h = none) :
    ∃ N, ∀ fuel, N ≤ fuel → readDir d fuel p s = .panic := by
  obtain ⟨N, hN⟩ := follow_found d hd Q hr hf
  refine ⟨N, fun fuel hfu => ?_⟩
  unfold readDir
  rw [hw, (normalize_means hwd hm).1, andThen_ok (hN fuel hfu)]
  have : (⟨some h, render l'⟩ : Ext H).optional d.cfg d.impl.listDir = none := by
    unfold Ext.optional
    rcases hno with hno | hno
    · rw [hno]; rfl
    · split
      · exact hno
      · rfl
  unfold readDirObject
  rw [this]
  rfl

example : Found (flat 4) [⟨str! "f", 0, []⟩] [str! "f"] [str! "f"] (some (str! "f")) ∧ RootIsDir (flat 4) [⟨str! "f", 0, []⟩] ∧ (flat 4).listDir (some (str! "f")) = none :=
  ⟨.entry (k := 0) (name_of (by decide)) (.zero _) rfl (by decide), flat_root 4 _, rfl⟩

/-- C96 is false even with the wrapper repaired: there is no error for a file. -/
theorem C96_refuted : ¬ C96_statement passing := by
  intro h
  have hm : Means [] (str! "/f") [str! "f"] := .inl ⟨⟨_, rfl⟩, by decide⟩
  have h1 := (h Store Loc store (fun s => kindAt s.1) id 3 [] sample (str! "/f") [str! "f"] .file store_volume store_names isLoc_nil hm (by decide)).2 rfl
  obtain ⟨x, hf, hx⟩ := volume_found store_volume (n := str! "f") (s := sample) (k := .file) (by decide) (by decide) (by simp)
  have hx : x = [str! "f"] := hx
  have h2 := C96_listing_partial (⟨passing, store, 3, render []⟩ : Drv _ _) store_volume.toStill rfl rfl [] isLoc_nil rfl sample (volume_root store_volume sample) (str! "/f") _ _ hm x hf
    _ rfl [str! "."] (by rw [hx]; decide +kernel) [] (.dots (.inl rfl) .nil)
  cases (gives_unique h1 h2).2

/-- ... and a directory in a directory of the root is never listed, in any configuration. -/
theorem C96_refuted_deep (cfg : Cfg) : ¬ C96_statement cfg := by
  intro h
  have hloc : IsLoc ([str! "d"] ++ [str! "e"]) := by decide
  obtain ⟨es, ⟨N, h1⟩, _⟩ := (h Store Loc store (fun s => kindAt s.1) id 3 [] sample (render ([str! "d"] ++ [str! "e"])) _ .dir store_volume store_names isLoc_nil (means_render hloc [])
    (by decide)).1 rfl
  have h1 := h1 N (by omega)
  simp only [readDir] at h1
  rw [normalize_canonical hloc, andThen_timeout] at h1
  · cases h1
  · exact (never_deep _ [str! "d"] (by simp) (by decide) _ N).2

end Disko.Driver

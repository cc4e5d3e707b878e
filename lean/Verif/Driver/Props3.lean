import Verif.Driver.Props2
import Verif.Driver.Resolve
/-! C62 and C63: path resolution and symbolic links in the root directory, when wrapObjectHandle keeps
the handle it is given. -/
namespace Disko.Driver
open Disko Spec

variable {σ H : Type}

/-! ### C62 -/

theorem stat_of_follow (d : Drv σ H) (Q : Quiet d.impl) {l : Loc} (hl : IsLoc l) {s : σ} {h : H} {p : Str} {fuel : Nat}
    (e : getFollow d fuel (render l) s = .ret (s, .ok ⟨some h, p⟩)) : stat d fuel (render l) s = .ret (s, .ok (d.impl.stat s h)) := by
  unfold stat
  rw [normalize_canonical hl, andThen_ok e]
  exact deferred_close d Q rfl

theorem stat_of_error (d : Drv σ H) {l : Loc} (hl : IsLoc l) {s : σ} {er : Err} {fuel : Nat}
    (e : getFollow d fuel (render l) s = .ret (s, .error er)) : stat d fuel (render l) s = .ret (s, .error er) := by
  unfold stat
  rw [normalize_canonical hl, andThen_err e]

theorem isLoc_one {n : Str} (h : IsName n) : IsLoc [n] := fun _ hm => by rw [List.mem_singleton.mp hm]; exact h

theorem follow_plain (d : Drv σ H) (hd : d.cfg.keepHandle = true) (Q : Quiet d.impl) {s : σ} (hr : RootIsDir d.impl s) {n : Str} {h : H}
    (hn : IsName n) (hi : InRoot d.impl s n h) (hns : (d.impl.stat s h).isSymlink = false) (f : Nat) :
    getFollow d (f + 4) (render [n]) s = .ret (s, .ok ⟨some h, render [n]⟩) := by
  rw [getFollow, andThen_ok (keep_one_ok d hd Q hr hn hi f), followLoop, andThen_ok (a := d.impl.stat s h) (s' := s) rfl, hns]
  rfl

/-- C62, when wrapObjectHandle keeps the handle: the root and the objects in it are found.  Missing:
everything below (`C62_deep_partial`), and the code as shipped (`C62_shipped_partial`). -/
theorem C62_keeping_partial (impl : Impl σ H) (mf : MountFlags) (wd : Str) (s : σ) (l : Loc) (h : H) (Q : Quiet impl)
    (hl : IsLoc l) (hlen : l.length ≤ 1) (hat : At impl s l h) (fuel : Nat) (hf : 4 ≤ fuel) :
    stat ⟨keeping, impl, mf, wd⟩ fuel (render l) s = .ret (s, .ok (impl.stat s h)) := by
  obtain ⟨f, rfl⟩ : ∃ f, fuel = f + 4 := ⟨fuel - 4, by omega⟩
  let d : Drv σ H := ⟨keeping, impl, mf, wd⟩
  cases hat with
  | root hn => exact stat_of_follow d Q hl (keep_root_follow d rfl hn (f + 2))
  | down hd hdir hg hn =>
    rename_i l dir n
    have : l = [] := by
      rw [List.length_append, List.length_singleton] at hlen
      exact List.length_eq_zero_iff.mp (by omega)
    subst this
    have hroot : dir = impl.getRootDirectory s ∧ (impl.stat s (impl.getRootDirectory s)).isSymlink = false := by
      generalize e : ([] : Loc) = l0 at hd
      cases hd with
      | root h => exact ⟨rfl, h⟩
      | down _ _ _ _ => simp at e
    obtain ⟨rfl, hrs⟩ := hroot
    exact stat_of_follow d Q hl (follow_plain d rfl Q ⟨hdir, hrs⟩ (hl n (by simp)) hg hn f)

example : stat ⟨keeping, tiny, 3, str! "/"⟩ 4 (str! "/a") () = .ret ((), .ok (tiny.stat () 1)) :=
  C62_keeping_partial tiny 3 (str! "/") () [str! "a"] 1 tiny_quiet isLoc_a (by simp) tiny_a 4 (by omega)

/-- C62, when wrapObjectHandle keeps the handle: for a name the implementation does not find in the
root, the implementation's error is returned. -/
theorem C62_missing_partial (impl : Impl σ H) (mf : MountFlags) (wd : Str) (s : σ) (n : Str) (e : Err) (Q : Quiet impl)
    (hr : RootIsDir impl s) (hn : IsName n) (hm : (impl.getObject s n (impl.getRootDirectory s)).2 = .error e) (fuel : Nat) (hf : 4 ≤ fuel) :
    stat ⟨keeping, impl, mf, wd⟩ fuel (render [n]) s = .ret (s, .error e) := by
  obtain ⟨f, rfl⟩ : ∃ f, fuel = f + 4 := ⟨fuel - 4, by omega⟩
  let d : Drv σ H := ⟨keeping, impl, mf, wd⟩
  refine stat_of_error d (isLoc_one hn) ?_
  rw [getFollow, andThen_err]
  rw [keep_one d rfl Q hr hn f]
  show Outcome.ret (s, (impl.getObject s n (impl.getRootDirectory s)).2.map _) = _
  rw [hm]; rfl

example : RootIsDir tiny () ∧ (tiny.getObject () (str! "z") 0).2 = .error .notFound := ⟨⟨by decide, by decide⟩, by decide⟩

/-! ### C63 -/

theorem linksTo_unique (d : Drv σ H) {s : σ} {n a b : Str} (ha : LinksTo d.impl s n a) (hb : LinksTo d.impl s n b) : a = b := by
  obtain ⟨h, t, hi, _, hc, _, hw⟩ := ha
  obtain ⟨h', t', hi', _, hc', _, hw'⟩ := hb
  have := inRoot_unique d hi hi'
  subst this
  have e1 := keep_contents d hc []
  rw [keep_contents d hc' []] at e1
  cases e1
  rw [hw] at hw'
  simpa using hw'

/-- Links from `n` on lead to `m`, which is the last: then every name met on the way leads there. -/
theorem follows_rest (d : Drv σ H) {s : σ} {m : Str} (hm : ¬ ∃ m', LinksTo d.impl s m m') : ∀ (b a : Nat) {n x : Str},
    Follows d.impl s a n m → Follows d.impl s b n x → b ≤ a ∧ Follows d.impl s (a - b) x m := by
  intro b
  induction b with
  | zero => intro a n x h1 h2; cases h2; exact ⟨by omega, h1⟩
  | succ b ih =>
    intro a n x h1 h2
    cases h2 with
    | succ hl hf =>
      cases h1 with
      | zero => exact absurd ⟨_, hl⟩ hm
      | succ hl' hf' =>
        rename_i k _
        rw [linksTo_unique d hl' hl] at hf'
        obtain ⟨h3, h4⟩ := ih k hf' hf
        exact ⟨by omega, by rw [show k + 1 - (b + 1) = k - b by omega]; exact h4⟩

theorem no_return (d : Drv σ H) {s : σ} {m n : Str} (hm : ¬ ∃ m', LinksTo d.impl s m m') : ∀ (a : Nat), Follows d.impl s a n m →
    ∀ b, Follows d.impl s (b + 1) n n → False := by
  intro a
  induction a using Nat.strongRecOn with
  | ind a ih =>
    intro h1 b h2
    obtain ⟨h3, h4⟩ := follows_rest d hm (b + 1) a h1 h2
    exact ih (a - (b + 1)) (by omega) h4 b h2

/-- C63, what it says of the links in a root directory: if all links met on the way from `n` are
absolute and stay in the root directory, Stat returns: the information on the object at the end, or
an error. -/
def C63_statement (cfg : Cfg) : Prop :=
  ∀ (σ H : Type) (impl : Impl σ H) (mf : MountFlags) (wd : Str) (s : σ) (n : Str),
    Quiet impl → RootIsDir impl s → IsName n →
    (∀ k m, Follows impl s k n m → (∃ m', LinksTo impl s m m') ∨ (∃ h, InRoot impl s m h ∧ (impl.stat s h).isSymlink = false) ∨
      ∃ e, (impl.getObject s m (impl.getRootDirectory s)).2 = .error e) →
    ∃ fuel r, stat ⟨cfg, impl, mf, wd⟩ fuel (render [n]) s = .ret r

/-- C63, when wrapObjectHandle keeps the handle: a chain of links, however long, that ends at an
object leads to that object. -/
theorem C63_chain_partial (impl : Impl σ H) (mf : MountFlags) (wd : Str) (s : σ) (n m : Str) (k : Nat) (h : H) (Q : Quiet impl)
    (hr : RootIsDir impl s) (hn : IsName n) (hf : Follows impl s k n m) (hi : InRoot impl s m h)
    (hns : (impl.stat s h).isSymlink = false) (fuel : Nat) (hfuel : k + 7 ≤ fuel) :
    stat ⟨keeping, impl, mf, wd⟩ fuel (render [n]) s = .ret (s, .ok (impl.stat s h)) := by
  let d : Drv σ H := ⟨keeping, impl, mf, wd⟩
  have hlast : ¬ ∃ m', LinksTo impl s m m' := by
    rintro ⟨m', h', t, hi', hsym, _⟩
    rw [inRoot_unique d hi' hi, hns] at hsym
    cases hsym
  cases hf with
  | zero =>
    obtain ⟨f, rfl⟩ : ∃ f, fuel = f + 4 := ⟨fuel - 4, by omega⟩
    exact stat_of_follow d Q (isLoc_one hn) (follow_plain d rfl Q hr hn hi hns f)
  | succ hl hf' =>
    rename_i k n'
    obtain ⟨f, rfl⟩ : ∃ f, fuel = (k + 3 + f) + 4 := ⟨fuel - (k + 7), by omega⟩
    obtain ⟨h0, t, hi0, hsym, hrest⟩ := id hl
    refine stat_of_follow (p := render [m]) d Q (isLoc_one hn) ?_
    refine follow_link d rfl Q hr hn hi0 hsym (r := .ok ⟨some h, render [m]⟩) ?_ ?_
    · rw [show k + 3 + f + 1 = k + 4 + f by omega]
      refine loop_chain d rfl Q hr hi hns k (render [n]) f hi0 hl hf' ?_
      rintro j x hx rfl
      exact no_return d hlast (k + 1) (.succ hl hf') j (.succ hl hx)
    · intro x hx
      cases hx
      exact ⟨_, _, rfl, hns⟩

/-- C63, when wrapObjectHandle keeps the handle: a link that leads back to itself, however long the
way, is detected. -/
theorem C63_cycle_partial (impl : Impl σ H) (mf : MountFlags) (wd : Str) (s : σ) (n : Str) (k : Nat) (Q : Quiet impl)
    (hr : RootIsDir impl s) (hn : IsName n) (hf : Follows impl s (k + 1) n n) (fuel : Nat) (hfuel : k + 7 ≤ fuel) :
    stat ⟨keeping, impl, mf, wd⟩ fuel (render [n]) s = .ret (s, .error .linkCycleDetected) := by
  let d : Drv σ H := ⟨keeping, impl, mf, wd⟩
  obtain ⟨f, rfl⟩ : ∃ f, fuel = (k + 3 + f) + 4 := ⟨fuel - (k + 7), by omega⟩
  cases hf with
  | succ hl hf' =>
    obtain ⟨h0, t, hi0, hsym, hrest⟩ := id hl
    refine stat_of_error d (isLoc_one hn) ?_
    refine follow_link d rfl Q hr hn hi0 hsym (r := .error .linkCycleDetected) ?_ (by rintro x ⟨⟩)
    rw [show k + 3 + f + 1 = k + 4 + f by omega]
    exact loop_cycle d rfl Q hr k (render [n]) f hi0 hl hf'

/-- C63, when wrapObjectHandle keeps the handle: a chain of links to a name that is not there gives
the implementation's error. -/
theorem C63_dangling_partial (impl : Impl σ H) (mf : MountFlags) (wd : Str) (s : σ) (n m : Str) (k : Nat) (e : Err) (Q : Quiet impl)
    (hr : RootIsDir impl s) (hn : IsName n) (hf : Follows impl s k n m)
    (hm : (impl.getObject s m (impl.getRootDirectory s)).2 = .error e) (fuel : Nat) (hfuel : k + 7 ≤ fuel) :
    stat ⟨keeping, impl, mf, wd⟩ fuel (render [n]) s = .ret (s, .error e) := by
  let d : Drv σ H := ⟨keeping, impl, mf, wd⟩
  have hlast : ¬ ∃ m', LinksTo impl s m m' := by
    rintro ⟨m', h', t, hi', _⟩
    unfold InRoot at hi'
    rw [hm] at hi'
    cases hi'
  cases hf with
  | zero => exact C62_missing_partial impl mf wd s n e Q hr hn hm fuel (by omega)
  | succ hl hf' =>
    rename_i k n'
    obtain ⟨f, rfl⟩ : ∃ f, fuel = (k + 3 + f) + 4 := ⟨fuel - (k + 7), by omega⟩
    obtain ⟨h0, t, hi0, hsym, hrest⟩ := id hl
    refine stat_of_error d (isLoc_one hn) ?_
    refine follow_link d rfl Q hr hn hi0 hsym (r := .error e) ?_ (by rintro x ⟨⟩)
    rw [show k + 3 + f + 1 = k + 4 + f by omega]
    refine loop_dangling d rfl Q hr hm k (render [n]) f hi0 hl hf' ?_
    rintro j x hx rfl
    exact no_return d hlast (k + 1) (.succ hl hf') j (.succ hl hx)

/-- C63, what is missing: links that go round in a circle which the first link is not part of are
followed for ever. -/
theorem C63_endless_partial (impl : Impl σ H) (mf : MountFlags) (wd : Str) (s : σ) (n n' : Str) (Q : Quiet impl)
    (hr : RootIsDir impl s) (hn : IsName n) (hl : LinksTo impl s n n')
    (hon : ∀ k m, Follows impl s k n' m → m ≠ n ∧ ∃ m', LinksTo impl s m m') (fuel : Nat) :
    stat ⟨keeping, impl, mf, wd⟩ fuel (render [n]) s = .timeout := by
  let d : Drv σ H := ⟨keeping, impl, mf, wd⟩
  obtain ⟨h0, t, hi0, hsym, hrest⟩ := id hl
  have hloop := fun f => loop_endless d rfl Q hr f (render [n]) hi0 hl hon
  have h1 : getFollow d (fuel + 4) (render [n]) s = .timeout := by
    rw [getFollow, andThen_ok (keep_one_ok d rfl Q hr hn hi0 fuel), followLoop, andThen_ok (a := d.impl.stat s h0) (s' := s) rfl,
      show (d.impl.stat s h0).isSymlink = true from hsym]
    refine andThen_timeout (either_timeout ?_)
    rw [resolveSymlink, andThen_ok (a := d.impl.stat s h0) (s' := s) rfl, show (d.impl.stat s h0).isSymlink = true from hsym]
    exact hloop _
  unfold stat
  rw [normalize_canonical (isLoc_one hn)]
  refine andThen_timeout ?_
  rcases follow_mono d (show fuel ≤ fuel + 4 by omega) (render [n]) s with h2 | h2
  · exact h2
  · exact h2.trans h1

/-! ### A root directory with links: a -> /b -> /c, a file; x -> /y -> /x; r -> /x; d -> /q, which is
not there -/

/-- The text of a link (or the contents of the file "c"). -/
def linkText : Nat → Bytes
  | 97 => str! "/b"
  | 98 => str! "/c"
  | 120 => str! "/y"
  | 121 => str! "/x"
  | 114 => str! "/x"
  | 100 => str! "/q"
  | _ => str! "hi"

/-- Handles are the codes of the one-letter names; 0 is the root. -/
def linked : Impl Unit Nat where
  features := ⟨true, true, true⟩
  getRootDirectory _ := 0
  getObject s n h :=
    (s, match n with
      | [c] => if h = 0 ∧ c.toNat ∈ [97, 98, 99, 120, 121, 114, 100] then .ok c.toNat else .error .notFound
      | _ => .error .notFound)
  createObject s _ _ _ := (s, .error .notImplemented)
  createHardLink := none
  stat _ h := if h = 0 then statWith Flags.ModeDir 0 0 0 else if h = 99 then statWith 0 2 1 99
    else statWith Flags.ModeSymlink 2 1 h
  name _ h := [UInt8.ofNat h]
  sameAs _ a b := a = b
  resize s _ _ := (s, none)
  readBlocks s h i _ := (s, slice (linkText h ++ [0, 0]) (i * 4) 4, none)
  writeBlocks s _ _ _ := (s, none)
  unlink s _ := (s, none)
  close s _ := (s, none)
  listDir _ := none
  chmod _ := none
  chown _ := none
  chtimes _ := none

theorem linked_quiet : Quiet linked := ⟨fun _ _ _ => rfl, fun _ _ => rfl⟩
theorem linked_root : RootIsDir linked () := ⟨by decide, by decide⟩

theorem linkText_len (h : Nat) : (linkText h).length = 2 := by
  unfold linkText
  split <;> rfl

theorem linked_contents {h : Nat} (h0 : h ≠ 0) : ContentsAre linked () h (linkText h) := by
  have hst : (linked.stat () h).size = 2 ∧ (linked.stat () h).blockSize = 4 ∧ (linked.stat () h).numBlocks = 1 := by
    show (if h = 0 then statWith Flags.ModeDir 0 0 0 else if h = 99 then statWith 0 2 1 99 else statWith Flags.ModeSymlink 2 1 h).size = 2 ∧ _
    rw [if_neg h0]
    have : linked.stat () h = if h = 99 then statWith 0 2 1 99 else statWith Flags.ModeSymlink 2 1 h := by
      show (if h = 0 then _ else _) = _
      rw [if_neg h0]
    rw [this]
    split <;> exact ⟨rfl, rfl, rfl⟩
  refine ⟨4, 1, fun _ => linkText h ++ [0, 0], ⟨fun _ _ _ => rfl, fun _ _ _ _ _ _ => rfl⟩,
    ⟨by decide, by decide, hst.2.1, hst.2.2, by simp [linkText_len], by rw [hst.1]; decide, by rw [hst.1]; decide,
      by rw [hst.1]; decide⟩, fun _ _ _ => rfl, ?_⟩
  rw [hst.1]
  show _ = List.take 2 _
  rw [List.take_left' (linkText_len h)]

theorem linked_link {c c' : UInt8} (h1 : c.toNat ∈ [97, 98, 120, 121, 114, 100]) (h2 : linkText c.toNat = [47, c'])
    (h3 : walk [] [47, c'] = [[c']]) : LinksTo linked () [c] [c'] := by
  have h0 : c.toNat ≠ 0 := by intro e; rw [e] at h1; revert h1; decide
  have h99 : c.toNat ≠ 99 := by intro e; rw [e] at h1; revert h1; decide
  refine ⟨c.toNat, _, ?_, ?_, linked_contents h0, ?_, ?_⟩
  · show (if (0 : Nat) = 0 ∧ c.toNat ∈ [97, 98, 99, 120, 121, 114, 100] then Except.ok c.toNat else Except.error Err.notFound) = Except.ok c.toNat
    rw [if_pos ⟨rfl, by
      simp only [List.mem_cons, List.not_mem_nil, or_false] at h1 ⊢
      omega⟩]
  · show (if c.toNat = 0 then _ else if c.toNat = 99 then _ else statWith Flags.ModeSymlink 2 1 c.toNat).isSymlink = true
    rw [if_neg h0, if_neg h99]
    show Flags.isSymlink Flags.ModeSymlink = true
    decide
  · rw [h2]; exact ⟨_, rfl⟩
  · rw [h2]; exact h3

theorem name_of {c : UInt8} (h : c ≠ 47 ∧ c ≠ 46) : IsName [c] :=
  ⟨by simp, by simp [sep]; exact fun e => h.1 e.symm, by simp [h.2], by simp⟩

theorem link_ab : LinksTo linked () (str! "a") (str! "b") := linked_link (by decide) rfl (by decide)
theorem link_bc : LinksTo linked () (str! "b") (str! "c") := linked_link (by decide) rfl (by decide)
theorem link_xy : LinksTo linked () (str! "x") (str! "y") := linked_link (by decide) rfl (by decide)
theorem link_yx : LinksTo linked () (str! "y") (str! "x") := linked_link (by decide) rfl (by decide)
theorem link_rx : LinksTo linked () (str! "r") (str! "x") := linked_link (by decide) rfl (by decide)
theorem link_dq : LinksTo linked () (str! "d") (str! "q") := linked_link (by decide) rfl (by decide)

/-- Two links to a file. -/
example : stat ⟨keeping, linked, 3, str! "/"⟩ 9 (str! "/a") () = .ret ((), .ok (linked.stat () 99)) :=
  C63_chain_partial linked 3 (str! "/") () (str! "a") (str! "c") 2 99 linked_quiet linked_root (name_of (by decide))
    (.succ link_ab (.succ link_bc (.zero _))) (by unfold InRoot; decide) (by decide) 9 (by omega)

/-- A circle of two links. -/
example : stat ⟨keeping, linked, 3, str! "/"⟩ 8 (str! "/x") () = .ret ((), .error .linkCycleDetected) :=
  C63_cycle_partial linked 3 (str! "/") () (str! "x") 1 linked_quiet linked_root (name_of (by decide))
    (.succ link_xy (.succ link_yx (.zero _))) 8 (by omega)

/-- A link to nothing. -/
example : stat ⟨keeping, linked, 3, str! "/"⟩ 8 (str! "/d") () = .ret ((), .error .notFound) :=
  C63_dangling_partial linked 3 (str! "/") () (str! "d") (str! "q") 1 .notFound linked_quiet linked_root (name_of (by decide))
    (.succ link_dq (.zero _)) (by decide) 8 (by omega)

theorem follows_x : ∀ (k : Nat) (m : Str), Follows linked () k (str! "x") m ∨ Follows linked () k (str! "y") m →
    m = str! "x" ∨ m = str! "y" := by
  let d : Drv Unit Nat := ⟨keeping, linked, 3, str! "/"⟩
  intro k
  induction k with
  | zero =>
    rintro m (h | h)
    · cases h; exact .inl rfl
    · cases h; exact .inr rfl
  | succ k ih =>
    rintro m (h | h)
    · cases h with
      | succ hl hf => rw [linksTo_unique d hl link_xy] at hf; exact ih m (.inr hf)
    · cases h with
      | succ hl hf => rw [linksTo_unique d hl link_yx] at hf; exact ih m (.inl hf)

theorem endless_r : ∀ k m, Follows linked () k (str! "x") m → m ≠ str! "r" ∧ ∃ m', LinksTo linked () m m' := by
  intro k m hf
  rcases follows_x k m (.inl hf) with rfl | rfl
  · exact ⟨by decide, _, link_xy⟩
  · exact ⟨by decide, _, link_yx⟩

/-- A link into a circle. -/
example (fuel : Nat) : stat ⟨keeping, linked, 3, str! "/"⟩ fuel (str! "/r") () = .timeout :=
  C63_endless_partial linked 3 (str! "/") () (str! "r") (str! "x") linked_quiet linked_root (name_of (by decide)) link_rx endless_r fuel

/-- C63 is false, even when wrapObjectHandle keeps the handle: r -> /x -> /y -> /x is never left. -/
theorem C63_refuted : ¬ C63_statement keeping := by
  intro h
  obtain ⟨fuel, r, h⟩ := h Unit Nat linked 3 (str! "/") () (str! "r") linked_quiet linked_root (name_of (by decide)) (by
    intro k m hf
    cases hf with
    | zero => exact .inl ⟨_, link_rx⟩
    | succ hl hf =>
      rw [linksTo_unique ⟨keeping, linked, 3, str! "/"⟩ hl link_rx] at hf
      exact .inl (endless_r _ m hf).2)
  rw [show render [str! "r"] = str! "/r" by decide] at h
  rw [show stat ⟨keeping, linked, 3, str! "/"⟩ fuel (str! "/r") () = .timeout from
    C63_endless_partial linked 3 (str! "/") () (str! "r") (str! "x") linked_quiet linked_root (name_of (by decide)) link_rx endless_r fuel] at h
  cases h

/-- C63 is false of the code as shipped. -/
theorem C63_refuted_shipped : ¬ C63_statement shipped := by
  intro h
  obtain ⟨fuel, r, h⟩ := h Unit Nat linked 3 (str! "/") () (str! "x") linked_quiet linked_root (name_of (by decide)) (by
    intro k m hf
    rcases follows_x k m (.inl hf) with rfl | rfl
    · exact .inl ⟨_, link_xy⟩
    · exact .inl ⟨_, link_yx⟩)
  exact (C62_shipped_partial ⟨shipped, linked, 3, str! "/"⟩ rfl [] isLoc_nil rfl () fuel _).1 ⟨_, h⟩

end Disko.Driver

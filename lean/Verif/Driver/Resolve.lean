import Verif.Driver.Contents
import Verif.Driver.Props
/-! Path resolution in the root directory, when wrapObjectHandle keeps the handle. -/
namespace Disko.Driver
open Disko Spec

variable {σ H α β : Type}

/-! ### More fuel does no harm -/

/-- `m'` gives the result of `m` if `m` has one. -/
def Le (m m' : M σ α) : Prop := ∀ s, m s = .timeout ∨ m s = m' s

theorem Le.rfl (m : M σ α) : Le m m := fun _ => .inr (Eq.refl _)

theorem Le.andThen {m m' : M σ α} {f f' : α → M σ β} (h : Le m m') (hf : ∀ a, Le (f a) (f' a)) : Le (M.andThen m f) (M.andThen m' f') := by
  intro s
  rcases h s with h | h
  · exact .inl (andThen_timeout h)
  · unfold M.andThen
    rw [← h]
    rcases m s with ⟨s', e | a⟩ | _ | _
    · exact .inr (Eq.refl _)
    · exact hf a s'
    · exact .inr (Eq.refl _)
    · exact .inl (Eq.refl _)

theorem Le.either {m m' : M σ α} {f f' : Except Err α → M σ β} (h : Le m m') (hf : ∀ a, Le (f a) (f' a)) :
    Le (M.either m f) (M.either m' f') := by
  intro s
  rcases h s with h | h
  · exact .inl (either_timeout h)
  · unfold M.either
    rw [← h]
    rcases m s with ⟨s', r⟩ | _ | _
    · exact hf r s'
    · exact .inr (Eq.refl _)
    · exact .inl (Eq.refl _)

theorem Le.deferred {m m' : M σ α} (c : M σ Unit) (h : Le m m') : Le (M.deferred c m) (M.deferred c m') :=
  Le.either h fun _ => Le.rfl _

theorem Le.ite {p : Prop} [Decidable p] {m m' k k' : M σ α} (h : Le m m') (hk : Le k k') :
    Le (if p then m else k) (if p then m' else k') := by
  split
  · exact h
  · exact hk

section mono
variable (d : Drv σ H)

theorem resolve_mono : ∀ n : Nat,
    (∀ p, Le (getNoFollow d n p) (getNoFollow d (n + 1) p)) ∧ (∀ p, Le (getFollow d n p) (getFollow d (n + 1) p)) ∧
    (∀ e, Le (followLoop d n e) (followLoop d (n + 1) e)) ∧ (∀ e, Le (resolveSymlink d n e) (resolveSymlink d (n + 1) e)) ∧
    (∀ c e, Le (symlinkLoop d n c e) (symlinkLoop d (n + 1) c e))
  | 0 => ⟨fun p _ => .inl (by rw [getNoFollow]), fun p _ => .inl (by rw [getFollow]), fun p _ => .inl (by rw [followLoop]),
      fun p _ => .inl (by rw [resolveSymlink]), fun c p _ => .inl (by rw [symlinkLoop])⟩
  | n + 1 => by
    obtain ⟨h1, h2, h3, h4, h5⟩ := resolve_mono n
    refine ⟨fun p => ?_, fun p => ?_, fun e => ?_, fun e => ?_, fun c e => ?_⟩
    · rw [getNoFollow, getNoFollow]
      exact Le.ite (Le.rfl _) (Le.andThen (h2 _) fun _ => Le.rfl _)
    · rw [getFollow, getFollow]
      exact Le.andThen (h1 _) fun _ => h3 _
    · rw [followLoop, followLoop]
      exact Le.andThen (Le.rfl _) fun _ => Le.ite (Le.rfl _) (Le.andThen (Le.deferred _ (h4 _)) fun _ => h3 _)
    · rw [resolveSymlink, resolveSymlink]
      exact Le.andThen (Le.rfl _) fun _ => Le.ite (Le.rfl _) (h5 _ _)
    · rw [symlinkLoop, symlinkLoop]
      exact Le.andThen (Le.rfl _) fun _ => Le.ite (Le.rfl _) (Le.andThen (h1 _) fun _ => Le.andThen (Le.rfl _) fun _ =>
        Le.ite (Le.rfl _) (h5 _ _))

theorem follow_mono {n m : Nat} (h : n ≤ m) (p : Str) : Le (getFollow d n p) (getFollow d m p) := by
  induction h with
  | refl => exact Le.rfl _
  | step _ ih =>
    intro s
    rcases ih s with h1 | h1
    · exact .inl h1
    · rcases (resolve_mono d _).2.1 p s with h2 | h2
      · exact .inl (h1.trans h2)
      · exact .inr (h1.trans h2)

end mono

/-! ### In the root directory -/

theorem join_root {x : Str} (h : IsName x) : Path.join (str! "/") x = render [x] := by
  have := join_clean_rel (l := []) (cs := [x]) (by simp) isLoc_nil (by simpa using isComp_of_isName h)
  rw [show Path.joinSlash [x] = x from rfl, List.foldl_cons, List.foldl_nil,
    goTo_name (isComp_of_isName h) h.notDotDot] at this
  exact this

section keeping
variable (d : Drv σ H) (hd : d.cfg.keepHandle = true)
include hd

theorem keep_wrap (h : Option H) (p : Str) : wrapObjectHandle d.cfg h p = ⟨h, p⟩ := by
  unfold wrapObjectHandle; rw [hd]; rfl

theorem keep_root {s : σ} (n : Nat) : getNoFollow d (n + 1) (str! "/") s = .ret (s, .ok ⟨some (d.impl.getRootDirectory s), str! "/"⟩) := by
  rw [getNoFollow, if_pos (.inl rfl), keep_wrap d hd]

theorem keep_root_follow {s : σ} (hr : (d.impl.stat s (d.impl.getRootDirectory s)).isSymlink = false) (n : Nat) :
    getFollow d (n + 2) (str! "/") s = .ret (s, .ok ⟨some (d.impl.getRootDirectory s), str! "/"⟩) := by
  rw [getFollow, andThen_ok (keep_root d hd n), followLoop,
    andThen_ok (a := d.impl.stat s (d.impl.getRootDirectory s)) (s' := s) rfl, hr]
  rfl

theorem keep_one (Q : Quiet d.impl) {s : σ} (hr : RootIsDir d.impl s) {x : Str} (hx : IsName x) (n : Nat) :
    getNoFollow d (n + 3) (render [x]) s = .ret (s, (d.impl.getObject s x (d.impl.getRootDirectory s)).2.map fun h => ⟨some h, render [x]⟩) := by
  have hsp : Path.splitLast (render [x]) = (str! "/", x) := by
    have := splitLast_render [] hx
    rw [List.nil_append, if_pos rfl] at this
    exact this
  have hne := render_ne_root [] hx
  rw [List.nil_append] at hne
  rw [getNoFollow, if_neg hne, hsp, andThen_ok (keep_root_follow d hd hr.2 n)]
  have hg := Q.getObject s x (d.impl.getRootDirectory s)
  have hbody : (M.andThen (statOf d ⟨some (d.impl.getRootDirectory s), str! "/"⟩) fun st =>
      if !st.isDir then M.fail .notADirectory else getExtObjectInDir d x ⟨some (d.impl.getRootDirectory s), str! "/"⟩) s
      = .ret (s, (d.impl.getObject s x (d.impl.getRootDirectory s)).2.map fun h => ⟨some h, render [x]⟩) := by
    rw [andThen_ok (a := d.impl.stat s (d.impl.getRootDirectory s)) (s' := s) rfl, hr.1]
    simp only [Bool.not_true, Bool.false_eq_true, if_false, getExtObjectInDir, Ext.method]
    rcases e : d.impl.getObject s x (d.impl.getRootDirectory s) with ⟨s1, r⟩
    rw [e] at hg
    simp only at hg
    subst hg
    rcases r with er | h
    · rw [andThen_err (e := er) (s' := s1) (by rw [M.call, e])]; rfl
    · rw [andThen_ok (a := h) (s' := s1) (by rw [M.call, e]), keep_wrap d hd, join_root hx]; rfl
  unfold M.deferred
  rw [either_ret hbody, either_ret (r := .ok ()) (s' := s)]
  simp only [closeOf, Ext.method, M.callE, Q.close]

theorem keep_one_ok (Q : Quiet d.impl) {s : σ} (hr : RootIsDir d.impl s) {x : Str} (hx : IsName x) {h : H} (hi : InRoot d.impl s x h) (n : Nat) :
    getNoFollow d (n + 3) (render [x]) s = .ret (s, .ok ⟨some h, render [x]⟩) := by
  rw [keep_one d hd Q hr hx n, hi]; rfl

omit hd in
/-- Closing changes nothing. -/
theorem deferred_close (Q : Quiet d.impl) {s s' : σ} {m : M σ α} {r : Except Err α} {h : H} {p : Str} (e : m s = .ret (s', r)) :
    M.deferred (closeOf d ⟨some h, p⟩) m s = .ret (s', r) := by
  unfold M.deferred
  rw [either_ret e, either_ret (r := .ok ()) (s' := s')]
  simp only [closeOf, Ext.method, M.callE, Q.close]

omit hd in
theorem keep_contents {s : σ} {h : H} {t : Bytes} (ht : ContentsAre d.impl s h t) (p : Str) :
    getContentsOfObject d ⟨some h, p⟩ s = .ret (s, .ok t) := by
  obtain ⟨bpb, total, view, C, hs, hrel, rfl⟩ := ht
  rcases contents_spec d h p s C hs with h1 | ⟨j, be, _, s', buf, h2⟩
  · exact h1
  · rw [hrel] at h2; cases h2

omit hd in
theorem linksTo_name {s : σ} {n n' : Str} (h : LinksTo d.impl s n n') : IsName n' := by
  obtain ⟨_, t, _, _, _, _, hw⟩ := h
  have := isLoc_walk isLoc_nil t
  rw [hw] at this
  exact this n' (by simp)

omit hd in
/-- One turn of the loop of resolveSymlink. -/
theorem symlinkLoop_step (Q : Quiet d.impl) {s : σ} {n n' n0 : Str} {h : H} (hi : InRoot d.impl s n h) (hl : LinksTo d.impl s n n')
    (f : Nat) (p : Str) :
    symlinkLoop d (f + 1) [render [n0]] ⟨some h, p⟩ s =
      if n' = n0 then .ret (s, .error .linkCycleDetected)
      else M.andThen (getNoFollow d f (render [n'])) (fun object' =>
        M.andThen (statOf d object') fun st =>
        if !st.isSymlink then M.ok object' else symlinkLoop d f [render [n0]] object') s := by
  obtain ⟨h', t, hi', hsym, hct, habs, hw⟩ := hl
  have : h' = h := by
    unfold InRoot at hi hi'
    rw [hi] at hi'
    exact (Except.ok.inj hi').symm
  subst this
  rw [symlinkLoop, andThen_ok (deferred_close d Q (keep_contents d hct p))]
  rw [C61_absolute_partial d.workingDirPath t habs, hw]
  by_cases he : n' = n0
  · rw [if_pos he, he, if_pos (by simp)]; rfl
  · rw [if_neg he, if_neg]
    rw [List.mem_singleton]
    intro e
    apply he
    simpa [render] using e

omit hd in
theorem inRoot_unique {s : σ} {n : Str} {h h' : H} (a : InRoot d.impl s n h) (b : InRoot d.impl s n h') : h = h' := by
  unfold InRoot at a b
  rw [a] at b
  exact Except.ok.inj b

/-- A chain of links that ends at an object. -/
theorem loop_chain (Q : Quiet d.impl) {s : σ} (hr : RootIsDir d.impl s) {n0 m : Str} {hm : H} (him : InRoot d.impl s m hm)
    (hns : (d.impl.stat s hm).isSymlink = false) : ∀ (k : Nat) {n n' : Str} {h : H} (p : Str) (f : Nat), InRoot d.impl s n h →
    LinksTo d.impl s n n' → Follows d.impl s k n' m → (∀ j n'', Follows d.impl s j n' n'' → n'' ≠ n0) →
    symlinkLoop d (k + 4 + f) [render [n0]] ⟨some h, p⟩ s = .ret (s, .ok ⟨some hm, render [m]⟩) := by
  intro k
  induction k with
  | zero =>
    intro n n' h p f hi hl hf hno
    cases hf
    have hx := linksTo_name d hl
    rw [show 0 + 4 + f = f + 3 + 1 by omega, symlinkLoop_step d Q hi hl, if_neg (hno 0 _ (.zero _)),
      andThen_ok (keep_one_ok d hd Q hr hx him f), andThen_ok (a := d.impl.stat s hm) (s' := s) rfl, hns]
    rfl
  | succ k ih =>
    intro n n' h p f hi hl hf hno
    have hx := linksTo_name d hl
    cases hf with
    | succ hl' hf' =>
      rename_i n''
      obtain ⟨h', t, hi', hsym, hrest⟩ := hl'
      rw [show k + 1 + 4 + f = k + 4 + f + 1 by omega, symlinkLoop_step d Q hi hl, if_neg (hno 0 _ (.zero _)),
        andThen_ok (show getNoFollow d (k + 4 + f) (render [n']) s = _ by
          rw [show k + 4 + f = k + 1 + f + 3 by omega]; exact keep_one_ok d hd Q hr hx hi' _),
        andThen_ok (a := d.impl.stat s h') (s' := s) rfl, hsym]
      have hl2 : LinksTo d.impl s n' n'' := ⟨h', t, hi', hsym, hrest⟩
      exact ih (render [n']) f hi' hl2 hf' fun j x hx => hno (j + 1) x (.succ hl2 hx)

/-- A chain of links that comes back to where it started. -/
theorem loop_cycle (Q : Quiet d.impl) {s : σ} (hr : RootIsDir d.impl s) {n0 : Str} : ∀ (k : Nat) {n n' : Str} {h : H} (p : Str) (f : Nat),
    InRoot d.impl s n h → LinksTo d.impl s n n' → Follows d.impl s k n' n0 →
    symlinkLoop d (k + 4 + f) [render [n0]] ⟨some h, p⟩ s = .ret (s, .error .linkCycleDetected) := by
  intro k
  induction k with
  | zero =>
    intro n n' h p f hi hl hf
    cases hf
    rw [show 0 + 4 + f = f + 3 + 1 by omega, symlinkLoop_step d Q hi hl, if_pos rfl]
  | succ k ih =>
    intro n n' h p f hi hl hf
    have hx := linksTo_name d hl
    rw [show k + 1 + 4 + f = k + 4 + f + 1 by omega, symlinkLoop_step d Q hi hl]
    by_cases he : n' = n0
    · rw [if_pos he]
    · rw [if_neg he]
      cases hf with
      | succ hl' hf' =>
        rename_i n''
        obtain ⟨h', t, hi', hsym, hrest⟩ := hl'
        rw [andThen_ok (show getNoFollow d (k + 4 + f) (render [n']) s = _ by
            rw [show k + 4 + f = k + 1 + f + 3 by omega]; exact keep_one_ok d hd Q hr hx hi' _),
          andThen_ok (a := d.impl.stat s h') (s' := s) rfl, hsym]
        exact ih (render [n']) f hi' ⟨h', t, hi', hsym, hrest⟩ hf'

/-- A chain of links to a name that is not there. -/
theorem loop_dangling (Q : Quiet d.impl) {s : σ} (hr : RootIsDir d.impl s) {n0 m : Str} {e : Err}
    (him : (d.impl.getObject s m (d.impl.getRootDirectory s)).2 = .error e) : ∀ (k : Nat) {n n' : Str} {h : H} (p : Str) (f : Nat),
    InRoot d.impl s n h → LinksTo d.impl s n n' → Follows d.impl s k n' m → (∀ j n'', Follows d.impl s j n' n'' → n'' ≠ n0) →
    symlinkLoop d (k + 4 + f) [render [n0]] ⟨some h, p⟩ s = .ret (s, .error e) := by
  intro k
  induction k with
  | zero =>
    intro n n' h p f hi hl hf hno
    cases hf
    have hx := linksTo_name d hl
    rw [show 0 + 4 + f = f + 3 + 1 by omega, symlinkLoop_step d Q hi hl, if_neg (hno 0 _ (.zero _)),
      andThen_err (e := e) (s' := s) (by rw [keep_one d hd Q hr hx, him]; rfl)]
  | succ k ih =>
    intro n n' h p f hi hl hf hno
    have hx := linksTo_name d hl
    cases hf with
    | succ hl' hf' =>
      rename_i n''
      obtain ⟨h', t, hi', hsym, hrest⟩ := hl'
      rw [show k + 1 + 4 + f = k + 4 + f + 1 by omega, symlinkLoop_step d Q hi hl, if_neg (hno 0 _ (.zero _)),
        andThen_ok (show getNoFollow d (k + 4 + f) (render [n']) s = _ by
          rw [show k + 4 + f = k + 1 + f + 3 by omega]; exact keep_one_ok d hd Q hr hx hi' _),
        andThen_ok (a := d.impl.stat s h') (s' := s) rfl, hsym]
      have hl2 : LinksTo d.impl s n' n'' := ⟨h', t, hi', hsym, hrest⟩
      exact ih (render [n']) f hi' hl2 hf' fun j x hx => hno (j + 1) x (.succ hl2 hx)

/-- Links that lead on and on, but not back to where it started. -/
theorem loop_endless (Q : Quiet d.impl) {s : σ} (hr : RootIsDir d.impl s) {n0 : Str} : ∀ (f : Nat) {n n' : Str} {h : H} (p : Str),
    InRoot d.impl s n h → LinksTo d.impl s n n' →
    (∀ j m, Follows d.impl s j n' m → m ≠ n0 ∧ ∃ m', LinksTo d.impl s m m') →
    symlinkLoop d f [render [n0]] ⟨some h, p⟩ s = .timeout := by
  intro f
  induction f with
  | zero => intro n n' h p _ _ _; rw [symlinkLoop]
  | succ f ih =>
    intro n n' h p hi hl hno
    have hx := linksTo_name d hl
    obtain ⟨hne, n'', hl2⟩ := hno 0 n' (.zero _)
    obtain ⟨h', t, hi', hsym, hrest⟩ := id hl2
    rw [symlinkLoop_step d Q hi hl, if_neg hne]
    have hget : getNoFollow d f (render [n']) s = .timeout ∨ getNoFollow d f (render [n']) s = .ret (s, .ok ⟨some h', render [n']⟩) := by
      rcases f with _ | _ | _ | f
      · exact .inl (by rw [getNoFollow])
      · rcases (resolve_mono d 1).1 (render [n']) s with h1 | h1
        · exact .inl h1
        · rcases (resolve_mono d 2).1 (render [n']) s with h2 | h2
          · exact .inl (h1.trans h2)
          · exact .inr ((h1.trans h2).trans (keep_one_ok d hd Q hr hx hi' 0))
      · rcases (resolve_mono d 2).1 (render [n']) s with h2 | h2
        · exact .inl h2
        · exact .inr (h2.trans (keep_one_ok d hd Q hr hx hi' 0))
      · exact .inr (keep_one_ok d hd Q hr hx hi' f)
    rcases hget with h1 | h1
    · exact andThen_timeout h1
    · rw [andThen_ok h1, andThen_ok (a := d.impl.stat s h') (s' := s) rfl, hsym]
      exact ih (render [n']) hi' hl2 fun j m hm => hno (j + 1) m (.succ hl2 hm)

/-- From the name of a link. -/
theorem follow_link (Q : Quiet d.impl) {s : σ} (hr : RootIsDir d.impl s) {n : Str} {h : H} (hn : IsName n) (hi : InRoot d.impl s n h)
    (hsym : (d.impl.stat s h).isSymlink = true) {f : Nat} {r : Except Err (Ext H)} (e : symlinkLoop d (f + 1) [render [n]] ⟨some h, render [n]⟩ s = .ret (s, r))
    (hr2 : ∀ x, r = .ok x → ∃ hx p, x = ⟨some hx, p⟩ ∧ (d.impl.stat s hx).isSymlink = false) :
    getFollow d (f + 4) (render [n]) s = .ret (s, r) := by
  rw [getFollow, show f + 3 = f + 3 from rfl, andThen_ok (keep_one_ok d hd Q hr hn hi f), followLoop,
    andThen_ok (a := d.impl.stat s h) (s' := s) rfl, hsym]
  simp only [Bool.not_true, Bool.false_eq_true, if_false]
  have hres : resolveSymlink d (f + 2) ⟨some h, render [n]⟩ s = .ret (s, r) := by
    rw [resolveSymlink, andThen_ok (a := d.impl.stat s h) (s' := s) rfl, hsym]
    exact e
  have hdef := deferred_close d Q (h := h) (p := render [n]) hres
  rcases r with er | x
  · exact andThen_err hdef
  · rw [andThen_ok hdef]
    obtain ⟨hx, p, rfl, hns⟩ := hr2 x rfl
    rw [followLoop, andThen_ok (a := d.impl.stat s hx) (s' := s) rfl, hns]
    rfl

end keeping
end Disko.Driver

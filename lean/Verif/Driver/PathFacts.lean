import Verif.Base.PathLemmas
import Verif.Driver.PathSpec
/-! Facts about Go's path functions in terms of Verif/Driver/PathSpec.lean. -/
namespace Disko.Driver
open Disko Spec

/-! ### split -/

theorem split_cons_sep (p : Str) : Path.split Path.slash (Path.slash :: p) = [] :: Path.split Path.slash p := by
  rw [Path.split, if_pos rfl]

theorem split_cons_ne {b : UInt8} (h : b ≠ Path.slash) (p : Str) {q : Str} {qs : List Str}
    (e : Path.split Path.slash p = q :: qs) : Path.split Path.slash (b :: p) = (b :: q) :: qs := by
  rw [Path.split, if_neg h, e]

theorem split_append_sep : ∀ (a b : Str),
    Path.split Path.slash (a ++ Path.slash :: b) = Path.split Path.slash a ++ Path.split Path.slash b
  | [], b => by rw [List.nil_append, split_cons_sep]; rfl
  | c :: a, b => by
    have ih := split_append_sep a b
    by_cases h : c = Path.slash
    · rw [h, List.cons_append, split_cons_sep, split_cons_sep, ih]; rfl
    · rcases e : Path.split Path.slash a with _ | ⟨q, qs⟩
      · exact absurd e (Path.split_ne_nil _ _)
      · rw [split_cons_ne h a e, List.cons_append, split_cons_ne h _ (q := q) (qs := qs ++ Path.split Path.slash b)]
        · rfl
        · rw [ih, e]; rfl

theorem walkFrom_eq_split : ∀ (p : Str) (l : Loc) (cur : Str) (q : Str) (qs : List Str),
    Path.split Path.slash p = q :: qs → walkFrom l cur p = qs.foldl goTo (goTo l (cur ++ q))
  | [], l, cur, q, qs, h => by
    simp only [Path.split, List.cons.injEq] at h
    rw [← h.1, ← h.2, List.append_nil]; rfl
  | b :: p, l, cur, q, qs, h => by
    rcases e : Path.split Path.slash p with _ | ⟨q', qs'⟩
    · exact absurd e (Path.split_ne_nil _ _)
    · by_cases hb : b = Path.slash
      · rw [hb, split_cons_sep, List.cons.injEq] at h
        rw [hb, walkFrom, if_pos (show Path.slash = sep from rfl), walkFrom_eq_split p _ [] q' qs' e, ← h.1, ← h.2, e]
        simp
      · rw [split_cons_ne hb p e, List.cons.injEq] at h
        rw [walkFrom, if_neg (show ¬ b = sep from hb), walkFrom_eq_split p l (cur ++ [b]) q' qs' e, ← h.1, ← h.2]
        simp

theorem walk_eq_split (l : Loc) (p : Str) : walk l p = (Path.split Path.slash p).foldl goTo l := by
  rcases e : Path.split Path.slash p with _ | ⟨q, qs⟩
  · exact absurd e (Path.split_ne_nil _ _)
  · rw [walk, walkFrom_eq_split p l [] q qs e]; rfl

theorem goTo_skip {c : Str} (h : ¬ (c ≠ [] ∧ c ≠ Path.dot)) (l : Loc) : goTo l c = l := by
  unfold goTo
  rw [if_pos]
  by_cases h1 : c = []
  · exact Or.inl h1
  · exact Or.inr (Classical.byContradiction fun h2 => h ⟨h1, h2⟩)

theorem foldl_filter : ∀ (cs : List Str) (l : Loc),
    (cs.filter fun c => c ≠ [] ∧ c ≠ Path.dot).foldl goTo l = cs.foldl goTo l
  | [], _ => rfl
  | c :: cs, l => by
    rw [List.filter_cons]
    by_cases h : c ≠ [] ∧ c ≠ Path.dot
    · rw [if_pos (by simpa using h), List.foldl_cons, List.foldl_cons, foldl_filter cs]
    · rw [if_neg (by simpa using h), List.foldl_cons, goTo_skip h, foldl_filter cs]

theorem walk_eq_comps (l : Loc) (p : Str) : walk l p = (Path.comps p).foldl goTo l := by
  rw [Path.comps, foldl_filter, walk_eq_split]

theorem comps_append_sep (a b : Str) : Path.comps (a ++ Path.slash :: b) = Path.comps a ++ Path.comps b := by
  rw [Path.comps, split_append_sep, List.filter_append]; rfl

/-- A component: not empty, not ".", no slash. -/
def IsComp (c : Str) : Prop := c ≠ [] ∧ c ≠ Path.dot ∧ Path.slash ∉ c

theorem comps_isComp (p : Str) : ∀ c ∈ Path.comps p, IsComp c := by
  intro c hc
  rw [Path.comps, List.mem_filter] at hc
  have := hc.2
  simp only [decide_eq_true_eq] at this
  exact ⟨this.1, this.2, Path.split_not_mem _ _ c hc.1⟩

theorem comps_comp {c : Str} (h : IsComp c) : Path.comps c = [c] := by
  rw [Path.comps, Path.split_of_not_mem _ _ h.2.2]
  simp [h.1, h.2.1]

theorem comps_joinSlash : ∀ (cs : List Str), (∀ c ∈ cs, IsComp c) → Path.comps (Path.joinSlash cs) = cs
  | [], _ => by decide
  | [c], h => by rw [Path.joinSlash]; exact comps_comp (h c List.mem_cons_self)
  | c :: d :: cs, h => by
    rw [Path.joinSlash, comps_append_sep, comps_comp (h c List.mem_cons_self),
      comps_joinSlash (d :: cs) fun x hx => h x (List.mem_cons_of_mem _ hx)]
    · rfl
    · simp

theorem isComp_of_isName {n : Str} (h : IsName n) : IsComp n := ⟨h.nonempty, h.notDot, h.noSlash⟩

theorem joinSlash_cons_render : ∀ (l : Loc), l ≠ [] → Path.slash :: Path.joinSlash l = render l
  | [c], _ => by simp [Path.joinSlash, render]; rfl
  | c :: d :: l, _ => by
    have ih := joinSlash_cons_render (d :: l) (by simp)
    rw [Path.joinSlash]
    · rw [ih]; simp [render]; rfl
    · simp

theorem render_eq (l : Loc) : Path.slash :: Path.joinSlash l = render l := by
  by_cases h : l = []
  · rw [h]; rfl
  · exact joinSlash_cons_render l h

theorem comps_cons_sep (p : Str) : Path.comps (Path.slash :: p) = Path.comps p := by
  have := comps_append_sep [] p
  rw [List.nil_append] at this
  rw [this]; rfl

theorem comps_render {l : Loc} (h : IsLoc l) : Path.comps (render l) = l := by
  rw [← render_eq, comps_cons_sep, comps_joinSlash l fun c hc => isComp_of_isName (h c hc)]

theorem render_absolute (l : Loc) : Absolute (render l) := ⟨_, (render_eq l).symm⟩

theorem isAbs_iff (p : Str) : Path.isAbs p = true ↔ Absolute p := by
  cases p with
  | nil => simp [Path.isAbs, Absolute]
  | cons b p =>
    simp only [Path.isAbs, List.head?_cons, Absolute, List.cons.injEq]
    constructor
    · intro h
      exact ⟨p, by simpa [Path.slash, sep] using h, rfl⟩
    · rintro ⟨r, h, _⟩
      rw [h]; rfl

/-- Names are pushed; the location of names stays one. -/
theorem isLoc_goTo {l : Loc} (h : IsLoc l) {c : Str} (hc : Path.slash ∉ c) : IsLoc (goTo l c) := by
  unfold goTo
  split
  · exact h
  · rename_i h1
    split
    · exact fun n hn => h n ((List.dropLast_sublist l).subset hn)
    · rename_i h2
      intro n hn
      rcases List.mem_append.mp hn with hn | hn
      · exact h n hn
      · rw [List.mem_singleton.mp hn]
        exact ⟨fun e => h1 (.inl e), hc, fun e => h1 (.inr e), h2⟩

theorem isLoc_foldl : ∀ (cs : List Str) {l : Loc}, IsLoc l → (∀ c ∈ cs, Path.slash ∉ c) → IsLoc (cs.foldl goTo l)
  | [], _, h, _ => h
  | c :: cs, _, h, hc =>
    isLoc_foldl cs (isLoc_goTo h (hc c List.mem_cons_self)) fun x hx => hc x (List.mem_cons_of_mem _ hx)

theorem isLoc_walk {l : Loc} (h : IsLoc l) (p : Str) : IsLoc (walk l p) := by
  rw [walk_eq_comps]
  exact isLoc_foldl _ h fun c hc => (comps_isComp p c hc).2.2

theorem isLoc_nil : IsLoc [] := fun _ h => by cases h

/-! ### resolveDots -/

theorem goTo_name {c : Str} (h : IsComp c) (hd : c ≠ Path.dotdot) (l : Loc) : goTo l c = l ++ [c] := by
  unfold goTo
  rw [if_neg (fun e => e.elim h.1 h.2.1), if_neg (show ¬ c = str! ".." from hd)]

theorem goTo_dotdot (l : Loc) : goTo l Path.dotdot = l.dropLast := by
  unfold goTo
  rw [if_neg (by decide), if_pos (by decide)]

/-- In a rooted path. -/
theorem resolveDots_rooted : ∀ (cs acc : List Str), (∀ c ∈ cs, IsComp c) → (∀ a ∈ acc, a ≠ Path.dotdot) →
    Path.resolveDots true acc cs = cs.foldl goTo acc.reverse
  | [], acc, _, _ => rfl
  | c :: cs, acc, h, ha => by
    have hcs : ∀ c ∈ cs, IsComp c := fun x hx => h x (List.mem_cons_of_mem _ hx)
    rw [Path.resolveDots.eq_def]
    simp only
    rw [List.foldl_cons]
    by_cases hd : c = Path.dotdot
    · rw [if_pos hd, hd, goTo_dotdot]
      match acc, ha with
      | [], _ => simp only [if_true]; exact resolveDots_rooted cs [] hcs (by simp)
      | a :: acc, ha =>
        simp only
        rw [if_neg (ha a List.mem_cons_self),
          resolveDots_rooted cs acc hcs fun x hx => ha x (List.mem_cons_of_mem _ hx)]
        simp
    · rw [if_neg hd, resolveDots_rooted cs (c :: acc) hcs]
      · rw [goTo_name (h c List.mem_cons_self) hd]; simp
      · intro x hx
        rcases List.mem_cons.mp hx with rfl | hx
        · exact hd
        · exact ha x hx

/-- In a relative path: the same walk. -/
theorem resolveDots_rel : ∀ (cs acc : List Str) (l : Loc), (∀ c ∈ cs, IsComp c) → (∀ a ∈ acc, IsComp a) →
    (Path.resolveDots false acc cs).foldl goTo l = cs.foldl goTo (acc.reverse.foldl goTo l)
  | [], acc, _, _, _ => rfl
  | c :: cs, acc, l, h, ha => by
    have hcs : ∀ c ∈ cs, IsComp c := fun x hx => h x (List.mem_cons_of_mem _ hx)
    have hdd : IsComp Path.dotdot := ⟨by decide, by decide, by decide⟩
    rw [Path.resolveDots.eq_def]
    simp only
    rw [List.foldl_cons]
    by_cases hd : c = Path.dotdot
    · rw [if_pos hd, hd]
      match acc, ha with
      | [], _ =>
        simp only
        rw [if_neg (by decide), resolveDots_rel cs _ l hcs (by simpa using hdd)]
        rfl
      | a :: acc, ha =>
        simp only
        have ha' : ∀ x ∈ acc, IsComp x := fun x hx => ha x (List.mem_cons_of_mem _ hx)
        by_cases had : a = Path.dotdot
        · rw [if_pos had, resolveDots_rel cs _ l hcs]
          · simp [List.foldl_append]
          · intro x hx
            rcases List.mem_cons.mp hx with rfl | hx
            · exact hdd
            · exact ha x hx
        · rw [if_neg had, resolveDots_rel cs acc l hcs ha', List.reverse_cons, List.foldl_append, List.foldl_cons,
            List.foldl_nil, goTo_name (ha a List.mem_cons_self) had, goTo_dotdot]
          simp
    · rw [if_neg hd, resolveDots_rel cs (c :: acc) l hcs]
      · simp [List.foldl_append]
      · intro x hx
        rcases List.mem_cons.mp hx with rfl | hx
        · exact h _ List.mem_cons_self
        · exact ha x hx

theorem resolveDots_comps : ∀ (r : Bool) (cs acc : List Str), (∀ c ∈ cs, IsComp c) → (∀ a ∈ acc, IsComp a) →
    ∀ x ∈ Path.resolveDots r acc cs, IsComp x
  | r, [], acc, _, ha, x, hx => ha x (List.mem_reverse.mp hx)
  | r, c :: cs, acc, h, ha, x, hx => by
    have hcs : ∀ c ∈ cs, IsComp c := fun x hx => h x (List.mem_cons_of_mem _ hx)
    have hdd : IsComp Path.dotdot := ⟨by decide, by decide, by decide⟩
    rw [Path.resolveDots.eq_def] at hx
    simp only at hx
    by_cases hd : c = Path.dotdot
    · rw [if_pos hd] at hx
      match acc, ha with
      | [], _ =>
        simp only at hx
        split at hx
        · exact resolveDots_comps r cs [] hcs (by simp) x hx
        · exact resolveDots_comps r cs _ hcs (by simpa using hdd) x hx
      | a :: acc, ha =>
        simp only at hx
        split at hx
        · refine resolveDots_comps r cs _ hcs ?_ x hx
          intro y hy
          rcases List.mem_cons.mp hy with rfl | hy
          · exact hdd
          · exact ha y hy
        · exact resolveDots_comps r cs acc hcs (fun x hx => ha x (List.mem_cons_of_mem _ hx)) x hx
    · rw [if_neg hd] at hx
      refine resolveDots_comps r cs _ hcs ?_ x hx
      intro y hy
      rcases List.mem_cons.mp hy with rfl | hy
      · exact h _ List.mem_cons_self
      · exact ha y hy

/-- What is left of a relative path: some "..", then names. -/
theorem resolveDots_shape : ∀ (cs acc : List Str) (k : Nat) (names : List Str), acc = names ++ List.replicate k Path.dotdot →
    (∀ n ∈ names, n ≠ Path.dotdot) →
    ∃ k' names', Path.resolveDots false acc cs = List.replicate k' Path.dotdot ++ names' ∧ ∀ n ∈ names', n ≠ Path.dotdot
  | [], acc, k, names, h, hn => by
    refine ⟨k, names.reverse, ?_, fun n hn' => hn n (List.mem_reverse.mp hn')⟩
    rw [Path.resolveDots, h, List.reverse_append, List.reverse_replicate]
  | c :: cs, acc, k, names, h, hn => by
    rw [Path.resolveDots.eq_def]
    simp only
    by_cases hd : c = Path.dotdot
    · rw [if_pos hd]
      match names, hn with
      | [], _ =>
        rw [List.nil_append] at h
        have e : ∀ k, Path.dotdot :: List.replicate k Path.dotdot = [] ++ List.replicate (k + 1) Path.dotdot := fun k => rfl
        cases k with
        | zero =>
          rw [h]
          simp only [List.replicate_zero]
          rw [if_neg (by decide)]
          exact resolveDots_shape cs _ 1 [] (e 0) (by simp)
        | succ k =>
          rw [h]
          simp only [List.replicate_succ]
          rw [if_pos trivial]
          exact resolveDots_shape cs _ (k + 2) [] rfl (by simp)
      | n :: names, hn =>
        rw [h, List.cons_append]
        simp only
        rw [if_neg (hn n List.mem_cons_self)]
        exact resolveDots_shape cs _ k names rfl fun x hx => hn x (List.mem_cons_of_mem _ hx)
    · rw [if_neg hd]
      refine resolveDots_shape cs _ k (c :: names) (by rw [h]; rfl) ?_
      intro x hx
      rcases List.mem_cons.mp hx with rfl | hx
      · exact hd
      · exact hn x hx

/-! ### Clean -/

theorem clean_abs {p : Str} (h : Absolute p) : Path.clean p = render (walk [] p) := by
  rw [Path.clean, (isAbs_iff p).mpr h]
  simp only [if_true]
  rw [resolveDots_rooted _ _ (comps_isComp p) (by simp), render_eq, walk_eq_comps]
  rfl

theorem not_isAbs {p : Str} (h : ¬ Absolute p) : Path.isAbs p = false := by
  rw [← Bool.not_eq_true, isAbs_iff]; exact h

theorem joinSlash_not_abs : ∀ {cs : List Str}, (∀ c ∈ cs, IsComp c) → ¬ Absolute (Path.joinSlash cs)
  | [], _, ⟨r, h⟩ => by simp [Path.joinSlash] at h
  | c :: cs, hc, ⟨r, h⟩ => by
    have hx := hc c List.mem_cons_self
    rcases e : c with _ | ⟨b, c'⟩
    · exact hx.1 e
    · have hb : b = Path.slash := by
        rcases cs with _ | ⟨d, cs⟩
        · rw [Path.joinSlash, e, List.cons.injEq] at h; exact h.1
        · rw [Path.joinSlash, e, List.cons_append, List.cons.injEq] at h
          · exact h.1
          · simp
      exact hx.2.2 (by rw [e, hb]; exact List.mem_cons_self)

/-- What Clean leaves of a relative path. -/
def left (p : Str) : List Str := Path.resolveDots false [] (Path.comps p)

theorem left_isComp (p : Str) : ∀ c ∈ left p, IsComp c := resolveDots_comps _ _ _ (comps_isComp p) (by simp)

theorem left_walk (p : Str) (l : Loc) : (left p).foldl goTo l = walk l p := by
  rw [left, resolveDots_rel _ _ _ (comps_isComp p) (by simp), walk_eq_comps]; rfl

theorem clean_rel {p : Str} (h : ¬ Absolute p) :
    Path.clean p = if left p = [] then Path.dot else Path.joinSlash (left p) := by
  rw [Path.clean, not_isAbs h]; rfl

theorem joinSlash_ne_dot {cs : List Str} (hne : cs ≠ []) (h : ∀ c ∈ cs, IsComp c) : Path.joinSlash cs ≠ Path.dot := by
  intro e
  have := comps_joinSlash cs h
  rw [e] at this
  exact hne (by rw [← this]; rfl)

theorem join_clean_rel {l : Loc} {cs : List Str} (hne : cs ≠ []) (hl : IsLoc l) (h : ∀ c ∈ cs, IsComp c) :
    Path.join (render l) (Path.joinSlash cs) = render (cs.foldl goTo l) := by
  obtain ⟨r, hr⟩ := render_absolute l
  have h2 : Path.joinSlash cs ≠ [] := by
    intro e
    have := comps_joinSlash cs h
    rw [e] at this
    exact hne (by rw [← this]; rfl)
  rw [Path.join, if_neg (by rw [hr]; simp), if_neg h2, clean_abs ⟨r ++ Path.slash :: Path.joinSlash cs, by rw [hr]; rfl⟩,
    walk_eq_comps, comps_append_sep, comps_render hl, comps_joinSlash cs h, List.foldl_append]
  have e : l.foldl goTo [] = l := by
    have : ∀ (l acc : Loc), IsLoc l → l.foldl goTo acc = acc ++ l := by
      intro l
      induction l with
      | nil => intro acc _; simp
      | cons n l ih =>
        intro acc hl
        have hn := hl n List.mem_cons_self
        rw [List.foldl_cons, goTo_name (isComp_of_isName hn) hn.notDotDot, ih _ fun x hx => hl x (List.mem_cons_of_mem _ hx)]
        simp
    simpa using this l [] hl
  rw [e]

/-- A relative path that never moves is cleaned away. -/
theorem left_nil_of_still {p : Str} (h : ∀ l, IsLoc l → walk l p = l) : left p = [] := by
  obtain ⟨k, names, e, hn⟩ := resolveDots_shape (Path.comps p) [] 0 [] rfl (by simp)
  change left p = _ at e
  -- a name longer than every component
  let m : Str := List.replicate (2 + (names.map List.length).sum) 97
  have hm : IsName m := by
    refine ⟨?_, ?_, ?_, ?_⟩
    · simp [m]
    · simp [m, List.mem_replicate, sep]
    · intro e; have := congrArg List.length e; simp [m] at this; omega
    · intro e
      have := congrArg List.head? e
      simp [m, List.head?_replicate] at this
  have hmn : m ∉ names := by
    intro hmem
    have : ∀ (ns : List Str), m ∈ ns → m.length ≤ (ns.map List.length).sum := by
      intro ns
      induction ns with
      | nil => intro h; cases h
      | cons x ns ih =>
        intro h
        rcases List.mem_cons.mp h with h | h
        · rw [h]; simp
        · have := ih h; simp only [List.map_cons, List.sum_cons]; omega
    have := this names hmem
    rw [List.length_replicate] at this
    omega
  have hloc : IsLoc (List.replicate k m) := fun n hn => by rw [(List.mem_replicate.mp hn).2]; exact hm
  have hw := h _ hloc
  rw [← left_walk, e, List.foldl_append] at hw
  have hup : ∀ k, (List.replicate k Path.dotdot).foldl goTo (List.replicate k m) = [] := by
    intro k
    induction k with
    | zero => rfl
    | succ k ih =>
      rw [List.replicate_succ (a := Path.dotdot), List.foldl_cons, goTo_dotdot]
      have : (List.replicate (k + 1) m).dropLast = List.replicate k m := by simp
      rw [this, ih]
  rw [hup k] at hw
  have hnames : names.foldl goTo [] = names := by
    have hc : ∀ n ∈ names, IsComp n := fun n hn => left_isComp p n (by rw [e]; exact List.mem_append_right _ hn)
    have : ∀ (ns acc : Loc), (∀ n ∈ ns, IsComp n ∧ n ≠ Path.dotdot) → ns.foldl goTo acc = acc ++ ns := by
      intro ns
      induction ns with
      | nil => intro acc _; simp
      | cons n ns ih =>
        intro acc hl
        rw [List.foldl_cons, goTo_name (hl n List.mem_cons_self).1 (hl n List.mem_cons_self).2,
          ih _ fun x hx => hl x (List.mem_cons_of_mem _ hx)]
        simp
    simpa using this names [] fun n hn' => ⟨hc n hn', hn n hn'⟩
  rw [hnames] at hw
  rw [e, hw]
  cases k with
  | zero => rfl
  | succ k => exact absurd (by rw [hw]; simp) hmn

end Disko.Driver

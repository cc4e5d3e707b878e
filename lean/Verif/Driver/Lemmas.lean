import Verif.Driver.Model
import Verif.Driver.PathFacts
/-! Lemmas about the sequencing combinators and path resolution. -/
namespace Disko.Driver
open Disko Spec

variable {σ H α β : Type}

theorem andThen_ok {m : M σ α} {f : α → M σ β} {s s' : σ} {a : α} (h : m s = .ret (s', .ok a)) : M.andThen m f s = f a s' := by
  simp only [M.andThen, h]
theorem andThen_err {m : M σ α} {f : α → M σ β} {s s' : σ} {e : Err} (h : m s = .ret (s', .error e)) :
    M.andThen m f s = .ret (s', .error e) := by
  simp only [M.andThen, h]
theorem andThen_panic {m : M σ α} {f : α → M σ β} {s : σ} (h : m s = .panic) : M.andThen m f s = .panic := by
  simp only [M.andThen, h]
theorem andThen_timeout {m : M σ α} {f : α → M σ β} {s : σ} (h : m s = .timeout) : M.andThen m f s = .timeout := by
  simp only [M.andThen, h]
theorem either_ret {m : M σ α} {f : Except Err α → M σ β} {s s' : σ} {r : Except Err α} (h : m s = .ret (s', r)) :
    M.either m f s = f r s' := by
  simp only [M.either, h]
theorem either_panic {m : M σ α} {f : Except Err α → M σ β} {s : σ} (h : m s = .panic) : M.either m f s = .panic := by
  simp only [M.either, h]
theorem either_timeout {m : M σ α} {f : Except Err α → M σ β} {s : σ} (h : m s = .timeout) : M.either m f s = .timeout := by
  simp only [M.either, h]

/-- The call returns, with or without an error. -/
def Returns (o : Outcome α) : Prop := ∃ a, o = .ret a

theorem not_returns_panic : ¬ Returns (Outcome.panic : Outcome α) := fun ⟨_, h⟩ => by cases h
theorem not_returns_timeout : ¬ Returns (Outcome.timeout : Outcome α) := fun ⟨_, h⟩ => by cases h

theorem not_returns_andThen {m : M σ α} {f : α → M σ β} {s : σ} (h : ¬ Returns (m s)) : ¬ Returns (M.andThen m f s) := by
  unfold M.andThen
  rcases e : m s with r | _ | _
  · exact absurd ⟨_, e⟩ h
  · exact not_returns_panic
  · exact not_returns_timeout

theorem not_returns_either {m : M σ α} {f : Except Err α → M σ β} {s : σ} (h : ¬ Returns (m s)) : ¬ Returns (M.either m f s) := by
  unfold M.either
  rcases e : m s with r | _ | _
  · exact absurd ⟨_, e⟩ h
  · exact not_returns_panic
  · exact not_returns_timeout

theorem not_returns_deferred {c : M σ Unit} {m : M σ α} {s : σ} (h : ¬ Returns (m s)) : ¬ Returns (M.deferred c m s) :=
  not_returns_either h

/-! ### path.Split -/

theorem takeWhile_reverse_noSlash {n : Str} (h : Path.slash ∉ n) (a : Str) :
    ((a ++ Path.slash :: n).reverse.takeWhile (· ≠ Path.slash)).reverse = n := by
  rw [List.reverse_append, List.reverse_cons, List.append_assoc, List.takeWhile_append_of_pos]
  · simp
  · intro b hb
    rw [List.mem_reverse] at hb
    simp only [decide_eq_true_eq]
    rintro rfl
    exact h hb

theorem splitLast_append {a n : Str} (h : Path.slash ∉ n) :
    Path.splitLast (a ++ Path.slash :: n) = (a ++ [Path.slash], n) := by
  unfold Path.splitLast
  simp only [takeWhile_reverse_noSlash h]
  congr 1
  have : (a ++ Path.slash :: n).length - n.length = (a ++ [Path.slash]).length := by simp; omega
  rw [this, show a ++ Path.slash :: n = (a ++ [Path.slash]) ++ n by simp, List.take_left]

/-- A path that ends in a slash is its own parent. -/
theorem splitLast_slash (a : Str) : Path.splitLast (a ++ [Path.slash]) = (a ++ [Path.slash], []) :=
  splitLast_append (by simp)

theorem render_snoc (l : Loc) (n : Str) : render (l ++ [n]) = (if l = [] then [] else render l) ++ Path.slash :: n := by
  unfold render
  rw [if_neg (by simp)]
  by_cases h : l = []
  · simp [h]; rfl
  · simp [h]; rfl

theorem splitLast_render (l : Loc) {n : Str} (h : IsName n) :
    Path.splitLast (render (l ++ [n])) = ((if l = [] then [] else render l) ++ [Path.slash], n) := by
  rw [render_snoc, splitLast_append h.noSlash]

theorem render_ne_root (l : Loc) {n : Str} (h : IsName n) : ¬ (render (l ++ [n]) = str! "/" ∨ render (l ++ [n]) = []) := by
  rw [render_snoc]
  rintro (e | e)
  · have h1 := congrArg List.getLast? e
    rw [List.getLast?_append] at h1
    rcases hn : n with _ | ⟨b, n'⟩
    · exact h.nonempty hn
    · have hl : (Path.slash :: n).getLast? = n.getLast? := by rw [hn]; rfl
      rw [hl] at h1
      have : n.getLast? = some (n.getLast h.nonempty) := List.getLast?_eq_some_getLast h.nonempty
      rw [this] at h1
      simp at h1
      exact h.noSlash (by
        have hm := List.getLast_mem h.nonempty
        rw [h1] at hm
        exact hm)
  · simp at e

/-! ### Path resolution -/

variable (d : Drv σ H)

/-- A path that ends in a slash and is not "/" is never resolved. -/
theorem never_slash (a : Str) (ha : a ≠ []) (s : σ) : ∀ n : Nat,
    getNoFollow d n (a ++ [Path.slash]) s = .timeout ∧ getFollow d n (a ++ [Path.slash]) s = .timeout
  | 0 => ⟨by rw [getNoFollow], by rw [getFollow]⟩
  | n + 1 => by
    have ih := never_slash a ha s n
    have hne : ¬ (a ++ [Path.slash] = str! "/" ∨ a ++ [Path.slash] = []) := by
      rintro (e | e)
      · apply ha
        have := congrArg List.length e
        simp at this
        exact this
      · simp at e
    constructor
    · rw [getNoFollow, if_neg hne, splitLast_slash]
      exact andThen_timeout ih.2
    · rw [getFollow]
      exact andThen_timeout ih.1

/-- Paths with two or more components are never resolved. -/
theorem never_deep (l : Loc) (hl : l ≠ []) {n : Str} (hn : IsName n) (s : σ) (fuel : Nat) :
    getNoFollow d fuel (render (l ++ [n])) s = .timeout ∧ getFollow d fuel (render (l ++ [n])) s = .timeout := by
  have h1 : ∀ fuel, getNoFollow d fuel (render (l ++ [n])) s = .timeout := by
    intro fuel
    cases fuel with
    | zero => rw [getNoFollow]
    | succ fuel =>
      rw [getNoFollow, if_neg (render_ne_root l hn), splitLast_render l hn, if_neg hl]
      refine andThen_timeout (never_slash d _ ?_ s fuel).2
      obtain ⟨r, e⟩ := render_absolute l
      rw [e]; simp
  refine ⟨h1 fuel, ?_⟩
  cases fuel with
  | zero => rw [getFollow]
  | succ fuel => rw [getFollow]; exact andThen_timeout (h1 fuel)

/-! ### As shipped -/

theorem shipped_root (hd : d.cfg = shipped) (fuel : Nat) (s : σ) : ¬ Returns (getFollow d fuel (str! "/") s) := by
  rcases fuel with _ | _ | _ | n
  · rw [getFollow]; exact not_returns_timeout
  · rw [getFollow]
    refine not_returns_andThen ?_
    rw [getNoFollow]; exact not_returns_timeout
  · rw [getFollow]
    rw [andThen_ok (a := wrapObjectHandle d.cfg (some (d.impl.getRootDirectory s)) (str! "/")) (s' := s) (by rw [getNoFollow, if_pos (.inl rfl)])]
    rw [followLoop]
    exact not_returns_andThen (by rw [hd]; exact not_returns_panic)
  · rw [getFollow]
    rw [andThen_ok (a := wrapObjectHandle d.cfg (some (d.impl.getRootDirectory s)) (str! "/")) (s' := s) (by rw [getNoFollow, if_pos (.inl rfl)])]
    rw [followLoop]
    exact not_returns_andThen (by rw [hd]; exact not_returns_panic)

theorem loc_cases (l : Loc) : l = [] ∨ ∃ l' n, l = l' ++ [n] := by
  rcases List.eq_nil_or_concat l with h | ⟨l', n, h⟩
  · exact .inl h
  · exact .inr ⟨l', n, by rw [h, List.concat_eq_append]⟩

theorem shipped_noFollow (hd : d.cfg = shipped) {l : Loc} (hl : IsLoc l) (hne : l ≠ []) (fuel : Nat) (s : σ) :
    ¬ Returns (getNoFollow d fuel (render l) s) := by
  rcases loc_cases l with rfl | ⟨l', n, rfl⟩
  · exact absurd rfl hne
  · have hn : IsName n := hl n (by simp)
    by_cases hl' : l' = []
    · cases fuel with
      | zero => rw [getNoFollow]; exact not_returns_timeout
      | succ fuel =>
        rw [getNoFollow, if_neg (render_ne_root l' hn), splitLast_render l' hn, if_pos hl']
        exact not_returns_andThen (shipped_root d hd fuel s)
    · rw [(never_deep d l' hl' hn s fuel).1]; exact not_returns_timeout

theorem shipped_follow (hd : d.cfg = shipped) {l : Loc} (hl : IsLoc l) (fuel : Nat) (s : σ) :
    ¬ Returns (getFollow d fuel (render l) s) := by
  by_cases hne : l = []
  · rw [hne]; exact shipped_root d hd fuel s
  · cases fuel with
    | zero => rw [getFollow]; exact not_returns_timeout
    | succ fuel => rw [getFollow]; exact not_returns_andThen (shipped_noFollow d hd hl hne fuel s)

end Disko.Driver

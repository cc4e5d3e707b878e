import Verif.Driver.Model
import Verif.Driver.PathFacts
/-! C61: NormalizePath. -/
namespace Disko.Driver
open Disko Spec

/-- C61, what it says: the path returned is the canonical path of the place reached by walking along
the given path, from the root if it is absolute and from the working directory otherwise. -/
def C61_statement : Prop :=
  ∀ (wd : Loc) (p : Str), IsLoc wd →
    (Absolute p → normalizePath (render wd) p = render (walk [] p)) ∧
    (¬ Absolute p → normalizePath (render wd) p = render (walk wd p))

/-- C61, for absolute paths. -/
theorem C61_absolute_partial (wd p : Str) (h : Absolute p) : normalizePath wd p = render (walk [] p) := by
  obtain ⟨r, hr⟩ := render_absolute (walk [] p)
  unfold normalizePath
  simp only [clean_abs h]
  have hne : render (walk [] p) ≠ Path.dot := by rw [hr]; simp [sep, Path.dot]
  rw [if_neg hne, if_pos ((isAbs_iff _).mpr ⟨r, hr⟩)]

example : Absolute (str! "/a/./b//../../../c") := ⟨_, rfl⟩

theorem normalize_rel {wd : Loc} {p : Str} (hwd : IsLoc wd) (h : ¬ Absolute p) :
    normalizePath (render wd) p = if left p = [] then render [] else render (walk wd p) := by
  unfold normalizePath
  simp only [clean_rel h]
  by_cases hl : left p = []
  · rw [if_pos hl, if_pos rfl, if_pos (by decide), if_pos hl]; rfl
  · rw [if_neg hl, if_neg hl, if_neg (joinSlash_ne_dot hl (left_isComp p)),
      if_neg (by rw [isAbs_iff]; exact joinSlash_not_abs (left_isComp p)), join_clean_rel hl hwd (left_isComp p), left_walk]

/-- C61, for relative paths that lead away from some directory. -/
theorem C61_relative_partial (wd : Loc) (p : Str) (hwd : IsLoc wd) (h : ¬ Absolute p)
    (hmove : ∃ l, IsLoc l ∧ walk l p ≠ l) : normalizePath (render wd) p = render (walk wd p) := by
  rw [normalize_rel hwd h, if_neg]
  intro hl
  obtain ⟨l, _, hne⟩ := hmove
  exact hne (by rw [← left_walk, hl]; rfl)

example : ¬ Absolute (str! "../a/./b") ∧ (∃ l, IsLoc l ∧ walk l (str! "../a/./b") ≠ l)
    ∧ render (walk [str! "x", str! "y"] (str! "../a/./b")) = str! "/x/a/b" :=
  ⟨fun ⟨_, h⟩ => absurd h (by simp [sep]), ⟨[], isLoc_nil, by decide⟩, by decide⟩

/-- C61, the rest: a relative path that leads nowhere (such as "." or "" or "a/..") becomes the
root, whatever the working directory. -/
theorem C61_still_partial (wd : Loc) (p : Str) (hwd : IsLoc wd) (h : ¬ Absolute p)
    (hstill : ∀ l, IsLoc l → walk l p = l) : normalizePath (render wd) p = str! "/" := by
  rw [normalize_rel hwd h, if_pos (left_nil_of_still hstill)]; rfl

theorem still_dot (l : Loc) : walk l (str! ".") = l := by
  show goTo l [46] = l
  exact goTo_skip (by decide) l

example : ¬ Absolute (str! ".") ∧ ∀ l, IsLoc l → walk l (str! ".") = l :=
  ⟨fun ⟨_, h⟩ => absurd h (by simp [sep]), fun l _ => still_dot l⟩

theorem isLoc_a : IsLoc [str! "a"] := by
  intro n hn
  rw [List.mem_singleton.mp hn]
  exact ⟨by decide, by decide, by decide, by decide⟩

/-- C61 is false: in the directory /a, NormalizePath(".") is "/". -/
theorem C61_refuted : ¬ C61_statement := by
  intro h
  have h1 := (h [str! "a"] (str! ".") isLoc_a).2 (fun ⟨_, h⟩ => absurd h (by simp [sep]))
  rw [still_dot] at h1
  exact absurd h1 (by decide)

/-- C61: the result is canonical: absolute, and its components are names (neither empty nor "." nor
".."); in particular it does not leave the root. -/
theorem C61_canonical (wd : Loc) (p : Str) (hwd : IsLoc wd) : Canonical (normalizePath (render wd) p) := by
  by_cases h : Absolute p
  · exact ⟨_, isLoc_walk isLoc_nil p, C61_absolute_partial _ p h⟩
  · rw [normalize_rel hwd h]
    split
    · exact ⟨[], isLoc_nil, rfl⟩
    · exact ⟨_, isLoc_walk hwd p, rfl⟩

example : IsLoc [str! "a"] := isLoc_a

theorem walk_render {l : Loc} (h : IsLoc l) : walk [] (render l) = l := by
  rw [walk_eq_comps, comps_render h]
  have : ∀ (l acc : Loc), IsLoc l → l.foldl goTo acc = acc ++ l := by
    intro l
    induction l with
    | nil => intro acc _; simp
    | cons n l ih =>
      intro acc hl
      have hn := hl n List.mem_cons_self
      rw [List.foldl_cons, goTo_name (isComp_of_isName hn) hn.notDotDot, ih _ fun x hx => hl x (List.mem_cons_of_mem _ hx)]
      simp
  simpa using this l [] h

theorem normalize_canonical {l : Loc} (h : IsLoc l) (wd : Str) : normalizePath wd (render l) = render l := by
  rw [C61_absolute_partial wd _ (render_absolute l), walk_render h]

/-- C61: a canonical path stays as it is; so NormalizePath is idempotent, whatever the working
directory is the second time. -/
theorem C61_idempotent (wd : Loc) (wd' p : Str) (hwd : IsLoc wd) :
    normalizePath wd' (normalizePath (render wd) p) = normalizePath (render wd) p := by
  obtain ⟨l, hl, e⟩ := C61_canonical wd p hwd
  rw [e, normalize_canonical hl]

/-- C61: different locations have different canonical paths. -/
theorem C61_render_injective (l l' : Loc) (h : IsLoc l) (h' : IsLoc l') (e : render l = render l') : l = l' := by
  rw [← walk_render h, ← walk_render h', e]

example : render [str! "a", str! "b"] = str! "/a/b" := by decide

end Disko.Driver

import Verif.Base.Path
/-! Facts about Go's path functions. -/
namespace Disko.Path

theorem split_of_not_mem (sep : UInt8) : ∀ s : Str, sep ∉ s → split sep s = [s]
  | [], _ => rfl
  | c :: s, h => by
    have h1 : c ≠ sep := fun e => h (e ▸ List.mem_cons_self)
    have h2 : sep ∉ s := fun e => h (List.mem_cons_of_mem _ e)
    unfold split
    rw [if_neg h1, split_of_not_mem sep s h2]

/-- A plain file name: not empty, not "." or "..", without '/' and ':'. -/
structure Plain (n : Str) : Prop where
  ne : n ≠ []
  noSlash : slash ∉ n
  noColon : (58 : UInt8) ∉ n
  notDot : n ≠ dot
  notDotDot : n ≠ dotdot

theorem isAbs_plain {n : Str} (h : slash ∉ n) : isAbs n = false := by
  unfold isAbs
  cases n with
  | nil => rfl
  | cons c n =>
    have : c ≠ slash := fun e => h (e ▸ List.mem_cons_self)
    simp [this]

theorem clean_plain {n : Str} (h : Plain n) : clean n = n := by
  unfold clean
  rw [isAbs_plain h.noSlash]
  have hc : comps n = [n] := by
    unfold comps
    rw [split_of_not_mem _ _ h.noSlash]
    simp [h.ne, h.notDot]
  rw [hc]
  simp [resolveDots, h.notDotDot, joinSlash]

theorem splitList_clean_plain {n : Str} (h : Plain n) : splitList (clean n) = [n] := by
  rw [clean_plain h]
  unfold splitList
  rw [if_neg h.ne, split_of_not_mem _ _ h.noColon]

theorem split_ne_nil (sep : UInt8) (s : Str) : split sep s ≠ [] := by
  cases s with
  | nil => simp [split]
  | cons c s => unfold split; split <;> (try split) <;> simp

/-- The pieces contain no separator. -/
theorem split_not_mem (sep : UInt8) : ∀ (s : Str), ∀ p ∈ split sep s, sep ∉ p
  | [], p, hp => by simp [split] at hp; simp [hp]
  | c :: s, p, hp => by
    unfold split at hp
    have ih := split_not_mem sep s
    by_cases h : c = sep
    · rw [if_pos h] at hp
      rcases List.mem_cons.mp hp with rfl | hp
      · simp
      · exact ih p hp
    · rw [if_neg h] at hp
      split at hp
      · rename_i e; exact absurd e (split_ne_nil _ _)
      · rename_i q qs e
        rcases List.mem_cons.mp hp with rfl | hp
        · intro hm
          rcases List.mem_cons.mp hm with e' | hm
          · exact h e'.symm
          · exact ih q (by rw [e]; exact List.mem_cons_self) hm
        · exact ih p (by rw [e]; exact List.mem_cons_of_mem _ hp)

/-- The first piece of an absolute path split at ':' begins with '/'. -/
theorem split_colon_head (r : Str) : ∃ q qs, split 58 (slash :: r) = (slash :: q) :: qs := by
  unfold split
  rw [if_neg (by decide)]
  cases h : split 58 r with
  | nil => exact absurd h (split_ne_nil _ _)
  | cons q qs => exact ⟨q, qs, rfl⟩

theorem clean_ne_nil (p : Str) : clean p ≠ [] := by
  unfold clean
  simp only
  split
  · simp
  · split
    · decide
    · intro h
      rename_i h1 h2
      have aux : ∀ cs : List Str, cs ≠ [] → (∀ c ∈ cs, c ≠ []) → joinSlash cs ≠ [] := by
        intro cs hcs hall
        match cs, hcs with
        | [c], _ => simpa [joinSlash] using hall c List.mem_cons_self
        | c :: d :: cs, _ => simp [joinSlash]
      refine aux _ h2 ?_ h
      have key : ∀ (rooted : Bool) (cs acc : List Str), (∀ c ∈ cs, c ≠ []) → (∀ c ∈ acc, c ≠ []) →
          ∀ c ∈ resolveDots rooted acc cs, c ≠ [] := by
        intro rooted cs
        induction cs with
        | nil => intro acc _ ha c hc; exact ha c (List.mem_reverse.mp hc)
        | cons x cs ih =>
          intro acc hx ha
          have hx' : ∀ c ∈ cs, c ≠ [] := fun c hc => hx c (List.mem_cons_of_mem _ hc)
          unfold resolveDots
          split
          · match acc with
            | [] =>
              simp only
              split
              · exact ih [] hx' (by simp)
              · exact ih [dotdot] hx' (by simp [dotdot])
            | a :: acc' =>
              simp only
              split
              · exact ih _ hx' (by
                  intro c hc
                  rcases List.mem_cons.mp hc with rfl | hc
                  · simp [dotdot]
                  · exact ha c hc)
              · exact ih _ hx' (fun c hc => ha c (List.mem_cons_of_mem _ hc))
          · exact ih _ hx' (by
              intro c hc
              rcases List.mem_cons.mp hc with rfl | hc
              · exact hx _ List.mem_cons_self
              · exact ha c hc)
      refine key _ _ _ ?_ (by simp)
      intro c hc
      unfold comps at hc
      have := (List.mem_filter.mp hc).2
      simp only [decide_eq_true_eq] at this
      exact this.1

end Disko.Path

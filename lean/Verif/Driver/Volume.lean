import Verif.Driver.Props8
/-! What a file system implementation is supposed to do with a tree of objects (api.go:80-352), as
laws about the kinds of objects at locations; and a concrete implementation that obeys them. -/
namespace Disko.Driver
open Disko Spec

variable {σ H α β : Type}

namespace Spec

/-- What can be at a location. -/
inductive Kind where
  | dir | file | link | other
deriving DecidableEq, Repr

/-- The kind of object the type bits of a mode ask for. -/
def kindOf (mode : FileMode) : Kind :=
  if mode.getLsbD 31 then .dir else if mode &&& 0x8f280000#32 = 0 then .file else if mode.getLsbD 27 then .link else .other

/-- A file system whose objects are at the locations `kind s` tells; `loc h` is where the object of handle `h` is. -/
structure Volume (impl : Impl σ H) (kind : σ → Loc → Option Kind) (loc : H → Loc) : Prop extends Still impl where
  root : ∀ s, loc (impl.getRootDirectory s) = [] ∧ kind s [] = some .dir
  found : ∀ s n h k, kind s (loc h) = some .dir → IsName n → kind s (loc h ++ [n]) = some k →
    ∃ h', (impl.getObject s n h).2 = .ok h' ∧ loc h' = loc h ++ [n]
  missing : ∀ s n h, kind s (loc h) = some .dir → IsName n → kind s (loc h ++ [n]) = none → (impl.getObject s n h).2 = .error .notFound
  stat : ∀ s h k, kind s (loc h) = some k →
    ((impl.stat s h).isDir = true ↔ k = .dir) ∧ ((impl.stat s h).isFile = true ↔ k = .file) ∧ ((impl.stat s h).isSymlink = true ↔ k = .link)
  listing : ∀ s h, kind s (loc h) = some .dir → ∃ f names, impl.listDir h = some f ∧ f s = (s, .ok names) ∧ names.Nodup ∧
    (∀ n ∈ names, (IsName n ∧ kind s (loc h ++ [n]) ≠ none) ∨ n = str! "." ∨ n = str! "..") ∧
    (∀ n, IsName n → kind s (loc h ++ [n]) ≠ none → n ∈ names)
  /-- (The root cannot be removed.) -/
  unlink : ∀ s h k, loc h ≠ [] → kind s (loc h) = some k → (k = .dir → ∀ n, kind s (loc h ++ [n]) = none) →
    ∃ s', impl.unlink s h = (s', none) ∧ ∀ l, kind s' l = if l = loc h then none else kind s l
  create : ∀ s h n mode, kind s (loc h) = some .dir → IsName n → kind s (loc h ++ [n]) = none →
    ∃ s' h', impl.createObject s n h mode = (s', .ok h') ∧ loc h' = loc h ++ [n] ∧
      ∀ l, kind s' l = if l = loc h ++ [n] then some (kindOf mode) else kind s l
  same : ∀ s h h', impl.sameAs s h h' = true ↔ loc h = loc h'
  bounded : ∀ s, ∃ depth, ∀ l, kind s l ≠ none → l.length ≤ depth
  /-- The way up from an object consists of directories. -/
  parents : ∀ s l n, kind s (l ++ [n]) ≠ none → kind s l = some .dir
  names : ∀ s l, kind s l ≠ none → IsLoc l

end Spec

/-! ### An implementation: the state is the list of what is where, the handle of an object is its location -/

/-- No location twice, all parents are there and are directories, and all names are names. -/
def WellFormed (s : List (Loc × Kind)) : Prop :=
  (s.map (·.1)).Nodup ∧ (∀ l n k, (l ++ [n], k) ∈ s → (l, Kind.dir) ∈ s ∨ l = []) ∧ (∀ l k, (l, k) ∈ s → l ≠ [] ∧ IsLoc l)

instance (n : Str) : Decidable (IsName n) :=
  if h : n ≠ [] ∧ sep ∉ n ∧ n ≠ str! "." ∧ n ≠ str! ".." then .isTrue ⟨h.1, h.2.1, h.2.2.1, h.2.2.2⟩
  else .isFalse fun k => h ⟨k.nonempty, k.noSlash, k.notDot, k.notDotDot⟩
instance (l : Loc) : Decidable (IsLoc l) := inferInstanceAs (Decidable (∀ n ∈ l, IsName n))

/-- The states. -/
abbrev Store := { s : List (Loc × Kind) // WellFormed s }

/-- What is at a location. -/
def kindAt (s : List (Loc × Kind)) (l : Loc) : Option Kind := if l = [] then some .dir else (s.find? (·.1 = l)).map (·.2)

theorem kindAt_iff {s : List (Loc × Kind)} (hs : WellFormed s) {l : Loc} (hl : l ≠ []) (k : Kind) : kindAt s l = some k ↔ (l, k) ∈ s := by
  unfold kindAt
  rw [if_neg hl]
  have key : ∀ (s : List (Loc × Kind)), (s.map (·.1)).Nodup → ((s.find? (·.1 = l)).map (·.2) = some k ↔ (l, k) ∈ s) := by
    intro s
    induction s with
    | nil => simp
    | cons a s ih =>
      intro hn
      rw [List.map_cons, List.nodup_cons] at hn
      rw [List.find?_cons]
      by_cases ha : a.1 = l
      · simp only [ha, decide_true]
        constructor
        · intro h
          simp at h
          rw [← h, ← ha]; simp
        · intro h
          rcases List.mem_cons.mp h with h | h
          · rw [← h]; rfl
          · exact absurd (List.mem_map.mpr ⟨_, h, rfl⟩) (by rw [← ha] at h ⊢; exact hn.1)
      · simp only [ha, decide_false]
        rw [ih hn.2, List.mem_cons]
        constructor
        · exact .inr
        · rintro (h | h)
          · exact absurd (by rw [← h]) ha
          · exact h
  exact key s hs.1

theorem kindAt_none {s : List (Loc × Kind)} (hs : WellFormed s) {l : Loc} (hl : l ≠ []) : kindAt s l = none ↔ ∀ k, (l, k) ∉ s := by
  constructor
  · intro h k hk
    rw [(kindAt_iff hs hl k).mpr hk] at h; cases h
  · intro h
    rcases e : kindAt s l with _ | k
    · rfl
    · exact absurd ((kindAt_iff hs hl k).mp e) (h k)

theorem snoc_dropLast {l : Loc} (h : l ≠ []) : ∃ n, l = l.dropLast ++ [n] :=
  ⟨l.getLast h, (List.dropLast_concat_getLast h).symm⟩

/-- The state without one object that has nothing below it. -/
def dropAt (s : Store) (l : Loc) (hc : ∀ e ∈ s.1, e.1.dropLast ≠ l) : Store :=
  ⟨s.1.filter (·.1 ≠ l), by
    obtain ⟨s, h1, h2, h3⟩ := s
    refine ⟨h1.sublist (List.filter_sublist.map _), fun l' n k hm => ?_, fun l' k hm => h3 l' k (List.mem_filter.mp hm).1⟩
    rcases h2 l' n k (List.mem_filter.mp hm).1 with h | h
    · by_cases e : l' = l
      · exact absurd (by rw [List.dropLast_concat]; exact e) (hc _ (List.mem_filter.mp hm).1)
      · exact .inl (List.mem_filter.mpr ⟨h, by simpa using e⟩)
    · exact .inr h⟩

/-- The state with one more object. -/
def addAt (s : Store) (l : Loc) (n : Str) (k : Kind) (hd : kindAt s.1 l = some .dir) (hn : IsName n) (hne : kindAt s.1 (l ++ [n]) = none) : Store :=
  ⟨s.1 ++ [(l ++ [n], k)], by
    obtain ⟨s, hs⟩ := s
    simp only at hd hne
    have hfresh := (kindAt_none hs (by simp)).mp hne
    have hpar : (l, Kind.dir) ∈ s ∨ l = [] := by
      by_cases e : l = []
      · exact .inr e
      · exact .inl ((kindAt_iff hs e _).mp hd)
    refine ⟨?_, fun l' n' k' hm => ?_, fun l' k' hm => ?_⟩
    · rw [List.map_append, List.nodup_append]
      refine ⟨hs.1, by simp, fun a ha b hb => ?_⟩
      rintro rfl
      rw [List.map_singleton, List.mem_singleton] at hb
      obtain ⟨x, hx, rfl⟩ := List.mem_map.mp ha
      exact hfresh x.2 (by simp only at hb; rw [← hb]; exact hx)
    · rcases List.mem_append.mp hm with h | h
      · rcases hs.2.1 l' n' k' h with h | h
        · exact .inl (List.mem_append_left _ h)
        · exact .inr h
      · rw [List.mem_singleton, Prod.mk.injEq] at h
        rw [(List.append_inj' h.1 rfl).1]
        rcases hpar with h | h
        · exact .inl (List.mem_append_left _ h)
        · exact .inr h
    · rcases List.mem_append.mp hm with h | h
      · exact hs.2.2 l' k' h
      · rw [List.mem_singleton, Prod.mk.injEq] at h
        rw [h.1]
        refine ⟨by simp, fun x hx => ?_⟩
        rw [List.mem_append, List.mem_singleton] at hx
        rcases hx with hx | rfl
        · rcases hpar with hp | hp
          · exact (hs.2.2 _ _ hp).2 x hx
          · rw [hp] at hx; cases hx
        · exact hn⟩

/-- A mode for every kind. -/
def modeFor : Kind → FileMode
  | .dir => Flags.ModeDir
  | .file => 0
  | .link => Flags.ModeSymlink
  | .other => 0x4000000

/-- The implementation.  It does not look at contents. -/
def store : Impl Store Loc where
  features := ⟨true, true, true⟩
  getRootDirectory _ := []
  getObject s n h := (s, if (kindAt s.1 (h ++ [n])).isSome then .ok (h ++ [n]) else .error .notFound)
  createObject s n h mode :=
    if hc : kindAt s.1 h = some .dir ∧ IsName n ∧ kindAt s.1 (h ++ [n]) = none then (addAt s h n (kindOf mode) hc.1 hc.2.1 hc.2.2, .ok (h ++ [n]))
    else (s, .error (.foreign 1))
  createHardLink := none
  stat s h := statWith (modeFor ((kindAt s.1 h).getD .other)) 0 0 0
  name _ h := h.getLast?.getD (str! "/")
  sameAs _ a b := a = b
  resize s _ _ := (s, none)
  readBlocks s _ _ buf := (s, buf, none)
  writeBlocks s _ _ _ := (s, none)
  unlink s h := if hc : ∀ e ∈ s.1, e.1.dropLast ≠ h then (dropAt s h hc, none) else (s, some (.foreign 2))
  close s _ := (s, none)
  listDir h := some fun s => (s, .ok (str! "." :: (s.1.filter (·.1.dropLast = h)).map fun e => e.1.getLast?.getD []))
  chmod _ := none
  chown _ := none
  chtimes _ := none

theorem modeFor_type (k : Kind) : (Flags.isDir (modeFor k) = true ↔ k = .dir) ∧ (Flags.isFile (modeFor k) = true ↔ k = .file) ∧
    (Flags.isSymlink (modeFor k) = true ↔ k = .link) := by
  cases k <;> decide

theorem snoc_ne (l : Loc) (n : Str) : l ++ [n] ≠ [] := by simp

theorem store_volume : Volume store (fun s => kindAt s.1) id where
  getObject _ _ _ := rfl
  close _ _ := rfl
  read _ _ _ _ := rfl
  list h f hf s := by cases hf; rfl
  root s := ⟨rfl, rfl⟩
  found s n h k _ _ hk := ⟨h ++ [n], by
    show (if (kindAt s.1 (h ++ [n])).isSome = true then Except.ok (h ++ [n]) else .error Err.notFound) = _
    rw [show kindAt s.1 (h ++ [n]) = some k from hk]; rfl, rfl⟩
  missing s n h _ _ hk := by
    show (if (kindAt s.1 (h ++ [n])).isSome = true then Except.ok (h ++ [n]) else .error Err.notFound) = _
    rw [show kindAt s.1 (h ++ [n]) = none from hk]; rfl
  stat s h k hk := by
    have : store.stat s h = statWith (modeFor k) 0 0 0 := by
      show statWith (modeFor ((kindAt s.1 h).getD .other)) 0 0 0 = _
      rw [show kindAt s.1 h = some k from hk]; rfl
    rw [this]
    exact modeFor_type k
  listing s h _ := by
    obtain ⟨s, hs⟩ := s
    refine ⟨_, _, rfl, rfl, ?_, ?_, ?_⟩
    · rw [List.nodup_cons]
      constructor
      · intro hm
        obtain ⟨x, hx, e⟩ := List.mem_map.mp hm
        rw [List.mem_filter] at hx
        obtain ⟨hne, hloc⟩ := hs.2.2 x.1 x.2 hx.1
        rw [List.getLast?_eq_some_getLast hne, Option.getD_some] at e
        exact (hloc _ (List.getLast_mem hne)).notDot e
      · have hnd : ((s.filter (·.1.dropLast = h)).map (·.1)).Nodup := hs.1.sublist (List.filter_sublist.map _)
        have hall : ∀ x ∈ s.filter (·.1.dropLast = h), x.1 ≠ [] ∧ x.1.dropLast = h := fun x hx => by
          rw [List.mem_filter, decide_eq_true_eq] at hx
          exact ⟨(hs.2.2 x.1 x.2 hx.1).1, hx.2⟩
        generalize s.filter (·.1.dropLast = h) = t at hnd hall
        induction t with
        | nil => simp
        | cons a t ih =>
          rw [List.map_cons, List.nodup_cons] at hnd ⊢
          refine ⟨fun hm => hnd.1 ?_, ih hnd.2 fun x hx => hall x (List.mem_cons_of_mem _ hx)⟩
          obtain ⟨x, hx, e⟩ := List.mem_map.mp hm
          obtain ⟨xn, xd⟩ := hall x (List.mem_cons_of_mem _ hx)
          obtain ⟨an, ad⟩ := hall a List.mem_cons_self
          rw [List.getLast?_eq_some_getLast xn, List.getLast?_eq_some_getLast an, Option.getD_some, Option.getD_some] at e
          refine List.mem_map.mpr ⟨x, hx, ?_⟩
          rw [← List.dropLast_concat_getLast xn, ← List.dropLast_concat_getLast an, e, xd, ad]
    · intro n hn
      rcases List.mem_cons.mp hn with rfl | hn
      · exact .inr (.inl rfl)
      · obtain ⟨x, hx, e⟩ := List.mem_map.mp hn
        rw [List.mem_filter, decide_eq_true_eq] at hx
        obtain ⟨xne, xloc⟩ := hs.2.2 x.1 x.2 hx.1
        rw [List.getLast?_eq_some_getLast xne, Option.getD_some] at e
        have hx1 : x.1 = h ++ [n] := by rw [← List.dropLast_concat_getLast xne, hx.2, e]
        refine .inl ⟨xloc n (by rw [hx1]; simp), ?_⟩
        show kindAt s (h ++ [n]) ≠ none
        rw [(kindAt_iff hs (snoc_ne _ _) x.2).mpr (by rw [← hx1]; exact hx.1)]
        simp
    · intro n _ hk
      rcases e : kindAt s (h ++ [n]) with _ | k
      · exact absurd e hk
      · have := (kindAt_iff hs (snoc_ne _ _) k).mp e
        exact List.mem_cons_of_mem _ (List.mem_map.mpr ⟨_, List.mem_filter.mpr ⟨this, by simp⟩, by simp⟩)
  unlink s h k hne hk hdir := by
    obtain ⟨s, hs⟩ := s
    simp only [id] at hne hk hdir ⊢
    have hc : ∀ e ∈ s, e.1.dropLast ≠ h := by
      intro e he hd
      have hene := (hs.2.2 e.1 e.2 he).1
      have h1 : e.1 = h ++ [e.1.getLast hene] := by rw [← hd, List.dropLast_concat_getLast]
      have hkd : k = .dir := by
        rcases hs.2.1 h (e.1.getLast hene) e.2 (by rw [← h1]; exact he) with h2 | h2
        · have := (kindAt_iff hs hne .dir).mpr h2
          rw [show kindAt s h = some k from hk] at this
          exact Option.some.inj this
        · exact absurd h2 hne
      have := hdir hkd (e.1.getLast hene)
      rw [show kindAt s (h ++ [e.1.getLast hene]) = some e.2 from (kindAt_iff hs (snoc_ne _ _) _).mpr (by rw [← h1]; exact he)] at this
      cases this
    refine ⟨dropAt ⟨s, hs⟩ h hc, by simp only [store]; rw [dif_pos hc], fun l => ?_⟩
    have hs' := (dropAt ⟨s, hs⟩ h hc).2
    by_cases hl0 : l = []
    · subst hl0
      rw [if_neg (fun e => hne e.symm)]; rfl
    · by_cases hl : l = h
      · rw [if_pos hl, kindAt_none hs' hl0]
        intro k hm
        have := (List.mem_filter.mp hm).2
        simp [hl] at this
      · rw [if_neg hl]
        rcases e : kindAt s l with _ | k'
        · rw [kindAt_none hs' hl0]
          exact fun k hm => (kindAt_none hs hl0).mp e k (List.mem_filter.mp hm).1
        · rw [kindAt_iff hs' hl0]
          exact List.mem_filter.mpr ⟨(kindAt_iff hs hl0 _).mp e, by simpa using hl⟩
  create s h n mode hd hn hne := by
    obtain ⟨s, hs⟩ := s
    simp only [id] at hd hne ⊢
    have hc : kindAt s h = some .dir ∧ IsName n ∧ kindAt s (h ++ [n]) = none := ⟨hd, hn, hne⟩
    refine ⟨addAt ⟨s, hs⟩ h n (kindOf mode) hc.1 hc.2.1 hc.2.2, h ++ [n], by simp only [store]; rw [dif_pos hc], rfl, fun l => ?_⟩
    have hs' := (addAt ⟨s, hs⟩ h n (kindOf mode) hc.1 hc.2.1 hc.2.2).2
    by_cases hl0 : l = []
    · subst hl0
      rw [if_neg (fun e => absurd e.symm (by simp))]; rfl
    · by_cases hl : l = h ++ [n]
      · rw [if_pos hl, kindAt_iff hs' hl0]
        exact List.mem_append_right _ (by rw [hl]; exact List.mem_singleton.mpr rfl)
      · rw [if_neg hl]
        rcases e : kindAt s l with _ | k'
        · rw [kindAt_none hs' hl0]
          intro k hm
          rcases List.mem_append.mp hm with hm | hm
          · exact (kindAt_none hs hl0).mp e k hm
          · rw [List.mem_singleton, Prod.mk.injEq] at hm
            exact hl hm.1
        · rw [kindAt_iff hs' hl0]
          exact List.mem_append_left _ ((kindAt_iff hs hl0 _).mp e)
  same s h h' := by
    show decide (h = h') = true ↔ h = h'
    simp
  bounded s := by
    obtain ⟨s, hs⟩ := s
    refine ⟨(s.map (·.1.length)).foldr max 0, fun l hl => ?_⟩
    by_cases hl0 : l = []
    · rw [hl0]; simp
    · rcases e : kindAt s l with _ | k
      · exact absurd e hl
      · have hm := (kindAt_iff hs hl0 _).mp e
        clear e hl hs
        induction s with
        | nil => cases hm
        | cons a s ih =>
          rw [List.map_cons, List.foldr_cons]
          rcases List.mem_cons.mp hm with h | h
          · rw [← h]; exact Nat.le_max_left _ _
          · exact Nat.le_trans (ih h) (Nat.le_max_right _ _)
  parents s l n hk := by
    obtain ⟨s, hs⟩ := s
    rcases e : kindAt s (l ++ [n]) with _ | k
    · exact absurd e hk
    · rcases hs.2.1 l n k ((kindAt_iff hs (snoc_ne _ _) k).mp e) with h | h
      · by_cases hl : l = []
        · rw [hl]; rfl
        · exact (kindAt_iff hs hl _).mpr h
      · rw [h]; rfl
  names s l hk := by
    obtain ⟨s, hs⟩ := s
    by_cases hl : l = []
    · rw [hl]; exact isLoc_nil
    · rcases e : kindAt s l with _ | k
      · exact absurd e hk
      · exact (hs.2.2 l k ((kindAt_iff hs hl k).mp e)).2

end Disko.Driver

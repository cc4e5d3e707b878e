import Verif.Sql.Props
/-! C111, which statements are accepted: exactly those that leave the tables as they should be. -/
namespace Disko.Sql
open Disko Spec

namespace Spec

/-- What a statement says about the tables, constraints aside (statements that fire triggers or cascades are not among these). -/
inductive Says : Stmt → DB → DB → Prop where
  | insertInode (r : Inode) (d : DB) : Says (.insertInode r) d { d with inodes := d.inodes ++ [r] }
  | insertDirent (r : Dirent) (d : DB) : Says (.insertDirent r) d { d with dirents := d.dirents ++ [r] }
  | insertBlock (r : Block) (d : DB) : Says (.insertBlock r) d { d with blocks := d.blocks ++ [r] }
  | updateInodes (p : Inode → Bool) (deleted : Inode → Option Nat) (rest : Inode → Nat) (d : DB) :
      Says (.updateInodes p deleted rest) d { d with inodes := d.inodes.map fun r => ⟨r.id, r.nlinks, if p r then deleted r else r.deleted, if p r then rest r else r.rest⟩ }
  | updateDirent (x : Int) (name : Str) (inode : Int) (parent : Option Int) (d : DB) :
      Says (.updateDirent x name inode parent) d { d with dirents := d.dirents.map fun r => if r.id = x then ⟨r.id, name, inode, parent⟩ else r }
  | updateBlock (x : Int) (inode : Option Int) (block seq level : Int) (d : DB) :
      Says (.updateBlock x inode block seq level) d { d with blocks := d.blocks.map fun r => if r.id = x then ⟨r.id, inode, block, seq, level⟩ else r }
  | deleteBlocks (p : Block → Bool) (d : DB) : Says (.deleteBlocks p) d { d with blocks := d.blocks.filter fun r => !p r }

/-- The same rows, in any order. -/
structure SameRows (d e : DB) : Prop where
  inodes : d.inodes.Perm e.inodes
  dirents : d.dirents.Perm e.dirents
  blocks : d.blocks.Perm e.blocks

end Spec

theorem sound_perm {d e : DB} (h : SameRows d e) (hs : Sound d) : Sound e where
  inodeIds := (h.inodes.map _).nodup_iff.mp hs.inodeIds
  direntIds := (h.dirents.map _).nodup_iff.mp hs.direntIds
  blockIds := (h.blocks.map _).nodup_iff.mp hs.blockIds
  inode r hr := (hs.inode r (h.dirents.mem_iff.mpr hr)).imp fun n hn => ⟨h.inodes.mem_iff.mp hn.1, hn.2⟩
  parent r hr x hx := (hs.parent r (h.dirents.mem_iff.mpr hr) x hx).imp fun n hn => ⟨h.dirents.mem_iff.mp hn.1, hn.2⟩
  owner b hb i hi := (hs.owner b (h.blocks.mem_iff.mpr hb) i hi).imp fun n hn => ⟨h.inodes.mem_iff.mp hn.1, hn.2⟩
  names r hr q hq := hs.names r (h.dirents.mem_iff.mpr hr) q (h.dirents.mem_iff.mpr hq)
  places b hb c hc := hs.places b (h.blocks.mem_iff.mpr hb) c (h.blocks.mem_iff.mpr hc)

theorem nodup_append_id' {α : Type} {f : α → Int} {l : List α} {a : α} (h : ((l ++ [a]).map f).Nodup) : ∀ o ∈ l, f o ≠ f a := by
  rw [List.map_append, List.nodup_append] at h
  intro o ho
  exact h.2.2 (f o) (List.mem_map.mpr ⟨o, ho, rfl⟩) (f a) (by simp)

/-- A row that sits well with the others passes the checks. -/
theorem fits_of_sound {d : DB} {others : List Dirent} {r : Dirent} (h : Sound { d with dirents := others ++ [r] }) :
    direntFits r others d.inodes = true := by
  have hid := nodup_append_id' h.direntIds
  have h2 := h.inode r (by simp)
  unfold direntFits
  simp only [Bool.and_eq_true, Bool.not_eq_true', List.any_eq_false, List.any_eq_true, beq_iff_eq]
  refine ⟨⟨hid, h2⟩, ?_⟩
  rcases hp : r.parent with _ | x
  · rfl
  · simp only [Bool.and_eq_true, Bool.not_eq_true', List.any_eq_false, List.any_eq_true, beq_iff_eq, Bool.or_eq_true, not_and]
    refine ⟨?_, fun o ho hpo hn => ?_⟩
    · obtain ⟨q, hq, e⟩ := h.parent r (by simp) x hp
      rcases List.mem_append.mp hq with hq | hq
      · exact .inr ⟨q, hq, e⟩
      · rw [List.mem_singleton.mp hq] at e; exact .inl e.symm
    · have := h.names o (by simp [ho]) r (by simp) x hpo hp hn
      exact hid o ho (by rw [this])

theorem fits_of_sound' {d : DB} {others : List Block} {r : Block} (h : Sound { d with blocks := others ++ [r] }) :
    blockFits r others d.inodes = true := by
  have hid := nodup_append_id' h.blockIds
  unfold blockFits
  simp only [Bool.and_eq_true, Bool.not_eq_true', List.any_eq_false, beq_iff_eq]
  refine ⟨hid, ?_⟩
  rcases hp : r.inode with _ | x
  · rfl
  · simp only [Bool.and_eq_true, Bool.not_eq_true', List.any_eq_false, List.any_eq_true, beq_iff_eq, not_and]
    refine ⟨h.owner r (by simp) x hp, fun o ho hpo hn => ?_⟩
    have := h.places o (by simp [ho]) r (by simp) x hpo hp hn
    exact hid o ho (by rw [this])

/-- Replacing the one row with an id, wherever the row is put. -/
theorem replace_perm {α : Type} {f : α → Int} {x : Int} {a : α} {g : α → α} (hg : ∀ r, f r = x → g r = a) (hg' : ∀ r, f r ≠ x → g r = r) :
    ∀ {l : List α}, (l.map f).Nodup → (∃ r ∈ l, f r = x) → (l.filter (fun r => f r != x) ++ [a]).Perm (l.map g)
  | [], _, h => by simp at h
  | r :: l, hn, h => by
    rw [List.map_cons, List.nodup_cons] at hn
    by_cases hr : f r = x
    · have hl : ∀ q ∈ l, f q ≠ x := fun q hq e => hn.1 (List.mem_map.mpr ⟨q, hq, by rw [e, hr]⟩)
      rw [List.filter_cons, if_neg (by simp [hr]), List.map_cons, hg r hr,
        List.filter_eq_self.mpr (fun q hq => by simpa using hl q hq), List.map_congr_left (g := id) (fun q hq => hg' q (hl q hq)), List.map_id]
      exact List.perm_append_singleton a l
    · rw [List.filter_cons, if_pos (by simpa using hr), List.map_cons, hg' r hr]
      refine List.Perm.cons r (replace_perm hg hg' hn.2 ?_)
      obtain ⟨q, hq, e⟩ := h
      rcases List.mem_cons.mp hq with rfl | hq
      · exact absurd e hr
      · exact ⟨q, hq, e⟩

theorem Spec.SameRows.refl (d : DB) : SameRows d d := ⟨List.Perm.refl _, List.Perm.refl _, List.Perm.refl _⟩
theorem Spec.SameRows.symm {d e : DB} (h : SameRows d e) : SameRows e d := ⟨h.inodes.symm, h.dirents.symm, h.blocks.symm⟩

/-- **C111**: an INSERT, and an UPDATE or DELETE that fires no trigger, is accepted exactly if its result has no dangling reference and no
duplicate key; it then does what it says, and otherwise it fails with a constraint error (and changes nothing). -/
theorem C111_accepted {qualified : Bool} {limit now : Nat} {s : Stmt} {d e : DB} (hs : Sound d) (h : Says s d e) :
    (Sound e → ∃ d', run qualified limit now s d = .ok d' ∧ SameRows d' e) ∧
    (¬ Sound e → run qualified limit now s d = .error .constraint) := by
  suffices key : (run qualified limit now s d = .error .constraint ∧ ¬ Sound e) ∨ ∃ d', run qualified limit now s d = .ok d' ∧ SameRows d' e by
    rcases key with ⟨h1, h2⟩ | ⟨d', h1, h2⟩
    · exact ⟨fun h => absurd h h2, fun _ => h1⟩
    · exact ⟨fun _ => ⟨d', h1, h2⟩, fun h => absurd (sound_perm h2 (run_sound hs h1)) h⟩
  cases h with
  | insertInode r =>
    simp only [run]
    by_cases hc : (d.inodes.any fun o => o.id == r.id) = true
    · rw [if_pos hc]
      refine .inl ⟨rfl, fun hS => ?_⟩
      obtain ⟨o, ho, e⟩ := List.any_eq_true.mp hc
      exact nodup_append_id' hS.inodeIds o ho (by simpa using e)
    · rw [if_neg hc]
      exact .inr ⟨_, rfl, .refl _⟩
  | insertDirent r =>
    simp only [run]
    by_cases hc : direntFits r d.dirents d.inodes = true
    · rw [if_pos hc]; exact .inr ⟨_, rfl, .refl _⟩
    · rw [if_neg hc]; exact .inl ⟨rfl, fun hS => hc (fits_of_sound hS)⟩
  | insertBlock r =>
    simp only [run]
    by_cases hc : blockFits r d.blocks d.inodes = true
    · rw [if_pos hc]; exact .inr ⟨_, rfl, .refl _⟩
    · rw [if_neg hc]; exact .inl ⟨rfl, fun hS => hc (fits_of_sound' hS)⟩
  | updateInodes p deleted rest =>
    refine .inr ⟨_, rfl, ⟨List.Perm.of_eq (List.map_congr_left fun r _ => ?_), List.Perm.refl _, List.Perm.refl _⟩⟩
    by_cases hp : p r = true
    · rw [if_pos hp, if_pos hp, if_pos hp]
    · rw [if_neg hp, if_neg hp, if_neg hp]
  | updateDirent x name inode parent =>
    simp only [run]
    by_cases ha : (d.dirents.any fun r => r.id == x) = true
    · rw [if_pos ha]
      have hex : ∃ r ∈ d.dirents, r.id = x := (List.any_eq_true.mp ha).imp fun r h => ⟨h.1, by simpa using h.2⟩
      have hrows : SameRows { d with dirents := d.dirents.filter (fun r => r.id != x) ++ [⟨x, name, inode, parent⟩] }
          { d with dirents := d.dirents.map fun r => if r.id = x then ⟨r.id, name, inode, parent⟩ else r } :=
        ⟨List.Perm.refl _, replace_perm (f := Dirent.id) (fun r hr => by rw [if_pos hr, hr]) (fun r hr => if_neg hr) hs.direntIds hex, List.Perm.refl _⟩
      by_cases hc : direntFits ⟨x, name, inode, parent⟩ (d.dirents.filter fun r => r.id != x) d.inodes = true
      · rw [if_pos hc]
        exact .inr ⟨_, rfl, hrows⟩
      · rw [if_neg hc]
        exact .inl ⟨rfl, fun hS => hc (fits_of_sound (sound_perm hrows.symm hS))⟩
    · rw [if_neg ha]
      refine .inr ⟨_, rfl, List.Perm.refl _, List.Perm.of_eq ?_, List.Perm.refl _⟩
      symm
      refine (List.map_congr_left (g := id) fun r hr => if_neg fun e => ha ?_).trans (List.map_id _)
      exact List.any_eq_true.mpr ⟨r, hr, by simpa using e⟩
  | updateBlock x inode block seq level =>
    simp only [run]
    by_cases ha : (d.blocks.any fun r => r.id == x) = true
    · rw [if_pos ha]
      have hex : ∃ r ∈ d.blocks, r.id = x := (List.any_eq_true.mp ha).imp fun r h => ⟨h.1, by simpa using h.2⟩
      have hrows : SameRows { d with blocks := d.blocks.filter (fun r => r.id != x) ++ [⟨x, inode, block, seq, level⟩] }
          { d with blocks := d.blocks.map fun r => if r.id = x then ⟨r.id, inode, block, seq, level⟩ else r } :=
        ⟨List.Perm.refl _, List.Perm.refl _, replace_perm (f := Block.id) (fun r hr => by rw [if_pos hr, hr]) (fun r hr => if_neg hr) hs.blockIds hex⟩
      by_cases hc : blockFits ⟨x, inode, block, seq, level⟩ (d.blocks.filter fun r => r.id != x) d.inodes = true
      · rw [if_pos hc]
        exact .inr ⟨_, rfl, hrows⟩
      · rw [if_neg hc]
        exact .inl ⟨rfl, fun hS => hc (fits_of_sound' (sound_perm hrows.symm hS))⟩
    · rw [if_neg ha]
      refine .inr ⟨_, rfl, List.Perm.refl _, List.Perm.refl _, List.Perm.of_eq ?_⟩
      symm
      refine (List.map_congr_left (g := id) fun r hr => if_neg fun e => ha ?_).trans (List.map_id _)
      exact List.any_eq_true.mpr ⟨r, hr, by simpa using e⟩
  | deleteBlocks p => exact .inr ⟨_, rfl, .refl _⟩

/-- Non-vacuity: moving the file `f` of the example up into the root is accepted; renaming it to `g` there is not. -/
example : (match run false 1000 0 (.updateDirent 12 (str! "f") 3 (some 10)) sample with | .ok d => some d.dirents | _ => none) =
      some [⟨10, str! "/", 1, none⟩, ⟨11, str! "d", 2, some 10⟩, ⟨13, str! "g", 3, some 10⟩, ⟨12, str! "f", 3, some 10⟩] ∧
    (match run false 1000 0 (.updateDirent 12 (str! "g") 3 (some 10)) sample with | .error e => some e | _ => none) = some .constraint := by decide +kernel

example : Sound sample ∧ Says (.updateDirent 12 (str! "f") 3 (some 10)) sample
    { sample with dirents := sample.dirents.map fun r => if r.id = 12 then ⟨r.id, str! "f", 3, some 10⟩ else r } := ⟨sample_sound, .updateDirent ..⟩

end Disko.Sql

import Verif.Sql.Facts
import Mathlib.Data.List.Perm.Subperm
/-! C109-C112: the database of /repo/file_systems/common/init.sql. -/
namespace Disko.Sql
open Disko

namespace Spec

/-- What a driver may rely on about the tables: ids are unique, nothing refers to a row that does not exist,
no two entries with the same parent have the same name, no two blocks of an inode have the same place in it. -/
structure Sound (d : DB) : Prop where
  inodeIds : (d.inodes.map (·.id)).Nodup
  direntIds : (d.dirents.map (·.id)).Nodup
  blockIds : (d.blocks.map (·.id)).Nodup
  inode : ∀ r ∈ d.dirents, ∃ n ∈ d.inodes, n.id = r.inode
  parent : ∀ r ∈ d.dirents, ∀ x, r.parent = some x → ∃ q ∈ d.dirents, q.id = x
  owner : ∀ b ∈ d.blocks, ∀ i, b.inode = some i → ∃ n ∈ d.inodes, n.id = i
  names : ∀ r ∈ d.dirents, ∀ q ∈ d.dirents, ∀ x, r.parent = some x → q.parent = some x → r.name = q.name → r = q
  places : ∀ b ∈ d.blocks, ∀ c ∈ d.blocks, ∀ i, b.inode = some i → c.inode = some i → b.seq = c.seq → b = c

/-- The link count of every inode is the number of entries that lead to it. -/
def Counted (d : DB) : Prop := ∀ n ∈ d.inodes, n.nlinks = entries d.dirents n.id

end Spec
open Spec

/-! ### C111: references and uniqueness in every history -/

theorem after_id (now k : Nat) (n : Inode) : (after now k n).id = n.id := by
  unfold after; split <;> rfl

theorem Removed.inode_ids {now : Nat} {d d' : DB} {L : List Dirent} (h : Removed now d d' L) : d'.inodes.map (·.id) = d.inodes.map (·.id) := by
  rw [h.inodes, decrements_inodes, List.map_map]
  exact List.map_congr_left fun n _ => after_id _ _ n

theorem Removed.blocks_sub {now : Nat} {d d' : DB} {L : List Dirent} (h : Removed now d d' L) : d'.blocks.Sublist d.blocks := by
  rw [h.blocks, decrements_blocks]
  exact List.filter_sublist

theorem exists_id {α : Type} {l l' : List α} {f : α → Int} (h : l.map f = l'.map f) {i : Int} (hx : ∃ n ∈ l, f n = i) : ∃ n ∈ l', f n = i := by
  have : i ∈ l'.map f := h ▸ List.mem_map.mpr hx
  exact List.mem_map.mp this

/-- What is left when entries, and blocks, are taken away so that nothing refers to what is gone. -/
theorem sound_of_removed {now : Nat} {d d' : DB} {L : List Dirent} (hs : Sound d) (h : Removed now d d' L) : Sound d' where
  inodeIds := h.inode_ids ▸ hs.inodeIds
  direntIds := h.ids hs.direntIds
  blockIds := hs.blockIds.sublist (h.blocks_sub.map _)
  inode r hr := exists_id h.inode_ids.symm (hs.inode r ((h.mem r).mp hr).1)
  parent r hr x hx := by
    obtain ⟨hr, hrL⟩ := (h.mem r).mp hr
    obtain ⟨q, hq, rfl⟩ := hs.parent r hr x hx
    exact ⟨q, (h.mem q).mpr ⟨hq, fun hqL => hrL (h.closed q hqL r hr hx)⟩, rfl⟩
  owner b hb i hi := exists_id h.inode_ids.symm (hs.owner b (h.blocks_sub.subset hb) i hi)
  names r hr q hq := hs.names r ((h.mem r).mp hr).1 q ((h.mem q).mp hq).1
  places b hb c hc := hs.places b (h.blocks_sub.subset hb) c (h.blocks_sub.subset hc)

theorem deleteInode_spec {now limit : Nat} {i : Int} {d d' : DB} (hs : Sound d) (h : deleteInode now limit i d = some d') :
    Sound d' ∧ (∀ n, n ∈ d'.inodes.map (·.id) ↔ n ∈ d.inodes.map (·.id) ∧ n ≠ i) ∧
    (∀ r, r ∈ d'.dirents ↔ r ∈ d.dirents ∧ ¬ Below d.dirents (fun r => r.inode = i) r) ∧ d'.dirents.Sublist d.dirents := by
  unfold deleteInode at h
  obtain ⟨e, he, rfl⟩ := Option.map_eq_some_iff.mp h
  have hids : Ids { d with inodes := d.inodes.filter fun r => r.id != i } := hs.direntIds
  obtain ⟨L, hL, hb⟩ := deleteDirents_removed hids he
  simp only [beq_iff_eq] at hb
  have hin := hL.inode_ids
  have hex : ∀ j, j ≠ i → (∃ n ∈ d.inodes, n.id = j) → ∃ n ∈ e.inodes, n.id = j := by
    rintro j hj ⟨n, hn, rfl⟩
    exact exists_id hin.symm ⟨n, by simp [hn, hj], rfl⟩
  have hbs := hL.blocks_sub
  have hmem := hL.mem
  simp only at hmem hbs
  refine ⟨⟨?_, ?_, ?_, fun r hr => ?_, fun r hr x hx => ?_, fun b hb j hj => ?_, fun r hr q hq => ?_, fun b hb c hc => ?_⟩, fun n => ?_, fun r => ?_, ?_⟩
  · show (e.inodes.map (·.id)).Nodup
    rw [hin]
    exact hs.inodeIds.sublist ((List.filter_sublist).map _)
  · exact hL.ids hids
  · exact hs.blockIds.sublist (((List.filter_sublist).trans hbs).map _)
  · have hr := (hmem r).mp hr
    have : r.inode ≠ i := fun e => hr.2 ((hb r).mpr (.self hr.1 e))
    exact hex _ this (hs.inode r hr.1)
  · have hr := (hmem r).mp hr
    obtain ⟨q, hq, rfl⟩ := hs.parent r hr.1 x hx
    exact ⟨q, (hmem q).mpr ⟨hq, fun hqL => hr.2 (hL.closed q hqL r hr.1 hx)⟩, rfl⟩
  · have hb := List.mem_filter.mp hb
    have hji : j ≠ i := fun e => by simp [hj, e] at hb
    exact hex _ hji (hs.owner b (hbs.subset hb.1) j hj)
  · exact hs.names r ((hmem r).mp hr).1 q ((hmem q).mp hq).1
  · exact hs.places b (hbs.subset (List.mem_filter.mp hb).1) c (hbs.subset (List.mem_filter.mp hc).1)
  · show n ∈ e.inodes.map (·.id) ↔ _
    rw [hin]
    simp only [List.mem_map, List.mem_filter, bne_iff_ne]
    constructor
    · rintro ⟨a, ⟨ha, h⟩, rfl⟩
      exact ⟨⟨a, ha, rfl⟩, h⟩
    · rintro ⟨⟨a, ha, rfl⟩, h⟩
      exact ⟨a, ⟨ha, h⟩, rfl⟩
  · show r ∈ e.dirents ↔ _
    rw [hmem r, hb r]
  · show e.dirents.Sublist d.dirents
    rw [hL.rows]
    exact List.filter_sublist

theorem Below.gone {rows rows' : List Dirent} {P Q : Dirent → Prop} (hr : ∀ r, r ∈ rows' ↔ r ∈ rows ∧ ¬ Below rows P r) (r : Dirent) :
    Below rows (fun r => P r ∨ Q r) r ↔ Below rows P r ∨ Below rows' Q r := by
  constructor
  · intro h
    induction h with
    | @self r hm hp =>
      by_cases hb : Below rows P r
      · exact .inl hb
      · rcases hp with hp | hp
        · exact .inl (.self hm hp)
        · exact .inr (.self ((hr r).mpr ⟨hm, hb⟩) hp)
    | @child q r _ hm e ih =>
      by_cases hb : Below rows P r
      · exact .inl hb
      · rcases ih with ih | ih
        · exact .inl (ih.child hm e)
        · exact .inr (ih.child ((hr r).mpr ⟨hm, hb⟩) e)
  · rintro (h | h)
    · exact Below.mono (fun _ h => h) (fun q hq hp => .self hq (.inl hp)) h
    · exact Below.mono (fun q hq => ((hr q).mp hq).1) (fun q hq hp => .self ((hr q).mp hq).1 (.inr hp)) h

theorem deleteInodes_spec {now limit : Nat} {p : Inode → Bool} {d d' : DB} (hs : Sound d) (h : deleteInodes now limit p d = some d') :
    Sound d' ∧ (∀ n, n ∈ d'.inodes.map (·.id) ↔ n ∈ d.inodes.map (·.id) ∧ n ∉ (d.inodes.filter p).map (·.id)) ∧
    (∀ r, r ∈ d'.dirents ↔ r ∈ d.dirents ∧ ¬ Below d.dirents (fun r => r.inode ∈ (d.inodes.filter p).map (·.id)) r) ∧ d'.dirents.Sublist d.dirents := by
  unfold deleteInodes at h
  generalize (d.inodes.filter p).map (·.id) = ks at h ⊢
  induction ks generalizing d with
  | nil =>
    cases h
    have : ∀ r, ¬ Below d'.dirents (fun r => r.inode ∈ ([] : List Int)) r := fun r hr => by
      induction hr with
      | self _ h => simp at h
      | child _ _ _ ih => exact ih
    exact ⟨hs, by simp, fun r => ⟨fun h => ⟨h, this r⟩, fun h => h.1⟩, List.Sublist.refl _⟩
  | cons k ks ih =>
    simp only [List.foldlM_cons] at h
    rcases hk : deleteInode now limit k d with _ | e
    · rw [hk] at h; cases h
    · rw [hk] at h
      obtain ⟨h1, h2, h3, h4⟩ := deleteInode_spec hs hk
      obtain ⟨g1, g2, g3, g4⟩ := ih h1 h
      refine ⟨g1, fun n => ?_, fun r => ?_, g4.trans h4⟩
      · rw [g2, h2, List.mem_cons, not_or, and_assoc]
      · rw [g3, h3]
        have := Below.gone (Q := fun r => r.inode ∈ ks) h3 r
        simp only [List.mem_cons]
        rw [this, not_or, and_assoc]

theorem direntFits_spec {r : Dirent} {others : List Dirent} {inodes : List Inode} (h : direntFits r others inodes = true) :
    (∀ o ∈ others, o.id ≠ r.id) ∧ (∃ i ∈ inodes, i.id = r.inode) ∧
    (∀ x, r.parent = some x → (x = r.id ∨ ∃ o ∈ others, o.id = x) ∧ ∀ o ∈ others, o.parent = some x → o.name ≠ r.name) := by
  unfold direntFits at h
  simp only [Bool.and_eq_true, Bool.not_eq_true', List.any_eq_false, List.any_eq_true, beq_iff_eq] at h
  refine ⟨h.1.1, h.1.2, fun x hx => ?_⟩
  rw [hx] at h
  simp only [Bool.and_eq_true, Bool.not_eq_true', List.any_eq_false, List.any_eq_true, beq_iff_eq, Bool.or_eq_true, not_and] at h
  exact h.2

theorem blockFits_spec {r : Block} {others : List Block} {inodes : List Inode} (h : blockFits r others inodes = true) :
    (∀ o ∈ others, o.id ≠ r.id) ∧
    (∀ i, r.inode = some i → (∃ n ∈ inodes, n.id = i) ∧ ∀ o ∈ others, o.inode = some i → o.seq ≠ r.seq) := by
  unfold blockFits at h
  simp only [Bool.and_eq_true, Bool.not_eq_true', List.any_eq_false, beq_iff_eq] at h
  refine ⟨h.1, fun x hx => ?_⟩
  rw [hx] at h
  simp only [Bool.and_eq_true, Bool.not_eq_true', List.any_eq_false, List.any_eq_true, beq_iff_eq, not_and] at h
  exact h.2

theorem nodup_append_id {α : Type} {f : α → Int} {l : List α} {a : α} (h : (l.map f).Nodup) (ha : ∀ o ∈ l, f o ≠ f a) : ((l ++ [a]).map f).Nodup := by
  rw [List.map_append, List.nodup_append]
  refine ⟨h, by simp, fun x hx y hy => ?_⟩
  obtain ⟨o, ho, rfl⟩ := List.mem_map.mp hx
  simp only [List.map_cons, List.map_nil, List.mem_singleton] at hy
  rw [hy]
  exact ha o ho

/-- A row may be put in the place of `x`, or added. -/
theorem sound_dirent {d : DB} (hs : Sound d) {others : List Dirent} (hsub : others.Sublist d.dirents) {r : Dirent}
    (hpar : ∀ o ∈ others, ∀ x, o.parent = some x → x = r.id ∨ ∃ q ∈ others, q.id = x)
    (h : direntFits r others d.inodes = true) : Sound { d with dirents := others ++ [r] } := by
  obtain ⟨h1, h2, h3⟩ := direntFits_spec h
  refine ⟨hs.inodeIds, nodup_append_id (hs.direntIds.sublist (hsub.map _)) h1, hs.blockIds, fun o ho => ?_, fun o ho x hx => ?_, hs.owner, fun o ho q hq x hx hx' e => ?_, hs.places⟩
  · rcases List.mem_append.mp ho with ho | ho
    · exact hs.inode o (hsub.subset ho)
    · rw [List.mem_singleton.mp ho]; exact h2
  · have : x = r.id ∨ ∃ q ∈ others, q.id = x := by
      rcases List.mem_append.mp ho with ho | ho
      · exact hpar o ho x hx
      · rw [List.mem_singleton.mp ho] at hx; exact (h3 x hx).1
    rcases this with rfl | ⟨q, hq, e⟩
    · exact ⟨r, by simp, rfl⟩
    · exact ⟨q, by simp [hq], e⟩
  · rcases List.mem_append.mp ho with ho | ho <;> rcases List.mem_append.mp hq with hq | hq
    · exact hs.names o (hsub.subset ho) q (hsub.subset hq) x hx hx' e
    · rw [List.mem_singleton.mp hq] at hx' e
      exact absurd e ((h3 x hx').2 o ho hx)
    · rw [List.mem_singleton.mp ho] at hx e
      exact absurd e.symm ((h3 x hx).2 q hq hx')
    · rw [List.mem_singleton.mp ho, List.mem_singleton.mp hq]

theorem sound_block {d : DB} (hs : Sound d) {others : List Block} (hsub : others.Sublist d.blocks) {r : Block}
    (h : blockFits r others d.inodes = true) : Sound { d with blocks := others ++ [r] } := by
  obtain ⟨h1, h3⟩ := blockFits_spec h
  refine ⟨hs.inodeIds, hs.direntIds, nodup_append_id (hs.blockIds.sublist (hsub.map _)) h1, hs.inode, hs.parent, fun o ho x hx => ?_, hs.names, fun o ho q hq x hx hx' e => ?_⟩
  · rcases List.mem_append.mp ho with ho | ho
    · exact hs.owner o (hsub.subset ho) x hx
    · rw [List.mem_singleton.mp ho] at hx
      exact (h3 x hx).1
  · rcases List.mem_append.mp ho with ho | ho <;> rcases List.mem_append.mp hq with hq | hq
    · exact hs.places o (hsub.subset ho) q (hsub.subset hq) x hx hx' e
    · rw [List.mem_singleton.mp hq] at hx' e
      exact absurd e ((h3 x hx').2 o ho hx)
    · rw [List.mem_singleton.mp ho] at hx e
      exact absurd e.symm ((h3 x hx).2 q hq hx')
    · rw [List.mem_singleton.mp ho, List.mem_singleton.mp hq]

/-- Only inode rows change, their ids do not, and blocks may go. -/
theorem sound_inodes {d : DB} (hs : Sound d) {f : Inode → Inode} (hf : ∀ n, (f n).id = n.id) {blocks : List Block} (hb : blocks.Sublist d.blocks) :
    Sound { d with inodes := d.inodes.map f, blocks := blocks } := by
  have hid : (d.inodes.map f).map (·.id) = d.inodes.map (·.id) := by
    rw [List.map_map]; exact List.map_congr_left fun n _ => hf n
  exact ⟨by show ((d.inodes.map f).map (·.id)).Nodup; rw [hid]; exact hs.inodeIds, hs.direntIds, hs.blockIds.sublist (hb.map _),
    fun r hr => exists_id hid.symm (hs.inode r hr), hs.parent, fun b hb' i hi => exists_id hid.symm (hs.owner b (hb.subset hb') i hi), hs.names,
    fun b hb' c hc => hs.places b (hb.subset hb') c (hb.subset hc)⟩

theorem run_sound {q : Bool} {limit now : Nat} {s : Stmt} {d d' : DB} (hs : Sound d) (h : run q limit now s d = .ok d') : Sound d' := by
  unfold run at h
  split at h
  · rename_i r
    split at h
    · cases h
    · rename_i hany
      cases h
      simp only [Bool.not_eq_true, List.any_eq_false, beq_iff_eq] at hany
      have hl : ∀ n ∈ d.inodes, n ∈ d.inodes ++ [r] := fun n hn => List.mem_append.mpr (.inl hn)
      exact ⟨nodup_append_id hs.inodeIds hany, hs.direntIds, hs.blockIds, fun o ho => (hs.inode o ho).imp fun n h => ⟨hl n h.1, h.2⟩, hs.parent,
        fun b hb i hi => (hs.owner b hb i hi).imp fun n h => ⟨hl n h.1, h.2⟩, hs.names, hs.places⟩
  · split at h
    · rename_i hfit
      cases h
      exact sound_dirent hs (List.Sublist.refl _) (fun o ho x hx => .inr (hs.parent o ho x hx)) hfit
    · cases h
  · split at h
    · rename_i hfit
      cases h
      exact sound_block hs (List.Sublist.refl _) hfit
    · cases h
  · cases h
    exact sound_inodes hs (fun n => by split <;> rfl) (List.Sublist.refl _)
  · split at h
    · cases h
      exact sound_inodes hs (fun n => by split <;> rfl) List.filter_sublist
    · cases h
  · rename_i x name inode parent
    simp only at h
    split at h
    · split at h
      · rename_i hfit
        cases h
        refine sound_dirent hs List.filter_sublist (fun o ho y hy => ?_) hfit
        obtain ⟨q, hq, rfl⟩ := hs.parent o (List.mem_filter.mp ho).1 y hy
        by_cases hx : q.id = x
        · exact .inl hx
        · exact .inr ⟨q, List.mem_filter.mpr ⟨hq, by simpa using hx⟩, rfl⟩
      · cases h
    · cases h; exact hs
  · simp only at h
    split at h
    · split at h
      · rename_i hfit
        cases h
        exact sound_block hs List.filter_sublist hfit
      · cases h
    · cases h; exact hs
  · split at h
    · split at h
      · rename_i hd
        cases h
        exact (deleteInodes_spec hs hd).1
      · cases h
    · cases h
  · split at h
    · split at h
      · rename_i hd
        cases h
        obtain ⟨L, hL, _⟩ := deleteDirents_removed hs.direntIds hd
        exact sound_of_removed hs hL
      · cases h
    · cases h
  · cases h
    exact ⟨hs.inodeIds, hs.direntIds, hs.blockIds.sublist ((List.filter_sublist).map _), hs.inode, hs.parent,
      fun b hb => hs.owner b (List.mem_filter.mp hb).1, hs.names,
      fun b hb c hc => hs.places b (List.mem_filter.mp hb).1 c (List.mem_filter.mp hc).1⟩

theorem empty_sound : Sound DB.empty := ⟨by decide, by decide, by decide, by decide, by simp [DB.empty], by simp [DB.empty], by simp [DB.empty], by simp [DB.empty]⟩

theorem runAll_sound (q : Bool) (limit : Nat) (h : List (Nat × Stmt)) {d : DB} (hs : Sound d) : Sound (runAll q limit h d) := by
  induction h generalizing d with
  | nil => exact hs
  | cons a h ih =>
    obtain ⟨now, s⟩ := a
    unfold runAll
    split
    · rename_i hr
      exact ih (run_sound hs hr)
    · exact ih hs

/-- **C111**: after any statements, run at any times, some of which may have failed, ids are unique, every reference leads to a row,
names are unique below a parent and places within an inode; for the script as it is and repaired. -/
theorem C111_history (qualified : Bool) (limit : Nat) (h : List (Nat × Stmt)) : Sound (runAll qualified limit h DB.empty) :=
  runAll_sound qualified limit h empty_sound

/-- A database for the examples: the root, a directory `d` in it, a file reachable as `d/f` and as `g`. -/
def sample : DB where
  inodes := [⟨1, 1, none, 0⟩, ⟨2, 1, none, 0⟩, ⟨3, 2, none, 0⟩]
  dirents := [⟨10, str! "/", 1, none⟩, ⟨11, str! "d", 2, some 10⟩, ⟨12, str! "f", 3, some 11⟩, ⟨13, str! "g", 3, some 10⟩]
  blocks := [⟨20, some 2, 100, 0, 0⟩, ⟨21, some 3, 101, 0, 0⟩, ⟨22, some 3, 102, 1, 0⟩]

/-- Statements that make it. -/
def samplePlan : List (Nat × Stmt) :=
  (sample.inodes.map fun n => (5, Stmt.insertInode n)) ++ (sample.dirents.map fun r => (6, Stmt.insertDirent r)) ++
  (sample.blocks.map fun b => (7, Stmt.insertBlock b))

theorem samplePlan_makes (q : Bool) (limit : Nat) : runAll q limit samplePlan DB.empty = sample := by
  cases q <;> rfl

theorem sample_sound : Sound sample := samplePlan_makes true 0 ▸ C111_history true 0 samplePlan

-- the statements are not all accepted: a second `d` in the root, an entry for an inode or below an entry that does not exist
example : (match run true 1000 0 (.insertDirent ⟨14, str! "d", 3, some 10⟩) sample with | .error e => some e | _ => none) = some .constraint := by decide +kernel
example : (match run true 1000 0 (.insertDirent ⟨14, str! "e", 4, some 10⟩) sample with | .error e => some e | _ => none) = some .constraint := by decide +kernel
example : (match run true 1000 0 (.insertDirent ⟨14, str! "e", 3, some 15⟩) sample with | .error e => some e | _ => none) = some .constraint := by decide +kernel
-- deleting an inode takes what leads to it, what is below that, and the blocks; the count of the file below goes down
example : (runAll true 1000 [(9, .deleteInodes fun n => n.id == 2)] sample) =
    ⟨[⟨1, 1, none, 0⟩, ⟨3, 1, none, 0⟩], [⟨10, str! "/", 1, none⟩, ⟨13, str! "g", 3, some 10⟩], [⟨21, some 3, 101, 0, 0⟩, ⟨22, some 3, 102, 1, 0⟩]⟩ := by decide +kernel

/-! ### C109: deleting entries -/

/-- The property: if no chain of nested entries is longer than the engine allows, deleting entries succeeds, and takes
away these entries and everything below them, and no other entry. -/
def C109_statement (qualified : Bool) : Prop :=
  ∀ (limit now : Nat) (p : Dirent → Bool) (d : DB), Sound d →
    (∀ r ∈ d.dirents, p r = true → ∀ chain, Nested d.dirents (r :: chain) → (r :: chain).length ≤ limit) →
    ∃ d', run qualified limit now (.deleteDirents p) d = .ok d' ∧
      ∀ r, r ∈ d'.dirents ↔ r ∈ d.dirents ∧ ¬ Below d.dirents (fun r => p r = true) r

/-- As the script is, no statement that deletes entries or inodes, or changes a link count, succeeds, whatever is in the tables. -/
theorem C109_always_refused (limit now : Nat) (d : DB) :
    (∀ p, run false limit now (.deleteDirents p) d = .error .noSuchColumn) ∧ (∀ p, run false limit now (.deleteInodes p) d = .error .noSuchColumn) ∧
    (∀ p f, run false limit now (.updateLinks p f) d = .error .noSuchColumn) :=
  ⟨fun _ => rfl, fun _ => rfl, fun _ _ => rfl⟩

theorem short_chain {rows chain : List Dirent} (h : Nested rows chain) : chain.length ≤ rows.length :=
  (List.Nodup.subperm h.nodup fun r hr => h.mem r hr).length_le

theorem C109_refuted : ¬ C109_statement false := by
  intro h
  obtain ⟨d', hd, _⟩ := h 4 9 (fun r => r.id == 11) sample sample_sound (fun r _ _ chain hc => short_chain hc)
  cases hd

/-- **C109 (partial)**: with NEW.nlinks in the trigger, the property holds. -/
theorem C109_repaired_partial : C109_statement true := by
  intro limit now p d hs hc
  obtain ⟨d', hd⟩ := deleteDirents_succeeds (now := now) hs.direntIds hc
  obtain ⟨L, hL, hb⟩ := deleteDirents_removed hs.direntIds hd
  exact ⟨d', by simp only [run, if_true, hd], fun r => by rw [hL.mem, hb]⟩

-- the depth the engine needs is that of the tree: two levels are enough for `d/f`, one is not
example : (match run true 2 9 (.deleteDirents fun r => r.id == 11) sample with | .ok d => d.dirents.map (·.id) | .error _ => []) = [10, 13] := by decide +kernel
example : (match run true 1 9 (.deleteDirents fun r => r.id == 11) sample with | .error e => some e | _ => none) = some .tooDeep := by decide +kernel

/-- **C109 (partial)**, deleting inodes: exactly these inodes go, and exactly the entries that lead to one of them and what is below those. -/
theorem C109_inodes_partial {limit now : Nat} {p : Inode → Bool} {d d' : DB} (hs : Sound d) (h : run true limit now (.deleteInodes p) d = .ok d') :
    (∀ i, (∃ n ∈ d'.inodes, n.id = i) ↔ ∃ n ∈ d.inodes, n.id = i ∧ p n = false) ∧
    (∀ r, r ∈ d'.dirents ↔ r ∈ d.dirents ∧ ¬ Below d.dirents (fun r => ∃ n ∈ d.inodes, p n = true ∧ n.id = r.inode) r) := by
  simp only [run, if_true] at h
  split at h
  · rename_i e he
    cases h
    obtain ⟨_, h2, h3, _⟩ := deleteInodes_spec hs he
    refine ⟨fun i => ?_, fun r => ?_⟩
    · have h2 := h2 i
      simp only [List.mem_map, List.mem_filter] at h2
      rw [h2]
      constructor
      · rintro ⟨⟨n, hn, rfl⟩, h⟩
        exact ⟨n, hn, rfl, by simpa using fun hp => h ⟨n, ⟨hn, hp⟩, rfl⟩⟩
      · rintro ⟨n, hn, rfl, hp⟩
        refine ⟨⟨n, hn, rfl⟩, ?_⟩
        rintro ⟨m, ⟨hm, hpm⟩, e⟩
        have := List.inj_on_of_nodup_map hs.inodeIds hm hn e
        rw [this, hp] at hpm
        cases hpm
    · rw [h3 r]
      simp only [List.mem_map, List.mem_filter, and_assoc]
  · cases h

/-! ### C110: link counts -/

/-- The statements of a driver that leaves link counts to the database: it inserts inodes with the default count, entries and blocks, and deletes entries. -/
def Plain : Stmt → Prop
  | .insertInode n => n.nlinks = 1
  | .insertDirent _ => True
  | .insertBlock _ => True
  | .deleteDirents _ => True
  | _ => False

/-- The property: however entries are inserted and deleted, the link count of an inode that has entries is their number. -/
def C110_statement (qualified : Bool) : Prop :=
  ∀ (limit : Nat) (h : List (Nat × Stmt)), (∀ s ∈ h, Plain s.2) →
    ∀ n ∈ (runAll qualified limit h DB.empty).inodes, 0 < entries (runAll qualified limit h DB.empty).dirents n.id →
      n.nlinks = entries (runAll qualified limit h DB.empty).dirents n.id

/-- A file under two names in a FAT-like root, with one block. -/
def twoNames : List (Nat × Stmt) :=
  [(1, .insertInode ⟨1, 1, none, 0⟩), (2, .insertDirent ⟨10, str! "a", 1, none⟩), (3, .insertDirent ⟨11, str! "b", 1, none⟩), (4, .insertBlock ⟨20, some 1, 100, 0, 0⟩)]

theorem twoNames_plain : ∀ s ∈ twoNames, Plain s.2 := by
  intro s hs
  simp only [twoNames, List.mem_cons, List.not_mem_nil, or_false] at hs
  rcases hs with rfl | rfl | rfl | rfl <;> simp [Plain]

/-- Nothing counts the entries inserted, in the script as it is and repaired. -/
theorem C110_refuted (qualified : Bool) : ¬ C110_statement qualified := by
  intro h
  have := h 10 twoNames twoNames_plain ⟨1, 1, none, 0⟩ (by cases qualified <;> decide +kernel) (by cases qualified <;> decide +kernel)
  cases qualified <;> exact absurd this (by decide +kernel)

/-- So, once deleting works, deleting one of two names frees the blocks of the file, which is marked deleted but still there under the other. -/
theorem C110_refuted_data_loss : ∃ h, (∀ s ∈ h, Plain s.2) ∧
    runAll true 1000 h DB.empty = ⟨[⟨1, 0, some 5, 0⟩], [⟨11, str! "b", 1, none⟩], []⟩ := by
  refine ⟨twoNames ++ [(5, .deleteDirents fun r => r.id == 10)], fun s hs => ?_, by decide +kernel⟩
  rcases List.mem_append.mp hs with h | h
  · exact twoNames_plain s h
  · rw [List.mem_singleton.mp h]
    exact trivial

/-- **C110 (partial)**: what deleting entries does to inodes and blocks, exactly, in the repaired script.  The inodes stay, in their order; the count of each goes
down by the number of entries that led to it and are gone; the time of deletion is set if, and only if, an entry is gone and the count is then 0 or less, and in that
case, and only then, its blocks are gone. -/
theorem C110_delete_partial {limit now : Nat} {p : Dirent → Bool} {d d' : DB} (hs : Sound d) (h : run true limit now (.deleteDirents p) d = .ok d') :
    d'.inodes.length = d.inodes.length ∧
    (∀ (k : Nat) (n n' : Inode), d.inodes[k]? = some n → d'.inodes[k]? = some n' →
      n'.id = n.id ∧ n'.rest = n.rest ∧ n'.nlinks = n.nlinks - (entries d.dirents n.id - entries d'.dirents n.id) ∧
      n'.deleted = if entries d'.dirents n.id < entries d.dirents n.id ∧ n'.nlinks ≤ 0 then some now else n.deleted) ∧
    (∀ b, b ∈ d'.blocks ↔ b ∈ d.blocks ∧
      ¬ ∃ n' ∈ d'.inodes, b.inode = some n'.id ∧ entries d'.dirents n'.id < entries d.dirents n'.id ∧ n'.nlinks ≤ 0) := by
  simp only [run, if_true] at h
  split at h
  · rename_i e he
    cases h
    obtain ⟨L, hL, _⟩ := deleteDirents_removed hs.direntIds he
    have hent := hL.entries hs.direntIds
    have hin := hL.inodes
    rw [decrements_inodes] at hin
    refine ⟨by rw [hin, List.length_map], fun k n n' hn hn' => ?_, fun b => ?_⟩
    · rw [hin, List.getElem?_map, hn] at hn'
      have hn' : after now (entries L n.id) n = n' := by simpa using hn'
      subst hn'
      have hk := hent n.id
      by_cases h0 : 0 < entries L n.id
      · simp only [after, h0, if_true, true_and]
        refine ⟨by omega, ?_⟩
        have : entries d'.dirents n.id < entries d.dirents n.id := by omega
        simp only [this, true_and]
      · simp only [after, h0, if_false, true_and]
        refine ⟨by omega, ?_⟩
        rw [if_neg (by omega)]
    · rw [hL.blocks, decrements_blocks, List.mem_filter]
      refine and_congr_right fun _ => ?_
      simp only [Bool.not_eq_true', List.any_eq_false, Bool.and_eq_true, beq_iff_eq, decide_eq_true_eq]
      constructor
      · rintro h ⟨n', hn', e, hlt, hle⟩
        rw [hin] at hn'
        obtain ⟨n, hn, rfl⟩ := List.mem_map.mp hn'
        rw [after_id] at e hlt
        have hk := hent n.id
        unfold after at hle
        rw [if_pos (by omega)] at hle
        exact h n hn ⟨⟨e, by omega⟩, hle⟩
      · rintro h n hn ⟨⟨e, h0⟩, hle⟩
        have hk := hent n.id
        refine h ⟨after now (entries L n.id) n, by rw [hin]; exact List.mem_map.mpr ⟨n, hn, rfl⟩, ?_, ?_, ?_⟩
        · rw [after_id]; exact e
        · rw [after_id]; omega
        · unfold after
          rw [if_pos h0]
          exact hle
  · cases h

/-- The databases of a driver that counts the entries it inserts: an inode starts with the count 0, and with every entry goes an UPDATE that adds 1. -/
inductive Counting (limit : Nat) : DB → Prop
  | empty : Counting limit DB.empty
  | create {d d' now n} : Counting limit d → n.nlinks = 0 → run true limit now (.insertInode n) d = .ok d' → Counting limit d'
  | link {d e d' now r} : Counting limit d → run true limit now (.insertDirent r) d = .ok e →
      run true limit now (.updateLinks (fun n => n.id == r.inode) fun n => n.nlinks + 1) e = .ok d' → Counting limit d'
  | allocate {d d' now b} : Counting limit d → run true limit now (.insertBlock b) d = .ok d' → Counting limit d'
  | free {d d' now p} : Counting limit d → run true limit now (.deleteBlocks p) d = .ok d' → Counting limit d'
  | touch {d d' now p t f} : Counting limit d → run true limit now (.updateInodes p t f) d = .ok d' → Counting limit d'
  | remove {d d' now p} : Counting limit d → run true limit now (.deleteDirents p) d = .ok d' → Counting limit d'

theorem counted_delete {limit now : Nat} {p : Dirent → Bool} {d d' : DB} (hs : Sound d) (hc : Counted d) (h : run true limit now (.deleteDirents p) d = .ok d') : Counted d' := by
  obtain ⟨hlen, hrow, _⟩ := C110_delete_partial hs h
  intro n' hn'
  obtain ⟨k, hk, rfl⟩ := List.mem_iff_getElem.mp hn'
  have hk' : k < d.inodes.length := hlen ▸ hk
  obtain ⟨hid, _, hl, _⟩ := hrow k d.inodes[k] d'.inodes[k] (List.getElem?_eq_getElem hk') (List.getElem?_eq_getElem hk)
  have := hc d.inodes[k] (List.getElem_mem hk')
  rw [hl, hid, this]
  omega

theorem counting_spec {limit : Nat} {d : DB} (h : Counting limit d) : Sound d ∧ Counted d := by
  induction h with
  | empty => exact ⟨empty_sound, by simp [Counted, DB.empty]⟩
  | @create d d' now n _ hn hr ih =>
    refine ⟨run_sound ih.1 hr, ?_⟩
    unfold run at hr
    simp only at hr
    split at hr
    · cases hr
    · rename_i hany
      cases hr
      simp only [Bool.not_eq_true, List.any_eq_false, beq_iff_eq] at hany
      intro m hm
      rcases List.mem_append.mp hm with hm | hm
      · exact ih.2 m hm
      · rw [List.mem_singleton.mp hm, hn]
        have : entries d.dirents n.id = 0 := by
          unfold entries
          rw [List.countP_eq_zero]
          intro r hr' hi
          obtain ⟨q, hq, hqi⟩ := ih.1.inode r hr'
          exact hany q hq (hqi.trans (by simpa using hi))
        show (0 : Int) = (entries d.dirents n.id : Int)
        rw [this]; rfl
  | @link d e d' now r _ hr hr' ih =>
    refine ⟨run_sound (run_sound ih.1 hr) hr', ?_⟩
    unfold run at hr hr'
    simp only [if_true] at hr hr'
    split at hr
    · cases hr
      cases hr'
      intro m hm
      obtain ⟨n, hn, rfl⟩ := List.mem_map.mp hm
      have := ih.2 n hn
      simp only [updateNlinks, entries, List.countP_append, List.countP_singleton, beq_iff_eq] at this ⊢
      by_cases hi : n.id = r.inode
      · simp only [hi, if_true] at this ⊢
        omega
      · rw [if_neg hi, if_neg (fun e => hi e.symm)]
        omega
    · cases hr
  | allocate _ hr ih =>
    refine ⟨run_sound ih.1 hr, ?_⟩
    unfold run at hr
    simp only at hr
    split at hr
    · cases hr; exact ih.2
    · cases hr
  | free _ hr ih =>
    refine ⟨run_sound ih.1 hr, ?_⟩
    cases hr
    exact ih.2
  | touch _ hr ih =>
    refine ⟨run_sound ih.1 hr, ?_⟩
    cases hr
    intro m hm
    obtain ⟨n, hn, rfl⟩ := List.mem_map.mp hm
    have := ih.2 n hn
    split <;> exact this
  | remove _ hr ih => exact ⟨run_sound ih.1 hr, counted_delete ih.1 ih.2 hr⟩

/-- **C110 (partial)**: for a driver that counts the entries it inserts, the link count of every inode is at all times the number of entries that lead to it; and
whenever entries are deleted, an inode keeps all its blocks if an entry is left, and an inode whose last entries are gone is marked deleted and has no blocks. -/
theorem C110_counting_partial {limit : Nat} {d : DB} (hd : Counting limit d) : Counted d ∧
    ∀ (now : Nat) (p : Dirent → Bool) (d' : DB), run true limit now (.deleteDirents p) d = .ok d' →
      ∀ n ∈ d'.inodes,
        (0 < entries d'.dirents n.id → ∀ b ∈ d.blocks, b.inode = some n.id → b ∈ d'.blocks) ∧
        (entries d'.dirents n.id = 0 → 0 < entries d.dirents n.id → n.deleted = some now ∧ ∀ b ∈ d'.blocks, b.inode ≠ some n.id) := by
  obtain ⟨hs, hc⟩ := counting_spec hd
  refine ⟨hc, fun now p d' h n hn => ?_⟩
  obtain ⟨hlen, hrow, hblk⟩ := C110_delete_partial hs h
  have hc' := counted_delete hs hc h
  have hs' := run_sound hs h
  refine ⟨fun h0 b hb hbi => (hblk b).mpr ⟨hb, ?_⟩, fun h0 hpos => ⟨?_, fun b hb hbi => ?_⟩⟩
  · rintro ⟨m, hm, hmi, _, hle⟩
    rw [hbi] at hmi
    have : n.id = m.id := by simpa using hmi
    have hcm := hc' m hm
    rw [← this] at hcm
    omega
  · obtain ⟨k, hk, rfl⟩ := List.mem_iff_getElem.mp hn
    have hk' : k < d.inodes.length := hlen ▸ hk
    obtain ⟨hid, _, hl, hdel⟩ := hrow k d.inodes[k] d'.inodes[k] (List.getElem?_eq_getElem hk') (List.getElem?_eq_getElem hk)
    have h1 := hc' _ hn
    rw [hdel, ← hid, if_pos ⟨by omega, by omega⟩]
  · refine ((hblk b).mp hb).2 ⟨n, hn, hbi, by omega, ?_⟩
    have h1 := hc' n hn
    omega

-- such a driver can make a file with two names and a block
def counted : DB := ⟨[⟨1, 2, none, 0⟩], [⟨10, str! "a", 1, none⟩, ⟨11, str! "b", 1, none⟩], [⟨20, some 1, 100, 0, 0⟩]⟩

theorem counted_counting : Counting 1000 counted := by
  refine .allocate (now := 1) (b := ⟨20, some 1, 100, 0, 0⟩) (.link (now := 1) (r := ⟨11, str! "b", 1, none⟩) (.link (now := 1) (r := ⟨10, str! "a", 1, none⟩)
    (.create (now := 1) (n := ⟨1, 0, none, 0⟩) .empty rfl rfl) rfl rfl) rfl rfl) rfl

example : runAll true 1000 [(5, .deleteDirents fun r => r.id == 10)] counted =
    ⟨[⟨1, 1, none, 0⟩], [⟨11, str! "b", 1, none⟩], [⟨20, some 1, 100, 0, 0⟩]⟩ := by decide +kernel
example : runAll true 1000 [(5, .deleteDirents fun r => r.id == 10), (6, .deleteDirents fun r => r.id == 11)] counted =
    ⟨[⟨1, 0, some 6, 0⟩], [], []⟩ := by decide +kernel

/-! ### C112: names in a directory -/

/-- The property: no two entries of one directory, the root included, have the same name. -/
def C112_statement : Prop :=
  ∀ (qualified : Bool) (limit : Nat) (h : List (Nat × Stmt)) (r q : Dirent),
    r ∈ (runAll qualified limit h DB.empty).dirents → q ∈ (runAll qualified limit h DB.empty).dirents → r.parent = q.parent → r.name = q.name → r = q

/-- The entries in the root of a FAT volume have no parent (init.sql:35-38), and then the constraint does not apply. -/
theorem C112_refuted : ¬ C112_statement := by
  intro h
  have := h true 0 [(1, .insertInode ⟨1, 1, none, 0⟩), (2, .insertDirent ⟨10, str! "a", 1, none⟩), (3, .insertDirent ⟨11, str! "a", 1, none⟩)]
    ⟨10, str! "a", 1, none⟩ ⟨11, str! "a", 1, none⟩ (by decide +kernel) (by decide +kernel) rfl rfl
  cases this

/-- **C112 (partial)**: below an entry, names are unique. -/
theorem C112_below_partial (qualified : Bool) (limit : Nat) (h : List (Nat × Stmt)) (r q : Dirent)
    (hr : r ∈ (runAll qualified limit h DB.empty).dirents) (hq : q ∈ (runAll qualified limit h DB.empty).dirents)
    (hp : r.parent = q.parent) (hn : r.name = q.name) (h0 : r.parent ≠ none) : r = q := by
  obtain ⟨x, hx⟩ := Option.ne_none_iff_exists'.mp h0
  exact (C111_history qualified limit h).names r hr q hq x hx (hp ▸ hx) hn

-- such entries exist
example : ∃ r ∈ (runAll false 0 samplePlan DB.empty).dirents, r.parent ≠ none := ⟨⟨11, str! "d", 2, some 10⟩, by decide +kernel, by decide⟩

end Disko.Sql

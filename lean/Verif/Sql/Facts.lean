import Verif.Sql.Model
import Mathlib.Data.List.Nodup
/-! What deleting entries does, exactly (used by Props.lean). -/
namespace Disko.Sql
open Disko

namespace Spec

/-- The rows satisfying `p` and everything below them, whatever their depth. -/
inductive Below (rows : List Dirent) (p : Dirent → Prop) : Dirent → Prop
  | self {r} : r ∈ rows → p r → Below rows p r
  | child {q r} : Below rows p q → r ∈ rows → r.parent = some q.id → Below rows p r

/-- How many entries lead to an inode. -/
def entries (rows : List Dirent) (i : Int) : Nat := rows.countP fun r => r.inode == i

end Spec
open Spec

theorem Below.mono {rows rows' : List Dirent} {p q : Dirent → Prop} (hr : ∀ r ∈ rows, r ∈ rows') (hp : ∀ r ∈ rows, p r → Below rows' q r) {r : Dirent}
    (h : Below rows p r) : Below rows' q r := by
  induction h with
  | self h hp' => exact hp _ h hp'
  | child _ h e ih => exact ih.child (hr _ h) e

theorem Below.mem {rows : List Dirent} {p : Dirent → Prop} {r : Dirent} (h : Below rows p r) : r ∈ rows := by
  cases h <;> assumption

/-- The two triggers, for a list of deleted rows. -/
def decrements (now : Nat) (L : List Dirent) (d : DB) : DB := L.foldl (fun d r => decrement now r.inode d) d

/-- `d'` is `d` without the rows `L`, for each of which the triggers have run. -/
structure Removed (now : Nat) (d d' : DB) (L : List Dirent) : Prop where
  rows : d'.dirents = d.dirents.filter fun r => decide (r ∉ L)
  sub : ∀ r ∈ L, r ∈ d.dirents
  nodup : L.Nodup
  inodes : d'.inodes = (decrements now L d).inodes
  blocks : d'.blocks = (decrements now L d).blocks
  closed : ∀ r ∈ L, ∀ c ∈ d.dirents, c.parent = some r.id → c ∈ L

theorem decrement_dirents (now : Nat) (i : Int) (d : DB) : (decrement now i d).dirents = d.dirents := rfl

theorem decrements_dirents (now : Nat) (L : List Dirent) (d : DB) : (decrements now L d).dirents = d.dirents := by
  induction L generalizing d with
  | nil => rfl
  | cons r L ih => exact (ih _).trans rfl

theorem decrement_congr {now : Nat} {i : Int} {d e : DB} (h : d.inodes = e.inodes) (h' : d.blocks = e.blocks) :
    (decrement now i d).inodes = (decrement now i e).inodes ∧ (decrement now i d).blocks = (decrement now i e).blocks := by
  simp only [decrement, updateNlinks, h, h', and_self]

theorem decrements_congr {now : Nat} {L : List Dirent} {d e : DB} (h : d.inodes = e.inodes) (h' : d.blocks = e.blocks) :
    (decrements now L d).inodes = (decrements now L e).inodes ∧ (decrements now L d).blocks = (decrements now L e).blocks := by
  induction L generalizing d e with
  | nil => exact ⟨h, h'⟩
  | cons r L ih =>
    have := decrement_congr (now := now) (i := r.inode) h h'
    exact ih this.1 this.2

theorem Removed.refl (now : Nat) (d : DB) : Removed now d d [] :=
  ⟨(List.filter_eq_self.mpr (by simp)).symm, by simp, List.nodup_nil, rfl, rfl, by simp⟩

theorem Removed.mem {now : Nat} {d d' : DB} {L : List Dirent} (h : Removed now d d' L) (r : Dirent) : r ∈ d'.dirents ↔ r ∈ d.dirents ∧ r ∉ L := by
  rw [h.rows]; simp

theorem Removed.trans {now : Nat} {d e f : DB} {L M : List Dirent} (h1 : Removed now d e L) (h2 : Removed now e f M) : Removed now d f (L ++ M) where
  rows := by
    rw [h2.rows, h1.rows, List.filter_filter]
    congr 1
    funext r
    by_cases h : r ∈ L <;> by_cases h' : r ∈ M <;> simp [h, h']
  sub r hr := by
    rcases List.mem_append.mp hr with h | h
    · exact h1.sub r h
    · exact ((h1.mem r).mp (h2.sub r h)).1
  nodup := List.nodup_append.mpr ⟨h1.nodup, h2.nodup, fun a ha b hb e => ((h1.mem b).mp (h2.sub b hb)).2 (e ▸ ha)⟩
  inodes := by
    rw [h2.inodes, (decrements_congr h1.inodes h1.blocks).1]
    simp only [decrements, List.foldl_append]
  blocks := by
    rw [h2.blocks, (decrements_congr h1.inodes h1.blocks).2]
    simp only [decrements, List.foldl_append]
  closed r hr c hc e := by
    rcases List.mem_append.mp hr with h | h
    · exact List.mem_append.mpr (.inl (h1.closed r h c hc e))
    · by_cases hL : c ∈ L
      · exact List.mem_append.mpr (.inl hL)
      · exact List.mem_append.mpr (.inr (h2.closed r h c ((h1.mem c).mpr ⟨hc, hL⟩) e))

/-- No two entries have the same id. -/
def Ids (d : DB) : Prop := (d.dirents.map (·.id)).Nodup

theorem Removed.ids {now : Nat} {d d' : DB} {L : List Dirent} (h : Removed now d d' L) (hd : Ids d) : Ids d' := by
  unfold Ids
  rw [h.rows]
  exact hd.sublist ((List.filter_sublist).map _)

/-- Deleting several rows one after the other, given what deleting one does. -/
theorem fold_removed {now : Nat} {del : Int → DB → Option DB}
    (hdel : ∀ x d d', Ids d → del x d = some d' →
      ∃ L, Removed now d d' L ∧ (∀ r ∈ d'.dirents, r.id ≠ x) ∧ ∀ r ∈ L, Below d.dirents (fun r => r.id = x) r)
    (ks : List Int) (d d' : DB) (hi : Ids d) (h : ks.foldlM (fun d k => del k d) d = some d') :
    ∃ L, Removed now d d' L ∧ (∀ r ∈ d'.dirents, r.id ∉ ks) ∧ ∀ r ∈ L, Below d.dirents (fun r => r.id ∈ ks) r := by
  induction ks generalizing d with
  | nil =>
    cases h
    exact ⟨[], Removed.refl now _, by simp, by simp⟩
  | cons k ks ih =>
    simp only [List.foldlM_cons] at h
    rcases hk : del k d with _ | e
    · rw [hk] at h; cases h
    · rw [hk] at h
      obtain ⟨L, hL, hk1, hk2⟩ := hdel k d e hi hk
      obtain ⟨M, hM, hm1, hm2⟩ := ih e (hL.ids hi) h
      refine ⟨L ++ M, hL.trans hM, fun r hr => ?_, fun r hr => ?_⟩
      · have := hk1 r ((hM.mem r).mp hr).1
        simp [this, hm1 r hr]
      · rcases List.mem_append.mp hr with h | h
        · exact Below.mono (fun _ h => h) (fun q hq e => .self hq (by simp [e])) (hk2 r h)
        · exact Below.mono (fun q hq => ((hL.mem q).mp hq).1) (fun q hq e => .self ((hL.mem q).mp hq).1 (by simp [e])) (hm2 r h)

theorem filter_id_eq {rows : List Dirent} (hn : (rows.map (·.id)).Nodup) {row : Dirent} (h : row ∈ rows) :
    rows.filter (fun r => r.id != row.id) = rows.filter fun r => decide (r ∉ [row]) := by
  apply List.filter_congr
  intro r hr
  by_cases e : r = row
  · simp [e]
  · have : r.id ≠ row.id := fun e' => e (List.inj_on_of_nodup_map hn hr h e')
    simp [e, this]

theorem deleteDirent_removed (now limit : Nat) : ∀ (x : Int) (d d' : DB), Ids d → deleteDirent now limit x d = some d' →
    ∃ L, Removed now d d' L ∧ (∀ r ∈ d'.dirents, r.id ≠ x) ∧ ∀ r ∈ L, Below d.dirents (fun r => r.id = x) r := by
  induction limit with
  | zero =>
    intro x d d' hi h
    unfold deleteDirent at h
    split at h
    · rename_i hf
      cases h
      exact ⟨[], Removed.refl now _, fun r hr => by simpa using List.find?_eq_none.mp hf r hr, by simp⟩
    · cases h
  | succ limit ih =>
    intro x d d' hi h
    unfold deleteDirent at h
    split at h
    · rename_i hf
      cases h
      exact ⟨[], Removed.refl now _, fun r hr => by simpa using List.find?_eq_none.mp hf r hr, by simp⟩
    · rename_i row hf
      have hrow : row ∈ d.dirents := List.mem_of_find?_eq_some hf
      have hx : row.id = x := by simpa using List.find?_some hf
      subst hx
      simp only [Option.map_eq_some_iff] at h
      obtain ⟨e, he, rfl⟩ := h
      rw [filter_id_eq hi hrow] at he
      generalize hd1 : ({ d with dirents := d.dirents.filter fun r => decide (r ∉ [row]) } : DB) = d1 at he
      have hd1r : d1.dirents = d.dirents.filter fun r => decide (r ∉ [row]) := by rw [← hd1]
      rw [← hd1r] at he
      have hi1 : Ids d1 := by
        unfold Ids
        rw [hd1r]
        exact hi.sublist ((List.filter_sublist).map _)
      obtain ⟨L, hL, hgone, hbelow⟩ := fold_removed ih _ d1 e hi1 he
      have hmem1 : ∀ r, r ∈ d1.dirents ↔ r ∈ d.dirents ∧ r ≠ row := fun r => by rw [hd1r]; simp
      have hcong := decrements_congr (now := now) (L := L) (d := d1) (e := d) (by rw [← hd1]) (by rw [← hd1])
      refine ⟨L ++ [row], ⟨?_, ?_, ?_, ?_, ?_, ?_⟩, ?_, ?_⟩
      · rw [decrement_dirents, hL.rows, hd1r, List.filter_filter]
        congr 1
        funext r
        by_cases h : r ∈ L <;> by_cases h' : r = row <;> simp [h, h']
      · intro r hr
        rcases List.mem_append.mp hr with h | h
        · exact ((hmem1 r).mp (hL.sub r h)).1
        · exact List.mem_singleton.mp h ▸ hrow
      · exact List.nodup_append.mpr ⟨hL.nodup, by simp, fun a ha b hb e => ((hmem1 a).mp (hL.sub a ha)).2 (e.trans (List.mem_singleton.mp hb))⟩
      · rw [(decrement_congr (hL.inodes.trans hcong.1) (hL.blocks.trans hcong.2)).1]
        simp only [decrements, List.foldl_append, List.foldl_cons, List.foldl_nil]
      · rw [(decrement_congr (hL.inodes.trans hcong.1) (hL.blocks.trans hcong.2)).2]
        simp only [decrements, List.foldl_append, List.foldl_cons, List.foldl_nil]
      · intro r hr c hc e'
        by_cases hcr : c = row
        · simp [hcr]
        · have hc1 := (hmem1 c).mpr ⟨hc, hcr⟩
          refine List.mem_append.mpr (.inl ?_)
          rcases List.mem_append.mp hr with h | h
          · exact hL.closed r h c hc1 e'
          · cases List.mem_singleton.mp h
            by_contra hcL
            refine hgone c ((hL.mem c).mpr ⟨hc1, hcL⟩) (List.mem_map.mpr ⟨c, List.mem_filter.mpr ⟨hc1, by simp [e']⟩, rfl⟩)
      · intro r hr hid
        have := (hmem1 r).mp ((hL.mem r).mp hr).1
        exact this.2 (List.inj_on_of_nodup_map hi this.1 hrow hid)
      · intro r hr
        rcases List.mem_append.mp hr with h | h
        · refine Below.mono (fun q hq => ((hmem1 q).mp hq).1) (fun q hq hk => ?_) (hbelow r h)
          obtain ⟨c, hc, hcq⟩ := List.mem_map.mp hk
          have hc' := List.mem_filter.mp hc
          have := List.inj_on_of_nodup_map hi1 hq hc'.1 hcq.symm
          subst this
          exact .child (q := row) (.self hrow rfl) ((hmem1 q).mp hq).1 (by simpa using hc'.2)
        · cases List.mem_singleton.mp h
          exact .self hrow rfl

/-- DELETE FROM dirents WHERE p. -/
theorem deleteDirents_removed {now limit : Nat} {p : Dirent → Bool} {d d' : DB} (hi : Ids d) (h : deleteDirents now limit p d = some d') :
    ∃ L, Removed now d d' L ∧ ∀ r, r ∈ L ↔ Below d.dirents (fun r => p r = true) r := by
  obtain ⟨L, hL, hgone, hbelow⟩ := fold_removed (deleteDirent_removed now limit) _ d d' hi h
  refine ⟨L, hL, fun r => ⟨fun hr => ?_, fun hr => ?_⟩⟩
  · refine Below.mono (fun _ h => h) (fun q hq hk => ?_) (hbelow r hr)
    obtain ⟨c, hc, hcq⟩ := List.mem_map.mp hk
    have hc' := List.mem_filter.mp hc
    have := List.inj_on_of_nodup_map hi hq hc'.1 hcq.symm
    subst this
    exact .self hq hc'.2
  · induction hr with
    | @self r hr hp =>
      by_contra hrL
      exact hgone r ((hL.mem r).mpr ⟨hr, hrL⟩) (List.mem_map.mpr ⟨r, List.mem_filter.mpr ⟨hr, hp⟩, rfl⟩)
    | @child q r _ hr e ih => exact hL.closed q ih r hr e

/-- How many of the rows lead to an inode, by another name. -/
theorem entries_cons (r : Dirent) (L : List Dirent) (i : Int) : entries (r :: L) i = entries L i + if r.inode = i then 1 else 0 := by
  simp only [entries, List.countP_cons, beq_iff_eq]

/-- What is left of an inode `n` of whose entries `k` have been deleted. -/
def after (now : Nat) (k : Nat) (n : Inode) : Inode :=
  if 0 < k then { n with nlinks := n.nlinks - k, deleted := if n.nlinks - k ≤ 0 then some now else n.deleted } else n

theorem decrements_inodes (now : Nat) (L : List Dirent) (d : DB) :
    (decrements now L d).inodes = d.inodes.map fun n => after now (entries L n.id) n := by
  induction L generalizing d with
  | nil => exact (List.map_id'' (fun n => by simp [after, entries]) d.inodes).symm
  | cons r L ih =>
    show (decrements now L (decrement now r.inode d)).inodes = _
    rw [ih]
    simp only [decrement, updateNlinks, List.map_map]
    apply List.map_congr_left
    intro n _
    simp only [Function.comp, entries_cons, beq_iff_eq]
    by_cases h : n.id = r.inode
    · rw [if_pos h, if_pos h.symm]
      unfold after
      by_cases h0 : 0 < entries L n.id
      · simp only [h0, if_true, Nat.zero_lt_succ]
        congr 1
        · omega
        · by_cases h1 : n.nlinks - 1 - (entries L n.id : Int) ≤ 0
          · rw [if_pos h1, if_pos (by omega)]
          · rw [if_neg h1, if_neg (by omega), if_neg (by omega)]
      · have h0' : entries L n.id = 0 := by omega
        simp only [h0', Nat.lt_irrefl, if_false, Nat.zero_add, Nat.zero_lt_one, if_true]
        congr 1
        by_cases h1 : n.nlinks ≤ 1
        · rw [if_pos h1, if_pos (by omega)]
        · rw [if_neg h1, if_neg (by omega)]
    · rw [if_neg h, if_neg (fun e => h e.symm), Nat.add_zero]

theorem decrements_blocks (now : Nat) (L : List Dirent) (d : DB) :
    (decrements now L d).blocks =
      d.blocks.filter fun b => !(d.inodes.any fun n => b.inode == some n.id && decide (0 < entries L n.id) && decide (n.nlinks - entries L n.id ≤ 0)) := by
  induction L generalizing d with
  | nil => exact (List.filter_eq_self.mpr (by simp [entries])).symm
  | cons r L ih =>
    show (decrements now L (decrement now r.inode d)).blocks = _
    rw [ih]
    simp only [decrement, updateNlinks, List.filter_filter]
    apply List.filter_congr
    intro b _
    rw [Bool.eq_iff_iff]
    simp only [Bool.and_eq_true, Bool.not_eq_true', List.any_eq_false, List.any_map, Function.comp, Bool.and_eq_true, beq_iff_eq, decide_eq_true_eq, entries_cons, not_and]
    constructor
    · rintro ⟨h1, h2⟩ n hn ⟨e, hk⟩
      have h1 := h1 n hn
      have h2 := h2 n hn
      by_cases h : n.id = r.inode
      · rw [if_pos h] at h1
        rw [if_pos h.symm] at hk ⊢
        simp only at h1
        have h2 : ¬ n.nlinks - 1 ≤ 0 := fun h' => h2 ⟨h, h'⟩ e
        by_cases h0 : 0 < entries L n.id
        · have := h1 ⟨e, h0⟩
          omega
        · omega
      · rw [if_neg h] at h1
        rw [if_neg (fun e => h e.symm)] at hk ⊢
        exact h1 ⟨e, by omega⟩
    · intro h
      refine ⟨fun n hn => ?_, fun n hn hc => ?_⟩
      · have h := h n hn
        by_cases hr : n.id = r.inode
        · rw [if_pos hr]
          rw [if_pos hr.symm] at h
          simp only
          rintro ⟨e, hk⟩
          have := h ⟨e, by omega⟩
          omega
        · rw [if_neg hr]
          rw [if_neg (fun e => hr e.symm)] at h
          rintro ⟨e, hk⟩
          exact h ⟨e, hk⟩
      · have h := h n hn
        rw [if_pos hc.1.symm] at h
        intro e
        have := h ⟨e, by omega⟩
        omega

theorem Removed.entries {now : Nat} {d d' : DB} {L : List Dirent} (h : Removed now d d' L) (hi : Ids d) (i : Int) :
    Spec.entries L i + Spec.entries d'.dirents i = Spec.entries d.dirents i := by
  have hn : d.dirents.Nodup := List.Nodup.of_map _ hi
  have hp : (d.dirents.filter fun r => decide (r ∈ L)).Perm L :=
    (List.perm_ext_iff_of_nodup (hn.filter _) h.nodup).mpr fun r => by simpa using fun hr => h.sub r hr
  unfold Spec.entries
  rw [h.rows, ← hp.countP_eq]
  have := List.countP_eq_countP_filter_add d.dirents (fun r => r.inode == i) (fun r => decide (r ∈ L))
  rw [this]
  congr 2
  apply List.filter_congr
  intro r _
  by_cases hr : r ∈ L <;> simp [hr]

/-- A chain of entries, each in the one before, none twice. -/
structure Spec.Nested (rows : List Dirent) (chain : List Dirent) : Prop where
  mem : ∀ r ∈ chain, r ∈ rows
  nodup : chain.Nodup
  each : chain.IsChain fun a b => b.parent = some a.id

theorem deleteDirent_succeeds (now limit : Nat) : ∀ (x : Int) (d : DB), Ids d →
    (∀ r ∈ d.dirents, r.id = x → ∀ chain, Nested d.dirents (r :: chain) → (r :: chain).length ≤ limit) →
    ∃ d', deleteDirent now limit x d = some d' := by
  induction limit with
  | zero =>
    intro x d hi h
    unfold deleteDirent
    split
    · exact ⟨_, rfl⟩
    · rename_i row hf
      have := h row (List.mem_of_find?_eq_some hf) (by simpa using List.find?_some hf) []
        ⟨by simpa using List.mem_of_find?_eq_some hf, by simp, by simp⟩
      simp at this
  | succ limit ih =>
    intro x d hi h
    unfold deleteDirent
    split
    · exact ⟨_, rfl⟩
    · rename_i row hf
      have hrow : row ∈ d.dirents := List.mem_of_find?_eq_some hf
      have hx : row.id = x := by simpa using List.find?_some hf
      subst hx
      simp only [Option.map_eq_some_iff]
      suffices hfold : ∀ (ks : List Int) (e : DB), Ids e → (∀ r ∈ e.dirents, r ∈ d.dirents ∧ r ≠ row) →
          (∀ r ∈ e.dirents, r.id ∈ ks → r.parent = some row.id) → ∃ d', ks.foldlM (fun d k => deleteDirent now limit k d) e = some d' by
        rw [filter_id_eq hi hrow]
        obtain ⟨e, he⟩ := hfold (((d.dirents.filter fun r => decide (r ∉ [row])).filter fun r => r.parent == some row.id).map (·.id))
          { d with dirents := d.dirents.filter fun r => decide (r ∉ [row]) } (hi.sublist ((List.filter_sublist).map _)) (by simp) (fun r hr hk => by
            obtain ⟨c, hc, hcr⟩ := List.mem_map.mp hk
            have hc := List.mem_filter.mp hc
            have := List.inj_on_of_nodup_map hi (List.mem_filter.mp hr).1 (List.mem_filter.mp hc.1).1 hcr.symm
            subst this
            simpa using hc.2)
        exact ⟨_, e, he, rfl⟩
      intro ks
      induction ks with
      | nil => exact fun e _ _ _ => ⟨e, rfl⟩
      | cons k ks ihk =>
        intro e hie hsub hpar
        obtain ⟨e', he'⟩ := ih k e hie (fun r hr hk chain hc => by
          have hp := hpar r hr (by simp [hk])
          have := h row hrow rfl (r :: chain) ⟨fun q hq => ?_, ?_, ?_⟩
          · simpa using this
          · rcases List.mem_cons.mp hq with rfl | hq
            · exact hrow
            · exact (hsub q (hc.mem q hq)).1
          · exact List.nodup_cons.mpr ⟨fun hm => (hsub row (hc.mem row hm)).2 rfl, hc.nodup⟩
          · exact List.isChain_cons_cons.mpr ⟨hp, hc.each⟩)
        obtain ⟨L, hL, _, _⟩ := deleteDirent_removed now limit k e e' hie he'
        obtain ⟨d', hd'⟩ := ihk e' (hL.ids hie) (fun r hr => hsub r ((hL.mem r).mp hr).1) (fun r hr hk => hpar r ((hL.mem r).mp hr).1 (by simp [hk]))
        refine ⟨d', ?_⟩
        simp only [List.foldlM_cons, he']
        exact hd'

theorem deleteDirents_succeeds {now limit : Nat} {p : Dirent → Bool} {d : DB} (hi : Ids d)
    (h : ∀ r ∈ d.dirents, p r = true → ∀ chain, Nested d.dirents (r :: chain) → (r :: chain).length ≤ limit) :
    ∃ d', deleteDirents now limit p d = some d' := by
  unfold deleteDirents
  suffices hfold : ∀ (ks : List Int) (e : DB), Ids e → (∀ r ∈ e.dirents, r ∈ d.dirents) →
      (∀ r ∈ e.dirents, r.id ∈ ks → p r = true) → ∃ d', ks.foldlM (fun d k => deleteDirent now limit k d) e = some d' by
    refine hfold _ d hi (fun _ h => h) (fun r hr hk => ?_)
    obtain ⟨c, hc, hcr⟩ := List.mem_map.mp hk
    have hc := List.mem_filter.mp hc
    have := List.inj_on_of_nodup_map hi hr hc.1 hcr.symm
    subst this
    exact hc.2
  intro ks
  induction ks with
  | nil => exact fun e _ _ _ => ⟨e, rfl⟩
  | cons k ks ihk =>
    intro e hie hsub hpar
    obtain ⟨e', he'⟩ := deleteDirent_succeeds now limit k e hie (fun r hr hk chain hc =>
      h r (hsub r hr) (hpar r hr (by simp [hk])) chain ⟨fun q hq => hsub q (hc.mem q hq), hc.nodup, hc.each⟩)
    obtain ⟨L, hL, _, _⟩ := deleteDirent_removed now limit k e e' hie he'
    obtain ⟨d', hd'⟩ := ihk e' (hL.ids hie) (fun r hr => hsub r ((hL.mem r).mp hr).1) (fun r hr hk => hpar r ((hL.mem r).mp hr).1 (by simp [hk]))
    refine ⟨d', ?_⟩
    simp only [List.foldlM_cons, he']
    exact hd'

end Disko.Sql

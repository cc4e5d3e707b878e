import Verif.Fat.Props
import Verif.Base.PathLemmas
/-! C52-C54, C76-C80: cluster chains and the driver operations built on them. -/
namespace Disko.Fat
open Disko
variable {σ : Type}

/-! ### Specification: cluster chains -/

/-- The clusters `cs` are the chain that begins at `c`: each is valid, not an end mark, and the FAT
entry of each is the next; the FAT entry of the last is an end mark. -/
inductive Chain (fs : FS σ) (st : σ) : UInt32 → List UInt32 → Prop where
  | last {c e : UInt32} : fs.isValidCluster c = true → fs.isEndOfChain c = false →
      fs.getClusterAtIndex st c = .ok e → fs.isEndOfChain e = true → Chain fs st c [c]
  | link {c d : UInt32} {ds : List UInt32} : fs.isValidCluster c = true → fs.isEndOfChain c = false →
      fs.getClusterAtIndex st c = .ok d → Chain fs st d ds → Chain fs st c (c :: ds)

/-- Following the FAT from `c` through the clusters `cs` arrives at an entry that is neither a valid
cluster nor an end mark. -/
inductive Broken (fs : FS σ) (st : σ) : UInt32 → List UInt32 → Prop where
  | last {c e : UInt32} : fs.isValidCluster c = true → fs.isEndOfChain c = false →
      fs.getClusterAtIndex st c = .ok e → fs.isEndOfChain e = false → fs.isValidCluster e = false → Broken fs st c [c]
  | link {c d : UInt32} {ds : List UInt32} : fs.isValidCluster c = true → fs.isEndOfChain c = false →
      fs.getClusterAtIndex st c = .ok d → Broken fs st d ds → Broken fs st c (c :: ds)

/-- End marks count as valid clusters (the documentation of listClusters says that a chain may start
with one; if they do not, no chain can be listed: `C52_end_marks_must_be_valid`). -/
def EndMarksValid (fs : FS σ) : Prop := ∀ e, fs.isEndOfChain e = true → fs.isValidCluster e = true

theorem Chain.valid {fs : FS σ} {st : σ} {c : UInt32} {cs : List UInt32} (h : Chain fs st c cs) : fs.isValidCluster c = true := by
  cases h <;> assumption
theorem Broken.valid {fs : FS σ} {st : σ} {c : UInt32} {cs : List UInt32} (h : Broken fs st c cs) : fs.isValidCluster c = true := by
  cases h <;> assumption
theorem Broken.notEnd {fs : FS σ} {st : σ} {c : UInt32} {cs : List UInt32} (h : Broken fs st c cs) : fs.isEndOfChain c = false := by
  cases h <;> assumption
theorem Chain.notEnd {fs : FS σ} {st : σ} {c : UInt32} {cs : List UInt32} (h : Chain fs st c cs) : fs.isEndOfChain c = false := by
  cases h <;> assumption

/-! ### C52 -/

theorem listLoop_chain {fs : FS σ} {st : σ} (hv : EndMarksValid fs) {c : UInt32} {cs : List UInt32} (h : Chain fs st c cs) :
    ∀ fuel acc, cs.length < fuel → listLoop fs st fuel c acc = .ret (.ok (acc ++ cs)) := by
  induction h with
  | @last c e h1 h2 h3 h4 =>
    intro fuel acc hf
    match fuel, hf with
    | fuel + 2, _ =>
      unfold listLoop
      rw [h2, h3]
      simp only [Bool.false_eq_true, if_false, hv e h4, not_true_eq_false]
      unfold listLoop
      rw [h4]
      rfl
    | 1, hf => simp at hf
    | 0, hf => simp at hf
  | @link c d ds h1 h2 h3 h4 ih =>
    intro fuel acc hf
    match fuel, hf with
    | fuel + 1, hf =>
      unfold listLoop
      rw [h2, h3]
      simp only [Bool.false_eq_true, if_false, h4.valid, not_true_eq_false]
      rw [ih fuel (acc ++ [c]) (by simpa using hf), List.append_assoc]
      rfl
    | 0, hf => simp at hf

/-- C52: a finite, valid chain is listed exactly, in order. -/
theorem C52_lists_chain (fs : FS σ) (st : σ) (hv : EndMarksValid fs) (c : UInt32) (cs : List UInt32) (h : Chain fs st c cs)
    (fuel : Nat) (hf : cs.length < fuel) : listClusters fuel fs st c = .ret (.ok cs) := by
  unfold listClusters
  rw [if_neg (by simp [h.valid]), listLoop_chain hv h fuel [] hf]
  rfl

theorem listLoop_sound {fs : FS σ} {st : σ} : ∀ fuel c acc cs, fs.isValidCluster c = true → listLoop fs st fuel c acc = .ret (.ok cs) →
    (fs.isEndOfChain c = true ∧ cs = acc) ∨ ∃ ds, cs = acc ++ ds ∧ Chain fs st c ds := by
  intro fuel
  induction fuel with
  | zero => intro c acc cs _ h; unfold listLoop at h; cases h
  | succ fuel ih =>
    intro c acc cs hc h
    unfold listLoop at h
    split at h
    · rename_i he
      refine .inl ⟨he, ?_⟩
      exact (Except.ok.inj (Outcome.ret.inj h)).symm
    · rename_i he
      have he' : fs.isEndOfChain c = false := by simpa using he
      split at h
      · cases h
      · rename_i next hn
        split at h
        · cases h
        · rename_i hnv
          have hnv' : fs.isValidCluster next = true := by simpa using hnv
          rcases ih next _ cs hnv' h with ⟨h1, h2⟩ | ⟨ds, h1, h2⟩
          · exact .inr ⟨[c], h2, .last hc he' hn h1⟩
          · exact .inr ⟨c :: ds, by rw [h1, List.append_assoc]; rfl, .link hc he' hn h2⟩

/-- C52: whatever is listed is the chain, and the list is empty only for an end mark. -/
theorem C52_only_chains (fs : FS σ) (st : σ) (c : UInt32) (cs : List UInt32) (fuel : Nat)
    (h : listClusters fuel fs st c = .ret (.ok cs)) : (fs.isEndOfChain c = true ∧ cs = []) ∨ Chain fs st c cs := by
  unfold listClusters at h
  split at h
  · cases h
  · rename_i hv
    rcases listLoop_sound fuel c [] cs (by simpa using hv) h with ⟨h1, h2⟩ | ⟨ds, h1, h2⟩
    · exact .inl ⟨h1, h2⟩
    · exact .inr (by rw [h1]; exact h2)

/-- C52: a cluster that is not valid cannot start a chain. -/
theorem C52_invalid_start (fs : FS σ) (st : σ) (c : UInt32) (fuel : Nat) (h : fs.isValidCluster c = false) :
    listClusters fuel fs st c = .ret (.error .invalidArgument) := by
  unfold listClusters; rw [if_pos (by simp [h])]

/-- C52: a chain that runs into an invalid cluster is reported as corruption. -/
theorem C52_broken_chain (fs : FS σ) (st : σ) (c : UInt32) (cs : List UInt32) (h : Broken fs st c cs)
    (fuel : Nat) (hf : cs.length ≤ fuel) : listClusters fuel fs st c = .ret (.error .corrupted) := by
  unfold listClusters
  rw [if_neg (by simp [h.valid])]
  have key : ∀ acc, listLoop fs st fuel c acc = .ret (.error .corrupted) := by
    induction h generalizing fuel with
    | @last c e h1 h2 h3 h4 h5 =>
      intro acc
      match fuel, hf with
      | fuel + 1, _ =>
        unfold listLoop
        rw [h2, h3]
        simp [h5]
      | 0, hf => simp at hf
    | @link c d ds h1 h2 h3 h4 ih =>
      intro acc
      match fuel, hf with
      | fuel + 1, hf =>
        unfold listLoop
        rw [h2, h3]
        simp only [Bool.false_eq_true, if_false, h4.valid, not_true_eq_false]
        exact ih fuel (by simpa using hf) _
      | 0, hf => simp at hf
  exact key []

/-- C52: if end marks are not valid clusters, no chain can be listed. -/
theorem C52_end_marks_must_be_valid (fs : FS σ) (st : σ) (hv : ∀ e, fs.isEndOfChain e = true → fs.isValidCluster e = false)
    (c : UInt32) (cs : List UInt32) (h : Chain fs st c cs) (fuel : Nat) (hf : cs.length ≤ fuel) :
    listClusters fuel fs st c = .ret (.error .corrupted) := by
  unfold listClusters
  rw [if_neg (by simp [h.valid])]
  have key : ∀ acc, listLoop fs st fuel c acc = .ret (.error .corrupted) := by
    induction h generalizing fuel with
    | @last c e h1 h2 h3 h4 =>
      intro acc
      match fuel, hf with
      | fuel + 1, _ =>
        unfold listLoop
        rw [h2, h3]
        simp [hv e h4]
      | 0, hf => simp at hf
    | @link c d ds h1 h2 h3 h4 ih =>
      intro acc
      match fuel, hf with
      | fuel + 1, hf =>
        unfold listLoop
        rw [h2, h3]
        simp only [Bool.false_eq_true, if_false, h4.valid, not_true_eq_false]
        exact ih fuel (by simpa using hf) _
      | 0, hf => simp at hf
  exact key []

/-- C52: the i-th cluster of a chain is found, and asking beyond its end is an error. -/
theorem C52_index (fs : FS σ) (st : σ) (c : UInt32) (cs : List UInt32) (h : Chain fs st c cs) (i : Nat) :
    getClusterInChain fs st c i = match cs[i]? with
      | some x => .ok x
      | none => .error .invalidArgument := by
  induction h generalizing i with
  | @last c e h1 h2 h3 h4 =>
    match i with
    | 0 => rfl
    | i + 1 =>
      unfold getClusterInChain
      rw [h3]
      simp [h4]
  | @link c d ds h1 h2 h3 h4 ih =>
    match i with
    | 0 => rfl
    | i + 1 =>
      unfold getClusterInChain
      rw [h3]
      simp only [h4.notEnd, Bool.false_eq_true, if_false, h4.valid, not_true_eq_false]
      rw [ih i]
      simp

/-- C52: asking for a cluster beyond the break of a broken chain is reported as corruption; those
before it are found. -/
theorem C52_index_broken (fs : FS σ) (st : σ) (c : UInt32) (cs : List UInt32) (h : Broken fs st c cs) (i : Nat) :
    getClusterInChain fs st c i = match cs[i]? with
      | some x => .ok x
      | none => .error .corrupted := by
  induction h generalizing i with
  | @last c e h1 h2 h3 h4 h5 =>
    match i with
    | 0 => rfl
    | i + 1 =>
      unfold getClusterInChain
      rw [h3]
      simp [h4, h5]
  | @link c d ds h1 h2 h3 h4 ih =>
    match i with
    | 0 => rfl
    | i + 1 =>
      unfold getClusterInChain
      rw [h3]
      simp only [h4.notEnd, Bool.false_eq_true, if_false, h4.valid, not_true_eq_false]
      rw [ih i]
      simp

/-! A small FAT: the state is the table, a list of entries; 0xFFF ends a chain. -/

/-- A boot sector for the examples. -/
def exampleBoot : BootSector := ⟨floppy, 9, 18, 14, 512, 2847, 2847, 15, 12, 16⟩

/-- The example driver.  The state is the FAT, the root directory and the log of freed clusters. -/
structure ExState where
  table : List UInt32
  root : List Dirent
  freed : List UInt32
deriving DecidableEq

/-- See `exampleBoot`. -/
def exFS : FS ExState :=
  { bootSector := exampleBoot
    getClusterAtIndex := fun st c => match st.table[c.toNat]? with
      | some e => .ok e
      | none => .error .ioFailed
    isValidCluster := fun c => c < 100 || c == 0xFFF
    isEndOfChain := fun c => c == 0xFFF
    listRootDirectory := fun st => .ok st.root
    freeCluster := fun st c => ({ st with freed := st.freed ++ [c] }, none)
    updateDirent := fun st _ => (st, none)
    deleteDirent := fun st _ _ => (st, none)
    readAt := fun _ _ n => (List.replicate n 7, none) }

/-- Cluster 2 is followed by 5 and 3; 6 and 7 follow each other. -/
def exState : ExState := ⟨[4, 0, 5, 0xFFF, 0xFFF, 3, 7, 6], [], []⟩

theorem exChain : Chain exFS exState 2 [2, 5, 3] :=
  .link (by decide) (by decide) (show _ = Except.ok (5 : UInt32) by decide) (.link (by decide) (by decide) (show _ = Except.ok (3 : UInt32) by decide)
    (.last (by decide) (by decide) (show _ = Except.ok (0xFFF : UInt32) by decide) (by decide)))

theorem ex_valid : EndMarksValid exFS := by
  intro e h
  have : e = 0xFFF := by simpa [exFS] using h
  subst this; decide

example : Chain exFS exState 2 [2, 5, 3] ∧ EndMarksValid exFS ∧ listClusters 4 exFS exState 2 = .ret (.ok [2, 5, 3]) :=
  ⟨exChain, ex_valid, by decide⟩
example : Broken exFS { exState with table := [4, 0, 5, 0xABC, 0, 3] } 2 [2, 5, 3] :=
  .link (by decide) (by decide) (show _ = Except.ok (5 : UInt32) by decide) (.link (by decide) (by decide) (show _ = Except.ok (3 : UInt32) by decide)
    (.last (by decide) (by decide) (show _ = Except.ok (0xABC : UInt32) by decide) (by decide) (by decide)))

/-! ### C53 -/

/-- C53: listing the clusters of a chain always comes to an end. -/
def C53_statement : Prop :=
  ∀ (σ : Type) (fs : FS σ) (st : σ) (c : UInt32), ∃ fuel, listClusters fuel fs st c ≠ .timeout

/-- Where the FAT leads from `c` in `n` steps through valid clusters that are not end marks. -/
inductive Leads (fs : FS σ) (st : σ) : Nat → UInt32 → UInt32 → Prop where
  | here {c : UInt32} : fs.isValidCluster c = true → Leads fs st 0 c c
  | step {n : Nat} {c d e : UInt32} : fs.isValidCluster c = true → fs.isEndOfChain c = false →
      fs.getClusterAtIndex st c = .ok d → Leads fs st n d e → Leads fs st (n + 1) c e

/-- A cluster that is reached from `c` and from which it is reached again. -/
def Cyclic (fs : FS σ) (st : σ) (c : UInt32) : Prop := ∃ m n x, Leads fs st m c x ∧ Leads fs st (n + 1) x x

theorem Leads.validStart {fs : FS σ} {st : σ} {n : Nat} {c d : UInt32} (h : Leads fs st n c d) : fs.isValidCluster c = true := by
  cases h <;> assumption

theorem listLoop_timeout_iff {fs : FS σ} {st : σ} : ∀ fuel c acc, fs.isValidCluster c = true →
    (listLoop fs st fuel c acc = .timeout ↔ ∃ d, Leads fs st fuel c d) := by
  intro fuel
  induction fuel with
  | zero => intro c acc hc; exact ⟨fun _ => ⟨c, .here hc⟩, fun _ => rfl⟩
  | succ fuel ih =>
    intro c acc hc
    unfold listLoop
    cases he : fs.isEndOfChain c with
    | true =>
      simp only [if_true]
      constructor
      · intro h; cases h
      · rintro ⟨d, h⟩
        cases h with
        | step _ h2 _ _ => rw [he] at h2; cases h2
    | false =>
      simp only [Bool.false_eq_true, if_false]
      cases hg : fs.getClusterAtIndex st c with
      | error e =>
        simp only
        constructor
        · intro h; cases h
        · rintro ⟨d, h⟩
          cases h with
          | step _ _ h3 _ => rw [hg] at h3; cases h3
      | ok next =>
        simp only
        cases hn : fs.isValidCluster next with
        | false =>
          simp only [Bool.false_eq_true, not_false_eq_true, if_true]
          constructor
          · intro h; cases h
          · rintro ⟨d, h⟩
            cases h with
            | step _ _ h3 h4 =>
              rw [hg] at h3; cases h3
              rw [h4.validStart] at hn; cases hn
        | true =>
          simp only [not_true_eq_false, if_false]
          rw [ih next _ hn]
          constructor
          · rintro ⟨d, h⟩; exact ⟨d, .step hc he hg h⟩
          · rintro ⟨d, h⟩
            cases h with
            | step _ _ h3 h4 => rw [hg] at h3; cases h3; exact ⟨d, h4⟩

theorem Leads.det {fs : FS σ} {st : σ} {n : Nat} {c d : UInt32} (h : Leads fs st n c d) :
    ∀ {d'}, Leads fs st n c d' → d = d' := by
  induction h with
  | here _ => intro d' h'; cases h'; rfl
  | step _ _ h3 _ ih =>
    intro d' h'
    cases h' with
    | step _ _ g3 g4 => rw [h3] at g3; cases g3; exact ih g4

theorem Leads.trans {fs : FS σ} {st : σ} {m n : Nat} {c d e : UInt32} (h : Leads fs st m c d) (h' : Leads fs st n d e) :
    Leads fs st (m + n) c e := by
  induction h with
  | here _ => rw [Nat.zero_add]; exact h'
  | @step m _ _ _ h1 h2 h3 _ ih => rw [Nat.add_right_comm]; exact .step h1 h2 h3 (ih h')

/-- A walk of m + n steps passes through a cluster after m. -/
theorem Leads.split {fs : FS σ} {st : σ} : ∀ {m n : Nat} {c e : UInt32}, Leads fs st (m + n) c e →
    ∃ d, Leads fs st m c d ∧ Leads fs st n d e := by
  intro m
  induction m with
  | zero => intro n c e h; rw [Nat.zero_add] at h; exact ⟨c, .here h.validStart, h⟩
  | succ m ih =>
    intro n c e h
    rw [Nat.add_right_comm] at h
    cases h with
    | step h1 h2 h3 h4 =>
      obtain ⟨d, a, b⟩ := ih h4
      exact ⟨d, .step h1 h2 h3 a, b⟩

theorem Leads.loop {fs : FS σ} {st : σ} {n : Nat} {x : UInt32} (h : Leads fs st (n + 1) x x) : ∀ k, ∃ d, Leads fs st k x d := by
  have big : ∀ j, Leads fs st (j * (n + 1)) x x := by
    intro j
    induction j with
    | zero => rw [Nat.zero_mul]; exact .here h.validStart
    | succ j ih => rw [Nat.succ_mul]; exact ih.trans h
  intro k
  have hk : k ≤ k * (n + 1) := Nat.le_mul_of_pos_right k (by omega)
  have h2 := big k
  obtain ⟨r, hr⟩ := Nat.exists_eq_add_of_le hk
  rw [hr] at h2
  obtain ⟨d, a, _⟩ := h2.split
  exact ⟨d, a⟩

/-- Pigeonhole: more than 2^32 clusters in a row repeat one. -/
theorem pigeonhole (f : Nat → UInt32) (N : Nat) (hN : 2 ^ 32 < N) : ∃ i j, i < j ∧ j < N ∧ f i = f j := by
  have gen : ∀ (k : Nat) (g : Nat → Nat) (n : Nat), (∀ i, i < n → g i < k) → k < n → ∃ i j, i < j ∧ j < n ∧ g i = g j := by
    intro k
    induction k with
    | zero => intro g n h hn; exact absurd (h 0 hn) (by omega)
    | succ k ih =>
      intro g n h hn
      -- does the value k occur twice?
      by_cases h1 : ∃ i, i < n ∧ g i = k
      · obtain ⟨i, hi, hk⟩ := h1
        by_cases h2 : ∃ j, j < n ∧ j ≠ i ∧ g j = k
        · obtain ⟨j, hj, hne, hk'⟩ := h2
          rcases Nat.lt_or_gt_of_ne hne with h3 | h3
          · exact ⟨j, i, h3, hi, by rw [hk, hk']⟩
          · exact ⟨i, j, h3, hj, by rw [hk, hk']⟩
        · -- drop position i
          have h4 : ∀ j, j < n → j ≠ i → g j < k := by
            intro j hj hne
            have := h j hj
            have : g j ≠ k := fun e => h2 ⟨j, hj, hne, e⟩
            omega
          obtain ⟨a, b, hab, hb, he⟩ := ih (fun j => if j < i then g j else g (j + 1)) (n - 1) (by
            intro j hj
            split
            · exact h4 j (by omega) (by omega)
            · exact h4 (j + 1) (by omega) (by omega)) (by omega)
          refine ⟨if a < i then a else a + 1, if b < i then b else b + 1, ?_, ?_, ?_⟩
          · split <;> split <;> omega
          · split <;> omega
          · have e1 : (if a < i then g a else g (a + 1)) = g (if a < i then a else a + 1) := by split <;> rfl
            have e2 : (if b < i then g b else g (b + 1)) = g (if b < i then b else b + 1) := by split <;> rfl
            rw [← e1, ← e2]; exact he
      · obtain ⟨a, b, hab, hb, he⟩ := ih g n (by
          intro j hj
          have := h j hj
          have : g j ≠ k := fun e => h1 ⟨j, hj, e⟩
          omega) (by omega)
        exact ⟨a, b, hab, hb, he⟩
  obtain ⟨i, j, h1, h2, h3⟩ := gen (2 ^ 32) (fun i => (f i).toNat) N (fun i _ => (f i).toNat_lt) hN
  exact ⟨i, j, h1, h2, UInt32.toNat_inj.mp h3⟩

/-- C53, exactly: listing ends on a chain unless the chain runs in a circle; on one that does, it
never ends, however long it runs. -/
theorem C53_ends_iff_acyclic_partial (fs : FS σ) (st : σ) (c : UInt32) :
    (∃ fuel, listClusters fuel fs st c ≠ .timeout) ↔ ¬ Cyclic fs st c := by
  cases hc : fs.isValidCluster c with
  | false =>
    constructor
    · rintro - ⟨m, n, x, h, _⟩
      rw [h.validStart] at hc; cases hc
    · intro _; exact ⟨0, by rw [C52_invalid_start fs st c 0 hc]; simp⟩
  | true =>
    have e : ∀ fuel, listClusters fuel fs st c = .timeout ↔ ∃ d, Leads fs st fuel c d := by
      intro fuel
      unfold listClusters
      rw [if_neg (by simp [hc])]
      exact listLoop_timeout_iff fuel c [] hc
    constructor
    · rintro ⟨fuel, hf⟩ ⟨m, n, x, h1, h2⟩
      obtain ⟨d, hd⟩ := h2.loop fuel
      have := h1.trans hd
      rw [Nat.add_comm] at this
      obtain ⟨d', h3, _⟩ := this.split
      exact hf ((e fuel).mpr ⟨d', h3⟩)
    · intro hn
      refine Classical.byContradiction fun hall => hn ?_
      have hto : ∀ k, ∃ d, Leads fs st k c d := fun k => (e k).mp (Classical.byContradiction fun h => hall ⟨k, h⟩)
      obtain ⟨f, hf⟩ : ∃ f : Nat → UInt32, ∀ k, Leads fs st k c (f k) := ⟨fun k => (hto k).choose, fun k => (hto k).choose_spec⟩
      obtain ⟨i, j, hij, _, he⟩ := pigeonhole f (2 ^ 32 + 1) (by omega)
      obtain ⟨r, hr⟩ := Nat.exists_eq_add_of_le hij
      have hj := hf j
      have hr' : j = i + (r + 1) := by omega
      rw [hr'] at hj
      obtain ⟨d, h1, h2⟩ := hj.split
      have : d = f i := h1.det (hf i)
      subst this
      rw [← hr', ← he] at h2
      exact ⟨i, r, f i, hf i, h2⟩

theorem exCyclic : Cyclic exFS exState 6 :=
  ⟨0, 1, 6, .here (by decide), .step (by decide) (by decide) (show _ = Except.ok (7 : UInt32) by decide)
    (.step (by decide) (by decide) (show _ = Except.ok (6 : UInt32) by decide) (.here (by decide)))⟩

theorem C53_refuted : ¬ C53_statement := fun h =>
  (C53_ends_iff_acyclic_partial exFS exState 6).mp (h ExState exFS exState 6) exCyclic

/-- C53: a chain that ends is listed within as many steps as it has clusters (plus one). -/
example : ¬ Cyclic exFS exState 2 := (C53_ends_iff_acyclic_partial exFS exState 2).mp ⟨4, by decide⟩

/-! ### Path resolution (C77)

What follows holds of the code however decoding of entries is repaired (`cfg`). -/
variable {cfg : Cfg}

theorem R.andThen_ok {α β : Type} {r : R α} {f : α → R β} {b : β} (h : R.andThen r f = .ret (.ok b)) :
    ∃ a, r = .ret (.ok a) ∧ f a = .ret (.ok b) := by
  unfold R.andThen at h
  split at h
  · exact ⟨_, rfl, h⟩
  · cases h
  · cases h
  · cases h

theorem matchEntries_cases {fs : FS σ} {st : σ} {fuel : Nat} {p : Str} : ∀ (es : List Dirent) (cur : Dirent) (cs : List Dirent) (d : Dirent) (cs' : List Dirent),
    matchEntries cfg fuel fs st p es cur cs = .ret (.ok (d, cs')) → d = cur ∨ (d.isDir = true ∧ d.name = p) := by
  intro es
  induction es with
  | nil => intro cur cs d cs' h; unfold matchEntries at h; cases h; exact .inl rfl
  | cons e es ih =>
    intro cur cs d cs' h
    unfold matchEntries at h
    split at h
    · rename_i hn
      obtain ⟨a, h1, h2⟩ := R.andThen_ok h
      have hdir : e.isDir = true := by
        unfold readDirFromDirent at h1
        split at h1
        · cases h1
        · rename_i hh; simpa using hh
      rcases ih _ _ _ _ h2 with rfl | h3
      · exact .inr ⟨hdir, hn⟩
      · exact .inr h3
    · exact ih _ _ _ _ h

theorem walk_cases {fs : FS σ} {st : σ} {fuel : Nat} : ∀ (parts : List Str) (cur : Dirent) (cs : List Dirent) (d : Dirent),
    walk cfg fuel fs st parts cur cs = .ret (.ok d) → d = cur ∨ d.isDir = true := by
  intro parts
  induction parts with
  | nil => intro cur cs d h; unfold walk at h; cases h; exact .inl rfl
  | cons p parts ih =>
    intro cur cs d h
    unfold walk at h
    obtain ⟨⟨cur', cs'⟩, h1, h2⟩ := R.andThen_ok h
    rcases ih _ _ _ h2 with rfl | h3
    · rcases matchEntries_cases _ _ _ _ _ h1 with rfl | h4
      · exact .inl rfl
      · exact .inr h4.1
    · exact .inr h3

/-- Resolving a path gives a directory or the empty entry, never a file. -/
theorem resolve_cases {fs : FS σ} {st : σ} {fuel : Nat} {path : Str} {d : Dirent}
    (h : resolvePathToDirent cfg fuel fs st path = .ret (.ok d)) : d = Dirent.zero ∨ d.isDir = true := by
  unfold resolvePathToDirent at h
  simp only at h
  split at h
  · cases h
  · split at h
    · cases h; exact .inl rfl
    · exact walk_cases _ _ _ _ h

theorem matchEntries_none {fs : FS σ} {st : σ} {fuel : Nat} {p : Str} : ∀ (es : List Dirent) (cur : Dirent) (cs : List Dirent),
    (∀ e ∈ es, e.name ≠ p) → matchEntries cfg fuel fs st p es cur cs = .ret (.ok (cur, cs)) := by
  intro es
  induction es with
  | nil => intro cur cs _; rfl
  | cons e es ih =>
    intro cur cs h
    unfold matchEntries
    rw [if_neg (h e List.mem_cons_self)]
    exact ih cur cs (fun x hx => h x (List.mem_cons_of_mem _ hx))

theorem walk_none {fs : FS σ} {st : σ} {fuel : Nat} : ∀ (parts : List Str) (cur : Dirent) (cs : List Dirent),
    (∀ p ∈ parts, ∀ e ∈ cs, e.name ≠ p) → walk cfg fuel fs st parts cur cs = .ret (.ok cur) := by
  intro parts
  induction parts with
  | nil => intro cur cs _; rfl
  | cons p parts ih =>
    intro cur cs h
    unfold walk
    rw [matchEntries_none cs cur cs (h p List.mem_cons_self)]
    exact ih cur cs (fun q hq => h q (List.mem_cons_of_mem _ hq))

/-- A file (not a directory) in the root directory, the first of its name, with a plain name. -/
structure RootFile (fs : FS σ) (st : σ) (f : Dirent) : Prop where
  listed : ∃ pre post, fs.listRootDirectory st = .ok (pre ++ f :: post) ∧ ∀ e ∈ pre, e.name ≠ f.name
  isFile : f.isDir = false
  plain : Path.Plain f.name

theorem matchEntries_file {fs : FS σ} {st : σ} {fuel : Nat} {f : Dirent} (hf : f.isDir = false) :
    ∀ (pre post : List Dirent) (cur : Dirent) (cs : List Dirent), (∀ e ∈ pre, e.name ≠ f.name) →
    matchEntries cfg fuel fs st f.name (pre ++ f :: post) cur cs = .ret (.error .notADirectory) := by
  intro pre
  induction pre with
  | nil =>
    intro post cur cs _
    show matchEntries cfg fuel fs st f.name (f :: post) cur cs = _
    unfold matchEntries
    rw [if_pos rfl]
    unfold readDirFromDirent
    rw [if_pos (by simp [hf])]
    rfl
  | cons e pre ih =>
    intro post cur cs h
    show matchEntries cfg fuel fs st f.name (e :: (pre ++ f :: post)) cur cs = _
    unfold matchEntries
    rw [if_neg (h e List.mem_cons_self)]
    exact ih post cur cs (fun x hx => h x (List.mem_cons_of_mem _ hx))

theorem resolve_file {fs : FS σ} {st : σ} {f : Dirent} (h : RootFile fs st f) (fuel : Nat) :
    resolvePathToDirent cfg fuel fs st f.name = .ret (.error .notADirectory) := by
  obtain ⟨pre, post, hl, hp⟩ := h.listed
  unfold resolvePathToDirent
  simp only
  rw [Path.splitList_clean_plain h.plain, hl]
  show walk cfg fuel fs st [f.name] Dirent.zero (pre ++ f :: post) = _
  unfold walk
  rw [matchEntries_file h.isFile pre post _ _ hp]
  rfl

/-- C77: Stat of a file returns its information; Stat of a path that does not exist fails with "not
found"; a driver error is passed on. -/
def C77_statement : Prop :=
  ∀ (σ : Type) (fs : FS σ) (st : σ),
    (∀ f, RootFile fs st f → ∃ fuel, stat shipped fuel fs st f.name = .ret (.ok f.stat)) ∧
    (∀ n es, Path.Plain n → fs.listRootDirectory st = .ok es → (∀ e ∈ es, e.name ≠ n) → ∃ fuel, stat shipped fuel fs st n = .ret (.error .notFound)) ∧
    (∀ p e, fs.listRootDirectory st = .error e → ∃ fuel, stat shipped fuel fs st p = .ret (.error e))

/-- The information about nothing: every number zero, every time the first second of the year 1 (62135596800 seconds before 1970). -/
def noInformation : FileStat where
  inodeNumber := 0
  nlinks := 0
  modeFlags := 0
  size := 0
  blockSize := 0
  numBlocks := 0
  lastAccessed := -62135596800 * 1000000000
  lastModified := -62135596800 * 1000000000
  createdAt := -62135596800 * 1000000000
  deletedAt := -62135596800 * 1000000000

/-- C77, a file in the root directory is never found: looking it up says "not a directory". -/
theorem C77_files_not_found (fs : FS σ) (st : σ) (f : Dirent) (h : RootFile fs st f) (fuel : Nat) :
    stat cfg fuel fs st f.name = .ret (.error .notADirectory) := by
  unfold stat; rw [resolve_file h]; rfl

/-- C77, a path of which no part is in the root directory is found: as an empty entry. -/
theorem C77_missing_succeeds (fs : FS σ) (st : σ) (es : List Dirent) (path : Str) (fuel : Nat)
    (hl : fs.listRootDirectory st = .ok es) (h : ∀ p ∈ Path.splitList (Path.clean path), ∀ e ∈ es, e.name ≠ p) :
    stat cfg fuel fs st path = .ret (.ok noInformation) := by
  unfold stat resolvePathToDirent
  simp only
  have hne : (Path.splitList (Path.clean path)).length ≠ 0 := by
    unfold Path.splitList
    rw [if_neg (Path.clean_ne_nil path)]
    exact fun e => Path.split_ne_nil _ _ (List.length_eq_zero_iff.mp e)
  rw [if_neg hne, hl]
  simp only
  rw [walk_none _ _ _ h]
  rfl

/-- C77, an error in reading the root directory is dropped: every path is found, as an empty entry. -/
theorem C77_root_error_dropped (fs : FS σ) (st : σ) (path : Str) (e : Err) (fuel : Nat)
    (hl : fs.listRootDirectory st = .error e) : stat cfg fuel fs st path = .ret (.ok noInformation) := by
  unfold stat resolvePathToDirent
  simp only
  have hne : (Path.splitList (Path.clean path)).length ≠ 0 := by
    unfold Path.splitList
    rw [if_neg (Path.clean_ne_nil path)]
    exact fun e => Path.split_ne_nil _ _ (List.length_eq_zero_iff.mp e)
  rw [if_neg hne, hl]
  rfl

/-- C77, no absolute path (without ':') finds anything, if no name contains a slash. -/
theorem C77_absolute_paths_match_nothing (fs : FS σ) (st : σ) (es : List Dirent) (path : Str) (fuel : Nat)
    (hl : fs.listRootDirectory st = .ok es) (hn : ∀ e ∈ es, Path.slash ∉ e.name) (habs : Path.isAbs path = true)
    (hc : (58 : UInt8) ∉ Path.clean path) : stat cfg fuel fs st path = .ret (.ok noInformation) := by
  refine C77_missing_succeeds fs st es path fuel hl ?_
  intro p hp e he heq
  unfold Path.splitList at hp
  rw [if_neg (Path.clean_ne_nil path), Path.split_of_not_mem _ _ hc] at hp
  have hp' : p = Path.clean path := by simpa using hp
  have : Path.slash ∈ p := by
    rw [hp']
    unfold Path.clean
    simp only
    rw [if_pos habs]
    exact List.mem_cons_self
  exact hn e he (heq ▸ this)

/-- A file of the example volume. -/
def exFile : Dirent := { Dirent.zero with name := str! "A.TXT", firstCluster := 2, size := 600, mode := 0o100777#32 }
/-- The example volume with that file. -/
def exState2 : ExState := { exState with root := [exFile] }

theorem exRootFile : RootFile exFS exState2 exFile :=
  ⟨⟨[], [], rfl, by simp⟩, by decide, ⟨by decide, by decide, by decide, by decide, by decide⟩⟩

theorem C77_refuted : ¬ C77_statement := by
  intro h
  obtain ⟨fuel, hf⟩ := (h ExState exFS exState2).1 exFile exRootFile
  rw [C77_files_not_found exFS exState2 exFile exRootFile] at hf
  cases hf

/-- C77, what holds: whatever Stat returns without error is the information of a directory or the
empty information. -/
theorem C77_stat_sound_partial (fs : FS σ) (st : σ) (path : Str) (fuel : Nat) (s : FileStat)
    (h : stat cfg fuel fs st path = .ret (.ok s)) : s = noInformation ∨ ∃ d : Dirent, d.isDir = true ∧ s = d.stat := by
  unfold stat at h
  obtain ⟨d, h1, h2⟩ := R.andThen_ok h
  cases h2
  rcases resolve_cases h1 with rfl | h3
  · exact .inl rfl
  · exact .inr ⟨d, h3, rfl⟩

/-! ### C54: Remove -/

/-- C54: removing a file in the root directory succeeds and frees the file's clusters. -/
def C54_statement : Prop :=
  ∀ (fs : FS ExState) (st : ExState) (f : Dirent) (cs : List UInt32), RootFile fs st f → Chain fs st f.firstCluster cs →
    (∀ s c, fs.freeCluster s c = ({ s with freed := s.freed ++ [c] }, none)) → (∀ s d p, fs.deleteDirent s d p = (s, none)) →
    ∃ fuel st', remove shipped fuel fs st f.name = .ret (st', none) ∧ ∀ c, c ∈ st'.freed ↔ c ∈ st.freed ∨ c ∈ cs

/-- C54: no file in the root directory can be removed. -/
theorem C54_never_removes (fs : FS σ) (st : σ) (f : Dirent) (h : RootFile fs st f) (fuel : Nat) :
    remove cfg fuel fs st f.name = .ret (st, some .notADirectory) := by
  unfold remove; rw [resolve_file h]; rfl

theorem C54_refuted : ¬ C54_statement := by
  intro h
  obtain ⟨fuel, st', h1, _⟩ := h exFS exState2 exFile [2, 5, 3] exRootFile
    (.link (by decide) (by decide) (show _ = Except.ok (5 : UInt32) by decide) (.link (by decide) (by decide) (show _ = Except.ok (3 : UInt32) by decide)
      (.last (by decide) (by decide) (show _ = Except.ok (0xFFF : UInt32) by decide) (by decide)))) (fun _ _ => rfl) (fun _ _ _ => rfl)
  rw [C54_never_removes exFS exState2 exFile exRootFile] at h1
  cases h1

/-- n-1, n-2, …, 0. -/
def countDown : Nat → List UInt32
  | 0 => []
  | n + 1 => UInt32.ofNat n :: countDown n

/-- Freeing clusters one after the other, stopping at the first failure. -/
def freeAll (fs : FS σ) : List UInt32 → σ → σ × Option Err
  | [], st => (st, none)
  | c :: cs, st =>
    match fs.freeCluster st c with
    | (st', some e) => (st', some e)
    | (st', none) => freeAll fs cs st'

theorem freeLoop_eq (fs : FS σ) : ∀ n st, freeLoop fs n st = freeAll fs (countDown n) st := by
  intro n
  induction n with
  | zero => intro st; rfl
  | succ n ih =>
    intro st
    show (match fs.freeCluster st (UInt32.ofNat n) with
      | (st', some e) => (st', some e)
      | (st', none) => freeLoop fs n st') = _
    unfold countDown freeAll
    split
    · rfl
    · exact ih _

theorem W.from_ret {α : Type} {st st' : σ} {r : R α} {f : α → W σ} (h : W.from st r f = .ret (st', none)) :
    ∃ a, r = .ret (.ok a) ∧ f a = .ret (st', none) := by
  unfold W.from at h
  split at h
  · exact ⟨_, rfl, h⟩
  · cases h
  · cases h
  · cases h

/-- C54, exactly what a Remove that succeeds does, on any volume: it deletes an empty entry (not the
file's), follows the chain from cluster 0, and frees not the clusters of that chain but those
numbered below its length. -/
theorem C54_what_it_frees_partial (fs : FS σ) (st st' : σ) (path : Str) (fuel : Nat)
    (h : remove cfg fuel fs st path = .ret (st', none)) :
    ∃ parent st1 cs, fs.deleteDirent st Dirent.zero parent = (st1, none) ∧
      ((fs.isEndOfChain 0 = true ∧ cs = []) ∨ Chain fs st1 0 cs) ∧ freeAll fs (countDown cs.length) st1 = (st', none) := by
  unfold remove at h
  obtain ⟨d, h1, h2⟩ := W.from_ret h
  split at h2
  · cases h2
  · rename_i hd
    have hz : d = Dirent.zero := by
      rcases resolve_cases h1 with h3 | h3
      · exact h3
      · exact absurd h3 (by simpa using hd)
    subst hz
    obtain ⟨parent, _, h4⟩ := W.from_ret h2
    split at h4
    · cases h4
    · rename_i st1 hdel
      obtain ⟨cs, h5, h6⟩ := W.from_ret h4
      refine ⟨parent, st1, cs, hdel, C52_only_chains fs st1 0 cs fuel h5, ?_⟩
      rw [← freeLoop_eq]
      exact Outcome.ret.inj h6

/-- C54: removing a file that does not exist "succeeds" and frees clusters 1 and 0. -/
example : remove shipped 9 exFS exState2 (str! "NO.SUC") = .ret ({ exState2 with freed := [1, 0] }, none) := by decide +kernel

/-! ### C76: ReadFile -/

/-- C76: ReadFile of a file returns the file's bytes: the contents of its clusters in order, cut at
its size. -/
def C76_statement : Prop :=
  ∀ (σ : Type) (fs : FS σ) (st : σ) (f : Dirent) (cs : List UInt32) (contents : UInt32 → Bytes), EndMarksValid fs →
    RootFile fs st f → Chain fs st f.firstCluster cs → (∀ c ∈ cs, readCluster fs st c = .ok (contents c)) →
    (∀ c ∈ cs, (contents c).length = fs.bootSector.bytesPerCluster) → 0 ≤ f.size →
    f.size ≤ (cs.length : Int) * fs.bootSector.bytesPerCluster →
    ∃ fuel, readFile shipped fuel fs st f.name = .ret (.ok ((cs.flatMap contents).take f.size.toNat))

/-- C76: no file in the root directory can be read. -/
theorem C76_never_reads (fs : FS σ) (st : σ) (f : Dirent) (h : RootFile fs st f) (fuel : Nat) :
    readFile cfg fuel fs st f.name = .ret (.error .notADirectory) := by
  unfold readFile; rw [resolve_file h]; rfl

theorem C76_refuted : ¬ C76_statement := by
  intro h
  obtain ⟨fuel, hf⟩ := h ExState exFS exState2 exFile [2, 5, 3] (fun _ => List.replicate 512 7) ex_valid exRootFile
    (.link (by decide) (by decide) (show _ = Except.ok (5 : UInt32) by decide) (.link (by decide) (by decide) (show _ = Except.ok (3 : UInt32) by decide)
      (.last (by decide) (by decide) (show _ = Except.ok (0xFFF : UInt32) by decide) (by decide))))
    (by intro c _
        unfold readCluster readAbsoluteSectors
        show (if (List.replicate 512 (7 : UInt8)).length < 512 then _ else _) = _
        rw [List.length_replicate]; rfl)
    (by intro c _; rw [List.length_replicate]; rfl) (by decide) (by decide)
  rw [C76_never_reads exFS exState2 exFile exRootFile] at hf
  cases hf

/-- C76, the part after the file has been found (lines 302-328): concatenating the clusters and
cutting the last one gives the file's bytes, when every cluster is needed. -/
theorem C76_assemble_partial (fs : FS σ) (st : σ) (contents : UInt32 → Bytes) :
    ∀ (cs : List UInt32) (size : Int) (buf : Bytes), (∀ c ∈ cs, readCluster fs st c = .ok (contents c)) →
    (∀ c ∈ cs, (contents c).length = fs.bootSector.bytesPerCluster) →
    ((cs.length : Int) - 1) * fs.bootSector.bytesPerCluster < size → size ≤ (cs.length : Int) * fs.bootSector.bytesPerCluster →
    readFileLoop fs st cs size buf = .ret (.ok (buf ++ (cs.flatMap contents).take size.toNat)) := by
  intro cs
  induction cs with
  | nil =>
    intro size buf _ _ _ h4
    have : size.toNat = 0 := by simp at h4; omega
    unfold readFileLoop
    simp
  | cons c cs ih =>
    intro size buf h1 h2 h3 h4
    have hlen := h2 c List.mem_cons_self
    unfold readFileLoop
    rw [h1 c List.mem_cons_self]
    simp only
    have e0 : ((cs.length : Int) + 1) * fs.bootSector.bytesPerCluster = (cs.length : Int) * fs.bootSector.bytesPerCluster + fs.bootSector.bytesPerCluster := by
      rw [Int.add_mul, Int.one_mul]
    have e1 : ((c :: cs).length : Int) = (cs.length : Int) + 1 := by simp
    rw [e1, e0] at h4
    rw [e1, show (cs.length : Int) + 1 - 1 = cs.length by omega] at h3
    have h5 : ((cs.length : Int) - 1) * fs.bootSector.bytesPerCluster = (cs.length : Int) * fs.bootSector.bytesPerCluster - fs.bootSector.bytesPerCluster := by
      rw [Int.sub_mul, Int.one_mul]
    have hnn : (0 : Int) ≤ (cs.length : Int) * fs.bootSector.bytesPerCluster := Int.mul_nonneg (by omega) (by omega)
    generalize hX : (cs.length : Int) * (fs.bootSector.bytesPerCluster : Int) = X at *
    by_cases hs : size < fs.bootSector.bytesPerCluster
    · have hcs : cs = [] := by
        cases cs with
        | nil => rfl
        | cons a as =>
          exfalso
          have : (fs.bootSector.bytesPerCluster : Int) ≤ X := by
            rw [← hX]
            have : ((a :: as).length : Int) = (as.length : Int) + 1 := by simp
            rw [this, Int.add_mul, Int.one_mul]
            have := Int.mul_nonneg (by omega : (0 : Int) ≤ as.length) (by omega : (0 : Int) ≤ fs.bootSector.bytesPerCluster)
            omega
          omega
      subst hcs
      rw [if_pos hs, if_neg (by omega)]
      unfold readFileLoop
      simp
    · rw [if_neg hs]
      rw [ih (size - fs.bootSector.bytesPerCluster) (buf ++ contents c) (fun x hx => h1 x (List.mem_cons_of_mem _ hx))
        (fun x hx => h2 x (List.mem_cons_of_mem _ hx)) (by omega) (by omega)]
      rw [List.flatMap_cons, List.append_assoc, List.take_append, List.take_of_length_le (l := contents c) (by omega), hlen]
      have : (size - (fs.bootSector.bytesPerCluster : Int)).toNat = size.toNat - fs.bootSector.bytesPerCluster := by omega
      rw [this]

/-- C76: with a cluster more than the size needs (as after preallocation), assembling panics. -/
theorem C76_extra_cluster_panics (fs : FS σ) (st : σ) (c1 c2 : UInt32) (d1 d2 : Bytes) (size : Int)
    (h1 : readCluster fs st c1 = .ok d1) (h2 : readCluster fs st c2 = .ok d2) (hs : 0 ≤ size) (hsz : size < fs.bootSector.bytesPerCluster) :
    readFileLoop fs st [c1, c2] size [] = .panic := by
  unfold readFileLoop
  rw [h1]
  simp only
  rw [if_pos hsz]
  split
  · rfl
  · unfold readFileLoop
    rw [h2]
    simp only
    rw [if_pos (by omega), if_pos (by omega)]

example : readFileLoop { exFS with bootSector := { exampleBoot with bytesPerCluster := 512 } } exState [2, 5] 600 [] =
    .ret (.ok (List.replicate 600 7)) := by decide +kernel

/-- C76, exactly what the assembly of the contents does (lines 302-328), for clusters that can all be read and give `L` bytes each, with `q` whole
clusters and `r` bytes in the size: if there are no more than `q` clusters all they hold is returned, also if that is less than the size; if there
are `q + 1`, the `q` and the first `r` bytes of the last, if it has so many; in all other cases it panics. -/
theorem C76_assemble_exact_partial (fs : FS σ) (st : σ) (contents : UInt32 → Bytes) (L q r : Nat) (cs : List UInt32) (buf : Bytes)
    (h1 : ∀ c ∈ cs, readCluster fs st c = .ok (contents c)) (h2 : ∀ c ∈ cs, (contents c).length = L)
    (hr : r < fs.bootSector.bytesPerCluster) :
    readFileLoop fs st cs ((q * fs.bootSector.bytesPerCluster + r : Nat) : Int) buf =
      if cs.length ≤ q then .ret (.ok (buf ++ cs.flatMap contents))
      else if cs.length = q + 1 ∧ r ≤ L then .ret (.ok (buf ++ (cs.flatMap contents).take (q * L + r)))
      else .panic := by
  induction cs generalizing q buf with
  | nil => simp [readFileLoop]
  | cons c cs ih =>
    have hc := h2 c List.mem_cons_self
    unfold readFileLoop
    rw [h1 c List.mem_cons_self]
    simp only
    cases q with
    | zero =>
      have hn : ¬ (c :: cs).length ≤ 0 := by simp
      have hrb : (r : Int) < fs.bootSector.bytesPerCluster := by omega
      simp only [Nat.zero_mul, Nat.zero_add, hc, hn, if_false, hrb, if_true]
      by_cases hL : r ≤ L
      · have hnot : ¬ ((r : Int) < 0 ∨ (L : Int) < r) := by omega
        simp only [hnot, if_false]
        cases cs with
        | nil =>
          rw [if_pos ⟨rfl, hL⟩]
          simp [readFileLoop]
        | cons c2 cs =>
          rw [if_neg (by simp)]
          unfold readFileLoop
          rw [h1 c2 (by simp)]
          simp only
          rw [if_pos (by omega), if_pos (by omega)]
      · have hyes : (r : Int) < 0 ∨ (L : Int) < r := by omega
        simp [hyes, hL]
    | succ q =>
      have hm : (q + 1) * fs.bootSector.bytesPerCluster = q * fs.bootSector.bytesPerCluster + fs.bootSector.bytesPerCluster := by
        rw [Nat.add_mul, Nat.one_mul]
      have hmL : (q + 1) * L = q * L + L := by rw [Nat.add_mul, Nat.one_mul]
      rw [hm, if_neg (by omega), show ((q * fs.bootSector.bytesPerCluster + fs.bootSector.bytesPerCluster + r : Nat) : Int) -
        (fs.bootSector.bytesPerCluster : Int) = ((q * fs.bootSector.bytesPerCluster + r : Nat) : Int) by omega]
      rw [ih q (buf ++ contents c) (fun x hx => h1 x (List.mem_cons_of_mem _ hx)) (fun x hx => h2 x (List.mem_cons_of_mem _ hx))]
      simp only [List.length_cons, Nat.add_le_add_iff_right, Nat.add_right_cancel_iff, List.flatMap_cons, List.append_assoc]
      rw [List.take_append, List.take_of_length_le (l := contents c) (by omega), hc,
        show (q + 1) * L + r - L = q * L + r by omega]

/-- 600 bytes in a chain of three clusters of 512: a cluster more than needed; and in a chain of one: less is returned than the file has. -/
example : readFileLoop { exFS with bootSector := { exampleBoot with bytesPerCluster := 512 } } exState [2, 5, 5] 600 [] = .panic ∧
    readFileLoop { exFS with bootSector := { exampleBoot with bytesPerCluster := 512 } } exState [2] 600 [] =
    .ret (.ok (List.replicate 512 7)) := by decide +kernel

/-! ### C80: reading a cluster -/

/-- C80: reading cluster `c` reads the whole cluster, at the place where Microsoft's layout puts it
(cluster 2 is the first of the data area). -/
def C80_statement : Prop :=
  ∀ (σ : Type) (fs : FS σ) (st : σ) (c : UInt32) (disk : Bytes), 2 ≤ c.toNat →
    (∀ off n, fs.readAt st off n = (slice disk off.toNat n, none)) →
    let bs := fs.bootSector
    let start := (bs.firstDataSector.toNat + (c.toNat - 2) * bs.raw.sectorsPerCluster.toNat) * bs.raw.bytesPerSector.toNat
    start + bs.bytesPerCluster ≤ disk.length → readCluster fs st c = .ok (slice disk start bs.bytesPerCluster)

/-- A volume with 2-sector clusters and a disk whose bytes tell sectors apart. -/
def twoSector : FS ExState :=
  { exFS with
    bootSector := { exampleBoot with raw := { floppy with sectorsPerCluster := 2, bytesPerSector := 512 }, bytesPerCluster := 1024, firstDataSector := 1 }
    readAt := fun _ off n => (slice (List.replicate 4096 0) off.toNat n, none) }

theorem slice_len_le (d : Bytes) (a n : Nat) : (slice d a n).length ≤ n := List.length_take_le _ _

theorem twoSector_read (off : Int) (n : Nat) (b : Bytes) (e : Option Err) (h : twoSector.readAt exState off n = (b, e)) : b.length ≤ n := by
  have h1 : (slice (List.replicate 4096 (0 : UInt8)) off.toNat n, (none : Option Err)) = (b, e) := h
  generalize List.replicate 4096 (0 : UInt8) = L at h1
  cases h1
  exact slice_len_le _ _ _

theorem C80_refuted : ¬ C80_statement := by
  intro h
  have := h ExState twoSector exState 2 (List.replicate 4096 0) (by decide) (fun _ _ => rfl) (by
    rw [List.length_replicate]; decide)
  have hl : ∀ b, readCluster twoSector exState 2 = .ok b → b.length ≤ 512 := by
    intro b hb
    unfold readCluster readAbsoluteSectors at hb
    simp only at hb
    split at hb
    · cases hb
    · rename_i b' hb'
      split at hb
      · cases hb
      · cases hb
        exact twoSector_read _ _ _ _ hb'
  have := hl _ this
  rw [show twoSector.bootSector.bytesPerCluster = 1024 from rfl] at this
  have e : (slice (List.replicate 4096 (0 : UInt8)) ((twoSector.bootSector.firstDataSector.toNat + ((2 : UInt32).toNat - 2) * twoSector.bootSector.raw.sectorsPerCluster.toNat) * twoSector.bootSector.raw.bytesPerSector.toNat) 1024).length = 1024 := by
    unfold slice
    rw [List.length_take, List.length_drop, List.length_replicate]
    decide
  omega

theorem read_len (o b l : Nat) : min b (l - o) < b ↔ ¬ (o + b ≤ l ∨ b = 0) := by omega
theorem toNat_cast (o : Nat) : ((o : Int)).toNat = o := rfl

/-- C80, exactly: one sector is read, at the first sector of the cluster (counted from cluster 0 rather than 2, with 32 bits) times the number of
sectors in a cluster. -/
theorem C80_what_is_read_partial (fs : FS σ) (st : σ) (c : UInt32) (disk : Bytes)
    (hd : ∀ off n, fs.readAt st off n = (slice disk off.toNat n, none)) :
    let bs := fs.bootSector
    let sector := (bs.firstDataSector.toNat + bs.raw.sectorsPerCluster.toNat * c.toNat) % 2 ^ 32
    let off := bs.raw.bytesPerSector.toNat * sector * bs.raw.sectorsPerCluster.toNat
    readCluster fs st c =
      if off + bs.raw.bytesPerSector.toNat ≤ disk.length ∨ bs.raw.bytesPerSector = 0 then .ok (slice disk off bs.raw.bytesPerSector.toNat)
      else .error (.foreign 0) := by
  intro bs sector off
  have hs : (getFirstSectorOfCluster fs c).toNat = sector := by
    unfold getFirstSectorOfCluster
    rw [UInt32.toNat_add, UInt32.toNat_mul]
    have e : fs.bootSector.raw.sectorsPerCluster.toUInt32.toNat = fs.bootSector.raw.sectorsPerCluster.toNat := by simp
    rw [e]
    show _ = (bs.firstDataSector.toNat + bs.raw.sectorsPerCluster.toNat * c.toNat) % 2 ^ 32
    exact Nat.add_mod_mod _ _ _
  have hov : sector < 2 ^ 32 := Nat.mod_lt _ (by decide)
  have hb := bs.raw.bytesPerSector.toNat_lt
  have hp := bs.raw.sectorsPerCluster.toNat_lt
  have hoff1 : bs.raw.bytesPerSector.toNat * sector < 2 ^ 48 := by
    calc _ ≤ 2 ^ 16 * sector := Nat.mul_le_mul_right _ (by omega)
      _ < 2 ^ 48 := by omega
  have hoff2 : off < 2 ^ 56 := by
    calc off ≤ bs.raw.bytesPerSector.toNat * sector * 2 ^ 8 := Nat.mul_le_mul_left _ (by omega)
      _ < 2 ^ 56 := by omega
  unfold readCluster readAbsoluteSectors
  simp only
  rw [hs]
  have e1 : i64 ((fs.bootSector.raw.bytesPerSector.toNat : Int) * ((sector : Nat) : Int)) =
      ((bs.raw.bytesPerSector.toNat * sector : Nat) : Int) := by
    rw [show (fs.bootSector.raw.bytesPerSector.toNat : Int) * ((sector : Nat) : Int)
      = ((bs.raw.bytesPerSector.toNat * sector : Nat) : Int) from (Int.natCast_mul _ _).symm]
    exact i64_of_range (by omega) (by omega)
  have e2 : i64 (((bs.raw.bytesPerSector.toNat * sector : Nat) : Int) * (fs.bootSector.raw.sectorsPerCluster.toNat : Int)) = (off : Int) := by
    rw [show ((bs.raw.bytesPerSector.toNat * sector : Nat) : Int) * (fs.bootSector.raw.sectorsPerCluster.toNat : Int) = (off : Int) from (Int.natCast_mul _ _).symm]
    exact i64_of_range (by omega) (by omega)
  rw [e1, e2, hd]
  simp only
  rw [toNat_cast]
  have hl : (slice disk off fs.bootSector.raw.bytesPerSector.toNat).length = min fs.bootSector.raw.bytesPerSector.toNat (disk.length - off) := by
    unfold slice; rw [List.length_take, List.length_drop]
  rw [hl]
  have key := read_len off bs.raw.bytesPerSector.toNat disk.length
  have hz : bs.raw.bytesPerSector = 0 ↔ bs.raw.bytesPerSector.toNat = 0 :=
    ⟨fun h => by rw [h]; rfl, fun h => UInt16.toNat_inj.mp h⟩
  by_cases hc : off + bs.raw.bytesPerSector.toNat ≤ disk.length ∨ bs.raw.bytesPerSector = 0
  · rw [if_pos hc]
    refine if_neg ?_
    rw [hz] at hc
    exact fun h => key.mp h hc
  · rw [if_neg hc]
    refine if_pos ?_
    rw [hz] at hc
    exact key.mpr hc

/-! ### C78, C79: Chmod and Chtimes -/

/-- C78: Chmod hands the driver the entry it found with its write permission set for all or cleared
for all, according to whether anyone has write permission in the mode; all else is unchanged. -/
theorem C78_chmod (fs : FS σ) (st : σ) (path : Str) (mode : FileMode) (fuel : Nat) (d : Dirent)
    (hr : resolvePathToDirent cfg fuel fs st path = .ret (.ok d)) :
    ∃ d' : Dirent, chmod cfg fuel fs st path mode = .ret (fs.updateDirent st d') ∧
      (mode &&& 0o222#32 = 0#32 → d'.stat.modeFlags &&& 0o222#32 = 0#32) ∧
      (mode &&& 0o222#32 ≠ 0#32 → d'.stat.modeFlags &&& 0o222#32 = 0o222#32) ∧
      d'.stat.modeFlags &&& ~~~0o222#32 = d.stat.modeFlags &&& ~~~0o222#32 ∧
      d' = { d with stat := { d.stat with modeFlags := d'.stat.modeFlags } } := by
  refine ⟨{ d with stat := { d.stat with modeFlags := if mode &&& 0b010010010#32 = 0 then d.stat.modeFlags &&& ~~~0b010010010#32 else d.stat.modeFlags ||| 0b010010010#32 } }, ?_, ?_, ?_, ?_, rfl⟩
  · unfold chmod; rw [hr]; rfl
  · intro h
    have h' : mode &&& 0b010010010#32 = 0 := h
    simp only
    rw [if_pos h']
    generalize d.stat.modeFlags = m
    rw [BitVec.and_assoc, show ~~~0b010010010#32 &&& 0o222#32 = 0#32 by decide, BitVec.and_zero]
  · intro h
    have h' : ¬ mode &&& 0b010010010#32 = 0 := h
    simp only
    rw [if_neg h']
    generalize d.stat.modeFlags = m
    apply BitVec.eq_of_getLsbD_eq
    intro i hi
    rw [BitVec.getLsbD_and, BitVec.getLsbD_or]
    show ((m.getLsbD i || (0o222#32).getLsbD i) && (0o222#32).getLsbD i) = (0o222#32).getLsbD i
    cases m.getLsbD i <;> cases (0o222#32).getLsbD i <;> rfl
  · simp only
    generalize d.stat.modeFlags = m
    apply BitVec.eq_of_getLsbD_eq
    intro i hi
    split
    · simp only [BitVec.getLsbD_and]
      show ((m.getLsbD i && (~~~0o222#32).getLsbD i) && (~~~0o222#32).getLsbD i) = _
      cases m.getLsbD i <;> cases (~~~0o222#32).getLsbD i <;> rfl
    · simp only [BitVec.getLsbD_and, BitVec.getLsbD_or, BitVec.getLsbD_not, hi]
      show ((m.getLsbD i || (0o222#32).getLsbD i) && (decide True && !(0o222#32).getLsbD i)) = (m.getLsbD i && (decide True && !(0o222#32).getLsbD i))
      cases m.getLsbD i <;> cases (0o222#32).getLsbD i <;> rfl

/-- C78: Chmod on a file makes it read-only (attribute bit 0) exactly when no one has write
permission in the mode. -/
def C78_attribute_statement : Prop :=
  ∀ (σ : Type) (fs : FS σ) (st : σ) (path : Str) (mode : FileMode) (fuel : Nat) (d : Dirent),
    resolvePathToDirent shipped fuel fs st path = .ret (.ok d) →
    ∃ d' : Dirent, chmod shipped fuel fs st path mode = .ret (fs.updateDirent st d') ∧
      (d'.attributeFlags % 2 = 1 ↔ mode &&& 0o222#32 = 0#32)

/-- A driver that keeps the entry it is given to update. -/
def keepFS : FS (Option Dirent) :=
  { bootSector := exampleBoot, getClusterAtIndex := fun _ _ => .error .ioFailed, isValidCluster := fun _ => true,
    isEndOfChain := fun _ => true, listRootDirectory := fun _ => .ok [], freeCluster := fun s _ => (s, none),
    updateDirent := fun _ d => (some d, none), deleteDirent := fun s _ _ => (s, none), readAt := fun _ _ _ => ([], none) }

theorem keep_resolve (st : Option Dirent) (fuel : Nat) : resolvePathToDirent shipped fuel keepFS st (str! "X") = .ret (.ok Dirent.zero) := rfl

theorem C78_attribute_refuted : ¬ C78_attribute_statement := by
  intro h
  obtain ⟨d', h1, h2⟩ := h _ keepFS none (str! "X") 0#32 1 Dirent.zero (keep_resolve none 1)
  have h3 := h2.mpr (by decide)
  have h4 : d'.attributeFlags = 0 := by
    have e : chmod shipped 1 keepFS none (str! "X") 0#32 = .ret (some Dirent.zero, none) := by decide +kernel
    rw [e] at h1
    have : some Dirent.zero = some d' := congrArg Prod.fst (Outcome.ret.inj h1)
    cases this
    rfl
  omega

example : ∃ d, resolvePathToDirent shipped 9 exFS exState2 (str! "NO.SUC") = .ret (.ok d) := ⟨Dirent.zero, by decide +kernel⟩

/-- C79: Chtimes fails if either time is before the FAT epoch. -/
def C79_statement : Prop :=
  ∀ (σ : Type) (epoch : Time) (fs : FS σ) (st : σ) (path : Str) (a m : Time) (fuel : Nat), a < epoch ∨ m < epoch →
    ∀ st', chtimes shipped epoch fuel fs st path a m ≠ .ret (st', none)

theorem C79_refuted : ¬ C79_statement := by
  intro h
  exact h _ 0 keepFS none (str! "X") (-1) (-1) 1 (.inl (by decide)) (some Dirent.zero) rfl

/-- C79, what Chtimes does: each time that is not before the epoch is stored, the others are left
alone, nothing else changes, and the only errors are those of looking up the path and of the driver. -/
theorem C79_chtimes_partial (epoch : Time) (fs : FS σ) (st : σ) (path : Str) (a m : Time) (fuel : Nat) (d : Dirent)
    (hr : resolvePathToDirent cfg fuel fs st path = .ret (.ok d)) :
    chtimes cfg epoch fuel fs st path a m = .ret (fs.updateDirent st
      { d with
        stat := { d.stat with
          lastAccessed := if a < epoch then d.stat.lastAccessed else a
          lastModified := if m < epoch then d.stat.lastModified else m } }) := by
  unfold chtimes
  rw [hr]
  show Outcome.ret _ = _
  unfold Dirent.setLastModifiedAt Dirent.setLastAccessedAt
  by_cases ha : a < epoch <;> by_cases hm : m < epoch <;> simp [ha, hm]

end Disko.Fat

import Verif.Stream.Props11
/-! Histories without Sync, and what one Sync at the end then stores (for C154). -/
namespace Disko.Stream.Reference
open Disko Disko.BlockCache Disko.BlockCache.Spec Disko.Stream Disko.Stream.Spec

/-- The least number of bytes (in whole blocks) that the object has during a history. -/
def Machine.lowest : Machine → List Call → Nat
  | m, [] => m.object.length
  | m, c :: cs =>
    match m.call c with
    | some (m', _) => min m.object.length (lowest m' cs)
    | none => m.object.length

/-- The first `low` bytes are stored as they were, the others wait. -/
def Waiting (d : Bytes) (low n : Nat) (s : Stored) : Prop :=
  low ≤ n ∧ low ≤ d.length ∧ ∀ k, s[k]? = if k < n then some (if k < low then d[k]? else none) else none

theorem Waiting.length {d : Bytes} {low n : Nat} {s : Stored} (h : Waiting d low n s) : s.length = n := by
  have h1 := h.2.2 n
  have h2 := h.2.2 s.length
  rw [if_neg (Nat.lt_irrefl n)] at h1
  rw [List.getElem?_eq_none (Nat.le_refl _)] at h2
  rw [List.getElem?_eq_none_iff] at h1
  split at h2
  · cases h2
  · omega

theorem Waiting.resized {d : Bytes} {low n n' : Nat} {s : Stored} (h : Waiting d low n s) : Waiting d (min low n') n' (Stored.resized s n') := by
  refine ⟨Nat.min_le_right _ _, Nat.le_trans (Nat.min_le_left _ _) h.2.1, fun k => ?_⟩
  unfold Stored.resized
  rw [h.length]
  by_cases hk : k < n'
  · rw [if_pos hk]
    by_cases hn : k < n
    · rw [List.getElem?_append_left (by rw [List.length_take, h.length]; omega), List.getElem?_take_of_lt hk, h.2.2, if_pos hn]
      by_cases hl : k < low
      · rw [if_pos hl, if_pos (by omega)]
      · rw [if_neg hl, if_neg (by omega)]
    · rw [List.getElem?_append_right (by rw [List.length_take, h.length]; omega), List.length_take, h.length, List.getElem?_replicate, if_pos (by omega), if_neg (by have := h.1; omega)]
  · rw [if_neg hk, List.getElem?_eq_none (by rw [List.length_append, List.length_take, h.length, List.length_replicate]; omega)]

theorem Waiting.grow {d : Bytes} {low n n' : Nat} {s : Stored} (h : Waiting d low n s) (hn : n ≤ n') : Waiting d low n' (Stored.resized s n') := by
  have := h.resized (n' := n')
  rwa [Nat.min_eq_left (by have := h.1; omega)] at this

theorem length_fit (d : Bytes) (n : Nat) : (fit d n).length = n := by
  unfold fit
  rw [List.length_append, List.length_take, List.length_replicate]; omega

theorem le_whole {block : Nat} (hb : 0 < block) (n : Nat) : n ≤ whole block n := by
  unfold whole
  have := Nat.div_add_mod (n + (block - 1)) block
  have := Nat.mod_lt (n + (block - 1)) hb
  rw [Nat.mul_comm]
  omega

theorem put_length {m : Machine} (hb : 0 < m.block) (buf : Bytes) (off : Nat) :
    (m.put buf off).1.object.length = if m.canWrite = false ∨ 2 ^ 63 ≤ off + buf.length ∨ off + buf.length < m.object.length then m.object.length else whole m.block (off + buf.length) := by
  unfold Machine.put
  simp only
  have hg : (m.grow (off + buf.length)).object.length = if off + buf.length < m.object.length then m.object.length else whole m.block (off + buf.length) := by
    unfold Machine.grow
    split
    · rfl
    · exact length_fit _ _
  cases hw : m.canWrite with
  | false => simp only [Bool.not_false, if_true, true_or]
  | true =>
    simp only [Bool.not_true, Bool.false_eq_true, if_false, false_or, Bool.true_eq_false]
    by_cases h1 : 2 ^ 63 ≤ off + buf.length
    · rw [if_pos h1, if_pos (.inl h1)]
    · rw [if_neg h1]
      have e : (if 2 ^ 63 ≤ off + buf.length ∨ off + buf.length < m.object.length then m.object.length else whole m.block (off + buf.length)) =
          (m.grow (off + buf.length)).object.length := by
        rw [hg]
        by_cases h2 : off + buf.length < m.object.length
        · rw [if_pos h2, if_pos (.inr h2)]
        · rw [if_neg h2, if_neg (by omega)]
      rw [e]
      split
      · next hfit =>
        have hlast : off + buf.length < ((off + buf.length) / m.block + 1) * m.block := by
          have := Nat.lt_div_mul_add (a := off + buf.length) hb
          rw [Nat.add_mul]; omega
        have hle : ((off + buf.length) / m.block + 1) * m.block ≤ (off / m.block + ((off + buf.length) / m.block + 1)) * m.block := Nat.mul_le_mul_right _ (Nat.le_add_left _ _)
        simp only [List.length_append, List.length_take, List.length_drop]
        omega
      · rfl

/-- One write. -/
theorem Waiting.put {d : Bytes} {low : Nat} {m : Machine} (hb : 0 < m.block) (hs : m.syncs = false) {s : Stored} (h : Waiting d low m.object.length s) (buf : Bytes) (off : Nat) :
    Waiting d low (m.put buf off).1.object.length (Stored.put m s buf off) ∧ m.object.length ≤ (m.put buf off).1.object.length := by
  rw [put_length hb]
  unfold Stored.put
  simp only [hs, Bool.false_eq_true, and_false, if_false]
  by_cases h1 : m.canWrite = false ∨ 2 ^ 63 ≤ off + buf.length
  · rw [if_pos h1, if_pos (by rcases h1 with h1 | h1; exact .inl h1; exact .inr (.inl h1))]
    exact ⟨h, Nat.le_refl _⟩
  · rw [if_neg h1]
    by_cases h2 : off + buf.length < m.object.length
    · rw [if_pos h2, if_pos (.inr (.inr h2))]
      exact ⟨h, Nat.le_refl _⟩
    · rw [if_neg h2, if_neg (by rintro (h3 | h3 | h3); exact h1 (.inl h3); exact h1 (.inr h3); exact h2 h3)]
      have := le_whole hb (off + buf.length)
      exact ⟨h.grow (by omega), by omega⟩

theorem write_object (m : Machine) (buf : Bytes) : (m.write buf).1.object = (m.put buf (if m.appends then m.size else m.pos)).1.object := by
  unfold Machine.write
  split
  · next h => unfold Machine.put; simp only [h, if_true]
  · rfl

theorem put_mode (m : Machine) (buf : Bytes) (off : Nat) : (m.put buf off).1.block = m.block ∧ (m.put buf off).1.syncs = m.syncs := by
  unfold Machine.put Machine.grow
  simp only
  repeat' split
  all_goals exact ⟨rfl, rfl⟩

theorem write_mode (m : Machine) (buf : Bytes) : (m.write buf).1.block = m.block ∧ (m.write buf).1.syncs = m.syncs := by
  unfold Machine.write
  split
  · exact ⟨rfl, rfl⟩
  · exact put_mode m buf _

theorem Waiting.write {d : Bytes} {low : Nat} {m : Machine} (hb : 0 < m.block) (hs : m.syncs = false) {s : Stored} (h : Waiting d low m.object.length s) (buf : Bytes) :
    Waiting d low (m.write buf).1.object.length (Stored.write m s buf) ∧ m.object.length ≤ (m.write buf).1.object.length := by
  rw [write_object]
  exact h.put hb hs buf _

theorem Waiting.readFrom {Q : Type} (src : Source Q) (buffer : Nat) {d : Bytes} {low : Nat} : ∀ (fuel : Nat) (m : Machine) (q : Q) (tot : Int) (s : Stored), 0 < m.block → m.syncs = false →
    Waiting d low m.object.length s → ∀ {m' n e}, Machine.readFrom src buffer fuel m q tot = some (m', n, e) →
    Waiting d low m'.object.length (Stored.readFrom src buffer fuel m q s) ∧ m.object.length ≤ m'.object.length ∧ m'.block = m.block ∧ m'.syncs = m.syncs := by
  intro fuel
  induction fuel with
  | zero => intro m q tot s _ _ _ m' n e he; cases he
  | succ fuel ih =>
    intro m q tot s hb hs h m' n e he
    unfold Machine.readFrom at he
    unfold Stored.readFrom
    rcases hr : src.read q buffer with ⟨q', chunk, re⟩
    rw [hr] at he
    simp only at he ⊢
    have hw := h.write hb hs chunk
    obtain ⟨hm1, hm2⟩ := write_mode m chunk
    rcases hwr : m.write chunk with ⟨m1, n1, we⟩
    rw [hwr] at he hw hm1 hm2
    simp only at he hw hm1 hm2 ⊢
    rcases re with _ | re
    · rcases we with _ | we
      · simp only [and_self, if_true] at he ⊢
        obtain ⟨i1, i2, i3, i4⟩ := ih m1 q' _ _ (by omega) (by rw [hm2]; exact hs) hw.1 he
        exact ⟨i1, by omega, by omega, by rw [i4, hm2]⟩
      · cases he
        rw [if_neg (by rintro ⟨_, h⟩; cases h)]
        exact ⟨hw.1, hw.2, hm1, hm2⟩
    · rw [if_neg (by rintro ⟨h, _⟩; cases h)]
      rcases re with _ | z <;> cases he <;> exact ⟨hw.1, hw.2, hm1, hm2⟩

/-- One call other than Sync. -/
theorem Waiting.call {d : Bytes} {low : Nat} {m : Machine} (hb : 0 < m.block) (hs : m.syncs = false) {s : Stored} (h : Waiting d low m.object.length s) {c : Call} (hc : c ≠ .sync)
    {m' : Machine} {a : Answer} (he : m.call c = some (m', a)) :
    Waiting d (min low m'.object.length) m'.object.length (Stored.call m s c) ∧ 0 < m'.block ∧ m'.syncs = false := by
  have same : ∀ {m' : Machine} {s' : Stored}, Waiting d low m'.object.length s' → Waiting d (min low m'.object.length) m'.object.length s' :=
    fun h => by rw [Nat.min_eq_left h.1]; exact h
  cases c with
  | sync => exact absurd rfl hc
  | read buf =>
    cases he
    have e : (m.read buf).1.object = m.object ∧ (m.read buf).1.block = m.block ∧ (m.read buf).1.syncs = m.syncs := by
      unfold Machine.read; simp only; split <;> exact ⟨rfl, rfl, rfl⟩
    refine ⟨same ?_, by rw [e.2.1]; exact hb, by rw [e.2.2]; exact hs⟩
    rw [e.1]; exact h
  | readAt buf off => cases he; exact ⟨same h, hb, hs⟩
  | seek off wh =>
    cases he
    have e : (m.seek off wh).1.object = m.object ∧ (m.seek off wh).1.block = m.block ∧ (m.seek off wh).1.syncs = m.syncs := by
      unfold Machine.seek; simp only; split
      · split <;> exact ⟨rfl, rfl, rfl⟩
      · exact ⟨rfl, rfl, rfl⟩
    refine ⟨same ?_, by rw [e.2.1]; exact hb, by rw [e.2.2]; exact hs⟩
    rw [e.1]; exact h
  | truncate n =>
    cases he
    show Waiting _ _ _ (Stored.truncate m s n) ∧ _
    by_cases h1 : m.canWrite = false ∨ n < 0
    · have e1 : (m.truncate n).1 = m := by
        unfold Machine.truncate
        rcases h1 with h1 | h1
        · rw [h1]; rfl
        · split
          · rfl
          · rfl
      have e2 : Stored.truncate m s n = s := if_pos h1
      rw [e1, e2]; exact ⟨same h, hb, hs⟩
    · have h1' : m.canWrite = true := by cases h : m.canWrite <;> first | rfl | exact absurd (.inl h) h1
      have e1 : (m.truncate n).1 = { m with object := fit m.object (whole m.block n.toNat), size := n.toNat } := by
        unfold Machine.truncate
        rw [h1', if_neg (by decide), if_neg (fun h => h1 (.inr h))]
      have e2 : Stored.truncate m s n = Stored.resized s (whole m.block n.toNat) := by
        unfold Stored.truncate
        rw [if_neg h1, hs]; rfl
      rw [e1, e2]
      refine ⟨?_, hb, hs⟩
      show Waiting d (min low (fit m.object (whole m.block n.toNat)).length) (fit m.object (whole m.block n.toNat)).length _
      rw [length_fit]
      exact h.resized
  | write buf =>
    cases he
    obtain ⟨hm1, hm2⟩ := write_mode m buf
    exact ⟨same (h.write hb hs buf).1, by rw [hm1]; exact hb, by rw [hm2]; exact hs⟩
  | writeAt buf off =>
    cases he
    show Waiting _ _ _ (Stored.writeAt m s buf off.toNat) ∧ _
    unfold Machine.writeAt Stored.writeAt
    split
    · exact ⟨same h, hb, hs⟩
    · obtain ⟨hm1, hm2⟩ := put_mode m buf off.toNat
      exact ⟨same (h.put hb hs buf _).1, by rw [hm1]; exact hb, by rw [hm2]; exact hs⟩
  | writeTo k w fuel =>
    simp only [Machine.call, Option.map_eq_some_iff] at he
    obtain ⟨r, hr, he⟩ := he
    cases he
    unfold Machine.writeTo at hr
    have e : r.1.object = m.object ∧ r.1.block = m.block ∧ r.1.syncs = m.syncs := by
      split at hr
      · cases hr
      · split at hr
        · cases hr; exact ⟨rfl, rfl, rfl⟩
        · split at hr <;> cases hr
          exact ⟨rfl, rfl, rfl⟩
    refine ⟨same ?_, by rw [e.2.1]; exact hb, by rw [e.2.2]; exact hs⟩
    rw [e.1]; exact h
  | readFrom src q bs fuel =>
    show Waiting _ _ _ (if m.canWrite then _ else s) ∧ _
    unfold Machine.call at he
    cases hw : m.canWrite with
    | false => simp only [hw, Bool.not_false, if_true] at he; cases he; exact ⟨same h, hb, hs⟩
    | true =>
      simp only [hw, Bool.not_true, Bool.false_eq_true, if_false, Option.map_eq_some_iff] at he
      obtain ⟨r, hr, he⟩ := he
      cases he
      obtain ⟨i1, _, i3, i4⟩ := Waiting.readFrom src bs fuel m q 0 s hb hs h hr
      exact ⟨same i1, by omega, by rw [i4]; exact hs⟩

/-- A history without Sync. -/
theorem Waiting.run (d : Bytes) (cs : List Call) : ∀ {m : Machine} {low : Nat} {s : Stored}, 0 < m.block → m.syncs = false → Waiting d low m.object.length s → (∀ c ∈ cs, c ≠ .sync) →
    ∀ {m' as}, m.run cs = some (m', as) → Waiting d (min low (m.lowest cs)) m'.object.length (Stored.run m s cs) := by
  induction cs with
  | nil =>
    intro m low s _ _ h _ m' as hr
    cases hr
    show Waiting d (min low m.object.length) _ s
    rw [Nat.min_eq_left h.1]; exact h
  | cons c cs ih =>
    intro m low s hb hs h hno m' as hr
    simp only [Machine.run] at hr
    rcases hc : m.call c with _ | ⟨m1, a1⟩
    · rw [hc] at hr; cases hr
    · rw [hc] at hr
      simp only [Option.bind_eq_bind, Option.bind_some] at hr
      rcases hr1 : m1.run cs with _ | ⟨m2, as2⟩
      · rw [hr1] at hr; cases hr
      · rw [hr1] at hr
        cases hr
        obtain ⟨w1, w2, w3⟩ := h.call hb hs (hno c List.mem_cons_self) hc
        have w4 := ih w2 w3 w1 (fun c hc => hno c (List.mem_cons_of_mem _ hc)) hr1
        simp only [Stored.run, Machine.lowest, hc]
        have hlow : m1.lowest cs ≤ m1.object.length := by
          cases cs with
          | nil => exact Nat.le_refl _
          | cons c cs => simp only [Machine.lowest]; split <;> omega
        have := h.1
        rw [show min low (min m.object.length (m1.lowest cs)) = min (min low m1.object.length) (m1.lowest cs) by omega]
        exact w4

/-- What a Sync then makes of it. -/
theorem Waiting.flushed {d object : Bytes} {low : Nat} {s : Stored} (h : Waiting d low object.length s) :
    Stored.flushed object s = Stored.all (d.take low ++ object.drop low) := by
  have h1 := h.1
  have h2 := h.2.1
  apply List.ext_getElem?
  intro k
  rw [getElem?_flushed]
  unfold Stored.all
  rw [List.getElem?_map, h.2.2]
  by_cases hk : k < object.length
  · rw [List.getElem?_eq_getElem hk, if_pos hk]
    by_cases hl : k < low
    · rw [if_pos hl, List.getElem?_append_left (by rw [List.length_take]; omega), List.getElem?_take_of_lt hl, List.getElem?_eq_getElem (by omega : k < d.length)]
      rfl
    · rw [if_neg hl, List.getElem?_append_right (by rw [List.length_take]; omega), List.length_take, List.getElem?_drop, Nat.min_eq_left h2,
        show low + (k - low) = k by omega, List.getElem?_eq_getElem hk]
      rfl
  · rw [if_neg hk, List.getElem?_eq_none (l := object) (by omega), List.getElem?_eq_none (l := List.take low d ++ List.drop low object) (by rw [List.length_append, List.length_take, List.length_drop]; omega)]
    rfl

theorem waiting_all {d : Bytes} : Waiting d d.length d.length (Stored.all d) := by
  refine ⟨Nat.le_refl _, Nat.le_refl _, fun k => ?_⟩
  unfold Stored.all
  rw [List.getElem?_map]
  by_cases hk : k < d.length
  · rw [if_pos hk, if_pos hk, List.getElem?_eq_getElem hk]; rfl
  · rw [if_neg hk, List.getElem?_eq_none (by omega)]; rfl

/-- What a Sync at the end of a history does. -/
theorem run_sync (cs : List Call) : ∀ (m : Machine) (q : Stored) {m1 : Machine} {as1}, m.run cs = some (m1, as1) → Stored.run m q (cs ++ [.sync]) = Stored.flushed m1.object (Stored.run m q cs) := by
  induction cs with
  | nil => intro m q m1 as1 h; cases h; rfl
  | cons c cs ih =>
    intro m q m1 as1 h
    simp only [Machine.run] at h
    rcases hc : m.call c with _ | ⟨m2, a2⟩
    · rw [hc] at h; cases h
    · rw [hc] at h
      simp only [Option.bind_eq_bind, Option.bind_some] at h
      rcases h2 : m2.run cs with _ | ⟨m3, as3⟩
      · rw [h2] at h; cases h
      · rw [h2] at h
        cases h
        simp only [List.cons_append, Stored.run, hc]
        exact ih m2 _ h2

end Disko.Stream.Reference

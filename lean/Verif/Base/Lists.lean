import Verif.Base.Go
/-! Helper lemmas on byte slices. -/
namespace Disko

theorem getElem?_slice (d : Bytes) (off len k : Nat) :
    (slice d off len)[k]? = if k < len then d[off + k]? else none := by
  unfold slice
  rw [List.getElem?_take]; split <;> simp

theorem length_slice (d : Bytes) (off len : Nat) :
    (slice d off len).length = min len (d.length - off) := by simp [slice]

theorem length_slice_of_le {d : Bytes} {off len : Nat} (h : off + len ≤ d.length) :
    (slice d off len).length = len := by rw [length_slice]; omega

theorem getElem?_splice {d : Bytes} {off : Nat} {v : Bytes} (h : off ≤ d.length) (k : Nat) :
    (splice d off v)[k]? =
      if k < off then d[k]? else if k < off + v.length then v[k - off]? else d[k]? := by
  unfold splice
  rw [List.append_assoc, List.getElem?_append, List.length_take, Nat.min_eq_left h]
  by_cases h1 : k < off
  · simp [h1]
  · rw [if_neg h1, if_neg h1, List.getElem?_append]
    by_cases h2 : k < off + v.length
    · rw [if_pos h2, if_pos (by omega)]
    · rw [if_neg h2, if_neg (by omega), List.getElem?_drop]
      congr 1; omega

theorem getElem?_splice_in {d : Bytes} {off : Nat} {v : Bytes} {k : Nat} (h : off ≤ d.length) (h1 : off ≤ k)
    (h2 : k < off + v.length) : (splice d off v)[k]? = v[k - off]? := by
  rw [getElem?_splice h, if_neg (by omega), if_pos h2]

theorem length_splice {d : Bytes} {off : Nat} {v : Bytes} (h : off + v.length ≤ d.length) :
    (splice d off v).length = d.length := by
  simp [splice]; omega

theorem getElem?_goCopy (dst src : Bytes) (k : Nat) :
    (goCopy dst src)[k]? = if k < src.length ∧ k < dst.length then src[k]? else dst[k]? := by
  unfold goCopy
  rw [List.getElem?_append, List.length_take]
  by_cases h : k < src.length ∧ k < dst.length
  · rw [if_pos (by omega), if_pos h, List.getElem?_take, if_pos h.2]
  · rw [if_neg h]
    by_cases h2 : k < min dst.length src.length
    · omega
    · rw [if_neg h2, List.getElem?_drop]
      by_cases h3 : src.length ≤ dst.length
      · congr 1; omega
      · rw [List.getElem?_eq_none (by omega), List.getElem?_eq_none (by omega)]

theorem slice_eq_of_getElem? {d : Bytes} {off len : Nat} {v : Bytes} (hv : v.length = len)
    (h : ∀ k, k < len → v[k]? = d[off + k]?) : v = slice d off len := by
  apply List.ext_getElem?
  intro k
  rw [getElem?_slice]
  split
  · exact h k (by assumption)
  · exact List.getElem?_eq_none (by omega)

theorem slice_append_slice (d : Bytes) (off a b : Nat) :
    slice d off a ++ slice d (off + a) b = slice d off (a + b) := by
  apply List.ext_getElem?
  intro k
  rw [List.getElem?_append, getElem?_slice, getElem?_slice, getElem?_slice, length_slice]
  by_cases h1 : k < min a (d.length - off)
  · rw [if_pos h1, if_pos (by omega), if_pos (by omega)]
  · rw [if_neg h1]
    by_cases h3 : k < a
    · have h4 : d.length ≤ off + k := by omega
      rw [List.getElem?_eq_none (l := d) (i := off + k) h4]
      have h5 : d.length ≤ off + a + (k - min a (d.length - off)) := by omega
      rw [List.getElem?_eq_none (l := d) h5]; simp
    · by_cases h6 : d.length - off < a
      · have h4 : d.length ≤ off + k := by omega
        rw [List.getElem?_eq_none (l := d) (i := off + k) h4]
        have h5 : d.length ≤ off + a + (k - min a (d.length - off)) := by omega
        rw [List.getElem?_eq_none (l := d) h5]; simp
      · have e : min a (d.length - off) = a := by omega
        rw [e]
        have e2 : off + a + (k - a) = off + k := by omega
        rw [e2]
        by_cases h7 : k - a < b
        · rw [if_pos h7, if_pos (by omega)]
        · rw [if_neg h7, if_neg (by omega)]

@[simp] theorem slice_zero_length (d : Bytes) (off : Nat) : slice d off 0 = [] := by simp [slice]

theorem slice_all (d : Bytes) : slice d 0 d.length = d := by simp [slice]

@[simp] theorem splice_nil (d : Bytes) (off : Nat) : splice d off [] = d := by simp [splice]

/-- Byte `k` lies in block `i`. -/
theorem div_eq_block {k i n : Nat} (hn : 0 < n) : k / n = i ↔ i * n ≤ k ∧ k < i * n + n := by
  rw [Nat.div_eq_iff hn]
  constructor <;> intro h <;> omega

theorem block_end_le {i total n : Nat} (h : i < total) : i * n + n ≤ total * n := by
  have := Nat.mul_le_mul_right n (Nat.succ_le_of_lt h)
  rw [Nat.succ_mul] at this; exact this

end Disko

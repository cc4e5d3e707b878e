import Verif.Driver.Props6
import Verif.Driver.Props16
import Verif.BlockCache.Steps
import Verif.Stream.Lemmas
/-! What writing to an empty file and closing it does. -/
namespace Disko.Driver
open Disko Spec

variable {σ H S : Type}

namespace Spec

/-- Write `k` blocks of `b` bytes, taken from `bytes`, to the blocks number `i`, `i + 1`, ... of the object, in this order, stopping at the first that fails. -/
def putBlocks (impl : Impl σ H) (h : H) (b : Nat) : (k i : Nat) → (bytes : Bytes) → σ → σ × Option BlockCache.BErr
  | 0, _, _, s => (s, none)
  | k + 1, i, bytes, s => match impl.writeBlocks s h i (bytes.take b) with
    | (s', none) => putBlocks impl h b k (i + 1) (bytes.drop b) s'
    | (s', some e) => (s', some e)

/-- `bytes` filled up with null bytes to `n` bytes. -/
def fillUp (bytes : Bytes) (n : Nat) : Bytes := bytes ++ List.replicate (n - bytes.length) 0

end Spec

/-- All blocks of the cache are loaded. -/
structure AllLoaded (c : BlockCache.Cache) : Prop where
  pos : 0 < c.bpb
  cap : c.total * c.bpb ≤ maxInt
  data : c.data.length = c.total * c.bpb
  loadedLen : c.loaded.length = BlockCache.bitmapLen c.total
  dirtyLen : c.dirty.length = BlockCache.bitmapLen c.total
  loaded : ∀ i, i < c.total → BlockCache.Spec.isLoaded c i = true

theorem AllLoaded.wf {c : BlockCache.Cache} (h : AllLoaded c) (s : S) : BlockCache.Spec.WF (fun _ => c.data) (⟨c, s⟩ : BlockCache.St S) where
  bpb_pos := h.pos
  cap := h.cap
  data_len := h.data
  loaded_len := h.loadedLen
  dirty_len := h.dirtyLen
  dirty_loaded i hi _ := h.loaded i hi
  store := by rw [h.data]; exact Nat.le_refl _
  clean k hk _ := by unfold BlockCache.Spec.byteAt; split <;> rfl

theorem flushLoop_full (impl : Impl σ H) (x : H) : ∀ (n i : Nat) (c : BlockCache.Cache) (s : σ), AllLoaded c → i + n = c.total →
    (∀ j, i ≤ j → j < c.total → BlockCache.Spec.isDirty c j = true) →
    ∃ c' e, BlockCache.flushLoop (backendOf impl x) n i ⟨c, s⟩ = .ret (⟨c', (putBlocks impl x c.bpb n i (c.data.drop (i * c.bpb)) s).1⟩, e)
  | 0, i, c, s, _, _, _ => ⟨c, none, rfl⟩
  | n + 1, i, c, s, F, hi, hd => by
    have hlt : i < c.total := by omega
    have hlen : i < c.dirty.length := by rw [F.dirtyLen]; have := BlockCache.le_bitmapLen c.total; omega
    have hle : (i + 1) * c.bpb ≤ c.total * c.bpb := Nat.mul_le_mul_right _ hlt
    have hg : BlockCache.bitGet c.dirty i = .ret true := by
      have h := hd i (Nat.le_refl _) hlt
      unfold BlockCache.Spec.isDirty at h
      unfold BlockCache.bitGet
      rw [List.getD_eq_getElem?_getD, List.getElem?_eq_getElem hlen, Option.getD_some] at h
      rw [List.getElem?_eq_getElem hlen, h]
    have hs : BlockCache.getSlice (backendOf impl x) ⟨c, s⟩ i 1 = .ret (⟨c, s⟩, .ok ⟨i * c.bpb, c.bpb⟩) := by
      have := BlockCache.getSlice_loaded (b := backendOf impl x) (F.wf s) (start := i) (count := 1) ⟨hlt, by
        show i * c.bpb + 1 * c.bpb ≤ _
        rw [Nat.add_mul] at hle; exact hle⟩ (fun j _ hj2 => F.loaded j (by omega))
      simpa using this
    unfold BlockCache.flushLoop
    rw [hg, Outcome.bind_ret]
    simp only [Bool.not_true, Bool.false_eq_true, if_false]
    rw [hs, Outcome.bind_ret]
    simp only [BlockCache.Cache.peek, slice, putBlocks]
    rw [show (backendOf impl x).flush s i (List.take c.bpb (List.drop (i * c.bpb) c.data)) = impl.writeBlocks s x i (List.take c.bpb (List.drop (i * c.bpb) c.data)) from rfl]
    rcases impl.writeBlocks s x i (List.take c.bpb (List.drop (i * c.bpb) c.data)) with ⟨s', _ | e⟩
    · simp only
      rw [BlockCache.bitSet_eq hlen, Outcome.bind_ret]
      have ih := flushLoop_full impl x n (i + 1) { c with dirty := c.dirty.set i false } s'
        ⟨F.pos, F.cap, F.data, F.loadedLen, by rw [List.length_set]; exact F.dirtyLen, F.loaded⟩ (by simp only; omega) (by
          intro j h1 h2
          have h3 := hd j (by omega) h2
          simp only [BlockCache.Spec.isDirty] at h3 ⊢
          rw [BlockCache.getD_set _ _ _ _ hlen, if_neg (by omega)]
          exact h3)
      obtain ⟨c', e, h⟩ := ih
      refine ⟨c', e, h.trans ?_⟩
      simp only [List.drop_drop, Nat.add_mul, Nat.one_mul]
    · exact ⟨c, _, rfl⟩

/-- Flushing a cache all of whose blocks are to be written. -/
theorem flush_full (impl : Impl σ H) (x : H) (c : BlockCache.Cache) (F : AllLoaded c) (hd : ∀ j, j < c.total → BlockCache.Spec.isDirty c j = true) (s : σ) :
    ∃ c' r, BlockCache.flush (backendOf impl x) ⟨c, s⟩ = .ret (⟨c', (putBlocks impl x c.bpb c.total 0 c.data s).1⟩, r) := by
  have hcap := F.cap
  have ht : c.total ≤ maxInt := Nat.le_trans (Nat.le_mul_of_pos_right _ F.pos) F.cap
  unfold BlockCache.flush BlockCache.flushBlockRange
  rw [u64_of_lt (n := c.total * c.bpb) (by unfold maxInt at hcap; omega), BlockCache.checkBounds_eq (F.wf s) 0 (by exact hcap)]
  split
  · rename_i hr
    simp only [Outcome.bind_ret, Nat.zero_add]
    rw [u64_of_lt (n := c.total) (by unfold maxInt at ht; omega)]
    obtain ⟨c', e, h⟩ := flushLoop_full impl x c.total 0 c s F (by omega) (fun j _ h => hd j h)
    simp only [Nat.zero_mul, List.drop_zero] at h
    rw [Nat.sub_zero, h]
    rcases e with _ | e
    · exact ⟨c', _, rfl⟩
    · exact ⟨c', _, rfl⟩
  · rename_i hr
    have h0 : c.total = 0 := by
      rcases Nat.eq_zero_or_pos c.total with h | h
      · exact h
      · exact absurd ⟨h, by simp⟩ hr
    refine ⟨c, .error .argumentOutOfRange, ?_⟩
    simp only [Outcome.bind_ret, Outcome.pure_eq, h0, putBlocks]

/-- The cache of an empty file after it has been resized to `n` blocks. -/
theorem resize_empty (impl : Impl σ H) (x : H) {s s' : σ} {b n : Nat} (hb : 0 < b) (hn : n * b ≤ maxInt) (hr : impl.resize s x n = (s', none)) :
    ∃ c, BlockCache.resize (backendOf impl x) ⟨⟨b, 0, [], [], []⟩, s⟩ n = .ret (⟨c, s'⟩, .ok ()) ∧
      AllLoaded c ∧ (∀ j, j < c.total → BlockCache.Spec.isDirty c j = true) ∧ c.bpb = b ∧ c.total = n ∧ c.data = List.replicate (n * b) 0 := by
  have hnn : n ≤ maxInt := Nat.le_trans (Nat.le_mul_of_pos_right _ hb) hn
  unfold BlockCache.resize
  rw [show (backendOf impl x).resize s n = impl.resize s x n from rfl, hr]
  simp only
  rw [u64_of_lt (n := n * b) (by unfold maxInt at hn; omega), if_pos ⟨hnn, hn⟩]
  simp only [Nat.sub_zero]
  have hle := BlockCache.le_bitmapLen n
  obtain ⟨c', e1, e2, e3, e4, e5, e6, e7, e8⟩ := BlockCache.markLoop_spec n 0
    (⟨b, 0, BlockCache.bitCopy (BlockCache.bitmapLen n) [], BlockCache.bitCopy (BlockCache.bitmapLen n) [], goCopy (List.replicate (n * b) 0) []⟩ : BlockCache.Cache)
    (by simp only [BlockCache.length_bitCopy]; omega) (by simp only [BlockCache.length_bitCopy]; omega)
  rw [e1, Outcome.bind_ret]
  refine ⟨{ c' with total := n }, rfl, ⟨?_, ?_, ?_, ?_, ?_, ?_⟩, ?_, e2, rfl, ?_⟩
  · rw [e2]; exact hb
  · simp only [e2]; exact hn
  · simp only [e2, e4]; simp [goCopy]
  · simp only [e5, BlockCache.length_bitCopy]
  · simp only [e6, BlockCache.length_bitCopy]
  · intro i hi
    have := e7 i
    rw [if_pos (by simp only at hi; omega)] at this
    exact this
  · intro i hi
    have := e8 i
    rw [if_pos (by simp only at hi; omega)] at this
    exact this
  · simp only [e4]; simp [goCopy]

theorem sync_full (impl : Impl σ H) (x : H) (y : Stream.Stm σ) (F : AllLoaded y.st.c) (hd : ∀ j, j < y.st.c.total → BlockCache.Spec.isDirty y.st.c j = true) :
    ∃ r, Stream.sync (backendOf impl x) y = .ret r ∧ r.1.st.s = (putBlocks impl x y.st.c.bpb y.st.c.total 0 y.st.c.data y.st.s).1 := by
  obtain ⟨c', r, h⟩ := flush_full impl x y.st.c F hd y.st.s
  unfold Stream.sync
  rw [show y.st = ⟨y.st.c, y.st.s⟩ from rfl, h, Outcome.bind_ret]
  rcases r with e | ⟨⟩
  · exact ⟨_, rfl, rfl⟩
  · exact ⟨_, rfl, rfl⟩

/-- The empty stream on an object. -/
def emptyStream (b : Nat) (s : σ) (flags : Flags.IOFlags) : Stream.Stm σ := ⟨0, 0, ⟨⟨b, 0, [], [], []⟩, s⟩, flags⟩

theorem blocksFor_le {b : Nat} (hb : 0 < b) (n : Nat) : n ≤ blocksFor n b * b := by
  have h1 := Nat.div_add_mod n b
  have h2 := Nat.mod_lt n hb
  rw [Nat.mul_comm] at h1
  unfold blocksFor
  rw [Nat.add_mul]
  split <;> omega

section
variable (impl : Impl σ H) (x : H) {b : Nat} (hb : 0 < b) (hbm : b ≤ maxInt) (flags : Flags.IOFlags) (hw : Flags.write flags = true)
  (ha : Flags.append flags = false) (hs : Flags.synchronous flags = false) (data : Bytes) (hfit : blocksFor data.length b * b ≤ maxInt)
include hb hbm hw ha hs hfit

theorem write_start (s : σ) :
    (∀ x1 e, Stream.truncate (backendOf impl x) (emptyStream b s flags) data.length = .ret (x1, some e) →
      Stream.write (backendOf impl x) (emptyStream b s flags) data = .ret ({ x1 with position := i64 (x1.position + 0) }, 0, some e)) ∧
    (∀ x1 st' e, Stream.truncate (backendOf impl x) (emptyStream b s flags) data.length = .ret (x1, none) →
      BlockCache.getSlice (backendOf impl x) x1.st 0 (data.length / b + 1) = .ret (st', .error e) →
      Stream.write (backendOf impl x) (emptyStream b s flags) data = .ret ({ x1 with st := st', position := i64 (x1.position + 0) }, 0, some (.cache e))) ∧
    (∀ x1 st' m, Stream.truncate (backendOf impl x) (emptyStream b s flags) data.length = .ret (x1, none) →
      BlockCache.getSlice (backendOf impl x) x1.st 0 (data.length / b + 1) = .ret (st', .ok ⟨0, m⟩) →
      Stream.write (backendOf impl x) (emptyStream b s flags) data =
        .ret ({ x1 with st := ⟨{ st'.c with data := splice st'.c.data 0 (goCopy (slice st'.c.data 0 m) data) }, st'.s⟩, position := i64 (x1.position + data.length) }, data.length, none)) := by
  have hle := blocksFor_le hb data.length
  have hlt : (data.length : Int) < 2 ^ 63 := by unfold maxInt at hfit; omega
  have hd : data.length / b ≤ data.length := Nat.div_le_self ..
  have h0 : Stream.convertLinearAddr (emptyStream b s flags) (emptyStream b s flags).position = .ret (0, 0) :=
    (Stream.convert_eq (x := emptyStream b s flags) (off := 0) hb hbm (by omega) (by omega)).trans (by simp)
  have h1 : i64 ((emptyStream b s flags).position + (data.length : Int)) = data.length :=
    (congrArg i64 (Int.zero_add _)).trans (i64_of_range (by omega) hlt)
  have h2 : Stream.convertLinearAddr (emptyStream b s flags) data.length = .ret (data.length / b, data.length % b) :=
    (Stream.convert_eq (x := emptyStream b s flags) hb hbm (by omega) hlt).trans (by simp [emptyStream])
  have h3 : data.length / b ≥ (emptyStream b s flags).st.c.totalBlocks := Nat.zero_le _
  have hfl : (emptyStream b s flags).flags = flags := rfl
  have h4 : u64 (data.length / b + 1) = data.length / b + 1 := u64_of_lt (by omega)
  refine ⟨fun x1 e ht => ?_, fun x1 st' e ht hg => ?_, fun x1 st' m ht hg => ?_⟩
  · simp only [Stream.write, Stream.implWriteAt, hfl, hw, ha, hs, Bool.not_true, Bool.false_eq_true, if_false, h0, h1, h2, if_pos h3, Outcome.bind_ret, ht, Outcome.pure_eq]
  · simp only [Stream.write, Stream.implWriteAt, hfl, hw, ha, hs, Bool.not_true, Bool.false_eq_true, if_false, h0, h1, h2, if_pos h3, Outcome.bind_ret, ht, h4, hg, Outcome.pure_eq]
  · simp only [Stream.write, Stream.implWriteAt, hfl, hw, ha, hs, Bool.not_true, Bool.false_eq_true, if_false, h0, h1, h2, if_pos h3, Outcome.bind_ret, ht, h4, hg, Nat.zero_le, if_true,
      Outcome.pure_eq, Nat.sub_zero, Nat.add_zero]

/-- The resizing that Write begins with. -/
theorem trunc_start (s : σ) :
    Stream.truncate (backendOf impl x) (emptyStream b s flags) data.length =
      (match BlockCache.resize (backendOf impl x) ⟨⟨b, 0, [], [], []⟩, s⟩ (blocksFor data.length b) with
      | .ret (st', .error e) => .ret (⟨0, 0, st', flags⟩, some (.cache e))
      | .ret (st', .ok ()) => .ret (⟨data.length, 0, st', flags⟩, none)
      | .panic => .panic
      | .timeout => .timeout) := by
  have hle := blocksFor_le hb data.length
  have hm : (⟨b, 0, [], [], []⟩ : BlockCache.Cache).getMinBlocksForSize (Stream.toUint data.length) = .ret (blocksFor data.length b) := by
    rw [Stream.toUint_nat (by unfold maxInt at hfit; omega), BlockCache.minBlocks_eq (c := ⟨b, 0, [], [], []⟩) hb hbm (by omega)]
    exact congrArg _ (ceil_eq _ b hb)
  unfold Stream.truncate
  simp only [emptyStream, hw, hs, Bool.not_true, Bool.false_eq_true, if_false, if_neg (show ¬ ((data.length : Int) < 0) by omega), hm, Outcome.bind_ret]
  rcases BlockCache.resize (backendOf impl x) ⟨⟨b, 0, [], [], []⟩, s⟩ (blocksFor data.length b) with ⟨st', e | ⟨⟩⟩ | _ | _ <;> rfl

/-- Writing fails if the object cannot be resized; nothing more happens. -/
theorem write_fails {s s' : σ} {e : BlockCache.BErr} (hr : impl.resize s x (blocksFor data.length b) = (s', some e)) :
    ∃ y n r, Stream.write (backendOf impl x) (emptyStream b s flags) data = .ret (y, n, some (.cache (.resizeFailed e))) ∧
      Stream.sync (backendOf impl x) y = .ret r ∧ r.1.st.s = s' := by
  have ht : Stream.truncate (backendOf impl x) (emptyStream b s flags) data.length = .ret (⟨0, 0, ⟨⟨b, 0, [], [], []⟩, s'⟩, flags⟩, some (.cache (.resizeFailed e))) := by
    rw [trunc_start impl x hb hbm flags hw ha hs data hfit s]
    unfold BlockCache.resize
    rw [show (backendOf impl x).resize s (blocksFor data.length b) = impl.resize s x (blocksFor data.length b) from rfl, hr]
    rfl
  have hsync := sync_full impl x ⟨0, i64 (0 + 0), ⟨⟨b, 0, [], [], []⟩, s'⟩, flags⟩ ⟨hb, by simp, by simp, by simp [BlockCache.bitmapLen], by simp [BlockCache.bitmapLen], fun i hi => absurd hi (Nat.not_lt_zero i)⟩ (fun i hi => absurd hi (Nat.not_lt_zero i))
  obtain ⟨r, h1, h2⟩ := hsync
  exact ⟨_, _, r, (write_start impl x hb hbm flags hw ha hs data hfit s).1 _ _ ht, h1, h2⟩

/-- Write on an empty stream with data that do not fill whole blocks. -/
theorem write_odd {s s' : σ} (hr : impl.resize s x (blocksFor data.length b) = (s', none)) (hne : data.length % b ≠ 0) :
    ∃ y n r, Stream.write (backendOf impl x) (emptyStream b s flags) data = .ret (y, n, none) ∧
      Stream.sync (backendOf impl x) y = .ret r ∧
      r.1.st.s = (putBlocks impl x b (blocksFor data.length b) 0 (fillUp data (blocksFor data.length b * b)) s').1 := by
  have hle := blocksFor_le hb data.length
  have hn : data.length / b + 1 = blocksFor data.length b := by unfold blocksFor; rw [if_neg hne]
  obtain ⟨c, hrs, F, hdirty, hcb, hct, hcd⟩ := resize_empty impl x hb hfit hr
  have ht : Stream.truncate (backendOf impl x) (emptyStream b s flags) data.length = .ret (⟨data.length, 0, ⟨c, s'⟩, flags⟩, none) := by
    rw [trunc_start impl x hb hbm flags hw ha hs data hfit s, hrs]
  have hg : BlockCache.getSlice (backendOf impl x) ⟨c, s'⟩ 0 (data.length / b + 1) = .ret (⟨c, s'⟩, .ok ⟨0, blocksFor data.length b * b⟩) := by
    have := BlockCache.getSlice_loaded (b := backendOf impl x) (F.wf s') (start := 0) (count := data.length / b + 1)
      ⟨by simp only [hct, ← hn]; exact Nat.succ_pos _, by simp only; rw [hct, hn]; omega⟩ (fun j _ hj2 => F.loaded j (by omega))
    rw [this]
    simp only [hcb, hn, Nat.zero_mul]
  have hlen : c.data.length = blocksFor data.length b * b := by rw [F.data, hct, hcb]
  have hdata : splice c.data 0 (goCopy (slice c.data 0 (blocksFor data.length b * b)) data) = fillUp data (blocksFor data.length b * b) := by
    rw [← hlen, slice_all]
    unfold splice
    rw [goCopy_length, Nat.zero_add, List.drop_length, List.append_nil, List.take_zero, List.nil_append, hcd]
    unfold goCopy fillUp
    rw [List.length_replicate, List.take_of_length_le hle, List.drop_replicate]
  have hw3 := (write_start impl x hb hbm flags hw ha hs data hfit s).2.2 _ _ _ ht hg
  simp only [hdata] at hw3
  have hflen : (fillUp data (blocksFor data.length b * b)).length = blocksFor data.length b * b := by
    unfold fillUp; rw [List.length_append, List.length_replicate]; omega
  obtain ⟨r, h1, h2⟩ := sync_full impl x ⟨data.length, i64 (0 + data.length), ⟨{ c with data := fillUp data (blocksFor data.length b * b) }, s'⟩, flags⟩
    ⟨F.pos, F.cap, by simp only [hflen, hct, hcb], F.loadedLen, F.dirtyLen, F.loaded⟩ hdirty
  refine ⟨_, _, r, hw3, h1, ?_⟩
  rw [h2]
  simp only [hcb, hct]

/-- Write on an empty stream with data that fill whole blocks, or no data: it fails, and null bytes are written. -/
theorem write_even {s s' : σ} (hr : impl.resize s x (blocksFor data.length b) = (s', none)) (he : data.length % b = 0) (hfit2 : blocksFor data.length b * b + 2 * b ≤ maxInt) :
    ∃ y n r, Stream.write (backendOf impl x) (emptyStream b s flags) data = .ret (y, n, some (.cache .argumentOutOfRange)) ∧
      Stream.sync (backendOf impl x) y = .ret r ∧
      r.1.st.s = (putBlocks impl x b (blocksFor data.length b) 0 (List.replicate (blocksFor data.length b * b) 0) s').1 := by
  have hle := blocksFor_le hb data.length
  have hn : data.length / b = blocksFor data.length b := by unfold blocksFor; rw [if_pos he]; rfl
  obtain ⟨c, hrs, F, hdirty, hcb, hct, hcd⟩ := resize_empty impl x hb hfit hr
  have ht : Stream.truncate (backendOf impl x) (emptyStream b s flags) data.length = .ret (⟨data.length, 0, ⟨c, s'⟩, flags⟩, none) := by
    rw [trunc_start impl x hb hbm flags hw ha hs data hfit s, hrs]
  have hg : BlockCache.getSlice (backendOf impl x) ⟨c, s'⟩ 0 (data.length / b + 1) = .ret (⟨c, s'⟩, .error .argumentOutOfRange) := by
    unfold BlockCache.getSlice BlockCache.loadBlockRange BlockCache.Cache.checkBounds BlockCache.Cache.getMinBlocksForSize
    have h2 : blocksFor data.length b ≤ blocksFor data.length b * b := Nat.le_mul_of_pos_right _ hb
    simp only [hcb, hct, hn]
    rw [if_neg (by omega), Nat.add_mul, Nat.one_mul, u64_of_lt (n := blocksFor data.length b * b + b) (by unfold maxInt at *; omega),
      u64_of_lt (n := blocksFor data.length b * b + b + (b - 1)) (by unfold maxInt at *; omega),
      show blocksFor data.length b * b + b + (b - 1) = (blocksFor data.length b + 1) * b + (b - 1) by rw [Nat.add_mul]; omega, BlockCache.ceil_mul hb, Outcome.bind_ret,
      u64_of_lt (n := 0 + (blocksFor data.length b + 1)) (by unfold maxInt at *; omega)]
    split
    · rfl
    · rw [if_pos (by omega)]; rfl
  obtain ⟨r, h1, h2⟩ := sync_full impl x ⟨data.length, i64 (0 + 0), ⟨c, s'⟩, flags⟩ F hdirty
  refine ⟨_, _, r, (write_start impl x hb hbm flags hw ha hs data hfit s).2.1 _ _ _ ht hg, h1, ?_⟩
  rw [h2]
  simp only [hcb, hct, hcd]

end

end Disko.Driver

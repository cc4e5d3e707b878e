import Verif.Driver.Props5
/-! C66: resizing a file. -/
namespace Disko.Driver
open Disko Spec

variable {σ H : Type}

namespace Spec

/-- The contract of Resize (api.go:226-228): it changes the size of the object, in bytes. -/
def ResizesInBytes (impl : Impl σ H) (h : H) : Prop :=
  ∀ s n s', impl.resize s h n = (s', none) → (impl.stat s' h).size = n

/-- ceil(n / b) -/
def blocksFor (n b : Nat) : Nat := n / b + if n % b = 0 then 0 else 1

end Spec

/-- C66, what it says, for files opened without O_SYNC: after a successful Truncate the object is at
least as large as asked for, if Resize keeps its contract. -/
def C66_statement : Prop :=
  ∀ (σ H : Type) (d : Drv σ H) (h : H) (p : Str) (flags : Flags.IOFlags) (s s1 s' : σ) (f f' : File H) (n : Nat),
    ResizesInBytes d.impl h → Flags.synchronous flags = false → newFile d ⟨some h, p⟩ flags s = .ret (s1, .ok f) →
    f.truncate d n s1 = .ret (s', .ok f') → (n : Int) ≤ (d.impl.stat s' h).size

theorem ceil_eq (n b : Nat) (hb : 0 < b) : (n + (b - 1)) / b = blocksFor n b := by
  unfold blocksFor
  have h1 := Nat.div_add_mod n b
  have hm := Nat.mod_lt n hb
  have hc : b * (n / b) = n / b * b := Nat.mul_comm ..
  split
  · rw [show n + (b - 1) = (b - 1) + n / b * b by omega, Nat.add_mul_div_right _ _ hb, Nat.div_eq_of_lt (by omega)]; omega
  · rw [show n + (b - 1) = (n % b - 1) + (n / b + 1) * b by rw [Nat.add_mul]; omega, Nat.add_mul_div_right _ _ hb,
      Nat.div_eq_of_lt (by omega)]; omega

/-- C66, what Truncate asks for: Resize is called exactly once, with the number of blocks of the new
size (not bytes), and nothing else is called; the call fails exactly if Resize does. -/
theorem C66_exact_partial (d : Drv σ H) (f : File H) (h : H) (hh : f.objectHandle.inner = some h) (n : Nat) (s s' : σ)
    (r : Except Err (File H)) (hw : Flags.write f.ioFlags = true) (hsy : Flags.synchronous f.ioFlags = false)
    (hn : n + f.cache.bpb ≤ 2 ^ 63) (ht : f.truncate d n s = .ret (s', r)) :
    s' = (d.impl.resize s h (blocksFor n f.cache.bpb)).1 ∧
    (∀ e, r = .error e → ∃ be, e = .stream (.cache (.resizeFailed be)) ∧ (d.impl.resize s h (blocksFor n f.cache.bpb)).2 = some be) ∧
    (∀ f', r = .ok f' → (d.impl.resize s h (blocksFor n f.cache.bpb)).2 = none ∧ f'.size = n ∧ f'.objectHandle = f.objectHandle) := by
  unfold File.truncate Ext.method at ht
  rw [hh] at ht
  simp only at ht
  unfold Stream.truncate at ht
  rw [show (f.streamIn s).flags = f.ioFlags from rfl, hw, hsy] at ht
  simp only [Bool.not_true, Bool.false_eq_true, if_false] at ht
  rw [if_neg (by omega)] at ht
  by_cases hb0 : f.cache.bpb = 0
  · rw [show (f.streamIn s).st.c = f.cache from rfl] at ht
    unfold BlockCache.Cache.getMinBlocksForSize at ht
    rw [if_pos hb0] at ht
    cases ht
  · have hmin : (f.streamIn s).st.c.getMinBlocksForSize (Stream.toUint n) = .ret (blocksFor n f.cache.bpb) := by
      show f.cache.getMinBlocksForSize _ = _
      unfold BlockCache.Cache.getMinBlocksForSize
      rw [if_neg hb0, Stream.toUint_nat (by omega), u64_of_lt (by omega), ceil_eq _ _ (by omega)]
    rw [hmin, Outcome.bind_ret] at ht
    unfold BlockCache.resize at ht
    rw [show (backendOf d.impl h).resize (f.streamIn s).st.s (blocksFor n f.cache.bpb) = d.impl.resize s h (blocksFor n f.cache.bpb) from rfl] at ht
    rcases he : d.impl.resize s h (blocksFor n f.cache.bpb) with ⟨s1, _ | be⟩
    · rw [he] at ht
      simp only at ht
      split at ht
      · rename_i heq
        split at heq
        · rcases hm : BlockCache.markLoop (blocksFor n f.cache.bpb - (f.streamIn s).st.c.total) (f.streamIn s).st.c.total
            { (f.streamIn s).st.c with
              data := goCopy (List.replicate (u64 (blocksFor n f.cache.bpb * (f.streamIn s).st.c.bpb)) 0) (f.streamIn s).st.c.data
              dirty := BlockCache.bitCopy (BlockCache.bitmapLen (blocksFor n f.cache.bpb)) (f.streamIn s).st.c.dirty
              loaded := BlockCache.bitCopy (BlockCache.bitmapLen (blocksFor n f.cache.bpb)) (f.streamIn s).st.c.loaded } with c | _ | _
          · rw [hm] at heq; cases heq
          · cases ht
          · rw [hm] at heq; cases heq
        · cases ht
      · cases ht
      · rename_i x heq
        split at heq
        · rcases hm : BlockCache.markLoop (blocksFor n f.cache.bpb - (f.streamIn s).st.c.total) (f.streamIn s).st.c.total
            { (f.streamIn s).st.c with
              data := goCopy (List.replicate (u64 (blocksFor n f.cache.bpb * (f.streamIn s).st.c.bpb)) 0) (f.streamIn s).st.c.data
              dirty := BlockCache.bitCopy (BlockCache.bitmapLen (blocksFor n f.cache.bpb)) (f.streamIn s).st.c.dirty
              loaded := BlockCache.bitCopy (BlockCache.bitmapLen (blocksFor n f.cache.bpb)) (f.streamIn s).st.c.loaded } with c | _ | _
          · rw [hm] at heq; simp only [Outcome.bind_ret, Outcome.pure_eq] at heq
            cases heq
            cases ht
            exact ⟨rfl, fun _ h => (by cases h), fun _ h => (by cases h; exact ⟨rfl, rfl, rfl⟩)⟩
          · rw [hm] at heq; cases heq
          · rw [hm] at heq; cases heq
        · cases heq
      · rename_i x e heq
        split at heq
        · rcases hm : BlockCache.markLoop (blocksFor n f.cache.bpb - (f.streamIn s).st.c.total) (f.streamIn s).st.c.total
            { (f.streamIn s).st.c with
              data := goCopy (List.replicate (u64 (blocksFor n f.cache.bpb * (f.streamIn s).st.c.bpb)) 0) (f.streamIn s).st.c.data
              dirty := BlockCache.bitCopy (BlockCache.bitmapLen (blocksFor n f.cache.bpb)) (f.streamIn s).st.c.dirty
              loaded := BlockCache.bitCopy (BlockCache.bitmapLen (blocksFor n f.cache.bpb)) (f.streamIn s).st.c.loaded } with c | _ | _
          · rw [hm] at heq; simp only [Outcome.bind_ret, Outcome.pure_eq] at heq
            cases heq
          · rw [hm] at heq; cases heq
          · rw [hm] at heq; cases heq
        · cases heq
    · rw [he] at ht
      simp only [Outcome.pure_eq, Outcome.bind_ret] at ht
      cases ht
      exact ⟨rfl, fun _ h => by cases h; exact ⟨_, rfl, rfl⟩, fun _ h => by cases h⟩

/-- The blocks of `n` bytes are at least `n` only if a block is one byte, or n is at most one. -/
theorem C66_enough_partial (n b : Nat) (hb : 0 < b) : n ≤ blocksFor n b ↔ b = 1 ∨ n ≤ 1 := by
  unfold blocksFor
  have h1 := Nat.div_add_mod n b
  have hm := Nat.mod_lt n hb
  constructor
  · intro h
    rcases Nat.lt_or_ge b 2 with hb1 | hb2
    · exact .inl (by omega)
    · right
      have : 2 * (n / b) ≤ b * (n / b) := Nat.mul_le_mul_right _ hb2
      split at h
      · omega
      · omega
  · rintro (rfl | h)
    · simp
    · rcases n with _ | _ | n
      · exact Nat.zero_le _
      · rcases Nat.lt_or_ge b 2 with hb1 | hb2
        · obtain rfl : b = 1 := by omega
          simp
        · rw [Nat.mod_eq_of_lt (by omega), Nat.div_eq_of_lt (by omega)]; simp
      · omega

/-! An implementation that keeps the contract of Resize: the state is the size of its only file, in blocks of 4 bytes. -/

/-- The file is handle 1. -/
def sized : Impl Nat Nat where
  features := ⟨false, false, false⟩
  getRootDirectory _ := 0
  getObject s _ _ := (s, .ok 1)
  createObject s _ _ _ := (s, .error .notImplemented)
  createHardLink := none
  stat s h := if h = 0 then statWith Flags.ModeDir 0 0 0 else statWith 0 s ((s + 3) / 4 : Nat) h
  name _ _ := str! "f"
  sameAs _ a b := a = b
  resize _ _ n := (n, none)
  readBlocks s _ _ buf := (s, buf, none)
  writeBlocks s _ _ _ := (s, none)
  unlink s _ := (s, none)
  close s _ := (s, none)
  listDir _ := none
  chmod _ := none
  chown _ := none
  chtimes _ := none

theorem sized_resizes : ResizesInBytes sized 1 := by
  intro s n s' h
  cases h
  rfl

/-- C66 is false: extending a file to 8 bytes makes it 2 bytes long (the number of its blocks). -/
theorem C66_refuted : ¬ C66_statement := by
  intro h
  have key : (match newFile ⟨keeping, sized, 3, str! "/"⟩ ⟨some 1, str! "/f"⟩ Flags.O_RDWR 4 with
      | .ret (s1, .ok f) => match f.truncate ⟨keeping, sized, 3, str! "/"⟩ 8 s1 with | .ret (s', .ok _) => s' == 2 | _ => false
      | _ => false) = true := by decide +kernel
  split at key
  · rename_i s1 f e1
    split at key
    · rename_i s' f' e2
      have := h _ _ ⟨keeping, sized, 3, str! "/"⟩ 1 (str! "/f") Flags.O_RDWR 4 s1 s' f f' 8 sized_resizes (by decide) e1 e2
      rw [eq_of_beq key] at this
      exact absurd this (by decide)
    · cases key
  · cases key

end Disko.Driver

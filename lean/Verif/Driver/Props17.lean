import Verif.Driver.Writing
/-! C101: WriteFile. -/
namespace Disko.Driver
open Disko Spec

variable {σ H α β : Type}

/-- The flags WriteFile opens the file with. -/
def writeFlags : Flags.IOFlags := Flags.O_WRONLY ||| Flags.O_CREATE ||| Flags.O_TRUNC

theorem method_some {e : Ext H} {h : H} (hi : e.inner = some h) (f : H → M σ α) : e.method f = f h := by
  unfold Ext.method; rw [hi]

theorem writeFile_opened (d : Drv σ H) {p : Str} {data : Bytes} {perm : FileMode} {s s1 : σ} {st : FileStat} {b : Nat} {h : H} {q : Str}
    (ho : Gives (openFile d · p writeFlags perm) s s1 (.ok (emptiedFile st b h q writeFlags))) {y : Stream.Stm σ} {n : Int} {e : Option Stream.SErr}
    (hw : Stream.write (backendOf d.impl h) (emptyStream b s1 writeFlags) data = .ret (y, n, e)) {r : Stream.Stm σ × Option Stream.SErr}
    (hs : Stream.sync (backendOf d.impl h) y = .ret r) :
    Gives (writeFile d · p data perm) s r.1.st.s (e.elim (.ok ()) fun e => .error (.stream e)) := by
  obtain ⟨N, hN⟩ := ho
  refine ⟨N, fun fuel hfu => ?_⟩
  show writeFile d fuel p data perm s = _
  unfold writeFile
  have hN' : openFile d fuel p (Flags.O_WRONLY ||| Flags.O_CREATE ||| Flags.O_TRUNC) perm s = .ret (s1, .ok (emptiedFile st b h q writeFlags)) := hN fuel hfu
  rw [andThen_ok hN']
  have hst : (emptiedFile st b h q writeFlags).streamIn s1 = emptyStream b s1 writeFlags := by unfold File.streamIn emptiedFile emptyStream; rfl
  have hi : (emptiedFile st b h q writeFlags).objectHandle.inner = some h := by unfold emptiedFile; rfl
  rw [method_some hi]
  simp only [hst, hw, hs]
  rcases e with _ | e <;> rfl

section
variable (d : Drv σ H) {p : Str} {perm : FileMode} {s s1 : σ} {st : FileStat} {b : Nat} {h : H} {q : Str}
  (ho : Gives (openFile d · p writeFlags perm) s s1 (.ok (emptiedFile st b h q writeFlags))) (hb : 0 < b) (hbm : b ≤ maxInt) (data : Bytes)
  (hfit : blocksFor data.length b * b + 2 * b ≤ maxInt)
include ho hb hbm hfit

/-- What WriteFile does once the file is open and empty. -/
theorem writeFile_rest :
    (∀ s2 e, d.impl.resize s1 h (blocksFor data.length b) = (s2, some e) → Gives (writeFile d · p data perm) s s2 (.error (.stream (.cache (.resizeFailed e))))) ∧
    (∀ s2, d.impl.resize s1 h (blocksFor data.length b) = (s2, none) →
      (data.length % b ≠ 0 → Gives (writeFile d · p data perm) s
        (putBlocks d.impl h b (blocksFor data.length b) 0 (fillUp data (blocksFor data.length b * b)) s2).1 (.ok ())) ∧
      (data.length % b = 0 → Gives (writeFile d · p data perm) s
        (putBlocks d.impl h b (blocksFor data.length b) 0 (List.replicate (blocksFor data.length b * b) 0) s2).1 (.error (.stream (.cache .argumentOutOfRange))))) := by
  have hf : blocksFor data.length b * b ≤ maxInt := by omega
  refine ⟨fun s2 e hr => ?_, fun s2 hr => ⟨fun hne => ?_, fun he => ?_⟩⟩
  · obtain ⟨y, n, r, h1, h2, h3⟩ := write_fails d.impl h hb hbm writeFlags (by decide) (by decide) (by decide) data hf hr
    have := writeFile_opened d ho h1 h2
    rwa [h3] at this
  · obtain ⟨y, n, r, h1, h2, h3⟩ := write_odd d.impl h hb hbm writeFlags (by decide) (by decide) (by decide) data hf hr hne
    have := writeFile_opened d ho h1 h2
    rwa [h3] at this
  · obtain ⟨y, n, r, h1, h2, h3⟩ := write_even d.impl h hb hbm writeFlags (by decide) (by decide) (by decide) data hf hr he hfit
    have := writeFile_opened d ho h1 h2
    rwa [h3] at this

end

section
variable (d : Drv σ H) (hd : d.cfg.keepHandle = true) (Q : Quiet d.impl) (wd : Loc) (hwd : IsLoc wd) (hw : d.workingDirPath = render wd)
  (hmf : Writable d.mountFlags) (s : σ) (hr : RootIsDir d.impl s) (p : Str) (l l' : Loc) (hm : Means wd p l) (perm : FileMode) (data : Bytes)
  (h : H) (b t : Nat) (hf : Found d.impl s l l' h) (hfile : (d.impl.stat s h).isFile = true) (hfit : SizesFit (d.impl.stat s h) b t)
include hd Q hwd hw hmf hr hm hf hfile hfit

/-- C101, when wrapObjectHandle keeps the handle, on any implementation: of a file that exists, WriteFile first resizes the object to 0, then to the number of
blocks of the data, then writes the blocks in order, the last filled up with null bytes, until one fails, and reports success whether they fail or not;
but if the data fill whole blocks it writes null bytes instead, and reports an error. -/
theorem C101_existing_partial (s1 : σ) (hr0 : d.impl.resize s h 0 = (s1, none)) (n : Nat) (hn : n = blocksFor data.length b) (hmem : n * b + 2 * b ≤ maxInt) :
    (∀ s2 e, d.impl.resize s1 h n = (s2, some e) → Gives (writeFile d · p data perm) s s2 (.error (.stream (.cache (.resizeFailed e))))) ∧
    (∀ s2, d.impl.resize s1 h n = (s2, none) →
      (data.length % b ≠ 0 → Gives (writeFile d · p data perm) s (putBlocks d.impl h b n 0 (fillUp data (n * b)) s2).1 (.ok ())) ∧
      (data.length % b = 0 → Gives (writeFile d · p data perm) s (putBlocks d.impl h b n 0 (List.replicate (n * b) 0) s2).1 (.error (.stream (.cache .argumentOutOfRange))))) := by
  subst hn
  exact writeFile_rest d (open_found d hd Q wd hwd hw s hr p l hm writeFlags perm (.inl hmf) hf hfile
    (newFile_trunc d hfit (render l') writeFlags (by decide) (by decide) (by decide) hr0)) hfit.1 hfit.2.1 data hmem

/-- C101: if the object cannot be emptied, that is the error. -/
theorem C101_not_emptied_partial (s1 : σ) (e : BlockCache.BErr) (hr0 : d.impl.resize s h 0 = (s1, some e)) :
    Gives (writeFile d · p data perm) s s1 (.error (.stream (.cache (.resizeFailed e)))) := by
  obtain ⟨N, hN⟩ := open_found d hd Q wd hwd hw s hr p l hm writeFlags perm (.inl hmf) hf hfile
    (newFile_trunc_fails d hfit (render l') writeFlags (by decide) (by decide) hr0)
  refine ⟨N, fun fuel hfu => ?_⟩
  show writeFile d fuel p data perm s = _
  unfold writeFile
  exact andThen_err (hN fuel hfu)

end

/-- C101, when wrapObjectHandle keeps the handle: a file missing from the root is created by one CreateObject with its name and `perm`; then it is treated as one that exists. -/
theorem C101_missing_partial (d : Drv σ H) (hd : d.cfg.keepHandle = true) (Q : Quiet d.impl) (wd : Loc) (hwd : IsLoc wd) (hw : d.workingDirPath = render wd)
    (hmf : Writable d.mountFlags) (s : σ) (hr : RootIsDir d.impl s) (p : Str) (m : Str) (hm : Means wd p [m]) (perm : FileMode) (data : Bytes)
    (hmi : (d.impl.getObject s m (d.impl.getRootDirectory s)).2 = .error .notFound) (h : H) (s0 : σ)
    (hcr : d.impl.createObject s m (d.impl.getRootDirectory s) perm = (s0, .ok h)) (b t : Nat) (hfile : (d.impl.stat s0 h).isFile = true) (hfit : SizesFit (d.impl.stat s0 h) b t)
    (s1 : σ) (hr0 : d.impl.resize s0 h 0 = (s1, none)) (n : Nat) (hn : n = blocksFor data.length b) (hmem : n * b + 2 * b ≤ maxInt) :
    (∀ s2 e, d.impl.resize s1 h n = (s2, some e) → Gives (writeFile d · p data perm) s s2 (.error (.stream (.cache (.resizeFailed e))))) ∧
    (∀ s2, d.impl.resize s1 h n = (s2, none) →
      (data.length % b ≠ 0 → Gives (writeFile d · p data perm) s (putBlocks d.impl h b n 0 (fillUp data (n * b)) s2).1 (.ok ())) ∧
      (data.length % b = 0 → Gives (writeFile d · p data perm) s (putBlocks d.impl h b n 0 (List.replicate (n * b) 0) s2).1 (.error (.stream (.cache .argumentOutOfRange))))) := by
  subst hn
  have hnm : IsName m := (normalize_means hwd hm).2 m (by simp)
  exact writeFile_rest d (((open_create d hd Q wd hwd hw s hr p [m] hm writeFlags perm (.inl hmf) rfl (e := .notFound) (.entry hnm (.zero m) hmi)
    (by unfold CreateIntent writeFlags; decide) rfl).2 s0 h hcr).2 hfile _ _ (newFile_trunc d hfit (render [m]) writeFlags (by decide) (by decide) (by decide) hr0)) hfit.1 hfit.2.1 data hmem

/-! ### Contents -/

namespace Spec

/-- The contract of an object's size and blocks (api.go:226-262): the contents of object `h` are `content s h` (`none` if there is no such object); blocks have `b` bytes;
Resize sets the size in bytes, and WriteBlocks changes the bytes of blocks that exist, as far as they are within the size.  Nothing fails. -/
structure HoldsBytes (impl : Impl σ H) (b : Nat) (content : σ → H → Option Bytes) : Prop where
  pos : 0 < b
  stat : ∀ s h c, content s h = some c → (impl.stat s h).size = c.length ∧ (impl.stat s h).blockSize = b ∧ (impl.stat s h).numBlocks = (blocksFor c.length b : Nat)
  resize : ∀ s h c n, content s h = some c → ∃ s', impl.resize s h n = (s', none) ∧ content s' h = some (fillUp (c.take n) n)
  write : ∀ s h c i buf, content s h = some c → i < blocksFor c.length b → buf.length = b →
    ∃ s', impl.writeBlocks s h i buf = (s', none) ∧ content s' h = some ((c.take (i * b) ++ buf ++ c.drop (i * b + b)).take c.length)

/-- Blocks that the object does not have cannot be written: nothing happens to its contents, whether there is an error or not. -/
def NothingOutside (impl : Impl σ H) (b : Nat) (content : σ → H → Option Bytes) : Prop :=
  ∀ s h c i buf, content s h = some c → blocksFor c.length b ≤ i → content (impl.writeBlocks s h i buf).1 h = some c

end Spec

/-- C101, what it says: after WriteFile a file that existed has exactly the given contents, and WriteFile does not fail if the implementation does not. -/
def C101_statement (cfg : Cfg) : Prop :=
  ∀ (σ H : Type) (impl : Impl σ H) (b : Nat) (content : σ → H → Option Bytes) (mf : MountFlags) (wd : Loc) (s : σ) (p : Str) (l l' : Loc) (h : H) (perm : FileMode) (data c : Bytes),
    Still impl → HoldsBytes impl b content → RootIsDir impl s → IsLoc wd → Means wd p l → Found impl s l l' h → Writable mf →
    (impl.stat s h).isFile = true → content s h = some c → (data.length + c.length) + 4 * b ≤ maxInt →
    ∃ s', Gives (writeFile ⟨cfg, impl, mf, render wd⟩ · p data perm) s s' (.ok ()) ∧ content s' h = some data

theorem blocksFor_lt {b : Nat} (hb : 0 < b) (n : Nat) : blocksFor n b * b < n + b := by
  have h1 := Nat.div_add_mod n b
  have h2 := Nat.mod_lt n hb
  rw [Nat.mul_comm] at h1
  unfold blocksFor
  rw [Nat.add_mul]
  split <;> omega

/-- What becomes of the contents when blocks are written, also beyond the end. -/
theorem putBlocks_content {impl : Impl σ H} {b : Nat} {content : σ → H → Option Bytes} (L : HoldsBytes impl b content) (O : NothingOutside impl b content) (h : H) :
    ∀ (k i : Nat) (bytes : Bytes) (s : σ) (c : Bytes), content s h = some c → k * b ≤ bytes.length →
      ∃ c', content (putBlocks impl h b k i bytes s).1 h = some c' ∧ c'.length = c.length ∧
        ∀ j, j < c.length → c'[j]? = if i * b ≤ j ∧ j < (i + k) * b then bytes[j - i * b]? else c[j]? := by
  have hb := L.pos
  intro k
  induction k with
  | zero => intro i bytes s c hc _; exact ⟨c, hc, rfl, fun j _ => by rw [if_neg (by rw [Nat.add_zero]; omega)]⟩
  | succ k ih =>
    intro i bytes s c hc hk
    rw [Nat.add_mul, Nat.one_mul] at hk
    have hlen : (bytes.take b).length = b := by rw [List.length_take]; omega
    have hi1 : (i + 1) * b = i * b + b := by rw [Nat.add_mul, Nat.one_mul]
    have hik : (i + (k + 1)) * b = (i + 1 + k) * b := by congr 1; omega
    have hge : (i + 1 + k) * b = i * b + b + k * b := by rw [Nat.add_mul, hi1]
    rw [putBlocks]
    by_cases hin : i < blocksFor c.length b
    · obtain ⟨s1, hs1, hc1⟩ := L.write s h c i (bytes.take b) hc hin hlen
      rw [hs1]
      simp only
      have hle := blocksFor_lt hb c.length
      have h3 : (i + 1) * b ≤ blocksFor c.length b * b := Nat.mul_le_mul_right _ hin
      have hl1 : ((c.take (i * b) ++ bytes.take b ++ c.drop (i * b + b)).take c.length).length = c.length := by
        rw [List.length_take, List.length_append, List.length_append, List.length_take, List.length_drop, hlen]; omega
      obtain ⟨c', h1, h2, h4⟩ := ih (i + 1) (bytes.drop b) s1 _ hc1 (by rw [List.length_drop]; omega)
      refine ⟨c', h1, by omega, fun j hj => ?_⟩
      rw [h4 j (by omega), hik]
      by_cases hj1 : (i + 1) * b ≤ j ∧ j < (i + 1 + k) * b
      · rw [if_pos hj1, if_pos (by omega), List.getElem?_drop]
        congr 1; omega
      · rw [if_neg hj1, List.getElem?_take_of_lt hj]
        by_cases hj2 : i * b ≤ j ∧ j < (i + 1 + k) * b
        · rw [if_pos hj2, List.getElem?_append_left (by rw [List.length_append, List.length_take, hlen]; omega),
            List.getElem?_append_right (by rw [List.length_take]; omega), List.length_take, Nat.min_eq_left (by omega), List.getElem?_take_of_lt (by omega)]
        · rw [if_neg hj2]
          by_cases hj3 : j < i * b
          · rw [List.append_assoc, List.getElem?_append_left (by rw [List.length_take]; omega), List.getElem?_take_of_lt hj3]
          · rw [List.getElem?_append_right (by rw [List.length_append, List.length_take, hlen]; omega), List.length_append, List.length_take, hlen, List.getElem?_drop]
            congr 1; omega
    · have hout := O s h c i (bytes.take b) hc (by omega)
      have hle := blocksFor_le hb c.length
      have h3 : blocksFor c.length b * b ≤ i * b := Nat.mul_le_mul_right _ (by omega)
      rcases hw : impl.writeBlocks s h i (bytes.take b) with ⟨s1, _ | e⟩
      · rw [hw] at hout
        simp only
        obtain ⟨c', h1, h2, h4⟩ := ih (i + 1) (bytes.drop b) s1 c hout (by rw [List.length_drop]; omega)
        refine ⟨c', h1, h2, fun j hj => ?_⟩
        rw [h4 j hj, if_neg (by omega), if_neg (by omega)]
      · rw [hw] at hout
        simp only
        exact ⟨c, hout, rfl, fun j hj => by rw [if_neg (by omega)]⟩

section
variable {impl : Impl σ H} {b : Nat} {content : σ → H → Option Bytes} (Q : Quiet impl) (L : HoldsBytes impl b content) (cfg : Cfg) (hk : cfg.keepHandle = true) (mf : MountFlags)
  (hmf : Writable mf) (wd : Loc) (hwd : IsLoc wd) (s : σ) (hr : RootIsDir impl s) (p : Str) (l l' : Loc) (hm : Means wd p l) (h : H) (hf : Found impl s l l' h)
  (hfile : (impl.stat s h).isFile = true) (perm : FileMode) (data c : Bytes) (hc : content s h = some c) (hmem : (data.length + c.length) + 4 * b ≤ maxInt)
include Q L hk hmf hwd hr hm hf hfile hc hmem

/-- C101, when wrapObjectHandle keeps the handle: data shorter than a block are reported written, but all that is in the file is their first byte; -/
theorem C101_short_partial (h1 : 1 ≤ data.length) (h2 : data.length < b) :
    ∃ s', Gives (writeFile ⟨cfg, impl, mf, render wd⟩ · p data perm) s s' (.ok ()) ∧ content s' h = some (data.take 1) := by
  have hn : (1 : Nat) = blocksFor data.length b := by
    unfold blocksFor; rw [Nat.div_eq_of_lt h2, Nat.mod_eq_of_lt h2, if_neg (by omega)]
  have hlt := blocksFor_lt L.pos c.length
  have hle := blocksFor_le L.pos c.length
  obtain ⟨e1, e2, e3⟩ := L.stat s h c hc
  have hfit : SizesFit (impl.stat s h) b (blocksFor c.length b) := ⟨L.pos, by omega, e2, e3, by omega, by omega, by omega⟩
  obtain ⟨s1, hs1, hc1⟩ := L.resize s h c 0 hc
  obtain ⟨s2, hs2, hc2⟩ := L.resize s1 h _ 1 hc1
  have hc2' : content s2 h = some [0] := hc2.trans (by simp [fillUp])
  have hlen : (fillUp data (1 * b)).length = b := by unfold fillUp; rw [List.length_append, List.length_replicate]; omega
  obtain ⟨s3, hs3, hc3⟩ := L.write s2 h _ 0 (fillUp data (1 * b)) hc2' (by
    show 0 < blocksFor 1 b
    unfold blocksFor; rw [Nat.div_eq_of_lt (by omega), Nat.mod_eq_of_lt (by omega)]; decide) hlen
  refine ⟨s3, ?_, ?_⟩
  · have := ((C101_existing_partial ⟨cfg, impl, mf, render wd⟩ hk Q wd hwd rfl hmf s hr p l l' hm perm data h b _ hf hfile hfit s1 hs1 1 hn (by omega)).2 s2 hs2).1
      (by rw [Nat.mod_eq_of_lt h2]; omega)
    unfold putBlocks putBlocks at this
    rw [show List.take b (fillUp data (1 * b)) = fillUp data (1 * b) from List.take_of_length_le (by omega)] at this
    simp only [hs3] at this
    exact this
  · rw [hc3]
    obtain ⟨x, r, rfl⟩ : ∃ x r, data = x :: r := by cases data with | nil => simp at h1 | cons x r => exact ⟨x, r, rfl⟩
    simp [fillUp]

/-- C101: no data: an error, and the file is empty; -/
theorem C101_empty_partial (h1 : data = []) :
    ∃ s', Gives (writeFile ⟨cfg, impl, mf, render wd⟩ · p data perm) s s' (.error (.stream (.cache .argumentOutOfRange))) ∧ content s' h = some [] := by
  subst h1
  have hn : (0 : Nat) = blocksFor ([] : Bytes).length b := by unfold blocksFor; simp
  have hlt := blocksFor_lt L.pos c.length
  have hle := blocksFor_le L.pos c.length
  obtain ⟨e1, e2, e3⟩ := L.stat s h c hc
  have hfit : SizesFit (impl.stat s h) b (blocksFor c.length b) := ⟨L.pos, by omega, e2, e3, by omega, by omega, by omega⟩
  obtain ⟨s1, hs1, hc1⟩ := L.resize s h c 0 hc
  obtain ⟨s2, hs2, hc2⟩ := L.resize s1 h _ 0 hc1
  refine ⟨s2, ?_, hc2.trans (by simp [fillUp])⟩
  exact ((C101_existing_partial ⟨cfg, impl, mf, render wd⟩ hk Q wd hwd rfl hmf s hr p l l' hm perm [] h b _ hf hfile hfit s1 hs1 0 hn (by omega)).2 s2 hs2).2 (by simp)

/-- C101: data of exactly one block: an error, and all that is in the file is a null byte. -/
theorem C101_one_block_partial (h1 : data.length = b) :
    ∃ s', Gives (writeFile ⟨cfg, impl, mf, render wd⟩ · p data perm) s s' (.error (.stream (.cache .argumentOutOfRange))) ∧ content s' h = some [0] := by
  have hb := L.pos
  have hn : (1 : Nat) = blocksFor data.length b := by
    unfold blocksFor; rw [h1, Nat.div_self hb, Nat.mod_self, if_pos rfl]
  have hlt := blocksFor_lt L.pos c.length
  have hle := blocksFor_le L.pos c.length
  obtain ⟨e1, e2, e3⟩ := L.stat s h c hc
  have hfit : SizesFit (impl.stat s h) b (blocksFor c.length b) := ⟨L.pos, by omega, e2, e3, by omega, by omega, by omega⟩
  obtain ⟨s1, hs1, hc1⟩ := L.resize s h c 0 hc
  obtain ⟨s2, hs2, hc2⟩ := L.resize s1 h _ 1 hc1
  have hc2' : content s2 h = some [0] := hc2.trans (by simp [fillUp])
  obtain ⟨s3, hs3, hc3⟩ := L.write s2 h _ 0 (List.replicate (1 * b) 0) hc2' (by
    show 0 < blocksFor 1 b
    unfold blocksFor
    rcases Nat.lt_or_ge 1 b with h | h
    · rw [Nat.div_eq_of_lt h, Nat.mod_eq_of_lt h]; decide
    · obtain rfl : b = 1 := by omega
      decide) (by simp)
  refine ⟨s3, ?_, ?_⟩
  · have := ((C101_existing_partial ⟨cfg, impl, mf, render wd⟩ hk Q wd hwd rfl hmf s hr p l l' hm perm data h b _ hf hfile hfit s1 hs1 1 hn (by omega)).2 s2 hs2).2
      (by rw [h1, Nat.mod_self])
    unfold putBlocks putBlocks at this
    rw [show List.take b (List.replicate (1 * b) (0 : UInt8)) = List.replicate (1 * b) 0 from List.take_of_length_le (by simp)] at this
    simp only [hs3] at this
    exact this
  · rw [hc3]
    obtain ⟨b, rfl⟩ : ∃ b', b = b' + 1 := ⟨b - 1, by omega⟩
    simp [List.replicate_succ]

/-- C101, data of any length, when wrapObjectHandle keeps the handle: of data that do not fill whole blocks, as many bytes arrive as they need blocks, and success is reported; for data
that fill whole blocks there is an error, and the file has that many null bytes. -/
theorem C101_contents_partial (O : NothingOutside impl b content) :
    (data.length % b ≠ 0 → ∃ s', Gives (writeFile ⟨cfg, impl, mf, render wd⟩ · p data perm) s s' (.ok ()) ∧ content s' h = some (data.take (blocksFor data.length b))) ∧
    (data.length % b = 0 → ∃ s', Gives (writeFile ⟨cfg, impl, mf, render wd⟩ · p data perm) s s' (.error (.stream (.cache .argumentOutOfRange))) ∧
      content s' h = some (List.replicate (blocksFor data.length b) 0)) := by
  have hb := L.pos
  have hlt := blocksFor_lt L.pos c.length
  have hle := blocksFor_le L.pos c.length
  have hlt' := blocksFor_lt L.pos data.length
  have hle' := blocksFor_le L.pos data.length
  obtain ⟨e1, e2, e3⟩ := L.stat s h c hc
  have hfit : SizesFit (impl.stat s h) b (blocksFor c.length b) := ⟨L.pos, by omega, e2, e3, by omega, by omega, by omega⟩
  obtain ⟨s1, hs1, hc1⟩ := L.resize s h c 0 hc
  obtain ⟨s2, hs2, hc2⟩ := L.resize s1 h _ (blocksFor data.length b) hc1
  have hl2 : (fillUp ((fillUp (c.take 0) 0).take (blocksFor data.length b)) (blocksFor data.length b)).length = blocksFor data.length b := by
    simp [fillUp]
  have hnb : blocksFor data.length b ≤ blocksFor data.length b * b := Nat.le_mul_of_pos_right _ hb
  have hrun := (C101_existing_partial ⟨cfg, impl, mf, render wd⟩ hk Q wd hwd rfl hmf s hr p l l' hm perm data h b _ hf hfile hfit s1 hs1 _ rfl (by omega)).2 s2 hs2
  have put : ∀ bytes : Bytes, bytes.length = blocksFor data.length b * b → content (putBlocks impl h b (blocksFor data.length b) 0 bytes s2).1 h = some (bytes.take (blocksFor data.length b)) := by
    intro bytes hbytes
    obtain ⟨c', h1, h2, h3⟩ := putBlocks_content L O h (blocksFor data.length b) 0 bytes s2 _ hc2 (by omega)
    rw [hl2] at h2 h3
    rw [h1, Option.some.injEq]
    apply List.ext_getElem?
    intro j
    rw [List.getElem?_take]
    by_cases hj : j < blocksFor data.length b
    · rw [if_pos hj, h3 j hj, if_pos (by rw [Nat.zero_mul, Nat.zero_add]; omega), Nat.zero_mul, Nat.sub_zero]
    · rw [if_neg hj, List.getElem?_eq_none (by omega)]
  have hfl : (fillUp data (blocksFor data.length b * b)).length = blocksFor data.length b * b := by
    unfold fillUp; rw [List.length_append, List.length_replicate]; omega
  refine ⟨fun hmod => ⟨_, hrun.1 hmod, ?_⟩, fun hmod => ⟨_, hrun.2 hmod, ?_⟩⟩
  · rw [put _ hfl]
    have : blocksFor data.length b ≤ data.length := by
      unfold blocksFor
      rw [if_neg hmod]
      have := Nat.div_add_mod data.length b
      have h2 : data.length / b ≤ b * (data.length / b) := Nat.le_mul_of_pos_left _ hb
      omega
    unfold fillUp
    rw [List.take_append_of_le_length this]
  · rw [put _ (by rw [List.length_replicate]), List.take_replicate, Nat.min_eq_left hnb]

end

/-! ### The flat implementation keeps the contract -/

/-- Its contents. -/
def flatContent (s : List Obj) (h : Option Str) : Option Bytes := h.bind fun n => (Obj.find s n).map (·.data)

theorem find_change (s : List Obj) (n : Str) (f : Obj → Obj) (hf : ∀ o, (f o).name = o.name) : Obj.find (Obj.change s n f) n = (Obj.find s n).map f := by
  induction s with
  | nil => rfl
  | cons o s ih =>
    unfold Obj.find Obj.change at *
    simp only [List.map_cons, List.find?_cons]
    by_cases h : o.name = n
    · simp only [h, if_true, hf, decide_true, Option.map_some]
    · simp only [h, if_false, decide_false]
      exact ih

theorem flat_holds (b : Nat) (hb : 0 < b) : HoldsBytes (flat b) b flatContent where
  pos := hb
  stat s h c hc := by
    rcases h with _ | n
    · cases hc
    · simp only [flatContent, Option.bind_some, Option.map_eq_some_iff] at hc
      obtain ⟨o, ho, rfl⟩ := hc
      simp only [flat, ho, ceil_eq _ b hb, and_self]
  resize s h c n hc := by
    rcases h with _ | m
    · cases hc
    · simp only [flatContent, Option.bind_some, Option.map_eq_some_iff] at hc
      obtain ⟨o, ho, rfl⟩ := hc
      refine ⟨_, rfl, ?_⟩
      simp only [flatContent, Option.bind_some]
      rw [find_change, ho]
      · simp only [Option.map_some, fillUp, List.length_take, Option.some.injEq, List.append_cancel_left_eq]
        congr 1
        omega
      · intro o; rfl
  write s h c i buf hc hi hbuf := by
    rcases h with _ | m
    · cases hc
    · simp only [flatContent, Option.bind_some, Option.map_eq_some_iff] at hc
      obtain ⟨o, ho, rfl⟩ := hc
      refine ⟨_, rfl, ?_⟩
      simp only [flatContent, Option.bind_some]
      rw [find_change _ _ _ (by intro o; rfl), ho]
      simp only [Option.map_some, Option.some.injEq]
      have h1 := blocksFor_lt hb o.data.length
      have h2 := blocksFor_le hb o.data.length
      have h3 : (i + 1) * b ≤ blocksFor o.data.length b * b := Nat.mul_le_mul_right _ hi
      rw [Nat.add_mul, Nat.one_mul] at h3
      have hbl : (o.blocks b).length = blocksFor o.data.length b * b := by
        unfold Obj.blocks; rw [List.length_append, List.length_replicate, ceil_eq _ b hb]; omega
      have hib : i * b ≤ o.data.length := by omega
      unfold splice
      rw [hbuf]
      have h4 : (o.blocks b).take (i * b) = o.data.take (i * b) := by
        unfold Obj.blocks; rw [List.take_append_of_le_length hib]
      rw [h4]
      by_cases hd : i * b + b ≤ o.data.length
      · have h5 : (o.blocks b).drop (i * b + b) = o.data.drop (i * b + b) ++ List.replicate ((o.data.length + (b - 1)) / b * b - o.data.length) 0 := by
          unfold Obj.blocks; rw [List.drop_append_of_le_length hd]
        rw [h5, ← List.append_assoc, List.take_append_of_le_length]
        simp only [List.length_append, List.length_take, List.length_drop, hbuf]
        omega
      · rw [List.take_append_of_le_length (l₂ := (o.blocks b).drop (i * b + b)), List.take_append_of_le_length (l₂ := o.data.drop (i * b + b))]
        all_goals simp only [List.length_append, List.length_take, hbuf]; omega

theorem flat_outside (b : Nat) (hb : 0 < b) : NothingOutside (flat b) b flatContent := by
  intro s h c i buf hc hi
  rcases h with _ | m
  · cases hc
  · simp only [flatContent, Option.bind_some, Option.map_eq_some_iff] at hc
    obtain ⟨o, ho, rfl⟩ := hc
    simp only [flat, flatContent, Option.bind_some]
    rw [find_change _ _ _ (by intro o; rfl), ho]
    simp only [Option.map_some, Option.some.injEq]
    have h2 := blocksFor_le hb o.data.length
    have h3 : blocksFor o.data.length b * b ≤ i * b := Nat.mul_le_mul_right _ hi
    have hbl : (o.blocks b).length = blocksFor o.data.length b * b := by
      unfold Obj.blocks; rw [List.length_append, List.length_replicate, ceil_eq _ b hb]; omega
    unfold splice
    rw [List.append_assoc, List.take_append_of_le_length (by rw [List.length_take]; omega), List.take_take, Nat.min_eq_left (by omega)]
    unfold Obj.blocks
    rw [List.take_append_of_le_length (Nat.le_refl _), List.take_length]

/-- C101 is false even with the wrapper repaired: of three bytes only the first arrives. -/
theorem C101_refuted : ¬ C101_statement passing := by
  intro h
  obtain ⟨s', h1, h2⟩ := h (List Obj) (Option Str) (flat 4) 4 flatContent 3 [] oneFile (str! "/f") _ _ (some (str! "f")) 0 [1, 2, 3] [] (flat_still 4) (flat_holds 4 (by decide)) (flat_root 4 _)
    isLoc_nil oneFile_means oneFile_found (by unfold Writable; decide) (by decide) (by decide) (by decide)
  obtain ⟨s'', h3, h4⟩ := C101_short_partial (flat_still 4).toQuiet (flat_holds 4 (by decide)) passing rfl 3 (by unfold Writable; decide) [] isLoc_nil oneFile (flat_root 4 _) (str! "/f") _ _
    oneFile_means (some (str! "f")) oneFile_found (by decide) 0 [1, 2, 3] [] (by decide) (by decide) (by decide) (by decide)
  rw [(gives_unique h1 h3).1, h4] at h2
  exact absurd h2 (by decide)

/-- The hypotheses of the theorems about the contents are met: -/
example : Writable 3 ∧ ((flat 4).stat fiveBytes (some (str! "f"))).isFile = true ∧ flatContent fiveBytes (some (str! "f")) = some [1, 2, 3, 4, 5] ∧
    (([9, 8, 7] : Bytes).length + ([1, 2, 3, 4, 5] : Bytes).length) + 4 * 4 ≤ maxInt := by unfold Writable; decide +kernel
/-- [9, 8, 7] written over five bytes: success, and the file is [9]; [9, 8, 7, 6] gives an error and [0]. -/
example : (match writeFile ⟨passing, flat 4, 3, str! "/"⟩ 9 (str! "/f") [9, 8, 7] 0 fiveBytes with | .ret (s, .ok ()) => flatContent s (some (str! "f")) | _ => none) = some [9] ∧
    (match writeFile ⟨passing, flat 4, 3, str! "/"⟩ 9 (str! "/f") [9, 8, 7, 6] 0 fiveBytes with | .ret (s, .error _) => flatContent s (some (str! "f")) | _ => none) = some [0] := by decide +kernel
/-- Nine bytes in blocks of two: 5 blocks are asked for, of which the object of 5 bytes has 3; 5 bytes arrive. -/
example : (match writeFile ⟨passing, flat 2, 3, str! "/"⟩ 9 (str! "/f") [1, 2, 3, 4, 5, 6, 7, 8, 9] 0 fiveBytes with | .ret (s, .ok ()) => flatContent s (some (str! "f")) | _ => none) = some [1, 2, 3, 4, 5] := by
  decide +kernel
/-- A new file of six bytes in blocks of four: two blocks are written, and two bytes arrive. -/
example : (match writeFile ⟨passing, flat 4, 3, str! "/"⟩ 9 (str! "/new") [1, 2, 3, 4, 5, 6] 0o600 fiveBytes with | .ret (s, .ok ()) => flatContent s (some (str! "new")) | _ => none) = some [1, 2] := by
  decide +kernel

/-! ### Errors at the end -/

/-- C101 says also that success means that the implementation took the data: with an implementation that fails to write any block, WriteFile fails if there are data. -/
def C101_reported_statement (cfg : Cfg) : Prop :=
  ∀ (σ H : Type) (impl : Impl σ H) (mf : MountFlags) (wd : Loc) (s s' : σ) (p : Str) (perm : FileMode) (data : Bytes) (fuel : Nat),
    Still impl → (∀ s h i buf, (impl.writeBlocks s h i buf).2 ≠ none) → data ≠ [] →
    writeFile ⟨cfg, impl, mf, render wd⟩ fuel p data perm s ≠ .ret (s', .ok ())

/-- The flat implementation on a disk that cannot be written to. -/
def broken : Impl (List Obj) (Option Str) := { flat 4 with writeBlocks := fun s _ _ _ => (s, some (.other 5)) }

/-- C101 is false of errors of the final flush, even with the wrapper repaired: nothing is written, and success is reported. -/
theorem C101_refuted_reported : ¬ C101_reported_statement passing := by
  intro h
  have hs : Still broken := ⟨⟨⟨(flat_still 4).getObject, (flat_still 4).close⟩, (flat_still 4).read⟩, (flat_still 4).list⟩
  have := h (List Obj) (Option Str) broken 3 [] fiveBytes [⟨str! "f", 0o644, [0]⟩] (str! "/f") 0 [9, 8, 7] 9 hs (fun _ _ _ _ => (by simp [broken])) (by decide)
  exact this (by decide +kernel)

end Disko.Driver

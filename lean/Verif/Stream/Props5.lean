import Verif.Stream.CopyLemmas
/-! C139: copying one open stream to another, with `src.WriteTo(dst)` (that is `io.Copy(dst, src)`) or
`dst.ReadFrom(src)`. -/
namespace Disko.Stream
open Disko Disko.BlockCache Disko.BlockCache.Spec Disko.Stream.Spec Disko.Stream.Copying

variable {S T : Type}

/-- What is left to read of a stream: the bytes of the file from the position on. -/
def rest (view : S → Bytes) (x : Stm S) : Bytes := (file view x).drop x.tell.toNat

/-- C139 in full, for WriteTo: storage that never fails, two streams of the same block size, the destination not opened
with O_APPEND.  If nil is returned, the destination's file has what was left of the source at the destination's position. -/
def C139_statement : Prop :=
  ∀ (S T : Type) (b : Backend S) (bd : Backend T) (bpb total total' : Nat) (view : S → Bytes) (view' : T → Bytes) (s0 : S) (s0' : T),
    StreamSetup b bpb total view s0 → StreamSetup bd bpb total' view' s0' → AllReliable b → AllReliable bd →
    ∀ x y, Reachable b bpb total s0 x → Reachable bd bpb total' s0' y → FitsRead x bpb →
    FitsRead y ((rest view x).length + 2 * bpb) → Flags.append y.flags = false →
    ∀ fuel x' y' n, copyTo b bd fuel x y = .ret (x', y', n, none) →
      n = (rest view x).length ∧ slice (file view' y') y.tell.toNat (rest view x).length = rest view x

/-- C139 in full, for ReadFrom. -/
def C139_from_statement : Prop :=
  ∀ (S T : Type) (b : Backend S) (bd : Backend T) (bpb total total' : Nat) (view : S → Bytes) (view' : T → Bytes) (s0 : S) (s0' : T),
    StreamSetup b bpb total view s0 → StreamSetup bd bpb total' view' s0' → AllReliable b → AllReliable bd →
    ∀ x y, Reachable b bpb total s0 x → Reachable bd bpb total' s0' y → FitsRead x bpb →
    FitsRead y ((rest view x).length + 2 * bpb) → Flags.append y.flags = false →
    ∀ fuel x' y' n, copyFrom b bd fuel y x = .ret (y', x', n, none) →
      n = (rest view x).length ∧ slice (file view' y') y.tell.toNat (rest view x).length = rest view x

/-- Reading off what a call on two streams returned, and one observation of each stream after it. -/
theorem ret_of_two {α β γ δ ε : Type} {o : Outcome (α × β × γ)} (f : α → δ) (g : β → ε) {r : γ} {v : δ} {w : ε}
    (h : o.bind (fun p => .ret (f p.1, g p.2.1, p.2.2)) = .ret (v, w, r)) :
    ∃ x' y', o = .ret (x', y', r) ∧ f x' = v ∧ g y' = w := by
  rcases o with ⟨x', y', r'⟩ | _ | _
  · simp only [Outcome.bind, Outcome.ret.injEq, Prod.mk.injEq] at h
    obtain ⟨rfl, rfl, rfl⟩ := h
    exact ⟨x', y', rfl, rfl, rfl⟩
  · simp [Outcome.bind] at h
  · simp [Outcome.bind] at h

/-- Copying a file of 5 bytes over one of 6: nil and a count of 5, but the file is 1 2 5 4 5 6. -/
theorem C139_refuted : ¬ C139_statement := by
  intro h
  obtain ⟨x', y', hw, _, hv⟩ := ret_of_two (o := copyTo (steady 2) (steady 2) 9 (okStream 5 Flags.O_RDWR) (okStream 6 Flags.O_RDWR)) Stm.tell
    (file (fun s => s)) (r := (5, none)) (v := 4) (w := [1, 2, 5, 4, 5, 6]) (by decide +kernel)
  have := (h _ _ _ _ _ _ _ _ _ _ _ okSetup okSetup okReliable okReliable _ _ (okReachable 5 Flags.O_RDWR (by omega) (by decide +kernel))
    (okReachable 6 Flags.O_RDWR (by omega) (by decide +kernel)) (by decide +kernel) (by decide +kernel) (by decide +kernel) 9 x' y' 5 hw).2
  rw [hv] at this
  revert this
  decide +kernel

/-- A file of 4 bytes, 1 2 3 4. -/
def fourBytes : Stm Bytes := ⟨4, 0, ⟨{ exampleCache with total := 2, data := [0, 0, 0, 0] }, [1, 2, 3, 4]⟩, Flags.O_RDWR⟩

theorem fourReachable : Reachable (steady 2) 2 3 [1, 2, 3, 4, 5, 6] fourBytes :=
  .call (c := .truncate 4) (okReachable 6 Flags.O_RDWR (by omega) (by decide +kernel)) (by show FitsSize _ _; decide +kernel) (by decide +kernel)

/-- Copying 4 5 6 over 1 2 3 4: nil and a count of 3, but the file is 4 5 3 4. -/
theorem C139_from_refuted : ¬ C139_from_statement := by
  intro h
  obtain ⟨y', x', hw, hv, _⟩ := ret_of_two (o := copyFrom (steady 2) (steady 2) 9 fourBytes { okStream 6 Flags.O_RDWR with position := 3 }) (file (fun s => s))
    Stm.tell (r := (3, none)) (v := [4, 5, 3, 4]) (w := 5) (by decide +kernel)
  have hr : Reachable (steady 2) 2 3 [1, 2, 3, 4, 5, 6] { okStream 6 Flags.O_RDWR with position := 3 } :=
    .call (c := .seek 3 0) (okReachable 6 Flags.O_RDWR (by omega) (by decide +kernel))
      (by show -(2 ^ 63) ≤ (3 : Int) ∧ (3 : Int) < 2 ^ 63; omega) rfl
  have := (h _ _ _ _ _ _ _ _ _ _ _ okSetup okSetup okReliable okReliable _ _ hr fourReachable
    (by decide +kernel) (by decide +kernel) (by decide +kernel) 9 x' y' 3 hw).2
  rw [hv] at this
  revert this
  decide +kernel

theorem take_splice {d v : Bytes} {p n : Nat} (h : p + v.length ≤ n) (hn : n ≤ d.length) :
    (splice d p v).take n = (d.take n).take p ++ v ++ (d.take n).drop (p + v.length) := by
  show (splice d p v).take n = splice (d.take n) p v
  apply List.ext_getElem?
  intro k
  rw [List.getElem?_take, getElem?_splice (by omega), getElem?_splice (by rw [List.length_take]; omega), List.getElem?_take]
  by_cases hk : k < n
  · rw [if_pos hk, if_pos hk]
  · rw [if_neg hk, if_neg (by omega), if_neg (by omega), if_neg hk]

theorem rest_lt {bpb : Nat} {view : S → Bytes} {x : Stm S} (h : Inv bpb view x) : (rest view x).length < 2 ^ 63 := by
  have h1 := h.size_lt
  have h2 := h.size_nn
  unfold rest
  rw [List.length_drop, length_file h]; omega

/-- C139, a destination with room: the file already has all the bytes that will be overwritten, and the cached object has more than
twice the blocks up to there.  Then both ways of copying write exactly what was left of the source over the destination, and
change nothing else. -/
theorem C139_room_partial {b : Backend S} {bd : Backend T} {bpb total total' : Nat} {view : S → Bytes} {view' : T → Bytes} {s0 : S} {s0' : T}
    (H : StreamSetup b bpb total view s0) (H' : StreamSetup bd bpb total' view' s0') (R : AllReliable b) (R' : AllReliable bd)
    {x : Stm S} {y : Stm T} (hx : Reachable b bpb total s0 x) (hy : Reachable bd bpb total' s0' y)
    (hread : Flags.read x.flags = true) (hwrite : Flags.write y.flags = true) (happ : Flags.append y.flags = false)
    (hfx : FitsRead x bpb) (hfy : FitsRead y (y.tell.toNat + (rest view x).length + bpb))
    (hin : y.tell + (rest view x).length ≤ y.size')
    (hroom : 2 * ((y.tell.toNat + (rest view x).length) / bpb) < y.st.c.totalBlocks)
    (fuel : Nat) (hfuel : (rest view x).length / bpb < fuel) :
    (∃ x' y', copyTo b bd fuel x y = .ret (x', y', ((rest view x).length : Int), none) ∧ file view x' = file view x ∧
      y'.size' = y.size' ∧
      file view' y' = (file view' y).take y.tell.toNat ++ rest view x ++ (file view' y).drop (y.tell.toNat + (rest view x).length)) ∧
    (∃ x' y', copyFrom b bd fuel y x = .ret (y', x', ((rest view x).length : Int), none) ∧ file view x' = file view x ∧
      y'.size' = y.size' ∧
      file view' y' = (file view' y).take y.tell.toNat ++ rest view x ++ (file view' y).drop (y.tell.toNat + (rest view x).length)) := by
  have ix := reachable_inv H hx
  have iy := reachable_inv H' hy
  have hd : (file view x).drop x.position.toNat = rest view x := rfl
  have hl := rest_lt ix
  have hpn := iy.pos_nn
  have hsn := iy.size_nn
  have hsl := iy.size_le
  have hb := iy.bpb
  have hin' : y.position + (rest view x).length ≤ y.size := hin
  have hcap : y.st.c.total * bpb + (y.position.toNat + 0 + (rest view x).length) + bpb ≤ maxInt := by
    have : y.st.c.total * y.st.c.bpb + (y.position.toNat + (rest view x).length + bpb) ≤ maxInt := hfy
    rw [hb] at this; omega
  have hnear : Near bpb view' y y.position.toNat [] y := by
    refine ⟨iy, iy, rfl, ?_, rfl, rfl, by simp⟩
    show y.position = _
    simp only [List.length_nil]; omega
  have hroom' : 2 * ((y.position.toNat + 0 + (rest view x).length) / bpb) + 1 ≤ y.st.c.total := hroom
  have hfile : ∀ y', Near bpb view' y y.position.toNat (rest view x) y' →
      file view' y' = (file view' y).take y.tell.toNat ++ rest view x ++ (file view' y).drop (y.tell.toNat + (rest view x).length) := by
    intro y' n
    unfold file
    rw [n.contents, n.size]
    exact take_splice (by omega) (by rw [length_contents]; omega)
  have hbuf : (List.replicate x.st.c.bpb (0 : UInt8)).length = bpb := by rw [List.length_replicate, ix.bpb]
  constructor
  · obtain ⟨x', _, k2, _, k4⟩ := copyLoop_ok H.cache.lawful R bd _ fuel _ x 0 ix hread hbuf hfx (by rw [hd]; exact hfuel) rfl (by omega)
      (by rw [hd]; omega)
    have hp := pieces_flatten bpb ((rest view x).length / bpb) (rest view x)
    obtain ⟨y', s1, s2⟩ := sent_near H'.cache.lawful R' hwrite happ (pieces bpb ((rest view x).length / bpb) (rest view x)) [] y hnear
      (by rw [hp]; exact hroom') (by rw [hp]; exact hcap)
    rw [hp, List.nil_append] at s2
    refine ⟨x', y', ?_, k2.file, s2.size, hfile y' s2⟩
    unfold copyTo
    rw [k4 y, hd, s1]
    simp [Outcome.bind]
  · have hp := fulls_flatten bpb ((rest view x).length / bpb) (rest view x)
    have hp' := congrArg List.length hp
    rw [List.length_append] at hp'
    obtain ⟨y', s1, s2⟩ := received_near H'.cache.lawful R' hwrite happ ((rest view x).drop ((rest view x).length / bpb * bpb))
      (fulls bpb ((rest view x).length / bpb) (rest view x)) [] y hnear (by rw [hp']; exact hroom') (by rw [hp']; exact hcap)
    rw [hp, List.nil_append] at s2
    rw [hp'] at s1
    obtain ⟨x', _, k2, k3, _⟩ := copyFromLoop_ok H.cache.lawful R _ fuel _ x y 0 y' _ none ix hread hbuf hfx (by rw [hd]; exact hfuel) rfl (by omega)
      (by rw [hd]; omega) (by rw [hd]; exact s1)
    refine ⟨x', y', ?_, k2.file, s2.size, hfile y' s2⟩
    unfold copyFrom
    rw [hwrite]
    simp only [Bool.not_true, Bool.false_eq_true, if_false]
    rw [k3]
    simp

/-- C139, a destination of `N` whole blocks, positioned at its start.  WriteTo copies the first `N / 2` blocks of the source, or all
its whole blocks if there are fewer; the other whole blocks are lost, and what remains at the end of the source is written right
after the blocks that were copied, if that is before the middle.  The count and the error say that all went well. -/
theorem C139_blocks_partial {b : Backend S} {bd : Backend T} {bpb total total' : Nat} {view : S → Bytes} {view' : T → Bytes} {s0 : S} {s0' : T}
    (H : StreamSetup b bpb total view s0) (H' : StreamSetup bd bpb total' view' s0') (R : AllReliable b) (R' : AllReliable bd)
    {x : Stm S} {y : Stm T} (hx : Reachable b bpb total s0 x) (hy : Reachable bd bpb total' s0' y)
    (hread : Flags.read x.flags = true) (hwrite : Flags.write y.flags = true) (happ : Flags.append y.flags = false)
    (hfx : FitsRead x bpb) (hfy : FitsRead y (2 * bpb))
    {N q m : Nat} (hN : 0 < N) (hsize : y.size' = (N * bpb : Nat)) (hblocks : y.st.c.totalBlocks = N) (hpos : y.tell = 0)
    (hq : q = (rest view x).length / bpb) (hm : m = min q (N / 2)) (fuel : Nat) (hfuel : q < fuel) :
    ∃ x' y', copyTo b bd fuel x y = .ret (x', y', ((rest view x).length : Int), none) ∧ file view x' = file view x ∧
      y'.size' = y.size' ∧
      file view' y' =
        let last := if 2 * m < N then (rest view x).drop (q * bpb) else []
        (rest view x).take (m * bpb) ++ last ++ (file view' y).drop (m * bpb + last.length) := by
  have ix := reachable_inv H hx
  have iy := reachable_inv H' hy
  have hbp : 0 < bpb := by rw [← iy.bpb]; exact iy.weak.bpb_pos
  have hd : (file view x).drop x.position.toNat = rest view x := rfl
  have hl := rest_lt ix
  have hb := iy.bpb
  have hbuf : (List.replicate x.st.c.bpb (0 : UInt8)).length = bpb := by rw [List.length_replicate, ix.bpb]
  obtain ⟨x', _, k2, _, k4⟩ := copyLoop_ok H.cache.lawful R bd _ fuel _ x 0 ix hread hbuf hfx (by rw [hd, ← hq]; exact hfuel) rfl (by omega)
    (by rw [hd]; omega)
  have ht : y.st.c.total = N := hblocks
  have hlenC : (contents view' y.st).length = N * bpb := by rw [length_contents, ht, hb]
  have hs : y.size = (N * bpb : Nat) := hsize
  have hA : At bpb view' N 0 (contents view' y.st) y := ⟨iy, hwrite, happ, by rw [show y.position = 0 from hpos]; simp, ht, hs, rfl⟩
  have hcap : N * bpb + 2 * bpb ≤ maxInt := by
    have : y.st.c.total * y.st.c.bpb + 2 * bpb ≤ maxInt := hfy
    rw [hb, ht] at this; exact this
  obtain ⟨y', s1, s2, s3, s4⟩ := sent_at H'.cache.lawful R' hN hcap q 0 _ (rest view x) y hA (by omega) hq.symm
  rw [Nat.sub_zero, Nat.zero_add, ← hm, Nat.zero_mul] at s4
  refine ⟨x', y', ?_, k2.file, s2.trans hs.symm, ?_⟩
  · unfold copyTo
    rw [k4 y, hd, ← hq, s1]
    simp [Outcome.bind]
  · have hfy' : file view' y' = contents view' y'.st := by
      unfold file
      rw [s2, Int.toNat_natCast]
      apply List.take_of_length_le
      rw [s4]
      have hmod := Nat.div_add_mod (rest view x).length bpb
      have hmq : m * bpb ≤ q * bpb := Nat.mul_le_mul_right _ (by omega)
      have hmN : m * bpb ≤ N * bpb := Nat.mul_le_mul_right _ (by omega)
      rw [← hq, Nat.mul_comm bpb] at hmod
      have hml := Nat.mod_lt (rest view x).length hbp
      rw [length_splice, length_splice]
      · omega
      · rw [List.length_take]; omega
      · rw [length_splice (by rw [List.length_take]; omega)]
        split
        · rename_i hlt
          have h3 := Nat.mul_le_mul_right bpb (show m + 1 ≤ N by omega)
          rw [Nat.succ_mul] at h3
          rw [List.length_drop]; omega
        · simp; omega
    have hfy0 : file view' y = contents view' y.st := by
      unfold file
      rw [hs, Int.toNat_natCast]
      exact List.take_of_length_le (by omega)
    rw [hfy', hfy0, s4]
    have hml : ((rest view x).take (m * bpb)).length = m * bpb := by
      rw [List.length_take]
      have hmq : m * bpb ≤ q * bpb := Nat.mul_le_mul_right _ (by omega)
      have := Nat.div_mul_le_self (rest view x).length bpb
      rw [← hq] at this; omega
    simp only [splice, List.take_zero, List.nil_append, hml, Nat.zero_add]
    generalize (if 2 * m < N then (rest view x).drop (q * bpb) else []) = last
    rw [List.take_append_of_le_length (by omega), List.take_of_length_le (by omega), List.drop_append, hml,
      List.drop_eq_nil_of_le (by omega), List.nil_append, List.drop_drop]
    congr 2; omega

/-- The example of `C139_refuted`: N = 3, q = 2, m = 1; the fifth byte replaces the third. -/
example : (copyTo (steady 2) (steady 2) 9 (okStream 5 Flags.O_RDWR) (okStream 6 Flags.O_RDWR)).bind
      (fun p => .ret (file (fun s => s) p.2.1, p.2.2)) = .ret ([1, 2, 5, 4, 5, 6], 5, none) ∧
    (okStream 6 Flags.O_RDWR).size' = (3 * 2 : Nat) ∧ (okStream 6 Flags.O_RDWR).st.c.totalBlocks = 3 ∧
    (rest (fun s => s) (okStream 5 Flags.O_RDWR)).length / 2 = 2 := by
  decide +kernel

/-- C139, ReadFrom into a destination of `N` whole blocks, positioned at its start.  If the source has at most `N / 2` whole blocks,
they are copied and nil is returned; what remains at the end of the source is copied as well if that is before the middle, and
lost otherwise.  If it has more, ReadFrom stops with an error and a count of one block more than it copied. -/
theorem C139_from_blocks_partial {b : Backend S} {bd : Backend T} {bpb total total' : Nat} {view : S → Bytes} {view' : T → Bytes} {s0 : S} {s0' : T}
    (H : StreamSetup b bpb total view s0) (H' : StreamSetup bd bpb total' view' s0') (R : AllReliable b) (R' : AllReliable bd)
    {x : Stm S} {y : Stm T} (hx : Reachable b bpb total s0 x) (hy : Reachable bd bpb total' s0' y)
    (hread : Flags.read x.flags = true) (hwrite : Flags.write y.flags = true) (happ : Flags.append y.flags = false)
    (hfx : FitsRead x bpb) (hfy : FitsRead y (2 * bpb))
    {N q : Nat} (hN : 0 < N) (hsize : y.size' = (N * bpb : Nat)) (hblocks : y.st.c.totalBlocks = N) (hpos : y.tell = 0)
    (hq : q = (rest view x).length / bpb) (fuel : Nat) (hfuel : q < fuel) :
    ∃ x' y' copied n e, copyFrom b bd fuel y x = .ret (y', x', n, e) ∧ file view x' = file view x ∧ y'.size' = y.size' ∧
      file view' y' = copied ++ (file view' y).drop copied.length ∧
      ((2 * q < N ∧ copied = rest view x ∧ n = (rest view x).length ∧ e = none) ∨
       (2 * q = N ∧ copied = (rest view x).take (q * bpb) ∧ n = (rest view x).length ∧ e = none) ∨
       (N < 2 * q ∧ copied = (rest view x).take (N / 2 * bpb) ∧ n = ((N / 2 + 1) * bpb : Nat) ∧ e = some (.cache .argumentOutOfRange))) := by
  have ix := reachable_inv H hx
  have iy := reachable_inv H' hy
  have hbp : 0 < bpb := by rw [← iy.bpb]; exact iy.weak.bpb_pos
  have hd : (file view x).drop x.position.toNat = rest view x := rfl
  have hl := rest_lt ix
  have hb := iy.bpb
  have hbuf : (List.replicate x.st.c.bpb (0 : UInt8)).length = bpb := by rw [List.length_replicate, ix.bpb]
  have ht : y.st.c.total = N := hblocks
  have hlenC : (contents view' y.st).length = N * bpb := by rw [length_contents, ht, hb]
  have hs : y.size = (N * bpb : Nat) := hsize
  have hA : At bpb view' N 0 (contents view' y.st) y := ⟨iy, hwrite, happ, by rw [show y.position = 0 from hpos]; simp, ht, hs, rfl⟩
  have hcap : N * bpb + 2 * bpb ≤ maxInt := by
    have : y.st.c.total * y.st.c.bpb + 2 * bpb ≤ maxInt := hfy
    rw [hb, ht] at this; exact this
  obtain ⟨y', n, e, s1, s2, s3, s4⟩ := received_at H'.cache.lawful R' hN hcap q 0 _ (rest view x) y hA (by omega) hq.symm
  obtain ⟨x', _, k2, k3, _⟩ := copyFromLoop_ok H.cache.lawful R _ fuel _ x y 0 y' n e ix hread hbuf hfx (by rw [hd, ← hq]; exact hfuel) rfl (by omega)
    (by rw [hd]; omega) (by rw [hd, ← hq]; exact s1)
  rw [Int.zero_add] at k3
  have hrun : copyFrom b bd fuel y x = .ret (y', x', (n : Int), e) := by
    unfold copyFrom
    rw [hwrite]
    simp only [Bool.not_true, Bool.false_eq_true, if_false]
    exact k3
  have hfy0 : file view' y = contents view' y.st := by
    unfold file
    rw [hs, Int.toNat_natCast]
    exact List.take_of_length_le (by omega)
  have hfile : ∀ v, v.length ≤ N * bpb → contents view' y'.st = splice (contents view' y.st) (0 * bpb) v →
      file view' y' = v ++ (file view' y).drop v.length := by
    intro v hv hc
    unfold file
    rw [s2, hs, Int.toNat_natCast, hc]
    rw [List.take_of_length_le, List.take_of_length_le (by omega)]
    · simp [splice]
    · rw [length_splice (by omega)]; omega
  have hmod := Nat.div_add_mod (rest view x).length bpb
  have hml := Nat.mod_lt (rest view x).length hbp
  rw [← hq, Nat.mul_comm bpb] at hmod
  rw [Nat.zero_add] at s4
  rcases s4 with ⟨p1, p2, p3, p4⟩ | ⟨p1, p2, p3, p4⟩
  · by_cases hlt : 2 * q < N
    · rw [if_pos hlt] at p4
      have h3 := Nat.mul_le_mul_right bpb (show q + 1 ≤ N by omega)
      rw [Nat.succ_mul] at h3
      exact ⟨x', y', rest view x, n, e, hrun, k2.file, s2.trans hs.symm, hfile _ (by omega) p4, .inl ⟨hlt, rfl, by omega, p3⟩⟩
    · rw [if_neg hlt] at p4
      have h3 := Nat.mul_le_mul_right bpb (show q ≤ N by omega)
      exact ⟨x', y', _, n, e, hrun, k2.file, s2.trans hs.symm, hfile _ (by rw [List.length_take]; omega) p4,
        .inr (.inl ⟨by omega, rfl, by omega, p3⟩)⟩
  · rw [Nat.sub_zero] at p2 p4
    have h3 := Nat.mul_le_mul_right bpb (show N / 2 ≤ N by omega)
    exact ⟨x', y', _, n, e, hrun, k2.file, s2.trans hs.symm, hfile _ (by rw [List.length_take]; omega) p4,
      .inr (.inr ⟨p1, rfl, by omega, p3⟩)⟩

/-- All three cases: 2q = N = 2, 2q < N = 3, and 2q > N = 2. -/
example : (copyFrom (steady 2) (steady 2) 9 fourBytes { okStream 6 Flags.O_RDWR with position := 3 }).bind
      (fun p => .ret (file (fun s => s) p.1, p.2.2)) = .ret ([4, 5, 3, 4], 3, none) ∧
    (copyFrom (steady 2) (steady 2) 9 (okStream 6 Flags.O_RDWR) { okStream 6 Flags.O_RDWR with position := 3 }).bind
      (fun p => .ret (file (fun s => s) p.1, p.2.2)) = .ret ([4, 5, 6, 4, 5, 6], 3, none) ∧
    (copyFrom (steady 2) (steady 2) 9 fourBytes { okStream 6 Flags.O_RDWR with position := 1 }).bind
      (fun p => .ret (file (fun s => s) p.1, p.2.2)) = .ret ([2, 3, 3, 4], 4, some (.cache .argumentOutOfRange)) := by
  decide +kernel

/-- C139, an empty destination (no blocks) not opened with O_APPEND.  A source with less than a block left is copied exactly, both
ways.  Otherwise WriteTo returns the full count and nil, and the destination has exactly one block: what remains at the end of the
source after its whole blocks, then zeros; ReadFrom returns an error after the first block, and the destination has one
block of zeros. -/
theorem C139_empty_partial {b : Backend S} {bd : Backend T} {bpb total total' : Nat} {view : S → Bytes} {view' : T → Bytes} {s0 : S} {s0' : T}
    (H : StreamSetup b bpb total view s0) (H' : StreamSetup bd bpb total' view' s0') (R : AllReliable b) (R' : AllReliable bd)
    {x : Stm S} {y : Stm T} (hx : Reachable b bpb total s0 x) (hy : Reachable bd bpb total' s0' y)
    (hread : Flags.read x.flags = true) (hwrite : Flags.write y.flags = true) (happ : Flags.append y.flags = false)
    (hfx : FitsRead x bpb) (hfy : 3 * bpb ≤ maxInt) (hblocks : y.st.c.totalBlocks = 0) (hpos : y.tell = 0)
    (fuel : Nat) (hfuel : (rest view x).length / bpb < fuel) :
    (∃ x' y', copyTo b bd fuel x y = .ret (x', y', ((rest view x).length : Int), none) ∧ file view x' = file view x ∧
      (if (rest view x).length < bpb then file view' y' = rest view x
       else
        let k := (rest view x).length % bpb
        file view' y' = (rest view x).drop ((rest view x).length - k) ++ List.replicate (bpb - k) 0)) ∧
    (∃ x' y' n e, copyFrom b bd fuel y x = .ret (y', x', n, e) ∧ file view x' = file view x ∧
      (if (rest view x).length < bpb then file view' y' = rest view x ∧ n = (rest view x).length ∧ e = none
       else file view' y' = List.replicate bpb 0 ∧ n = bpb ∧ e = some (.cache .argumentOutOfRange))) := by
  have ix := reachable_inv H hx
  have iy := reachable_inv H' hy
  have hbp : 0 < bpb := by rw [← iy.bpb]; exact iy.weak.bpb_pos
  have hd : (file view x).drop x.position.toNat = rest view x := rfl
  have hl := rest_lt ix
  have ht : y.st.c.total = 0 := hblocks
  have hp0 : y.position = 0 := hpos
  have hbuf : (List.replicate x.st.c.bpb (0 : UInt8)).length = bpb := by rw [List.length_replicate, ix.bpb]
  have hwo : writeOffset y = 0 := by unfold writeOffset; rw [happ, hp0]; simp
  have hempty : file view' y = [] := by unfold file; rw [contents_nil ht]; simp
  obtain ⟨x', _, k2, _, k4⟩ := copyLoop_ok H.cache.lawful R bd _ fuel _ x 0 ix hread hbuf hfx (by rw [hd]; exact hfuel) rfl (by omega)
    (by rw [hd]; omega)
  rw [Int.zero_add] at k4
  have fin : ∀ y', sent bd y (pieces bpb ((rest view x).length / bpb) (rest view x)) = .ret y' →
      copyTo b bd fuel x y = .ret (x', y', ((rest view x).length : Int), none) := by
    intro y' hs
    unfold copyTo
    rw [k4 y, hd, hs]; rfl
  have finF : ∀ y' n e, received bd ((rest view x).drop ((rest view x).length / bpb * bpb)) y
      (fulls bpb ((rest view x).length / bpb) (rest view x)) = .ret (y', n, e) →
      ∃ x', copyFrom b bd fuel y x = .ret (y', x', (n : Int), e) ∧ file view x' = file view x := by
    intro y' n e hs
    obtain ⟨x2, _, m2, m3, _⟩ := copyFromLoop_ok H.cache.lawful R _ fuel _ x y 0 y' n e ix hread hbuf hfx (by rw [hd]; exact hfuel) rfl (by omega)
      (by rw [hd]; omega) (by rw [hd]; exact hs)
    refine ⟨x2, ?_, m2.file⟩
    unfold copyFrom
    rw [hwrite]
    simp only [Bool.not_true, Bool.false_eq_true, if_false]
    rw [m3, Int.zero_add]
  by_cases hlt : (rest view x).length < bpb
  · have hq0 : (rest view x).length / bpb = 0 := Nat.div_eq_of_lt hlt
    rw [hq0] at fin finF
    by_cases hne : rest view x = []
    · refine ⟨⟨x', y, fin y (by rw [hne]; rfl), k2.file, by rw [if_pos hlt, hempty, hne]⟩, ?_⟩
      obtain ⟨g1, g2⟩ := newTotal_grow iy (o := 0) (n := 0) (by rw [ht]; exact Nat.zero_le _)
      obtain ⟨f1, f2⟩ := fits_small iy (o := 0) (n := 0) (by rw [ht]; omega)
      have hz : (0 + 0 + (bpb - 1)) / bpb = 0 := Nat.div_eq_of_lt (by omega)
      obtain ⟨y', w1, w⟩ := (write_ok H'.cache.lawful R' iy hwrite [] (o := 0) hwo f1 f2).2 (by
        show newTotal y 0 0 < _
        rw [g1, hz]; exact Nat.succ_pos _)
      obtain ⟨x2, m1, m2⟩ := finF y' 0 none (by rw [hne]; simp [fulls, received, w1, Outcome.bind])
      refine ⟨x2, y', 0, none, m1, m2, ?_⟩
      rw [if_pos hlt, hne]
      refine ⟨?_, rfl, rfl⟩
      unfold file
      have : y'.st.c.total = 0 := by rw [w.total]; show newTotal y 0 0 = 0; rw [g1, hz]
      rw [contents_nil this]; simp
    · obtain ⟨y', w1, w2, w3, w4⟩ := short_ok H'.cache.lawful R' iy hwrite hwo ht hfy (rest view x) hlt hne
      refine ⟨⟨x', y', fin y' (by simp [pieces, hne, sent, w1]), k2.file, by rw [if_pos hlt]; exact w4⟩, ?_⟩
      obtain ⟨x2, m1, m2⟩ := finF y' (rest view x).length none (by simp [fulls, received, w1, Outcome.bind])
      refine ⟨x2, y', _, none, m1, m2, ?_⟩
      rw [if_pos hlt]
      exact ⟨w4, rfl, rfl⟩
  · have hqp : 0 < (rest view x).length / bpb := Nat.div_pos (by omega) hbp
    obtain ⟨q, hq⟩ : ∃ q, (rest view x).length / bpb = q + 1 := ⟨_, (Nat.sub_add_cancel hqp).symm⟩
    have htl : ((rest view x).take bpb).length = bpb := by rw [List.length_take]; omega
    obtain ⟨y1, w1, w2⟩ := fresh_full H'.cache.lawful R' iy hwrite happ hp0 ht hfy _ htl
    have hq1 : ((rest view x).drop bpb).length / bpb = q := by
      have e := Nat.sub_mul_div (rest view x).length bpb 1
      rw [Nat.mul_one] at e
      rw [List.length_drop, e, hq]; rfl
    have hmod := Nat.div_add_mod (rest view x).length bpb
    have hml := Nat.mod_lt (rest view x).length hbp
    rw [hq, Nat.mul_comm bpb] at hmod
    constructor
    · obtain ⟨y', s1, s2, s3, s4⟩ := sent_at H'.cache.lawful R' (N := 1) (by omega) (by omega) q 0 _ ((rest view x).drop bpb) y1 w2 (by omega) hq1
      refine ⟨x', y', fin y' (by rw [hq]; simp only [pieces, sent]; rw [w1]; exact s1), k2.file, ?_⟩
      rw [if_neg hlt]
      have hdd : ((rest view x).drop bpb).drop (q * bpb) = (rest view x).drop ((rest view x).length - (rest view x).length % bpb) := by
        rw [List.drop_drop]; congr 1
        rw [Nat.succ_mul] at hmod; omega
      rw [hdd] at s4
      have hm0 : min q (1 / 2 - 0) = 0 := by omega
      rw [hm0] at s4
      simp only [Nat.zero_mul, List.take_zero, splice_nil, Nat.mul_zero, Nat.add_zero, Nat.zero_lt_one, if_true] at s4
      show file view' y' = _
      unfold file
      rw [s2, s4]
      simp only [splice, List.take_zero, List.nil_append, Nat.zero_add, Nat.one_mul, Int.toNat_natCast]
      rw [List.drop_replicate, List.length_drop, show (rest view x).length - ((rest view x).length - (rest view x).length % bpb) =
        (rest view x).length % bpb by omega]
      apply List.take_of_length_le
      rw [List.length_append, List.length_replicate, List.length_drop]; omega
    · obtain ⟨x2, m1, m2⟩ := finF y1 bpb (some (.cache .argumentOutOfRange)) (by
        rw [hq]; simp only [fulls, received]; rw [w1]; simp only [Outcome.bind]; rw [htl])
      refine ⟨x2, y1, _, _, m1, m2, ?_⟩
      rw [if_neg hlt]
      refine ⟨?_, rfl, rfl⟩
      unfold file
      rw [w2.contents, w2.size, Int.toNat_natCast, Nat.one_mul, List.take_replicate, Nat.min_self]

/-- An empty file. -/
def noBytes (flags : Flags.IOFlags) : Stm Bytes := ⟨0, 0, ⟨{ exampleCache with total := 0, loaded := [], dirty := [], data := [] }, []⟩, flags⟩

theorem noReachable : Reachable (steady 2) 2 3 [1, 2, 3, 4, 5, 6] (noBytes Flags.O_RDWR) :=
  .call (c := .truncate 0) (okReachable 6 Flags.O_RDWR (by omega) (by decide +kernel)) (by show FitsSize _ _; decide +kernel) (by decide +kernel)

/-- Five bytes copied to an empty file leave the last one. -/
example : (copyTo (steady 2) (steady 2) 9 (okStream 5 Flags.O_RDWR) (noBytes Flags.O_RDWR)).bind
      (fun p => .ret (file (fun s => s) p.2.1, p.2.2)) = .ret ([5, 0], 5, none) ∧
    (copyFrom (steady 2) (steady 2) 9 (noBytes Flags.O_RDWR) (okStream 5 Flags.O_RDWR)).bind
      (fun p => .ret (file (fun s => s) p.1, p.2.2)) = .ret ([0, 0], 2, some (.cache .argumentOutOfRange)) ∧
    (copyTo (steady 2) (steady 2) 9 (okStream 1 Flags.O_RDWR) (noBytes Flags.O_RDWR)).bind
      (fun p => .ret (file (fun s => s) p.2.1, p.2.2)) = .ret ([1], 1, none) := by
  decide +kernel

/-- C139, an empty destination opened with O_APPEND, and at least a block left in the source: WriteTo returns the full count and nil,
and the destination has the right size, but it is all zeros. -/
theorem C139_append_partial {b : Backend S} {bd : Backend T} {bpb total total' : Nat} {view : S → Bytes} {view' : T → Bytes} {s0 : S} {s0' : T}
    (H : StreamSetup b bpb total view s0) (H' : StreamSetup bd bpb total' view' s0') (R : AllReliable b) (R' : AllReliable bd)
    {x : Stm S} {y : Stm T} (hx : Reachable b bpb total s0 x) (hy : Reachable bd bpb total' s0' y)
    (hread : Flags.read x.flags = true) (hwrite : Flags.write y.flags = true) (happ : Flags.append y.flags = true)
    (hfx : FitsRead x bpb) (hfy : 2 * (rest view x).length + 2 * bpb ≤ maxInt) (hblocks : y.st.c.totalBlocks = 0)
    (hlong : bpb ≤ (rest view x).length) (fuel : Nat) (hfuel : (rest view x).length / bpb < fuel) :
    ∃ x' y', copyTo b bd fuel x y = .ret (x', y', ((rest view x).length : Int), none) ∧ file view x' = file view x ∧
      y'.size' = (rest view x).length ∧ file view' y' = List.replicate (rest view x).length 0 := by
  have ix := reachable_inv H hx
  have iy := reachable_inv H' hy
  have hbp : 0 < bpb := by rw [← iy.bpb]; exact iy.weak.bpb_pos
  have hd : (file view x).drop x.position.toNat = rest view x := rfl
  have hl := rest_lt ix
  have ht : y.st.c.total = 0 := hblocks
  have hs0 : y.size = 0 := by
    have h1 := iy.size_le
    have h2 := iy.size_nn
    rw [ht, Nat.zero_mul] at h1; omega
  have hbuf : (List.replicate x.st.c.bpb (0 : UInt8)).length = bpb := by rw [List.length_replicate, ix.bpb]
  obtain ⟨x', _, k2, _, k4⟩ := copyLoop_ok H.cache.lawful R bd _ fuel _ x 0 ix hread hbuf hfx (by rw [hd]; exact hfuel) rfl (by omega)
    (by rw [hd]; omega)
  have hz : Zeros bpb view' 0 y := ⟨iy, hwrite, happ, ht, by rw [hs0]; simp, by rw [contents_nil ht]; simp⟩
  have hqp : 0 < (rest view x).length / bpb := Nat.div_pos hlong hbp
  obtain ⟨y', s1, s2, s3, s4⟩ := sent_zeros H'.cache.lawful R' _ 0 (rest view x) y hz (by omega) rfl (by rw [Nat.zero_mul, Nat.zero_add]; exact hfy)
  rw [Nat.zero_mul, Nat.zero_add] at s2 s4
  refine ⟨x', y', ?_, k2.file, s2, s4⟩
  unfold copyTo
  rw [k4 y, hd, s1, Int.zero_add]; rfl

/-- Five bytes appended to an empty file. -/
example : (copyTo (steady 2) (steady 2) 9 (okStream 5 Flags.O_RDWR) (noBytes (Flags.O_RDWR ||| Flags.O_APPEND))).bind
      (fun p => .ret (file (fun s => s) p.2.1, p.2.2)) = .ret ([0, 0, 0, 0, 0], 5, none) ∧
    Reachable (steady 2) 2 3 [1, 2, 3, 4, 5, 6] (noBytes (Flags.O_RDWR ||| Flags.O_APPEND)) :=
  ⟨by decide +kernel, .call (c := .truncate 0) (okReachable 6 (Flags.O_RDWR ||| Flags.O_APPEND) (by omega) (by decide +kernel))
    (by show FitsSize _ _; decide +kernel) (by decide +kernel)⟩

/-- The hypotheses of `C139_room_partial` are met: three bytes, from the middle, over the start of a file of three blocks. -/
example : 2 * (((okStream 6 Flags.O_RDWR).tell.toNat + (rest (fun s => s) { okStream 6 Flags.O_RDWR with position := 3 }).length) / 2) <
      (okStream 6 Flags.O_RDWR).st.c.totalBlocks ∧
    (copyTo (steady 2) (steady 2) 9 { okStream 6 Flags.O_RDWR with position := 3 } (okStream 6 Flags.O_RDWR)).bind
      (fun p => .ret (file (fun s => s) p.2.1, p.2.2)) = .ret ([4, 5, 6, 4, 5, 6], 3, none) := by
  decide +kernel

end Disko.Stream

import Verif.Stream.Props5
import Verif.Stream.Props10
/-! C139 for block sizes of any kind, by the reference machine of C148, and for storage that fails. -/
namespace Disko.Stream.Reference
open Disko Disko.BlockCache Disko.BlockCache.Spec Disko.Stream Disko.Stream.Spec Disko.Stream.Copying

variable {S T : Type}

/-! ### Specification -/

/-- The machine after Writes one after the other, whatever they return. -/
def Machine.writes (m : Machine) (ps : List Bytes) : Machine := ps.foldl (fun m p => (m.write p).1) m

/-- Writes of the pieces and then the last one, stopping at the first that fails, but not because of the last: the machine, how many bytes were in the pieces
it was given, and the error. -/
def Machine.takes (m : Machine) (last : Bytes) : List Bytes → Machine × Nat × Option SErr
  | [] => ((m.write last).1, last.length, none)
  | p :: ps =>
    match m.write p with
    | (m', _, some e) => (m', p.length, some e)
    | (m', _, none) => ((m'.takes last ps).1, p.length + (m'.takes last ps).2.1, (m'.takes last ps).2.2)

/-- The full blocks at the start of some bytes. -/
def blocks (n : Nat) (d : Bytes) : List Bytes := (List.range (d.length / n)).map fun i => (d.drop (i * n)).take n

/-- The stream after Writes one after the other, whatever they return. -/
inductive Sent (b : Backend T) : Stm T → List Bytes → Stm T → Prop where
  | nil (y : Stm T) : Sent b y [] y
  | cons {y y1 y2 : Stm T} {p : Bytes} {ps : List Bytes} {n : Int} {e : Option SErr} (h : write b y p = .ret (y1, n, e)) (hs : Sent b y1 ps y2) :
      Sent b y (p :: ps) y2

/-! ### Lemmas -/

theorem pieces_machine {n : Nat} (hn : 0 < n) : ∀ (q : Nat) (d : Bytes), d.length / n = q → Copying.pieces n q d = Machine.pieces n d := by
  intro q
  induction q with
  | zero =>
    intro d h
    have hl : d.length < n := by rcases Nat.div_eq_zero_iff.1 h with h0 | h0 <;> omega
    rw [pieces_short hl]; rfl
  | succ q ih =>
    intro d h
    have hle : n ≤ d.length := (Nat.div_pos_iff.1 (show 0 < d.length / n by omega)).2
    rw [pieces_cons hn hle, ← ih (d.drop n)]
    · rfl
    · rw [List.length_drop]
      have e := Nat.sub_mul_div d.length n 1
      rw [Nat.mul_one] at e
      rw [e, h]; rfl

theorem fulls_machine {n : Nat} (hn : 0 < n) : ∀ (q : Nat) (d : Bytes), d.length / n = q → fulls n q d = blocks n d := by
  intro q
  induction q with
  | zero => intro d h; unfold blocks; rw [h]; rfl
  | succ q ih =>
    intro d h
    have hq : (d.drop n).length / n = q := by
      rw [List.length_drop]
      have e := Nat.sub_mul_div d.length n 1
      rw [Nat.mul_one] at e
      rw [e, h]; rfl
    unfold fulls
    rw [ih _ hq]
    unfold blocks
    rw [h, hq, List.range_succ_eq_map, List.map_cons, List.map_map]
    congr 1
    · simp
    · apply List.map_congr_left
      intro i _
      show ((d.drop n).drop (i * n)).take n = (d.drop ((i + 1) * n)).take n
      rw [List.drop_drop, Nat.succ_mul, Nat.add_comm]

theorem whole_le {block n : Nat} (_h : 0 < block) : whole block n ≤ n + (block - 1) := Nat.div_mul_le_self _ _

/-- How far a Write can move the position, the size and the end of the object. -/
theorem write_bounds (m : Machine) (p : Bytes) (hb : 0 < m.block) {M C : Nat} (hM : m.pos ≤ M ∧ m.size ≤ M) (hC : m.object.length ≤ C) :
    (m.write p).1.block = m.block ∧ (m.write p).1.appends = m.appends ∧ (m.write p).1.pos ≤ M + p.length ∧ (m.write p).1.size ≤ M + p.length ∧
    (m.write p).1.object.length ≤ max C (M + p.length + (m.block - 1)) := by
  unfold Machine.write Machine.put Machine.grow
  have hw := whole_le (block := m.block) (n := (if m.appends = true then m.size else m.pos) + p.length) hb
  have hoff : (if m.appends = true then m.size else m.pos) ≤ M := by split <;> omega
  generalize (if m.appends = true then m.size else m.pos) = off at *
  simp only
  by_cases h1 : (!m.canWrite) = true
  · rw [if_pos h1]; exact ⟨rfl, rfl, by simp only; omega, by simp only; omega, by simp only; omega⟩
  rw [if_neg h1, if_neg h1]
  by_cases h2 : 2 ^ 63 ≤ off + p.length
  · rw [if_pos h2]; exact ⟨rfl, rfl, by simp only; omega, by simp only; omega, by simp only; omega⟩
  rw [if_neg h2]
  by_cases h3 : off + p.length < m.object.length
  · rw [if_pos h3]
    split
    · refine ⟨rfl, rfl, by simp only; omega, by simp only; omega, ?_⟩
      simp only [List.length_append, List.length_take, List.length_drop]; omega
    · exact ⟨rfl, rfl, by simp only; omega, by simp only; omega, by simp only; omega⟩
  · rw [if_neg h3]
    have hfl : (fit m.object (whole m.block (off + p.length))).length = whole m.block (off + p.length) := by
      unfold fit
      rw [List.length_append, List.length_take, List.length_replicate]; omega
    split
    · rename_i h4
      refine ⟨rfl, rfl, by simp only; omega, by simp only; omega, ?_⟩
      simp only [List.length_append, List.length_take, List.length_drop, hfl] at h4 ⊢
      have h5 : off + p.length ≤ whole m.block (off + p.length) := by
        unfold whole
        have e1 := Nat.div_add_mod (off + p.length + (m.block - 1)) m.block
        have e2 := Nat.mod_lt (off + p.length + (m.block - 1)) hb
        rw [Nat.mul_comm] at e1
        omega
      omega
    · refine ⟨rfl, rfl, by simp only; omega, by simp only; omega, ?_⟩
      simp only [hfl]; omega

theorem fits_of {bpb : Nat} {view : T → Bytes} {y : Stm T} (h : Inv bpb view y) {M C n : Nat} (p : Bytes)
    (hM : (shown view y).pos ≤ M ∧ (shown view y).size ≤ M) (hC : (shown view y).object.length ≤ C) (hl : p.length ≤ n)
    (h1 : C + n + bpb ≤ maxInt) (h2 : M + n + bpb ≤ maxInt) : FitsWrite y p.length (writeOffset y) := by
  have hwo : 0 ≤ writeOffset y ∧ writeOffset y ≤ M := by
    have a1 : y.position.toNat ≤ M := hM.1
    have a2 : y.size.toNat ≤ M := hM.2
    have := h.size_nn
    have := h.pos_nn
    unfold writeOffset
    split <;> omega
  have hcap : capacity y ≤ C := by
    have : (contents view y.st).length ≤ C := hC
    rwa [length_contents] at this
  have hb := h.bpb
  refine ⟨by omega, by rw [hb]; omega, .inl ?_⟩
  show writeOffset y + (p.length : Int) + (y.st.c.bpb : Nat) ≤ (maxInt : Nat)
  rw [hb]; omega

section
variable {bpb : Nat} {view : T → Bytes} {b : Backend T} (L : Lawful b bpb view) (R : AllReliable b)
include L R

theorem sent_machine : ∀ (ps : List Bytes) (y : Stm T) (M C : Nat), Inv bpb view y → (shown view y).pos ≤ M ∧ (shown view y).size ≤ M →
    (shown view y).object.length ≤ C → C + ps.flatten.length + bpb ≤ maxInt → M + ps.flatten.length + 2 * bpb + ps.flatten.length ≤ maxInt →
    ∃ y', sent b y ps = .ret y' ∧ Inv bpb view y' ∧ shown view y' = (shown view y).writes ps := by
  intro ps
  induction ps with
  | nil => intro y M C h _ _ _ _; exact ⟨y, rfl, h, rfl⟩
  | cons p ps ih =>
    intro y M C h hM hC h1 h2
    rw [List.flatten_cons, List.length_append] at h1 h2
    have hbp : 0 < bpb := by rw [← h.bpb]; exact h.weak.bpb_pos
    obtain ⟨y1, a1, a2, a3⟩ := write_machine L R h p (fits_of h p hM hC (Nat.le_refl _) (by omega) (by omega))
    have hblk : (shown view y).block = bpb := h.bpb
    obtain ⟨c1, _, c3, c4, c5⟩ := write_bounds (shown view y) p (by rw [hblk]; exact hbp) hM hC
    rw [← a3] at c3 c4 c5
    rw [hblk] at c5
    obtain ⟨y2, e1, e2, e3⟩ := ih y1 (M + p.length) (max C (M + p.length + (bpb - 1))) a2 ⟨c3, c4⟩ c5 (by omega) (by omega)
    refine ⟨y2, ?_, e2, ?_⟩
    · unfold sent
      rw [a1]
      exact e1
    · rw [e3, a3]; rfl

theorem received_machine (last : Bytes) : ∀ (ps : List Bytes) (y : Stm T) (M C : Nat), Inv bpb view y → (shown view y).pos ≤ M ∧ (shown view y).size ≤ M →
    (shown view y).object.length ≤ C → C + (ps.flatten.length + last.length) + bpb ≤ maxInt →
    M + (ps.flatten.length + last.length) + 2 * bpb + (ps.flatten.length + last.length) ≤ maxInt →
    ∃ y', received b last y ps = .ret (y', ((shown view y).takes last ps).2) ∧ Inv bpb view y' ∧ shown view y' = ((shown view y).takes last ps).1 := by
  intro ps
  induction ps with
  | nil =>
    intro y M C h hM hC h1 h2
    rw [List.flatten_nil, List.length_nil] at h1 h2
    obtain ⟨y1, a1, a2, a3⟩ := write_machine L R h last (fits_of h last hM hC (Nat.le_refl _) (by omega) (by omega))
    refine ⟨y1, ?_, a2, a3⟩
    unfold received
    rw [a1]; rfl
  | cons p ps ih =>
    intro y M C h hM hC h1 h2
    rw [List.flatten_cons, List.length_append] at h1 h2
    have hbp : 0 < bpb := by rw [← h.bpb]; exact h.weak.bpb_pos
    obtain ⟨y1, a1, a2, a3⟩ := write_machine L R h p (fits_of h p hM hC (Nat.le_refl _) (by omega) (by omega))
    have hblk : (shown view y).block = bpb := h.bpb
    obtain ⟨c1, _, c3, c4, c5⟩ := write_bounds (shown view y) p (by rw [hblk]; exact hbp) hM hC
    rw [← a3] at c3 c4 c5
    rw [hblk] at c5
    rcases hm : (shown view y).write p with ⟨m', n, _ | e⟩
    · rw [hm] at a1 a3
      simp only at a1 a3
      obtain ⟨y2, e1, e2, e3⟩ := ih y1 (M + p.length) (max C (M + p.length + (bpb - 1))) a2 ⟨c3, c4⟩ c5 (by omega) (by omega)
      rw [a3] at e1 e3
      refine ⟨y2, ?_, e2, ?_⟩
      · unfold received
        rw [a1]
        simp only [Outcome.bind, e1, Machine.takes, hm]
      · rw [e3]
        simp only [Machine.takes, hm]
    · rw [hm] at a1 a3
      simp only at a1 a3
      refine ⟨y1, ?_, a2, ?_⟩
      · unfold received
        rw [a1]
        simp only [Outcome.bind, Machine.takes, hm]
      · rw [a3]
        simp only [Machine.takes, hm]

end

/-! ### C139 -/

/-- C139, exactly, for any block sizes, WriteTo: the rest of the source is cut into blocks of the source's size, and these are written one after the other, whatever
the Writes return: the destination is what the machine of C148 becomes.  The count is always that of all the bytes, and the error nil; the source moves by its
full blocks.  (Missing: that the bytes arrive, which is false: `C139_refuted`.) -/
theorem C139_writeTo_exact_partial {b : Backend S} {bd : Backend T} {bpb bpb' total total' : Nat} {view : S → Bytes} {view' : T → Bytes} {s0 : S} {s0' : T}
    (H : StreamSetup b bpb total view s0) (H' : StreamSetup bd bpb' total' view' s0') (R : AllReliable b) (R' : AllReliable bd)
    {x : Stm S} {y : Stm T} (hx : Reachable b bpb total s0 x) (hy : Reachable bd bpb' total' s0' y)
    (hread : Flags.read x.flags = true) (hfx : FitsRead x bpb)
    (hfy : capacity y + y.tell.toNat + 2 * (rest view x).length + 2 * bpb' ≤ maxInt)
    (fuel : Nat) (hfuel : (rest view x).length / bpb < fuel) :
    ∃ x' y', copyTo b bd fuel x y = .ret (x', y', ((rest view x).length : Int), none) ∧
      shown view x' = { shown view x with pos := (shown view x).pos + (rest view x).length / bpb * bpb } ∧
      shown view' y' = (shown view' y).writes (Machine.pieces bpb (rest view x)) := by
  have ix := reachable_inv H hx
  have iy := reachable_inv H' hy
  have hbp : 0 < bpb := by rw [← ix.bpb]; exact ix.weak.bpb_pos
  have hd : (file view x).drop x.position.toNat = rest view x := rfl
  have hl := rest_lt ix
  have hbuf : (List.replicate x.st.c.bpb (0 : UInt8)).length = bpb := by rw [List.length_replicate, ix.bpb]
  obtain ⟨x', _, k2, k3, k4⟩ := copyLoop_ok H.cache.lawful R bd _ fuel _ x 0 ix hread hbuf hfx (by rw [hd]; exact hfuel) rfl (by omega)
    (by rw [hd]; omega)
  rw [hd] at k3
  have hp := pieces_flatten bpb ((rest view x).length / bpb) (rest view x)
  have hsl : y.size.toNat ≤ capacity y := by
    have := iy.size_le
    show y.size.toNat ≤ y.st.c.total * y.st.c.bpb
    omega
  obtain ⟨y', s1, _, s3⟩ := sent_machine H'.cache.lawful R' (Copying.pieces bpb ((rest view x).length / bpb) (rest view x)) y
    (capacity y + y.tell.toNat) (capacity y) iy ⟨show y.tell.toNat ≤ _ by omega, show y.size.toNat ≤ _ by omega⟩
    (by show (contents view' y.st).length ≤ _; rw [length_contents]; exact Nat.le_refl _)
    (by rw [hp]; omega) (by rw [hp]; omega)
  rw [pieces_machine hbp _ _ rfl] at s3
  refine ⟨x', y', ?_, ?_, s3⟩
  · unfold copyTo
    rw [k4 y, hd, s1]
    simp [Outcome.bind]
  · have hpn := ix.pos_nn
    refine (shown_moved k2 (p := (shown view x).pos + (rest view x).length / bpb * bpb) ?_).trans rfl
    rw [k3]
    show x.position + _ = ((x.position.toNat + _ : Nat) : Int)
    omega

/-- C139, exactly, for any block sizes, ReadFrom: the same Writes, but of the full blocks and then of what is left (also if that is nothing), up to the first that fails; only the
failure of the last one is lost. -/
theorem C139_readFrom_exact_partial {b : Backend S} {bd : Backend T} {bpb bpb' total total' : Nat} {view : S → Bytes} {view' : T → Bytes} {s0 : S} {s0' : T}
    (H : StreamSetup b bpb total view s0) (H' : StreamSetup bd bpb' total' view' s0') (R : AllReliable b) (R' : AllReliable bd)
    {x : Stm S} {y : Stm T} (hx : Reachable b bpb total s0 x) (hy : Reachable bd bpb' total' s0' y)
    (hread : Flags.read x.flags = true) (hwrite : Flags.write y.flags = true) (hfx : FitsRead x bpb)
    (hfy : capacity y + y.tell.toNat + 2 * (rest view x).length + 2 * bpb' ≤ maxInt)
    (fuel : Nat) (hfuel : (rest view x).length / bpb < fuel) {m : Machine} {n : Nat} {e : Option SErr}
    (hm : (shown view' y).takes ((rest view x).drop ((rest view x).length / bpb * bpb)) (blocks bpb (rest view x)) = (m, n, e)) :
    ∃ x' y', copyFrom b bd fuel y x = .ret (y', x', (n : Int), e) ∧ shown view' y' = m ∧
      shown view x' = { shown view x with pos := (shown view x).pos + n / bpb * bpb } := by
  have ix := reachable_inv H hx
  have iy := reachable_inv H' hy
  have hbp : 0 < bpb := by rw [← ix.bpb]; exact ix.weak.bpb_pos
  have hd : (file view x).drop x.position.toNat = rest view x := rfl
  have hl := rest_lt ix
  have hbuf : (List.replicate x.st.c.bpb (0 : UInt8)).length = bpb := by rw [List.length_replicate, ix.bpb]
  have hp := congrArg List.length (fulls_flatten bpb ((rest view x).length / bpb) (rest view x))
  rw [List.length_append] at hp
  have hsl : y.size.toNat ≤ capacity y := by
    have := iy.size_le
    show y.size.toNat ≤ y.st.c.total * y.st.c.bpb
    omega
  obtain ⟨y', s1, _, s3⟩ := received_machine H'.cache.lawful R' ((rest view x).drop ((rest view x).length / bpb * bpb))
    (fulls bpb ((rest view x).length / bpb) (rest view x)) y
    (capacity y + y.tell.toNat) (capacity y) iy ⟨show y.tell.toNat ≤ _ by omega, show y.size.toNat ≤ _ by omega⟩
    (by show (contents view' y.st).length ≤ _; rw [length_contents]; exact Nat.le_refl _)
    (by rw [hp]; omega) (by rw [hp]; omega)
  rw [fulls_machine hbp _ _ rfl, hm] at s3
  have hm' := hm
  rw [← fulls_machine hbp _ _ rfl] at hm'
  rw [hm'] at s1
  obtain ⟨x', _, k2, k3, k4⟩ := copyFromLoop_ok H.cache.lawful R _ fuel _ x y 0 y' n e ix hread hbuf hfx (by rw [hd]; exact hfuel) rfl (by omega)
    (by rw [hd]; omega) (by rw [hd]; exact s1)
  refine ⟨x', y', ?_, s3, ?_⟩
  · unfold copyFrom
    rw [hwrite]
    simp only [Bool.not_true, Bool.false_eq_true, if_false]
    rw [k3]
    simp
  · have hpn := ix.pos_nn
    refine (shown_moved k2 (p := (shown view x).pos + n / bpb * bpb) ?_).trans rfl
    rw [k4]
    show x.position + _ = ((x.position.toNat + _ : Nat) : Int)
    omega

/-! ### Storage that fails -/

theorem sent_of {b : Backend T} : ∀ {ps : List Bytes} {y y' : Stm T}, sent b y ps = .ret y' → Sent b y ps y' := by
  intro ps
  induction ps with
  | nil => intro y y' h; cases h; exact .nil _
  | cons p ps ih =>
    intro y y' h
    unfold sent at h
    rcases hw : write b y p with ⟨y1, n, e⟩ | _ | _
    · rw [hw] at h; exact .cons hw (ih h)
    · rw [hw] at h; cases h
    · rw [hw] at h; cases h

/-- Copying is WriteTo, with Write of the destination in the place of the writer. -/
theorem copyLoop_writes {bs : Backend S} {bd : Backend T} : ∀ (fuel : Nat) (buf : Bytes) (x : Stm S) (y : Stm T) (tot : Int) (w : Bytes) (l : List Bytes)
    (x' : Stm S) (y' : Stm T) (n : Int) (e : Option SErr), copyLoop bs bd fuel buf x y tot = .ret (x', y', n, e) →
    ∃ ps w', writeToLoop bs (recording Compression.bufferSink) fuel buf x (w, l) tot = .ret (x', (w', l ++ ps), n, e) ∧ Sent bd y ps y' := by
  intro fuel
  induction fuel with
  | zero => intro buf x y tot w l x' y' n e h; cases h
  | succ fuel ih =>
    intro buf x y tot w l x' y' n e h
    unfold copyLoop at h
    unfold writeToLoop
    rcases hr : read bs x buf with ⟨x1, r⟩ | _ | _
    · rw [hr] at h
      simp only [Outcome.bind_ret] at h ⊢
      by_cases hn : r.n > 0
      · rw [if_pos hn] at h ⊢
        rcases hw : write bd y (r.buf.take r.n.toNat) with ⟨y1, m, we⟩ | _ | _
        · rw [hw] at h
          simp only [Outcome.bind, Outcome.bind_ret] at h
          rcases hre : r.err with _ | z
          · rw [hre] at h
            simp only at h
            obtain ⟨ps, w', a1, a2⟩ := ih _ _ _ _ ((Compression.bufferSink.write w (r.buf.take r.n.toNat)).1) (l ++ [r.buf.take r.n.toNat]) _ _ _ _ h
            exact ⟨r.buf.take r.n.toNat :: ps, w', by rw [List.append_assoc] at a1; exact a1, .cons hw a2⟩
          · rw [hre] at h
            rcases z with _ | _ | _ <;>
            · simp only [Outcome.pure_eq, Outcome.ret.injEq, Prod.mk.injEq] at h
              obtain ⟨rfl, rfl, rfl, rfl⟩ := h
              exact ⟨[_], _, rfl, .cons hw (.nil _)⟩
        · rw [hw] at h; cases h
        · rw [hw] at h; cases h
      · rw [if_neg hn] at h ⊢
        simp only [Outcome.bind_ret] at h
        rcases hre : r.err with _ | z
        · rw [hre] at h
          exact ih _ _ _ _ _ _ _ _ _ _ h
        · rw [hre] at h
          rcases z with _ | _ | _ <;>
          · simp only [Outcome.pure_eq, Outcome.ret.injEq, Prod.mk.injEq] at h
            obtain ⟨rfl, rfl, rfl, rfl⟩ := h
            exact ⟨[], _, by rw [List.append_nil]; rfl, .nil _⟩
    · rw [hr] at h; cases h
    · rw [hr] at h; cases h

/-- C139, whatever fails: WriteTo to another stream makes on it the Writes that WriteTo makes on any writer, whatever these return, and leaves the source as WriteTo to a buffer does,
with the same count and error. -/
theorem C139_calls_partial {bs : Backend S} {bd : Backend T} {fuel : Nat} {x x' : Stm S} {y y' : Stm T} {n : Int} {e : Option SErr}
    (h : copyTo bs bd fuel x y = .ret (x', y', n, e)) :
    ∃ ps w', writeTo bs (recording Compression.bufferSink) fuel x ([], []) = .ret (x', (w', ps), n, e) ∧ Sent bd y ps y' := by
  obtain ⟨ps, w', h1, h2⟩ := copyLoop_writes fuel _ x y 0 [] [] x' y' n e h
  exact ⟨ps, w', h1, h2⟩

/-- C139, whatever fails, also the storage of both streams: WriteTo to another stream gives it, by Writes whose results are ignored, a beginning of the rest of the source; all of it if
the error is nil; the count is of the bytes given; the error is one of the source's storage, or that it may not be read; the source's file stays. -/
theorem C139_failing_partial {b : Backend S} {bpb total : Nat} {view : S → Bytes} {s0 : S} (H : StreamSetup b bpb total view s0) {bd : Backend T}
    {x x' : Stm S} {y y' : Stm T} (hx : Reachable b bpb total s0 x) (hfx : FitsRead x x.st.c.bpb) {fuel : Nat} (hfuel : (rest view x).length < fuel)
    {n : Int} {e : Option SErr} (h : copyTo b bd fuel x y = .ret (x', y', n, e)) :
    ∃ ps, Sent bd y ps y' ∧ ps.flatten <+: rest view x ∧ n = ps.flatten.length ∧ (e = none → ps.flatten = rest view x) ∧ file view x' = file view x ∧
      ∀ z, e = some z → CallbackFailed b z ∨ (z = .notPermitted ∧ Flags.read x.flags = false) := by
  obtain ⟨ps, w', h1, h2⟩ := C139_calls_partial h
  obtain ⟨x2, w2, n2, e2, qs, c1, c2, c3, c4, c5, c6, c7⟩ := C32_writeTo_partial H hx hfx (recording Compression.bufferSink) ([], []) fuel hfuel
  rw [h1] at c1
  simp only [Outcome.ret.injEq, Prod.mk.injEq] at c1
  obtain ⟨rfl, rfl, rfl, rfl⟩ := c1
  have hrec : ∀ (qs : List Bytes) (w : Bytes × List Bytes), (qs.foldl (fun v p => ((recording Compression.bufferSink).write v p).1) w).2 = w.2 ++ qs := by
    intro qs
    induction qs with
    | nil => intro w; simp
    | cons q qs ih => intro w; rw [List.foldl_cons, ih]; simp [recording]
  have hq := congrArg Prod.snd c3
  rw [hrec, List.nil_append] at hq
  simp only at hq
  subst hq
  exact ⟨ps, h2, c4, c5, c6, c2, c7⟩

/-- What reads of a stream deliver, with the buffer used again each time, each returning nil, and the sum of their counts; then the buffer and the stream. -/
inductive Delivered (b : Backend S) : Bytes → Stm S → List Bytes → Int → Bytes → Stm S → Prop where
  | nil (buf : Bytes) (x : Stm S) : Delivered b buf x [] 0 buf x
  | cons {buf buf' : Bytes} {x x1 x2 : Stm S} {r : ReadRes} {ps : List Bytes} {k : Int} (h : read b x buf = .ret (x1, r)) (hn : r.err = none)
      (hd : Delivered b r.buf x1 ps k buf' x2) : Delivered b buf x (r.buf.take r.n.toNat :: ps) (r.n + k) buf' x2

theorem i64_i64 (a c : Int) : i64 (i64 a + c) = i64 (a + c) := by
  unfold i64
  exact Int.bmod_add_bmod

theorem copyFromLoop_calls {bs : Backend S} {bd : Backend T} : ∀ (fuel : Nat) (buf : Bytes) (y : Stm T) (x : Stm S) (tot : Int)
    (y' : Stm T) (x' : Stm S) (n : Int) (e : Option SErr), copyFromLoop bs bd fuel buf y x tot = .ret (y', x', n, e) →
    ∃ (ps : List Bytes) (buf1 : Bytes) (x1 : Stm S) (y1 : Stm T) (r : ReadRes) (k m : Int) (we : Option SErr), Delivered bs buf x ps k buf1 x1 ∧ read bs x1 buf1 = .ret (x', r) ∧
      n = i64 (tot + k + r.n) ∧
      Sent bd y ps y1 ∧ write bd y1 (r.buf.take r.n.toNat) = .ret (y', m, we) ∧
      ((r.err = some .eof ∧ e = none) ∨ (∃ z, z ≠ .eof ∧ r.err = some z ∧ e = some z) ∨ (r.err = none ∧ we ≠ none ∧ e = we)) := by
  intro fuel
  induction fuel with
  | zero => intro buf y x tot y' x' n e h; cases h
  | succ fuel ih =>
    intro buf y x tot y' x' n e h
    unfold copyFromLoop at h
    rcases hr : read bs x buf with ⟨x1, r⟩ | _ | _
    · rw [hr] at h
      simp only [Outcome.bind_ret] at h
      rcases hw : write bd y (r.buf.take r.n.toNat) with ⟨y1, m, we⟩ | _ | _
      · rw [hw] at h
        simp only [Outcome.bind_ret] at h
        rcases hre : r.err with _ | z
        · rw [hre] at h
          simp only at h
          rcases we with _ | we
          · simp only at h
            obtain ⟨ps, buf1, x2, y2, r2, k2, m2, we2, a1, a2, a0, a3, a4, a5⟩ := ih _ _ _ _ _ _ _ _ h
            refine ⟨_ :: ps, buf1, x2, y2, r2, _, m2, we2, .cons hr hre a1, a2, ?_, .cons hw a3, a4, a5⟩
            rw [a0, Int.add_assoc, i64_i64]
            congr 1; omega
          · simp only [Outcome.pure_eq, Outcome.ret.injEq, Prod.mk.injEq] at h
            obtain ⟨rfl, rfl, rfl, rfl⟩ := h
            exact ⟨[], buf, x, y, r, _, m, _, .nil _ _, hr, by rw [Int.add_zero], .nil _, hw, .inr (.inr ⟨hre, by simp, rfl⟩)⟩
        · rw [hre] at h
          by_cases hz : z = .eof
          · subst hz
            simp only [Outcome.pure_eq, Outcome.ret.injEq, Prod.mk.injEq] at h
            obtain ⟨rfl, rfl, rfl, rfl⟩ := h
            exact ⟨[], buf, x, y, r, _, m, _, .nil _ _, hr, by rw [Int.add_zero], .nil _, hw, .inl ⟨hre, rfl⟩⟩
          · have h' : (.ret (y1, x1, i64 (tot + r.n), some z) : Outcome _) = .ret (y', x', n, e) := by
              cases z <;> first | exact absurd rfl hz | exact h
            simp only [Outcome.ret.injEq, Prod.mk.injEq] at h'
            obtain ⟨rfl, rfl, rfl, rfl⟩ := h'
            exact ⟨[], buf, x, y, r, _, m, _, .nil _ _, hr, by rw [Int.add_zero], .nil _, hw, .inr (.inl ⟨z, hz, hre, rfl⟩)⟩
      · rw [hw] at h; cases h
      · rw [hw] at h; cases h
    · rw [hr] at h; cases h
    · rw [hr] at h; cases h

/-- C139, whatever fails: ReadFrom from another stream reads it block by block and writes each piece, and stops at the end of the file (returning nil, whatever the last Write returned), at
the first Read that fails (returning its error), or at the first Write that fails (returning its error). -/
theorem C139_from_calls_partial {bs : Backend S} {bd : Backend T} {fuel : Nat} {x x' : Stm S} {y y' : Stm T} {n : Int} {e : Option SErr}
    (hw : Flags.write y.flags = true) (h : copyFrom bs bd fuel y x = .ret (y', x', n, e)) :
    ∃ (ps : List Bytes) (buf1 : Bytes) (x1 : Stm S) (y1 : Stm T) (r : ReadRes) (k m : Int) (we : Option SErr),
      Delivered bs (List.replicate x.st.c.bpb 0) x ps k buf1 x1 ∧ read bs x1 buf1 = .ret (x', r) ∧ n = i64 (k + r.n) ∧
      Sent bd y ps y1 ∧ write bd y1 (r.buf.take r.n.toNat) = .ret (y', m, we) ∧
      ((r.err = some .eof ∧ e = none) ∨ (∃ z, z ≠ .eof ∧ r.err = some z ∧ e = some z) ∨ (r.err = none ∧ we ≠ none ∧ e = we)) := by
  unfold copyFrom at h
  rw [hw] at h
  simpa only [Int.zero_add] using copyFromLoop_calls fuel _ y x 0 y' x' n e h

/-! ### Cases -/

/-- A destination of two blocks of three bytes. -/
def threes : Stm Bytes := ⟨6, 0, ⟨{ exampleCache with bpb := 3, total := 2, loaded := List.replicate 8 false, dirty := List.replicate 8 false }, [7, 7, 7, 7, 7, 7]⟩, Flags.O_RDWR⟩

theorem threesReachable : Reachable (steady 3) 3 2 [7, 7, 7, 7, 7, 7] threes := by
  refine .opened (ops := []) (rs := []) (st := threes.st) ⟨threes.st.c, by decide +kernel, by simp, rfl⟩ (size := 6) (flags := Flags.O_RDWR) (e := none) ?_
  decide +kernel

/-- Five bytes in blocks of two to a file of six bytes in blocks of three: the machine says what arrives (not the last one), and it is what arrives. -/
example : ((shown (fun s => s) threes).writes (Machine.pieces 2 (rest (fun s => s) (okStream 5 Flags.O_RDWR)))).file = [1, 2, 3, 4, 7, 7] ∧
    (copyTo (steady 2) (steady 3) 9 (okStream 5 Flags.O_RDWR) threes).bind (fun p => .ret (file (fun s => s) p.2.1, p.2.2)) = .ret ([1, 2, 3, 4, 7, 7], 5, none) ∧
    capacity threes + threes.tell.toNat + 2 * (rest (fun s => s) (okStream 5 Flags.O_RDWR)).length + 2 * 3 ≤ maxInt := by decide +kernel
example : StreamSetup (steady 3) 3 2 (fun s => s) [7, 7, 7, 7, 7, 7] ∧ AllReliable (steady 3) :=
  ⟨⟨⟨lawful_steady 3, by decide, by decide, by decide⟩, by decide⟩, ⟨⟨fun _ _ _ => rfl, fun _ _ _ => rfl⟩, fun _ _ => rfl⟩⟩
/-- ReadFrom loses the last byte too; of six bytes it reports that. -/
example : ((shown (fun s => s) threes).takes [5] (blocks 2 (rest (fun s => s) (okStream 5 Flags.O_RDWR)))).2 = (5, none) ∧
    (copyFrom (steady 2) (steady 3) 9 threes (okStream 5 Flags.O_RDWR)).bind (fun p => .ret (file (fun s => s) p.1, p.2.2)) = .ret ([1, 2, 3, 4, 7, 7], 5, none) := by
  decide +kernel
example : ((shown (fun s => s) threes).takes [] (blocks 2 (rest (fun s => s) (okStream 6 Flags.O_RDWR)))).2 = (6, some (.cache .argumentOutOfRange)) ∧
    (copyFrom (steady 2) (steady 3) 9 threes (okStream 6 Flags.O_RDWR)).bind (fun p => .ret (file (fun s => s) p.1, p.2.2)) =
      .ret ([1, 2, 3, 4, 7, 7], 6, some (.cache .argumentOutOfRange)) := by
  decide +kernel
/-- A source whose storage cannot be read: nothing is written. -/
example : (copyTo ({ steady 2 with fetch := fun s i _ => (s, [], some (.other i)) } : Backend Bytes) (steady 3) 9 (okStream 5 Flags.O_RDWR) threes).bind (fun p => .ret p.2.2) =
    .ret (0, some (.cache (.fetchFailed 0 (.other 0)))) := by decide +kernel

end Disko.Stream.Reference

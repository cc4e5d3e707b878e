import Verif.Stream.Weak
import Verif.Stream.Spec
/-! Effect of each stream call. -/
namespace Disko.Stream
open Disko Disko.BlockCache Disko.BlockCache.Spec Disko.Stream.Spec

variable {S : Type}

/-- States a stream can be in. -/
structure Inv (bpb : Nat) (view : S → Bytes) (x : Stm S) : Prop where
  weak : Weak view x.st
  bpb : x.st.c.bpb = bpb
  bpb_le : x.st.c.bpb ≤ maxInt
  size_nn : 0 ≤ x.size
  size_le : x.size ≤ (x.st.c.total * x.st.c.bpb : Nat)
  pos_nn : 0 ≤ x.position
  pos_lt : x.position < 2 ^ 63

theorem toUint_nat {n : Nat} (h : n < 2 ^ 64) : toUint (n : Int) = n := by
  unfold toUint
  rw [Int.emod_eq_of_lt (by omega) (by omega)]; rfl

theorem toUint_of {z : Int} (h0 : 0 ≤ z) (h : z < 2 ^ 63) : toUint z = z.toNat := by
  unfold toUint
  rw [Int.emod_eq_of_lt h0 (by omega)]

theorem convert_eq {x : Stm S} (hb : 0 < x.st.c.bpb) (hle : x.st.c.bpb ≤ maxInt) {off : Int}
    (h0 : 0 ≤ off) (h1 : off < 2 ^ 63) :
    convertLinearAddr x off = .ret (off.toNat / x.st.c.bpb, off.toNat % x.st.c.bpb) := by
  unfold maxInt at hle
  unfold convertLinearAddr
  rw [i64_of_range (z := (x.st.c.bpb : Int)) (by omega) (by omega)]
  simp only
  rw [if_neg (by omega)]
  obtain ⟨n, rfl⟩ := Int.eq_ofNat_of_zero_le h0
  have e1 : ((n : Int).tdiv (x.st.c.bpb : Int)) = ((n / x.st.c.bpb : Nat) : Int) := rfl
  have e2 : ((n : Int).tmod (x.st.c.bpb : Int)) = ((n % x.st.c.bpb : Nat) : Int) := rfl
  have hd : n / x.st.c.bpb ≤ n := Nat.div_le_self _ _
  have hm : n % x.st.c.bpb ≤ n := Nat.mod_le _ _
  rw [e1, e2]
  generalize hq : n / x.st.c.bpb = q at *
  generalize hr : n % x.st.c.bpb = r at *
  rw [i64_of_range (by omega) (by omega), toUint_nat (by omega), toUint_nat (by omega)]
  simp only [Int.toNat_natCast, hq, hr]

theorem toNat_aux {o n : Nat} (h : 0 < n) : ((o : Int) + n - 1).toNat = o + n - 1 := by omega

theorem u64sub_add_one {a c : Nat} (h : c ≤ a) (ha : a < 2 ^ 63) : u64 (u64sub a c + 1) = a - c + 1 := by
  unfold u64 u64sub
  have e : c % 2 ^ 64 = c := Nat.mod_eq_of_lt (by omega)
  rw [e]
  have : a + (2 ^ 64 - c) = a - c + 2 ^ 64 := by omega
  rw [this, Nat.add_mod_right, Nat.mod_eq_of_lt (by omega), Nat.mod_eq_of_lt (by omega)]

theorem Inv.loads {bpb : Nat} {view : S → Bytes} {x : Stm S} (h : Inv bpb view x) {st' : St S}
    (w : WLoads view x.st st') : Inv bpb view { x with st := st' } :=
  ⟨w.weak, w.bpb.trans h.bpb, by rw [show ({ x with st := st' } : Stm S).st.c.bpb = _ from w.bpb]; exact h.bpb_le, h.size_nn, by
    have := h.size_le
    simp only [w.bpb, w.total]; exact this, h.pos_nn, h.pos_lt⟩

theorem file_loads {view : S → Bytes} {x : Stm S} {st' : St S} (w : WLoads view x.st st') :
    file view { x with st := st' } = file view x := by
  unfold file; simp only [w.contents_eq]

theorem slice_take {d : Bytes} {off len n : Nat} (h : off + len ≤ n) :
    slice (d.take n) off len = slice d off len := by
  apply List.ext_getElem?
  intro k
  rw [getElem?_slice, getElem?_slice, List.getElem?_take]
  by_cases hk : k < len
  · rw [if_pos hk, if_pos hk, if_pos (by omega)]
  · rw [if_neg hk, if_neg hk]

theorem length_file {bpb : Nat} {view : S → Bytes} {x : Stm S} (h : Inv bpb view x) :
    (file view x).length = x.size.toNat := by
  unfold file
  rw [List.length_take, length_contents]
  have := h.size_le; have := h.size_nn; omega

theorem slice_slice {d : Bytes} {a m o n : Nat} (h : o + n ≤ m) :
    slice (slice d a m) o n = slice d (a + o) n := by
  apply List.ext_getElem?
  intro k
  rw [getElem?_slice, getElem?_slice, getElem?_slice]
  by_cases hk : k < n
  · rw [if_pos hk, if_pos hk, if_pos (by omega)]; congr 1; omega
  · rw [if_neg hk, if_neg hk]

/-- Number of bytes a read of `len` bytes at `off` delivers. -/
def avail (x : Stm S) (len : Nat) (off : Int) : Nat := min len (x.size - off).toNat

theorem readAt_spec {b : Backend S} {bpb : Nat} {view : S → Bytes} (L : Lawful b bpb view) {x : Stm S}
    (h : Inv bpb view x) (buf : Bytes) {off : Int} (h0 : 0 ≤ off) (hf : FitsRead x buf.length) :
    (Flags.read x.flags = false ∧ readAt b x buf off = .ret (x, ⟨buf, 0, some .notPermitted⟩)) ∨
    (Flags.read x.flags = true ∧ buf = [] ∧ readAt b x buf off = .ret (x, ⟨buf, 0, none⟩)) ∨
    (Flags.read x.flags = true ∧ buf ≠ [] ∧ x.size ≤ off ∧
      readAt b x buf off = .ret (x, ⟨buf, 0, some .eof⟩)) ∨
    (Flags.read x.flags = true ∧ buf ≠ [] ∧ off < x.size ∧ ∃ st', WLoads view x.st st' ∧
      (readAt b x buf off = .ret ({ x with st := st' },
          ⟨goCopy buf (slice (file view x) off.toNat (avail x buf.length off)), avail x buf.length off,
           if avail x buf.length off < buf.length then some .eof else none⟩) ∨
       ∃ j be, FetchFails b x.st.c.total j be ∧
        readAt b x buf off = .ret ({ x with st := st' }, ⟨buf, 0, some (.cache (.fetchFailed j be))⟩))) := by
  unfold readAt
  cases hfl : Flags.read x.flags with
  | false => left; exact ⟨rfl, rfl⟩
  | true =>
    right
    simp only [Bool.not_true, Bool.false_eq_true, if_false]
    by_cases hbuf : buf.length = 0
    · left
      rw [if_pos hbuf]
      exact ⟨trivial, List.eq_nil_of_length_eq_zero hbuf, rfl⟩
    · right
      have hne : buf ≠ [] := by intro hh; rw [hh] at hbuf; simp at hbuf
      rw [if_neg hbuf]
      by_cases hoff : off ≥ x.size
      · left; rw [if_pos hoff]; exact ⟨trivial, hne, hoff, rfl⟩
      · right
        rw [if_neg hoff]
        refine ⟨trivial, hne, by omega, ?_⟩
        have hsn := h.size_nn
        have hsl := h.size_le
        have hbl := h.bpb_le
        have hbp := h.weak.bpb_pos
        have hcap := h.weak.cap
        have hfit : x.st.c.total * x.st.c.bpb + buf.length ≤ maxInt := hf
        have hn : (if i64 (off + (buf.length : Int)) ≥ x.size then i64 (x.size - off) else (buf.length : Int)) =
            (avail x buf.length off : Int) := by
          unfold avail
          unfold maxInt at *
          rw [i64_of_range (by omega) (by omega), i64_of_range (by omega) (by omega)]
          split <;> omega
        simp only [hn]
        have hav : 0 < avail x buf.length off := by unfold avail; omega
        have havl : avail x buf.length off ≤ buf.length := by unfold avail; omega
        have havs : off + avail x buf.length off ≤ x.size := by unfold avail; omega
        generalize hA : avail x buf.length off = n at *
        have hlast : i64 (i64 (off + (n : Int)) - 1) = off + n - 1 := by
          unfold maxInt at *
          rw [i64_of_range (z := off + (n : Int)) (by omega) (by omega), i64_of_range (by omega) (by omega)]
        rw [hlast, convert_eq hbp hbl h0 (by unfold maxInt at *; omega),
          convert_eq hbp hbl (off := off + n - 1) (by omega) (by unfold maxInt at *; omega)]
        simp only [Outcome.bind_ret]
        obtain ⟨o, rfl⟩ := Int.eq_ofNat_of_zero_le h0
        simp only [Int.toNat_natCast] at *
        have hlo : ((o : Int) + n - 1).toNat = o + n - 1 := toNat_aux hav
        rw [hlo]
        generalize hbs : x.st.c.bpb = p at *
        have hdm : p * (o / p) + o % p = o := Nat.div_add_mod o p
        have hml : o % p < p := Nat.mod_lt _ hbp
        have hdm2 : p * ((o + n - 1) / p) + (o + n - 1) % p = o + n - 1 := Nat.div_add_mod _ _
        have hml2 : (o + n - 1) % p < p := Nat.mod_lt _ hbp
        have hmono : o / p ≤ (o + n - 1) / p := Nat.div_le_div_right (by omega)
        have hlt : (o + n - 1) / p < x.st.c.total := by
          rw [Nat.div_lt_iff_lt_mul hbp]; omega
        have htot : x.st.c.total ≤ maxInt := Nat.le_trans (Nat.le_mul_of_pos_right _ hbp) hcap
        have hcount : u64 (u64sub ((o + n - 1) / p) (o / p) + 1) = (o + n - 1) / p - o / p + 1 := by
          exact u64sub_add_one hmono (by unfold maxInt at *; omega)
        rw [hcount]
        generalize hfb : o / p = fb at *
        generalize hlb : (o + n - 1) / p = lb at *
        have hsum : fb * p + (lb - fb + 1) * p = lb * p + p := by
          rw [← Nat.add_mul]
          have : fb + (lb - fb + 1) = lb + 1 := by omega
          rw [this, Nat.succ_mul]
        have hbe := block_end_le (n := p) hlt
        have hc1 : fb * p = p * fb := Nat.mul_comm _ _
        have hc2 : lb * p = p * lb := Nat.mul_comm _ _
        have hgs := getSlice_weak L x.st h.weak h.bpb fb (lb - fb + 1) (by rw [hbs]; omega)
        rw [hbs] at hgs
        rcases hgs with ⟨n1, _⟩ | ⟨_, st', w, ha⟩
        · exact absurd ((inRange_blocks (c := x.st.c) (by omega)).2 (by omega : fb < _ ∧ fb + (lb - fb + 1) ≤ _))
            (by rw [hbs]; exact n1)
        refine ⟨st', w, ?_⟩
        rcases ha with ⟨g1, g2, g3⟩ | ⟨j, be, g1, g2⟩
        · left
          rw [g1]
          simp only [Outcome.bind_ret]
          have hdl : st'.c.data.length = x.st.c.total * p := by
            rw [w.weak.data_len, w.total, w.bpb, hbs]
          have htu : toUint (n : Int) = n := toUint_nat (by unfold maxInt at *; omega)
          have hhi : u64 (o % p + n) = o % p + n := u64_of_lt (by unfold maxInt at *; omega)
          rw [htu, hhi]
          rw [if_pos ⟨by omega, by rw [hdl]; omega⟩]
          simp only [Outcome.pure_eq, Outcome.ret.injEq, Prod.mk.injEq, true_and, ReadRes.mk.injEq]
          refine ⟨?_, ?_⟩
          · apply congrArg (goCopy buf)
            have e1 : o % p + n - o % p = n := by omega
            rw [e1, file, slice_take (by omega)]
            have e2 : slice (st'.c.peek ⟨fb * p, (lb - fb + 1) * p⟩) (o % p) n =
                slice (slice (contents view x.st) (fb * p) ((lb - fb + 1) * p)) (o % p) n := by rw [g3]
            have hin : o % p + n ≤ (lb - fb + 1) * p := by omega
            rw [Cache.peek, slice_slice hin, slice_slice hin] at e2
            rw [e2]
            have e3 : fb * p + o % p = o := by omega
            rw [e3]
          · by_cases hlt2 : n < buf.length
            · rw [if_pos hlt2, if_pos (by omega)]
            · rw [if_neg hlt2, if_neg (by omega)]
        · right
          rw [g1]
          exact ⟨j, be, g2, rfl⟩

/-- What a Sync does to the stream. -/
structure Synced (b : Backend S) (view : S → Bytes) (x x' : Stm S) (e : Option SErr) : Prop where
  size : x'.size = x.size
  position : x'.position = x.position
  flags : x'.flags = x.flags
  bpb : x'.st.c.bpb = x.st.c.bpb
  total : x'.st.c.total = x.st.c.total
  contents : contents view x'.st = contents view x.st
  mem : x'.st.c.data = x.st.c.data
  clean : e = none → ∀ j, j < x.st.c.total → isDirty x'.st.c j = false
  dirty : ∀ j, isDirty x'.st.c j = true → isDirty x.st.c j = true
  stored : e = none → ∀ k, (view x'.st.s)[k]? =
    if k < x.st.c.total * x.st.c.bpb ∧ isDirty x.st.c (k / x.st.c.bpb) = true
    then x.st.c.data[k]? else (view x.st.s)[k]?
  vlen : (view x'.st.s).length = (view x.st.s).length
  quiet : (∀ j, j < x.st.c.total → isDirty x.st.c j = false) → view x'.st.s = view x.st.s
  err : ∀ y, e = some y → (x' = x ∧ x.st.c.total = 0 ∧ y = .cache .argumentOutOfRange) ∨
    (0 < x.st.c.total ∧ CallbackFailed b y)
  empty : x.st.c.total = 0 → e = some (.cache .argumentOutOfRange)

theorem sync_spec {b : Backend S} {bpb : Nat} {view : S → Bytes} (L : Lawful b bpb view) {x : Stm S}
    (h : Inv bpb view x) : ∃ x' e, sync b x = .ret (x', e) ∧ Inv bpb view x' ∧ Synced b view x x' e := by
  unfold sync
  rcases flush_weak L x.st h.weak h.bpb with ⟨h1, h2⟩ | ⟨h1, st', e, m, F, h2⟩
  · rw [h2]
    refine ⟨x, _, rfl, h, rfl, rfl, rfl, rfl, rfl, rfl, rfl, by simp, fun _ h => h, by simp, rfl, fun _ => rfl, ?_,
      fun _ => rfl⟩
    intro y hy; left
    simp only [Option.some.injEq] at hy
    exact ⟨rfl, h1, hy.symm⟩
  · rw [h2]
    have hinv : Inv bpb view { x with st := st' } :=
      ⟨F.weak, F.bpb.trans h.bpb, by simp only [F.bpb]; exact h.bpb_le, h.size_nn, by
        simp only [F.bpb, F.total]; exact h.size_le, h.pos_nn, h.pos_lt⟩
    have hdirty : ∀ j, isDirty st'.c j = true → isDirty x.st.c j = true := by
      intro j hj
      rw [F.dirty] at hj
      simp only [Bool.and_eq_true] at hj
      exact hj.1
    have hq : ∀ e', e = e' → (∀ j, j < x.st.c.total → isDirty x.st.c j = false) → view st'.s = view x.st.s := by
      intro e' he hc
      apply List.ext_getElem?
      intro k
      have hno : ¬ (0 ≤ k / x.st.c.bpb ∧ k / x.st.c.bpb < 0 + m ∧ isDirty x.st.c (k / x.st.c.bpb) = true) := by
        rintro ⟨_, h2, h3⟩
        have : m ≤ x.st.c.total := by
          cases e with
          | none => rw [F.ok rfl]; exact Nat.le_refl _
          | some y => have := (F.fail y rfl).1; omega
        rw [hc _ (by omega)] at h3; simp at h3
      rw [F.stored k, if_neg hno]
      cases e with
      | none => left; rfl
      | some y =>
        obtain ⟨f1, f2, _⟩ := F.fail y rfl
        rw [hc _ (by omega)] at f2; simp at f2
    cases e with
    | none =>
      refine ⟨_, none, rfl, hinv, rfl, rfl, rfl, F.bpb, F.total, F.contents_eq h.weak, F.data, ?_, hdirty, ?_, F.vlen, hq _ rfl,
        by simp, by omega⟩
      · intro _ j hj
        show isDirty st'.c j = false
        rw [F.dirty, F.ok rfl]; simp [hj]
      · intro _ k
        show (view st'.s)[k]? = _
        rw [F.stored k (.inl rfl), F.ok rfl]
        have : k / x.st.c.bpb < 0 + x.st.c.total ↔ k < x.st.c.total * x.st.c.bpb := by
          rw [Nat.zero_add, Nat.div_lt_iff_lt_mul h.weak.bpb_pos]
        by_cases hk : k < x.st.c.total * x.st.c.bpb
        · simp only [this.2 hk, hk, true_and, Nat.zero_le]
        · rw [if_neg (fun hh => hk (this.1 hh.2.1)), if_neg (fun hh => hk hh.1)]
    | some y =>
      refine ⟨_, _, rfl, hinv, rfl, rfl, rfl, F.bpb, F.total, F.contents_eq h.weak, F.data, by simp, hdirty, by simp, F.vlen, hq _ rfl, ?_,
        by omega⟩
      intro z hz
      right
      refine ⟨h1, ?_⟩
      obtain ⟨_, _, be, f1, f2⟩ := F.fail y rfl
      simp only [Option.some.injEq] at hz
      rw [← hz, f1]
      exact f2

/-- A stream after a successful resize by Truncate (before a possible Sync). -/
structure Resized (view : S → Bytes) (x : Stm S) (n : Int) (x1 : Stm S) : Prop where
  size : x1.size = n
  position : x1.position = x.position
  flags : x1.flags = x.flags
  bpb : x1.st.c.bpb = x.st.c.bpb
  total : x1.st.c.total = (n.toNat + (x.st.c.bpb - 1)) / x.st.c.bpb
  contents : contents view x1.st = (contents view x.st).take (x1.st.c.total * x.st.c.bpb) ++
        List.replicate (x1.st.c.total * x.st.c.bpb - (contents view x.st).length) 0
  dirty : ∀ j, j < x1.st.c.total → isDirty x1.st.c j = if x.st.c.total ≤ j then true else isDirty x.st.c j
  loaded : ∀ j, j < x1.st.c.total → isLoaded x1.st.c j = if x.st.c.total ≤ j then true else isLoaded x.st.c j
  stored : ∀ k, k < x1.st.c.total * x.st.c.bpb → k < (view x.st.s).length → (view x1.st.s)[k]? = (view x.st.s)[k]?

theorem truncate_spec {b : Backend S} {bpb : Nat} {view : S → Bytes} (L : Lawful b bpb view) {x : Stm S}
    (h : Inv bpb view x) {n : Int} (hf : FitsSize x n) :
    (Flags.write x.flags = false ∧ truncate b x n = .ret (x, some .notPermitted)) ∨
    (Flags.write x.flags = true ∧ n < 0 ∧ truncate b x n = .ret (x, some .invalidArgument)) ∨
    (Flags.write x.flags = true ∧ 0 ≤ n ∧ ∃ s' be, truncate b x n =
        .ret ({ x with st := ⟨x.st.c, s'⟩ }, some (.cache (.resizeFailed be))) ∧
      (∃ m, (b.resize x.st.s m).2 = some be) ∧ view s' = view x.st.s ∧
      Inv bpb view { x with st := ⟨x.st.c, s'⟩ } ∧
      contents view ⟨x.st.c, s'⟩ = contents view x.st) ∨
    (Flags.write x.flags = true ∧ 0 ≤ n ∧ ∃ x1, Inv bpb view x1 ∧ Resized view x n x1 ∧
      truncate b x n = if Flags.synchronous x.flags then sync b x1 else .ret (x1, none)) := by
  unfold truncate
  cases hfl : Flags.write x.flags with
  | false => left; exact ⟨rfl, rfl⟩
  | true =>
    right
    simp only [Bool.not_true, Bool.false_eq_true, if_false]
    by_cases hn : n < 0
    · left; rw [if_pos hn]; exact ⟨trivial, hn, rfl⟩
    · right
      rw [if_neg hn]
      obtain ⟨m, rfl⟩ := Int.eq_ofNat_of_zero_le (show 0 ≤ n by omega)
      have hf' : (m : Int) + x.st.c.bpb ≤ (maxInt : Nat) := hf
      rw [toUint_nat (by unfold maxInt at *; omega), minBlocks_eq h.weak.bpb_pos h.bpb_le (by omega)]
      simp only [Outcome.bind_ret]
      have hcap : (m + (x.st.c.bpb - 1)) / x.st.c.bpb * x.st.c.bpb ≤ maxInt := by
        have := Nat.div_mul_le_self (m + (x.st.c.bpb - 1)) x.st.c.bpb
        omega
      rcases resize_weak L x.st h.weak h.bpb _ hcap with
        ⟨be, s', r1, r2, r3, r4, r5⟩ | ⟨st', r1, r2, r3, r4, r5, r6, r7, r8, r9⟩
      · left
        rw [r3]
        refine ⟨trivial, by omega, s', be, rfl, ⟨_, by rw [r1]⟩, r2, ?_, r5⟩
        exact ⟨r4, h.bpb, h.bpb_le, h.size_nn, h.size_le, h.pos_nn, h.pos_lt⟩
      · right
        rw [r2]
        refine ⟨trivial, by omega, { x with st := st', size := (m : Int) }, ?_, ?_, ?_⟩
        · refine ⟨r4, r5.trans h.bpb, by simp only [r5]; exact h.bpb_le, by simp only; omega, ?_, h.pos_nn, h.pos_lt⟩
          have := (ceil_le_iff (a := m) (t := (m + (x.st.c.bpb - 1)) / x.st.c.bpb) h.weak.bpb_pos).1 (Nat.le_refl _)
          simp only [r5, r6]; omega
        · refine ⟨rfl, rfl, rfl, r5, r6, ?_, ?_, ?_, ?_⟩
          · simp only [r6]; exact r9
          · simp only [r6]; exact r7
          · simp only [r6]; exact r8
          · intro k hk hk2
            have := (L.resize_ok x.st.s _ (by rw [← h.bpb]; exact hcap) r1).2
            show (view st'.s)[k]? = _
            rw [r3]
            refine this k ?_ hk2
            rw [← h.bpb]
            simpa only [r6] using hk
        · simp only [Outcome.bind_ret, Outcome.pure_eq]

theorem Resized.file_prefix {view : S → Bytes} {x x1 : Stm S} {n : Int} (r : Resized view x n x1)
    {k : Nat} (h1 : (k : Int) < x.size) (h2 : (k : Int) < n) (hs : x.size ≤ (x.st.c.total * x.st.c.bpb : Nat))
    (hb : 0 < x.st.c.bpb) :
    (file view x1)[k]? = (file view x)[k]? := by
  unfold file
  rw [List.getElem?_take, List.getElem?_take, r.size, if_pos (by omega), if_pos (by omega), r.contents,
    List.getElem?_append_left, List.getElem?_take, if_pos]
  · have := (ceil_le_iff (a := n.toNat) (t := x1.st.c.total) hb).1 (by rw [r.total]; exact Nat.le_refl _)
    omega
  · have := (ceil_le_iff (a := n.toNat) (t := x1.st.c.total) hb).1 (by rw [r.total]; exact Nat.le_refl _)
    rw [List.length_take, length_contents]; omega

theorem u64_succ {n : Nat} (h : n < 2 ^ 63) : u64 (n + 1) = n + 1 := u64_of_lt (by omega)

theorem sync_position {b : Backend S} {x x' : Stm S} {e : Option SErr} (h : sync b x = .ret (x', e)) :
    x'.position = x.position ∧ x'.flags = x.flags ∧ x'.size = x.size := by
  unfold sync at h
  rcases hf : flush b x.st with ⟨st', _ | _⟩ | _ | _ <;> rw [hf] at h <;>
    simp at h <;> obtain ⟨rfl, _⟩ := h <;> exact ⟨rfl, rfl, rfl⟩

/-- The state after the memory has been changed at `off`. -/
abbrev poked (x1 : Stm S) (st' : St S) (off : Nat) (buf : Bytes) : Stm S :=
  { x1 with st := ⟨{ st'.c with data := splice st'.c.data off buf }, st'.s⟩ }

/-- The last part of implWriteAt, after growth. -/
def writeTail (b : Backend S) (x1 : Stm S) (fl : Flags.IOFlags) (buf : Bytes) (sb so lb : Nat) :
    Outcome (Stm S × Int × Option SErr) := do
  match ← getSlice b x1.st sb (u64 (lb + 1)) with
  | (st', .error e) => return ({ x1 with st := st' }, 0, some (.cache e))
  | (st', .ok w) =>
    if so ≤ w.len then
      let target := slice st'.c.data (w.off + so) (w.len - so)
      let c' := { st'.c with data := splice st'.c.data (w.off + so) (goCopy target buf) }
      let x2 := { x1 with st := ⟨c', st'.s⟩ }
      if Flags.synchronous fl then
        let (x3, e) ← sync b x2
        return (x3, (buf.length : Int), e)
      else return (x2, (buf.length : Int), none)
    else .panic

/-- The result of a write: Sync if O_SYNC. -/
def finish (b : Backend S) (fl : Flags.IOFlags) (len : Int) (x2 : Stm S) : Outcome (Stm S × Int × Option SErr) :=
  if Flags.synchronous fl then do
    let (x3, e) ← sync b x2
    return (x3, len, e)
  else .ret (x2, len, none)

theorem writeTail_spec {b : Backend S} {bpb : Nat} {view : S → Bytes} (L : Lawful b bpb view) {x1 : Stm S}
    (fl : Flags.IOFlags) (h : Inv bpb view x1) (buf : Bytes) (off p : Nat) (hpp : x1.st.c.bpb = p)
    (hfit : off + buf.length + p ≤ maxInt) :
    (¬ (off / p + (off + buf.length) / p + 1 ≤ x1.st.c.total) ∧
      writeTail b x1 fl buf (off / p) (off % p) ((off + buf.length) / p) =
        .ret (x1, 0, some (.cache .argumentOutOfRange))) ∨
    (off / p + (off + buf.length) / p + 1 ≤ x1.st.c.total ∧ ∃ st', WLoads view x1.st st' ∧
      ((∃ j be, FetchFails b x1.st.c.total j be ∧
          writeTail b x1 fl buf (off / p) (off % p) ((off + buf.length) / p) =
            .ret ({ x1 with st := st' }, 0, some (.cache (.fetchFailed j be)))) ∨
       (Inv bpb view (poked x1 st' off buf) ∧
        contents view (poked x1 st' off buf).st = splice (contents view x1.st) off buf ∧
        (∀ k, k < buf.length → isLoaded st'.c ((off + k) / p) = true) ∧
        writeTail b x1 fl buf (off / p) (off % p) ((off + buf.length) / p) =
          finish b fl buf.length (poked x1 st' off buf)))) := by
  have hbp : 0 < p := by have := h.weak.bpb_pos; omega
  have hdm : p * (off / p) + off % p = off := Nat.div_add_mod off p
  have hml : off % p < p := Nat.mod_lt _ hbp
  have hdm2 : p * ((off + buf.length) / p) + (off + buf.length) % p = off + buf.length := Nat.div_add_mod _ _
  have hml2 : (off + buf.length) % p < p := Nat.mod_lt _ hbp
  have hmono : off / p ≤ (off + buf.length) / p := Nat.div_le_div_right (by omega)
  have hdle : (off + buf.length) / p ≤ off + buf.length := Nat.div_le_self _ _
  have hu : u64 ((off + buf.length) / p + 1) = (off + buf.length) / p + 1 :=
    u64_succ (by unfold maxInt at *; omega)
  unfold writeTail
  rw [hu]
  generalize hsb : off / p = sb at *
  generalize hlb : (off + buf.length) / p = lb at *
  have hc1 : sb * p = p * sb := Nat.mul_comm _ _
  have hc2 : (lb + 1) * p = p * lb + p := by rw [Nat.succ_mul, Nat.mul_comm]
  have hbig : (lb + 1) * p ≤ maxInt := by omega
  rcases getSlice_weak L x1.st h.weak h.bpb sb (lb + 1) (by rw [hpp]; exact hbig) with
    ⟨n1, g⟩ | ⟨hr, st', w, ha⟩
  · left
    rw [inRange_blocks (by rw [hpp]; exact hbp)] at n1
    refine ⟨by omega, ?_⟩
    rw [g]; rfl
  · right
    rw [inRange_blocks (by rw [hpp]; exact hbp)] at hr
    refine ⟨by omega, st', w, ?_⟩
    rcases ha with ⟨g1, g2, g3⟩ | ⟨j, be, g1, g2⟩
    · right
      have hdl : st'.c.data.length = x1.st.c.total * p := by rw [w.weak.data_len, w.total, w.bpb, hpp]
      have hend : sb * p + (lb + 1) * p ≤ x1.st.c.total * p := by
        rw [← Nat.add_mul]; exact Nat.mul_le_mul_right _ (by omega)
      have e1 : sb * p + off % p = off := by omega
      have hsp : splice st'.c.data (sb * p + off % p)
          (goCopy (slice st'.c.data (sb * p + off % p) ((lb + 1) * p - off % p)) buf) =
          splice st'.c.data off buf := by
        rw [e1]
        exact splice_goCopy_slice (by omega) (by omega)
      have hpk := poke_weak w.weak (start := sb) (count := lb + 1) (off := off) (v := buf)
        (by rw [w.total]; omega) (by rw [w.bpb]; simp only [hpp]; omega)
        (by rw [w.bpb]; simp only [hpp]; omega) g2
      refine ⟨?_, ?_, ?_, ?_⟩
      · refine ⟨hpk.1, ?_, ?_, h.size_nn, ?_, h.pos_nn, h.pos_lt⟩
        · exact w.bpb.trans h.bpb
        · show st'.c.bpb ≤ maxInt
          rw [w.bpb]; exact h.bpb_le
        · show x1.size ≤ (st'.c.total * st'.c.bpb : Nat)
          rw [w.bpb, w.total]; exact h.size_le
      · rw [← w.contents_eq]; exact hpk.2
      · intro k hk
        apply g2
        · rw [← hsb]; exact Nat.div_le_div_right (by omega)
        · have : (off + k) / p ≤ lb := by rw [← hlb]; exact Nat.div_le_div_right (by omega)
          omega
      · rw [g1]
        simp only [Outcome.bind_ret]
        rw [if_pos (show off % p ≤ (lb + 1) * x1.st.c.bpb by rw [hpp]; omega)]
        simp only [hpp, hsp]
        rfl
    · left
      rw [g1]
      exact ⟨j, be, g2, rfl⟩

theorem convert_neg {x : Stm S} (hb : 0 < x.st.c.bpb) (hle : x.st.c.bpb ≤ maxInt) {m : Nat}
    (h0 : x.st.c.bpb < m) (h1 : m ≤ 2 ^ 63) :
    ∃ q o, convertLinearAddr x (-(m : Int)) = .ret (q, o) ∧ 2 ^ 63 ≤ q := by
  unfold maxInt at hle
  unfold convertLinearAddr
  rw [i64_of_range (z := (x.st.c.bpb : Int)) (by omega) (by omega)]
  simp only
  rw [if_neg (by omega)]
  refine ⟨_, _, rfl, ?_⟩
  have e1 : (-(m : Int)).tdiv (x.st.c.bpb : Int) = -((m / x.st.c.bpb : Nat) : Int) := by
    rw [Int.neg_tdiv]; rfl
  have hd : m / x.st.c.bpb ≤ m := Nat.div_le_self _ _
  have hd1 : 1 ≤ m / x.st.c.bpb := by rw [Nat.le_div_iff_mul_le hb]; omega
  rw [e1]
  generalize m / x.st.c.bpb = q at *
  rw [i64_of_range (by omega) (by omega)]
  unfold toUint; omega

theorem wrap_neg {off : Int} {len p : Nat} (f1 : off ≤ maxInt) (f2 : len + p ≤ maxInt)
    (f3 : (maxInt : Int) < off + len) :
    ∃ m : Nat, i64 (off + (len : Int)) = -(m : Int) ∧ p < m ∧ m ≤ 2 ^ 63 ∧ 0 < m := by
  unfold maxInt at *
  refine ⟨(18446744073709551616 - off - len).toNat, ?_, ?_, ?_, ?_⟩
  · unfold i64; rw [Int.bmod_def]; omega
  · omega
  · omega
  · omega

/-- implWriteAt after Truncate. -/
def afterGrow (b : Backend S) (fl : Flags.IOFlags) (buf : Bytes) (sb so lb : Nat)
    (r : Stm S × Option SErr) : Outcome (Stm S × Int × Option SErr) :=
  match r.2 with
  | some e => .ret (r.1, 0, some e)
  | none => writeTail b r.1 fl buf sb so lb

theorem lt_of_maxInt {z : Int} (h : z ≤ maxInt) : z < 2 ^ 63 := by unfold maxInt at h; omega
theorem i64_nonneg {z : Int} (h0 : 0 ≤ z) (h : z < 2 ^ 63) : i64 z = z := i64_of_range (by omega) h
theorem big_of {q : Nat} (h : 2 ^ 63 ≤ q) : maxInt ≤ q := by unfold maxInt; omega

theorem implWriteAt_spec {b : Backend S} {bpb : Nat} {view : S → Bytes} {x : Stm S}
    (h : Inv bpb view x) (buf : Bytes) {off : Int} (h0 : 0 ≤ off) (hf : FitsWrite x buf.length off) :
    (Flags.write x.flags = false ∧ implWriteAt b x buf off = .ret (x, 0, some .notPermitted)) ∨
    (Flags.write x.flags = true ∧ (maxInt : Int) < off + buf.length ∧
      implWriteAt b x buf off = .ret (x, 0, some .invalidArgument)) ∨
    (Flags.write x.flags = true ∧ FitsSize x (off + buf.length) ∧
      (((off.toNat + buf.length) / x.st.c.bpb < x.st.c.total ∧
        implWriteAt b x buf off = writeTail b x x.flags buf (off.toNat / x.st.c.bpb)
          (off.toNat % x.st.c.bpb) ((off.toNat + buf.length) / x.st.c.bpb)) ∨
       (x.st.c.total ≤ (off.toNat + buf.length) / x.st.c.bpb ∧
        implWriteAt b x buf off = truncate b x (off + buf.length) >>= afterGrow b x.flags buf
          (off.toNat / x.st.c.bpb) (off.toNat % x.st.c.bpb) ((off.toNat + buf.length) / x.st.c.bpb)))) := by
  obtain ⟨f1, f2, f3⟩ := hf
  unfold implWriteAt
  cases hfl : Flags.write x.flags with
  | false => left; exact ⟨rfl, rfl⟩
  | true =>
    right
    simp only [Bool.not_true, Bool.false_eq_true, if_false]
    have hbp := h.weak.bpb_pos
    have hbl := h.bpb_le
    have hcapd : capacity x = x.st.c.total * x.st.c.bpb := rfl
    have htot : x.st.c.total ≤ maxInt := Nat.le_trans (Nat.le_mul_of_pos_right _ hbp) h.weak.cap
    have hcv := convert_eq hbp hbl h0 (lt_of_maxInt f1)
    rw [hcv]
    rcases f3 with f3 | f3
    · right
      refine ⟨trivial, f3, ?_⟩
      have f3' : off + buf.length + x.st.c.bpb ≤ (maxInt : Nat) := f3
      have hlt63 : off + (buf.length : Int) < 2 ^ 63 := lt_of_maxInt (by omega)
      have hi := i64_nonneg (z := off + buf.length) (by omega) hlt63
      have hcv2 := convert_eq hbp hbl (off := off + buf.length) (by omega) hlt63
      rw [hi, hcv2]
      simp only [Outcome.bind_ret]
      have e2 : (off + (buf.length : Int)).toNat = off.toNat + buf.length := by omega
      rw [e2]
      by_cases hlt : (off.toNat + buf.length) / x.st.c.bpb < x.st.c.total
      · left
        refine ⟨hlt, ?_⟩
        rw [if_neg (show ¬ (off.toNat + buf.length) / x.st.c.bpb ≥ x.st.c.totalBlocks by
          show ¬ (off.toNat + buf.length) / x.st.c.bpb ≥ x.st.c.total
          omega)]
        rfl
      · right
        refine ⟨by omega, ?_⟩
        rw [if_pos (show (off.toNat + buf.length) / x.st.c.bpb ≥ x.st.c.totalBlocks by
          show (off.toNat + buf.length) / x.st.c.bpb ≥ x.st.c.total
          omega)]
        rfl
    · left
      refine ⟨trivial, f3, ?_⟩
      obtain ⟨m, m1, m2, m3, m4⟩ := wrap_neg (p := x.st.c.bpb) f1 (by omega) f3
      obtain ⟨q, o, c1, c2⟩ := convert_neg hbp hbl m2 m3
      rw [m1, c1]
      simp only [Outcome.bind_ret]
      rw [if_pos (show q ≥ x.st.c.totalBlocks by
        show q ≥ x.st.c.total
        exact Nat.le_trans htot (big_of c2))]
      unfold truncate
      rw [hfl]
      simp only [Bool.not_true, Bool.false_eq_true, if_false]
      rw [if_pos (by omega)]
      rfl

end Disko.Stream

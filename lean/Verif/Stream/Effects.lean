import Verif.Stream.Lemmas
/-! Effect of writes, and invariance of `Inv`. -/
namespace Disko.Stream
open Disko Disko.BlockCache Disko.BlockCache.Spec Disko.Stream.Spec

variable {S : Type}

/-- The block holding the byte after the end of a write. -/
abbrev lastBlk (x : Stm S) (off len : Nat) : Nat := (off + len) / x.st.c.bpb

/-- The number of blocks after growing for a write. -/
def newTotal (x : Stm S) (off len : Nat) : Nat :=
  if x.st.c.total ≤ lastBlk x off len then (off + len + (x.st.c.bpb - 1)) / x.st.c.bpb else x.st.c.total

/-- The size after growing for a write. -/
def newSize (x : Stm S) (off len : Nat) : Int :=
  if x.st.c.total ≤ lastBlk x off len then (off : Int) + len else x.size

/-- The state of the stream when the data is about to be copied. -/
structure Grown (view : S → Bytes) (x : Stm S) (off len : Nat) (x1 : Stm S) : Prop where
  flags : x1.flags = x.flags
  position : x1.position = x.position
  bpb : x1.st.c.bpb = x.st.c.bpb
  total : x1.st.c.total = newTotal x off len
  size : x1.size = newSize x off len
  contents : contents view x1.st = contents view x.st ++
    List.replicate (x1.st.c.total * x.st.c.bpb - x.st.c.total * x.st.c.bpb) 0
  same : lastBlk x off len < x.st.c.total → x1 = x
  dirty : Flags.synchronous x.flags = false → ∀ j, j < x1.st.c.total →
    isDirty x1.st.c j = if x.st.c.total ≤ j then true else isDirty x.st.c j
  vlen : x.st.c.total * x.st.c.bpb ≤ x1.st.c.total * x.st.c.bpb

theorem Grown.refl {bpb : Nat} {view : S → Bytes} {x : Stm S} (h : Inv bpb view x) {off len : Nat}
    (hl : lastBlk x off len < x.st.c.total) : Grown view x off len x := by
  refine ⟨rfl, rfl, rfl, ?_, ?_, ?_, fun _ => rfl, ?_, Nat.le_refl _⟩
  · unfold newTotal; rw [if_neg (by omega)]
  · unfold newSize; rw [if_neg (by omega)]
  · rw [Nat.sub_self]; simp
  · intro _ j hj; rw [if_neg (by omega)]

theorem Resized.grown {bpb : Nat} {view : S → Bytes} {x x1 : Stm S} (h : Inv bpb view x) {off len : Nat}
    (hl : x.st.c.total ≤ lastBlk x off len) (r : Resized view x ((off : Int) + len) x1) :
    Grown view x off len x1 := by
  have e : ((off : Int) + len).toNat = off + len := by omega
  have ht : x1.st.c.total = (off + len + (x.st.c.bpb - 1)) / x.st.c.bpb := by rw [r.total, e]
  have hle : x.st.c.total ≤ x1.st.c.total := by
    rw [ht]
    refine Nat.le_trans hl (Nat.div_le_div_right (by omega))
  have hm := Nat.mul_le_mul_right x.st.c.bpb hle
  refine ⟨r.flags, r.position, r.bpb, ?_, ?_, ?_, by omega, fun _ => r.dirty, hm⟩
  · rw [ht]; unfold newTotal; rw [if_pos hl]
  · rw [r.size]; unfold newSize; rw [if_pos hl]
  · rw [r.contents, List.take_of_length_le (by rw [length_contents]; exact hm), length_contents]

theorem Grown.synced {b : Backend S} {view : S → Bytes} {x x1 x2 : Stm S} {off len : Nat}
    {e : Option SErr} (g : Grown view x off len x1) (s : Synced b view x1 x2 e)
    (hl : x.st.c.total ≤ lastBlk x off len) (hs : Flags.synchronous x.flags = true) :
    Grown view x off len x2 := by
  refine ⟨s.flags.trans g.flags, s.position.trans g.position, s.bpb.trans g.bpb, s.total.trans g.total,
    s.size.trans g.size, ?_, by omega, by rw [hs]; simp, ?_⟩
  · rw [s.contents, g.contents, s.total]
  · rw [s.total]; exact g.vlen

/-- A write that returned its full count. -/
structure Wrote (b : Backend S) (view : S → Bytes) (x : Stm S) (buf : Bytes) (off : Nat) (x' : Stm S)
    (e : Option SErr) : Prop where
  write : Flags.write x.flags = true
  fits : FitsSize x ((off : Int) + buf.length)
  size : x'.size = newSize x off buf.length
  total : x'.st.c.total = newTotal x off buf.length
  bpb : x'.st.c.bpb = x.st.c.bpb
  room : off / x.st.c.bpb + lastBlk x off buf.length + 1 ≤ x'.st.c.total
  contents : contents view x'.st = splice (contents view x.st ++
    List.replicate (x'.st.c.total * x.st.c.bpb - x.st.c.total * x.st.c.bpb) 0) off buf
  inside : off + buf.length ≤ x'.st.c.total * x.st.c.bpb
  grows : x.st.c.total * x.st.c.bpb ≤ x'.st.c.total * x.st.c.bpb
  plain : Flags.synchronous x.flags = false → e = none ∧
    (∀ j, j < x'.st.c.total → isDirty x'.st.c j = if x.st.c.total ≤ j then true else isDirty x.st.c j) ∧
    (∀ k, k < buf.length → x'.st.c.data[off + k]? = buf[k]?)
  err : ∀ y, e = some y → CallbackFailed b y
  synced : Flags.synchronous x.flags = true → e = none → ∀ j, j < x'.st.c.total → isDirty x'.st.c j = false

/-- A write that returned 0 and an error. -/
structure NotWritten (b : Backend S) (view : S → Bytes) (x : Stm S) (buf : Bytes) (off : Nat) (x' : Stm S)
    (y : SErr) : Prop where
  why : (y = .notPermitted ∧ Flags.write x.flags = false ∧ x'.st = x.st ∧ x'.size = x.size) ∨
    (Flags.write x.flags = true ∧ y = .invalidArgument ∧ (maxInt : Int) < (off : Int) + buf.length ∧
      x'.st = x.st ∧ x'.size = x.size) ∨
    (Flags.write x.flags = true ∧ CallbackFailed b y) ∨
    (Flags.write x.flags = true ∧ FitsSize x ((off : Int) + buf.length) ∧ y = .cache .argumentOutOfRange ∧
      newTotal x off buf.length < off / x.st.c.bpb + lastBlk x off buf.length + 1)
  size : x'.size = x.size ∨ (x.st.c.total ≤ lastBlk x off buf.length ∧ x'.size = newSize x off buf.length)
  contents : contents view x'.st = contents view x.st ++
    List.replicate (x'.st.c.total * x.st.c.bpb - x.st.c.total * x.st.c.bpb) 0
  bpb : x'.st.c.bpb = x.st.c.bpb
  same : lastBlk x off buf.length < x.st.c.total → x'.size = x.size ∧ x'.st.c.total = x.st.c.total
  grows : x.st.c.total * x.st.c.bpb ≤ x'.st.c.total * x.st.c.bpb
  exact : y ≠ .cache .argumentOutOfRange ∨ (x'.size = newSize x off buf.length ∧
    x'.st.c.total = newTotal x off buf.length)
  total : x'.st.c.total = x.st.c.total ∨ x'.st.c.total = newTotal x off buf.length
  linked : (x'.size = x.size ∧ x'.st.c.total = x.st.c.total) ∨
    (FitsSize x ((off : Int) + buf.length) ∧ x'.size = newSize x off buf.length ∧ x'.st.c.total = newTotal x off buf.length)

theorem ceil_room {n p : Nat} (hp : 0 < p) : n ≤ (n + (p - 1)) / p * p :=
  (ceil_le_iff hp).1 (Nat.le_refl _)

theorem lastBlk_room {a len p t : Nat} (hp : 0 < p) (h : a / p + (a + len) / p + 1 ≤ t) : a + len ≤ t * p := by
  have h1 : (a + len) / p + 1 ≤ t := by
    generalize (a + len) / p = q at *
    generalize a / p = r at *
    omega
  have h2 := Nat.mul_le_mul_right p h1
  have h3 := Nat.div_add_mod (a + len) p
  have h4 := Nat.mod_lt (a + len) hp
  rw [Nat.succ_mul, Nat.mul_comm] at h2
  omega

theorem writeTail_effect {b : Backend S} {bpb : Nat} {view : S → Bytes} (L : Lawful b bpb view)
    {x x1 : Stm S} (h : Inv bpb view x1) (buf : Bytes) (off : Nat)
    (g : Grown view x off buf.length x1) (hw : Flags.write x.flags = true)
    (hfit : FitsSize x ((off : Int) + buf.length)) :
    ∃ x' n e, writeTail b x1 x.flags buf (off / x.st.c.bpb) (off % x.st.c.bpb)
        ((off + buf.length) / x.st.c.bpb) = .ret (x', n, e) ∧ Inv bpb view x' ∧ x'.flags = x.flags ∧
      x'.position = x.position ∧
      ((n = 0 ∧ ∃ y, e = some y ∧ NotWritten b view x buf off x' y) ∨
       (n = buf.length ∧ Wrote b view x buf off x' e)) := by
  have hfit' : (off : Int) + buf.length + x.st.c.bpb ≤ (maxInt : Nat) := hfit
  have hbp : 0 < x.st.c.bpb := by rw [← g.bpb]; exact h.weak.bpb_pos
  rcases writeTail_spec L x.flags h buf off x.st.c.bpb g.bpb (by omega) with
    ⟨n1, n2⟩ | ⟨hr, st', w, ⟨j, be, f1, f2⟩ | ⟨i1, i2, i3, i4⟩⟩
  · refine ⟨x1, 0, _, n2, h, g.flags, g.position, .inl ⟨rfl, _, rfl, ?_⟩⟩
    refine ⟨.inr (.inr (.inr ⟨hw, hfit, rfl, by rw [← g.total]; exact Nat.lt_of_not_le n1⟩)), ?_, g.contents, g.bpb, ?_, g.vlen,
      .inr ⟨g.size, g.total⟩, .inr g.total, .inr ⟨hfit, g.size, g.total⟩⟩
    · by_cases hl : x.st.c.total ≤ lastBlk x off buf.length
      · right; exact ⟨hl, g.size⟩
      · left; rw [g.size]; unfold newSize; rw [if_neg hl]
    · intro hl; rw [g.same hl]; exact ⟨rfl, rfl⟩
  · refine ⟨_, 0, _, f2, h.loads w, g.flags, g.position, .inl ⟨rfl, _, rfl, ?_⟩⟩
    refine ⟨.inr (.inr (.inl ⟨hw, f1.2⟩)), ?_, ?_, w.bpb.trans g.bpb, ?_, ?_, .inl (by simp), .inr (w.total.trans g.total),
      .inr ⟨hfit, g.size, w.total.trans g.total⟩⟩
    · by_cases hl : x.st.c.total ≤ lastBlk x off buf.length
      · right; exact ⟨hl, g.size⟩
      · left; show x1.size = _; rw [g.size]; unfold newSize; rw [if_neg hl]
    · show contents view st' = _ ++ List.replicate (st'.c.total * _ - _) 0
      rw [w.contents_eq, w.total]; exact g.contents
    · intro hl
      have hx := g.same hl
      refine ⟨by show x1.size = _; rw [hx], ?_⟩
      show st'.c.total = _
      rw [w.total, hx]
    · show _ ≤ st'.c.total * _
      rw [w.total]; exact g.vlen
  · have hin : off + buf.length ≤ x1.st.c.total * x.st.c.bpb := lastBlk_room hbp hr
    have htot : ∀ x' : Stm S, x'.st.c.total = st'.c.total → x'.st.c.bpb = st'.c.bpb → x'.size = x1.size →
        contents view x'.st = contents view (poked x1 st' off buf).st →
        ∀ e, (Flags.synchronous x.flags = false → e = none ∧ x' = poked x1 st' off buf) →
        (∀ y, e = some y → CallbackFailed b y) →
        (Flags.synchronous x.flags = true → e = none → ∀ j, j < x'.st.c.total → isDirty x'.st.c j = false) →
        Wrote b view x buf off x' e := by
      intro x' t1 t2 t3 t4 e t5 t6 t7
      have ht : x'.st.c.total = x1.st.c.total := t1.trans w.total
      refine ⟨hw, hfit, t3.trans g.size, ht.trans g.total, t2.trans (w.bpb.trans g.bpb), by rw [ht]; exact hr, ?_,
        by rw [ht]; exact hin, by rw [ht]; exact g.vlen, ?_, t6, t7⟩
      · rw [t4, i2, g.contents, ht]
      · intro hs
        obtain ⟨t5a, t5b⟩ := t5 hs
        refine ⟨t5a, ?_, ?_⟩
        · intro j hj
          have : isDirty x'.st.c j = isDirty x1.st.c j := by
            rw [t5b]; show st'.c.dirty.getD j false = _; rw [w.dirty]
          rw [this]; exact g.dirty hs j (by omega)
        · intro k hk
          rw [t5b]
          show (splice st'.c.data off buf)[off + k]? = _
          have hdl : st'.c.data.length = x1.st.c.total * x.st.c.bpb := by
            rw [w.weak.data_len, w.total, w.bpb, g.bpb]
          rw [getElem?_splice (by omega), if_neg (by omega), if_pos (by omega)]
          congr 1; omega
    cases hs : Flags.synchronous x.flags with
    | false =>
      have hfin : finish b x.flags buf.length (poked x1 st' off buf) =
          .ret (poked x1 st' off buf, (buf.length : Int), none) := by
        unfold finish; rw [hs]; simp
      refine ⟨_, _, _, i4.trans hfin, i1, g.flags, g.position, .inr ⟨rfl, ?_⟩⟩
      exact htot (poked x1 st' off buf) rfl rfl rfl rfl _ (fun _ => ⟨rfl, rfl⟩) (by simp) (by rw [hs]; simp)
    | true =>
      obtain ⟨x3, e, s1, s2, s3⟩ := sync_spec L i1
      have hfin : finish b x.flags buf.length (poked x1 st' off buf) = .ret (x3, (buf.length : Int), e) := by
        unfold finish; rw [hs, if_pos rfl, s1]; rfl
      refine ⟨_, _, _, i4.trans hfin, s2, s3.flags.trans g.flags, s3.position.trans g.position, .inr ⟨rfl, ?_⟩⟩
      refine htot _ s3.total s3.bpb s3.size s3.contents _ (by rw [hs]; simp) ?_ (fun _ he j hj => s3.clean he j (by rw [← s3.total]; exact hj))
      intro y hy
      rcases s3.err y hy with ⟨_, z, _⟩ | ⟨_, z⟩
      · have : st'.c.total = 0 := z
        rw [w.total] at this
        rw [this] at hr
        exact absurd hr (Nat.not_succ_le_zero _)
      · exact z

theorem implWriteAt_effect {b : Backend S} {bpb : Nat} {view : S → Bytes} (L : Lawful b bpb view)
    {x : Stm S} (h : Inv bpb view x) (buf : Bytes) {off : Nat} (hf : FitsWrite x buf.length off) :
    ∃ x' n e, implWriteAt b x buf off = .ret (x', n, e) ∧ Inv bpb view x' ∧ x'.flags = x.flags ∧
      x'.position = x.position ∧
      ((n = 0 ∧ ∃ y, e = some y ∧ NotWritten b view x buf off x' y) ∨
       (n = buf.length ∧ Wrote b view x buf off x' e)) := by
  have hself : ∀ y, ((y = .notPermitted ∧ Flags.write x.flags = false ∧ x.st = x.st ∧ x.size = x.size) ∨
    (Flags.write x.flags = true ∧ y = .invalidArgument ∧ (maxInt : Int) < (off : Int) + buf.length ∧
      x.st = x.st ∧ x.size = x.size)) →
      NotWritten b view x buf off x y := by
    intro y hy
    refine ⟨?_, .inl rfl, by rw [Nat.sub_self]; simp, rfl, fun _ => ⟨rfl, rfl⟩, Nat.le_refl _, .inl ?_, .inl rfl, .inl ⟨rfl, rfl⟩⟩
    · rcases hy with hy | hy
      · exact .inl hy
      · exact .inr (.inl hy)
    · rcases hy with hy | hy
      · rw [hy.1]; simp
      · rw [hy.2.1]; simp
  rcases implWriteAt_spec (b := b) h buf (off := (off : Int)) (by omega) hf with ⟨a1, a2⟩ | ⟨a1, a2, a3⟩ | ⟨a1, a2, a3⟩
  · exact ⟨x, 0, _, a2, h, rfl, rfl, .inl ⟨rfl, _, rfl, hself _ (.inl ⟨rfl, a1, rfl, rfl⟩)⟩⟩
  · exact ⟨x, 0, _, a3, h, rfl, rfl, .inl ⟨rfl, _, rfl, hself _ (.inr ⟨a1, rfl, a2, rfl, rfl⟩)⟩⟩
  · simp only [Int.toNat_natCast] at a3
    rcases a3 with ⟨l1, l2⟩ | ⟨l1, l2⟩
    · rw [l2]
      exact writeTail_effect L h buf off (Grown.refl h l1) a1 a2
    · have hns : ∀ (x' : Stm S) y, x'.st.c = x.st.c → x'.size = x.size → CallbackFailed b y →
          contents view x'.st = contents view x.st → NotWritten b view x buf off x' y := by
        intro x' y e1 e2 e3 e4
        refine ⟨.inr (.inr (.inl ⟨a1, e3⟩)), .inl e2, by rw [e4, e1, Nat.sub_self]; simp, by rw [e1],
          fun _ => ⟨e2, by rw [e1]⟩, by rw [e1]; exact Nat.le_refl _, .inl ?_, .inl (by rw [e1]), .inl ⟨e2, by rw [e1]⟩⟩
        intro hy; rw [hy] at e3; exact e3
      rcases truncate_spec L h a2 with ⟨t1, _⟩ | ⟨_, t2, _⟩ | ⟨_, t2, s', be, t3, t4, t5, t6, t7⟩ | ⟨_, t2, x1, t3, t4, t5⟩
      · rw [a1] at t1; simp at t1
      · omega
      · rw [l2, t3]
        refine ⟨_, 0, _, rfl, t6, rfl, rfl, .inl ⟨rfl, _, rfl, ?_⟩⟩
        obtain ⟨m, t4⟩ := t4
        exact hns _ _ rfl rfl ⟨_, _, t4⟩ t7
      · have g := t4.grown h l1
        rw [l2, t5]
        cases hs : Flags.synchronous x.flags with
        | false =>
          simp only [Bool.false_eq_true, if_false, Outcome.bind_ret, afterGrow]
          exact writeTail_effect L t3 buf off g a1 a2
        | true =>
          rw [if_pos rfl]
          obtain ⟨x2, e, s1, s2, s3⟩ := sync_spec L t3
          rw [s1]
          have g2 := g.synced s3 l1 hs
          cases e with
          | none =>
            simp only [Outcome.bind_ret, afterGrow]
            exact writeTail_effect L s2 buf off g2 a1 a2
          | some y =>
            refine ⟨x2, 0, _, rfl, s2, g2.flags, g2.position, .inl ⟨rfl, _, rfl, ?_⟩⟩
            refine ⟨?_, .inr ⟨l1, g2.size⟩, g2.contents, g2.bpb, fun hl => absurd hl (Nat.not_lt.2 l1), g2.vlen, .inr ⟨g2.size, g2.total⟩, .inr g2.total,
              .inr ⟨a2, g2.size, g2.total⟩⟩
            rcases s3.err y rfl with ⟨_, z2, z3⟩ | ⟨_, z⟩
            · refine .inr (.inr (.inr ⟨a1, a2, z3, ?_⟩))
              rw [← g.total, z2]; exact Nat.succ_pos _
            · exact .inr (.inr (.inl ⟨a1, z⟩))

theorem Wrote.move {b : Backend S} {view : S → Bytes} {x : Stm S} {buf : Bytes} {off : Nat} {x' : Stm S}
    {e : Option SErr} {p q : Int} (h : Wrote b view { x with position := p } buf off x' e) :
    Wrote b view x buf off { x' with position := q } e :=
  ⟨h.write, h.fits, h.size, h.total, h.bpb, h.room, h.contents, h.inside, h.grows, h.plain, h.err, h.synced⟩

theorem NotWritten.move {b : Backend S} {view : S → Bytes} {x : Stm S} {buf : Bytes} {off : Nat} {x' : Stm S}
    {y : SErr} {p q : Int} (h : NotWritten b view { x with position := p } buf off x' y) :
    NotWritten b view x buf off { x' with position := q } y :=
  ⟨h.why, h.size, h.contents, h.bpb, h.same, h.grows, h.exact, h.total, h.linked⟩

theorem Inv.pos {bpb : Nat} {view : S → Bytes} {x : Stm S} (h : Inv bpb view x) {p : Int} (h0 : 0 ≤ p)
    (h1 : p < 2 ^ 63) : Inv bpb view { x with position := p } :=
  ⟨h.weak, h.bpb, h.bpb_le, h.size_nn, h.size_le, h0, h1⟩

theorem Inv.size_lt {bpb : Nat} {view : S → Bytes} {x : Stm S} (h : Inv bpb view x) : x.size < 2 ^ 63 := by
  have := h.size_le; have := h.weak.cap; unfold maxInt at *; omega

theorem writeOffset_range {bpb : Nat} {view : S → Bytes} {x : Stm S} (h : Inv bpb view x) :
    0 ≤ writeOffset x ∧ writeOffset x < 2 ^ 63 := by
  unfold writeOffset
  split
  · exact ⟨h.size_nn, h.size_lt⟩
  · exact ⟨h.pos_nn, h.pos_lt⟩

theorem write_eq {b : Backend S} {bpb : Nat} {view : S → Bytes} {x : Stm S} (h : Inv bpb view x) (buf : Bytes)
    (hw : Flags.write x.flags = true) :
    write b x buf = (do
      let (x', n, e) ← implWriteAt b { x with position := writeOffset x } buf (writeOffset x)
      return ({ x' with position := i64 (x'.position + n) }, n, e)) := by
  unfold write writeOffset
  rw [hw]
  simp only [Bool.not_true, Bool.false_eq_true, if_false]
  cases ha : Flags.append x.flags with
  | false => simp only [Bool.false_eq_true, if_false]
  | true =>
    simp only [if_true]
    have hs : seek x 0 2 = ({ x with position := x.size }, x.size, none) := by
      have hi : i64 (x.size + 0) = x.size := by
        rw [Int.add_zero]; exact i64_nonneg h.size_nn h.size_lt
      unfold seek
      rw [hi]
      have : ¬ x.size < 0 := by have := h.size_nn; omega
      simp [this]
    rw [hs]

theorem write_effect {b : Backend S} {bpb : Nat} {view : S → Bytes} (L : Lawful b bpb view)
    {x : Stm S} (h : Inv bpb view x) (buf : Bytes) (hf : FitsWrite x buf.length (writeOffset x)) :
    ∃ x' n e, write b x buf = .ret (x', n, e) ∧ Inv bpb view x' ∧ x'.flags = x.flags ∧
      ((Flags.write x.flags = false ∧ x' = x ∧ n = 0 ∧ e = some .notPermitted) ∨
       (Flags.write x.flags = true ∧ x'.position = writeOffset x + n ∧
        ((n = 0 ∧ ∃ y, e = some y ∧ NotWritten b view x buf (writeOffset x).toNat x' y) ∨
         (n = buf.length ∧ Wrote b view x buf (writeOffset x).toNat x' e)))) := by
  cases hw : Flags.write x.flags with
  | false =>
    refine ⟨x, 0, _, ?_, h, rfl, .inl ⟨rfl, rfl, rfl, rfl⟩⟩
    unfold write; rw [hw]; rfl
  | true =>
    obtain ⟨w1, w2⟩ := writeOffset_range h
    obtain ⟨o, ho⟩ := Int.eq_ofNat_of_zero_le w1
    rw [write_eq h buf hw]
    rw [ho] at hf w2 ⊢
    obtain ⟨x', n, e, i1, i2, i3, i4, i5⟩ := implWriteAt_effect (x := { x with position := (o : Int) }) L
      (h.pos (by omega) w2) buf (off := o) hf
    rw [i1]
    have i4' : x'.position = o := i4
    have hn : 0 ≤ (o : Int) + n ∧ (o : Int) + n < 2 ^ 63 := by
      rcases i5 with ⟨rfl, _⟩ | ⟨rfl, i5⟩
      · omega
      · have := i5.fits
        have h2 : (o : Int) + buf.length + x.st.c.bpb ≤ (maxInt : Nat) := this
        unfold maxInt at h2; omega
    refine ⟨{ x' with position := i64 (x'.position + n) }, n, e, rfl, ?_, i3, .inr ⟨rfl, ?_, ?_⟩⟩
    · have : i64 (x'.position + n) = o + n := by rw [i4']; exact i64_nonneg hn.1 hn.2
      rw [this]
      exact i2.pos hn.1 hn.2
    · show i64 (x'.position + n) = _
      rw [i4']; exact i64_nonneg hn.1 hn.2
    · rw [Int.toNat_natCast]
      rcases i5 with ⟨rfl, y, rfl, i5⟩ | ⟨rfl, i5⟩
      · exact .inl ⟨rfl, y, rfl, i5.move⟩
      · exact .inr ⟨rfl, i5.move⟩

/-- Effect of a call that does not write: nothing that can be noticed, except possibly the
position and what is flushed. -/
structure Still (view : S → Bytes) (x x' : Stm S) : Prop where
  flags : x'.flags = x.flags
  size : x'.size = x.size
  bpb : x'.st.c.bpb = x.st.c.bpb
  total : x'.st.c.total = x.st.c.total
  contents : contents view x'.st = contents view x.st
  dirty : ∀ j, isDirty x'.st.c j = true → isDirty x.st.c j = true
  view_eq : (∀ j, j < x.st.c.total → isDirty x.st.c j = false) → view x'.st.s = view x.st.s

theorem Still.refl (view : S → Bytes) (x : Stm S) : Still view x x :=
  ⟨rfl, rfl, rfl, rfl, rfl, fun _ h => h, fun _ => rfl⟩

theorem Still.trans {view : S → Bytes} {x y z : Stm S} (a : Still view x y) (c : Still view y z) :
    Still view x z := by
  refine ⟨c.flags.trans a.flags, c.size.trans a.size, c.bpb.trans a.bpb, c.total.trans a.total,
    c.contents.trans a.contents, fun j hj => a.dirty j (c.dirty j hj), fun hc => ?_⟩
  rw [c.view_eq, a.view_eq hc]
  intro j hj
  cases hd : isDirty y.st.c j with
  | false => rfl
  | true =>
    have := a.dirty j hd
    rw [hc j (by rw [← a.total]; exact hj)] at this
    simp at this

theorem Still.file {view : S → Bytes} {x y : Stm S} (a : Still view x y) : file view y = file view x := by
  unfold Spec.file; rw [a.contents, a.size]

theorem Still.loads {view : S → Bytes} {x : Stm S} {st' : St S} (w : WLoads view x.st st') :
    Still view x { x with st := st' } :=
  ⟨rfl, rfl, w.bpb, w.total, w.contents_eq, fun j hj => by
    have : isDirty st'.c j = true := hj
    simp only [isDirty, w.dirty] at this; exact this, fun _ => w.view_eq⟩

theorem Still.synced {b : Backend S} {view : S → Bytes} {x x' : Stm S} {e : Option SErr}
    (s : Synced b view x x' e) : Still view x x' :=
  ⟨s.flags, s.size, s.bpb, s.total, s.contents, s.dirty, s.quiet⟩

theorem Still.pos {view : S → Bytes} {x x' : Stm S} (s : Still view x x') (p : Int) :
    Still view x { x' with position := p } :=
  ⟨s.flags, s.size, s.bpb, s.total, s.contents, s.dirty, s.view_eq⟩

/-- Effect of ReadAt. -/
theorem readAt_effect {b : Backend S} {bpb : Nat} {view : S → Bytes} (L : Lawful b bpb view) {x : Stm S}
    (h : Inv bpb view x) (buf : Bytes) {off : Int} (h0 : 0 ≤ off) (hf : FitsRead x buf.length) :
    ∃ x' r, readAt b x buf off = .ret (x', r) ∧ Inv bpb view x' ∧ Still view x x' ∧
      x'.position = x.position ∧ 0 ≤ r.n ∧ (r.err = none → r.n = buf.length) ∧ (r.n ≠ 0 → off + r.n ≤ x.size) := by
  rcases readAt_spec L h buf h0 hf with ⟨_, a⟩ | ⟨_, hb, a⟩ | ⟨_, _, _, a⟩ | ⟨_, _, a1, st', w, a | ⟨j, be, _, a⟩⟩
  · exact ⟨_, _, a, h, .refl _ _, rfl, Int.le_refl _, by simp, by simp⟩
  · exact ⟨_, _, a, h, .refl _ _, rfl, Int.le_refl _, by rw [hb]; simp, by simp⟩
  · exact ⟨_, _, a, h, .refl _ _, rfl, Int.le_refl _, by simp, by simp⟩
  · refine ⟨_, _, a, h.loads w, .loads w, rfl, Int.natCast_nonneg _, ?_, ?_⟩
    · simp only
      have : avail x buf.length off ≤ buf.length := by unfold avail; omega
      split <;> simp; omega
    · intro _; simp only; unfold avail; omega
  · exact ⟨_, _, a, h.loads w, .loads w, rfl, Int.le_refl _, by simp, by simp⟩

theorem read_effect {b : Backend S} {bpb : Nat} {view : S → Bytes} (L : Lawful b bpb view) {x : Stm S}
    (h : Inv bpb view x) (buf : Bytes) (hf : FitsRead x buf.length) :
    ∃ x1 x' r, readAt b x buf x.position = .ret (x1, r) ∧ read b x buf = .ret (x', r) ∧
      Inv bpb view x' ∧ Still view x x' ∧
      x' = { x1 with position := if r.err = none then x.position + r.n else x.position } := by
  obtain ⟨x1, r, a1, a2, a3, a4, a5, a6, a7⟩ := readAt_effect L h buf h.pos_nn hf
  refine ⟨x1, if r.err = none then { x1 with position := x.position + r.n } else x1, r, a1, ?_, ?_, ?_, ?_⟩
  · unfold read
    rw [a1]
    simp only [Outcome.bind_ret]
    cases he : r.err with
    | some e => simp
    | none =>
      simp only [if_true, Outcome.pure_eq]
      have hlt := h.size_lt
      have h1 := h.pos_nn
      have h2 := h.pos_lt
      have : i64 (x1.position + r.n) = x.position + r.n := by
        rw [a4]
        by_cases hn : r.n = 0
        · rw [hn, Int.add_zero]; exact i64_nonneg h1 h2
        · exact i64_nonneg (by omega) (by have := a7 hn; omega)
      rw [this]
  · cases he : r.err with
    | some e => simp; exact a2
    | none =>
      simp only [if_true]
      refine a2.pos (by have := h.pos_nn; omega) ?_
      by_cases hn : r.n = 0
      · rw [hn, Int.add_zero]; exact h.pos_lt
      · have := a7 hn; have := h.size_lt; omega
  · cases he : r.err with
    | some e => simp; exact a3
    | none => simp only [if_true]; exact a3.pos _
  · cases he : r.err with
    | some e => simp [← a4]
    | none => simp

end Disko.Stream

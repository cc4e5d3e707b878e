import Verif.BlockCache.Props
import Verif.Stream.Frame
/-! C159: a program that repeats every failed call until it succeeds ends, when the storage fails only finitely often. -/
namespace Disko.BlockCache
open Disko Disko.BlockCache.Spec

variable {S : Type}

namespace Spec

/-- Storage in state `s` has at most `patience s` failures left: a fetch or a flush that fails uses one of them up, nothing adds to them.
(The contract of the callbacks: blockcache.go:19-50.) -/
structure FailsAtMost (b : Backend S) (patience : S → Nat) : Prop where
  fetch : ∀ s i buf, patience (b.fetch s i buf).1 ≤ patience s
  fetch_fail : ∀ s i buf, (b.fetch s i buf).2.2 ≠ none → patience (b.fetch s i buf).1 < patience s
  flush : ∀ s i buf, patience (b.flush s i buf).1 ≤ patience s
  flush_fail : ∀ s i buf, (b.flush s i buf).2 ≠ none → patience (b.flush s i buf).1 < patience s

/-- The same for the resize callback (not asked of a storage whose cache is not resized: a missing callback always fails, blockcache.go:84-94). -/
structure ResizesFailAtMost (b : Backend S) (patience : S → Nat) : Prop where
  resize : ∀ s n, patience (b.resize s n).1 ≤ patience s
  resize_fail : ∀ s n, (b.resize s n).2 ≠ none → patience (b.resize s n).1 < patience s

/-- The operation asks for a range of bytes inside an object of `t` blocks. -/
def Within (bpb t : Nat) : Op → Prop
  | .read buf start => start < t ∧ start * bpb + buf.length ≤ t * bpb
  | .write buf start => start < t ∧ start * bpb + buf.length ≤ t * bpb
  | .getSlice start count => start < t ∧ start + count ≤ t
  | .edit start count _ _ => start < t ∧ start + count ≤ t
  | .resize _ => True
  | .flush => 0 < t
  | .loadAll => 0 < t
  | .data => 0 < t

/-- The operations are inside the object, whose size changes only with Resize. -/
def FitsIn (bpb : Nat) : Nat → List Op → Prop
  | _, [] => True
  | t, .resize n :: ops => FitsIn bpb n ops
  | t, op :: ops => Within bpb t op ∧ FitsIn bpb t ops

/-- A program that performs each of the operations until it succeeds: it leads from the first state to the second, the successful calls answer
`rs`, and it needs `k` calls that fail. -/
inductive Persistent (b : Backend S) : St S → List Op → St S → List Result → Nat → Prop where
  | done (st) : Persistent b st [] st [] 0
  | again {st st1 st' op ops r rs k} : step b st op = .ret (st1, r) → r.err? ≠ none → Persistent b st1 (op :: ops) st' rs k →
      Persistent b st (op :: ops) st' rs (k + 1)
  | next {st st1 st' op ops r rs k} : step b st op = .ret (st1, r) → r.err? = none → Persistent b st1 ops st' rs k →
      Persistent b st (op :: ops) st' (r :: rs) k

end Spec

/-! ### Preliminaries (not claims) -/

/-- What a call has done to the failures left: none if it succeeded or did not ask the storage, else at least one. -/
def Spent (p p' : Nat) (e : Option Err) : Prop := p' ≤ p ∧ ∀ x, e = some x → x ≠ .argumentOutOfRange → p' < p

theorem Spent.none {p p' : Nat} (h : p' ≤ p) : Spent p p' none := ⟨h, by simp⟩
theorem Spent.range {p p' : Nat} (h : p' ≤ p) : Spent p p' (some .argumentOutOfRange) := ⟨h, by simp⟩
theorem Spent.some {p p' : Nat} {e : Option Err} (h : p' < p) : Spent p p' e := ⟨Nat.le_of_lt h, fun _ _ _ => h⟩
theorem Spent.after {p p1 p2 : Nat} {e : Option Err} (h : p1 ≤ p) (h2 : Spent p1 p2 e) : Spent p p2 e :=
  ⟨Nat.le_trans h2.1 h, fun x hx hn => Nat.lt_of_lt_of_le (h2.2 x hx hn) h⟩

/-- The error of an answer. -/
def errOf {α : Type} : Except Err α → Option Err
  | .error e => some e
  | .ok _ => none

/-- CheckBounds reports nothing but ErrArgumentOutOfRange. -/
theorem checkBounds_err (c : Cache) (i n : Nat) : (c.checkBounds i n).All fun r => ∀ e, r = some e → e = .argumentOutOfRange := by
  unfold Cache.checkBounds
  refine (Outcome.All.any _).bind fun n _ => .ite (fun _ => .ret ?_) fun _ => .ite (fun _ => .ret ?_) fun _ => .ret ?_
  · intro e h; cases h; rfl
  · intro e h; cases h; rfl
  · intro e h; cases h

section
variable {b : Backend S} {p : S → Nat} (F : FailsAtMost b p)
include F

theorem loadLoop_spent : ∀ (n i : Nat) (st : St S), (loadLoop b n i st).All fun r => Spent (p st.s) (p r.1.s) r.2
  | 0, i, st => by rw [loadLoop]; exact .ret (.none (Nat.le_refl _))
  | n + 1, i, st => by
    rw [loadLoop]
    refine (Outcome.All.any (bitGet st.c.loaded i)).bind fun l hl => ?_
    refine .ite (fun _ => loadLoop_spent n (i + 1) st) fun _ => ?_
    refine .ite (fun hb => ?_) fun _ => .panic
    have h1 := F.fetch st.s i (slice st.c.data (u64 (i * st.c.bpb)) (u64 (u64 (i * st.c.bpb) + st.c.bpb) - u64 (i * st.c.bpb)))
    have h2 := F.fetch_fail st.s i (slice st.c.data (u64 (i * st.c.bpb)) (u64 (u64 (i * st.c.bpb) + st.c.bpb) - u64 (i * st.c.bpb)))
    simp only
    rcases hfe : b.fetch st.s i (slice st.c.data (u64 (i * st.c.bpb)) (u64 (u64 (i * st.c.bpb) + st.c.bpb) - u64 (i * st.c.bpb))) with ⟨s1, buf1, e1⟩
    rw [hfe] at h1 h2
    cases e1 with
    | some e1 => exact .ret (.some (h2 (by simp)))
    | none =>
      simp only
      exact (Outcome.All.any (bitSet st.c.loaded i true)).bind fun l' _ => (Outcome.All.any (bitSet st.c.dirty i false)).bind fun d' _ =>
        (loadLoop_spent n (i + 1) _).imp fun r hr => .after h1 hr

theorem load_spent (st : St S) (i n : Nat) : (loadBlockRange b st i n).All fun r => Spent (p st.s) (p r.1.s) r.2 := by
  unfold loadBlockRange
  refine (checkBounds_err _ _ _).bind fun c hc => ?_
  cases c with
  | some c => rw [hc c rfl]; exact .ret (.range (Nat.le_refl _))
  | none => exact loadLoop_spent F _ _ st

theorem getSlice_spent (st : St S) (i n : Nat) : (getSlice b st i n).All fun r => Spent (p st.s) (p r.1.s) (errOf r.2) := by
  unfold getSlice
  refine (load_spent F st i n).bind fun r hr => ?_
  rcases r with ⟨st', _ | e⟩
  · exact .ite (fun _ => .ret hr) fun _ => .panic
  · exact .ret hr

theorem flushLoop_spent : ∀ (n i : Nat) (st : St S), (flushLoop b n i st).All fun r => Spent (p st.s) (p r.1.s) r.2
  | 0, i, st => by rw [flushLoop]; exact .ret (.none (Nat.le_refl _))
  | n + 1, i, st => by
    rw [flushLoop]
    refine (Outcome.All.any _).bind fun d _ => .ite (fun _ => flushLoop_spent n (i + 1) st) fun _ => ?_
    refine (getSlice_spent F st i 1).bind fun r hr => ?_
    rcases r with ⟨st', e | w⟩
    · exact .ret hr
    · simp only
      have h1 := F.flush st'.s i (st'.c.peek w)
      have h2 := F.flush_fail st'.s i (st'.c.peek w)
      rcases hfe : b.flush st'.s i (st'.c.peek w) with ⟨s1, _ | e⟩
      · rw [hfe] at h1
        exact (Outcome.All.any _).bind fun d' _ => (flushLoop_spent n (i + 1) _).imp fun r2 hr2 => .after (Nat.le_trans h1 hr.1) hr2
      · rw [hfe] at h2
        exact .ret (.some (Nat.lt_of_lt_of_le (h2 (by simp)) hr.1))

theorem flush_spent (st : St S) : (flush b st).All fun r => Spent (p st.s) (p r.1.s) (errOf r.2) := by
  unfold flush flushBlockRange
  refine Outcome.All.bind (P := fun r => Spent (p st.s) (p r.1.s) r.2) ?_ fun r hr => ?_
  · refine (checkBounds_err _ _ _).bind fun c hc => ?_
    cases c with
    | some c => rw [hc c rfl]; exact .ret (.range (Nat.le_refl _))
    | none => exact flushLoop_spent F _ _ st
  · rcases r with ⟨st', _ | e⟩ <;> exact .ret hr

theorem loadAll_spent (st : St S) : (loadAll b st).All fun r => Spent (p st.s) (p r.1.s) (errOf r.2) := by
  unfold loadAll
  refine (load_spent F st _ _).bind fun r h => ?_
  rcases r with ⟨st', _ | e⟩ <;> exact .ret h

theorem step_spent (st : St S) (op : Op) (hr : (∃ n, op = .resize n) → ResizesFailAtMost b p) :
    (step b st op).All fun r => Spent (p st.s) (p r.1.s) r.2.err? := by
  cases op with
  | read buf start =>
    refine Outcome.All.bind (P := fun r => Spent (p st.s) (p r.1.s) (errOf r.2)) ?_ fun r h => .ret ?_
    · unfold readAt
      refine (checkBounds_err _ _ _).bind fun c hc => ?_
      cases c with
      | some c => rw [hc c rfl]; exact .ret (.range (Nat.le_refl _))
      | none =>
        refine (Outcome.All.any _).bind fun n _ => (load_spent F st _ _).bind fun r h => ?_
        rcases r with ⟨st', _ | e⟩
        · refine (getSlice_spent F st' _ _).bind fun r h2 => ?_
          rcases r with ⟨st'', e | w⟩ <;> exact .ret (.after h.1 h2)
        · exact .ret h
    · rcases r with ⟨_, _ | _⟩ <;> exact h
  | write buf start =>
    refine Outcome.All.bind (P := fun r => Spent (p st.s) (p r.1.s) (errOf r.2)) ?_ fun r h => .ret ?_
    · unfold writeAt
      refine (checkBounds_err _ _ _).bind fun c hc => ?_
      cases c with
      | some c => rw [hc c rfl]; exact .ret (.range (Nat.le_refl _))
      | none =>
        refine (Outcome.All.any _).bind fun n _ => (getSlice_spent F st _ _).bind fun r h => ?_
        rcases r with ⟨st', e | w⟩
        · exact .ret h
        · exact (Outcome.All.any _).bind fun c _ => .ret h
    · rcases r with ⟨_, _ | _⟩ <;> exact h
  | resize n =>
    have R := hr ⟨n, rfl⟩
    refine Outcome.All.bind (P := fun r => Spent (p st.s) (p r.1.s) (errOf r.2)) ?_ fun r h => .ret ?_
    · unfold resize
      have h1 := R.resize st.s n
      have h2 := R.resize_fail st.s n
      rcases hfe : b.resize st.s n with ⟨s1, _ | e⟩
      · rw [hfe] at h1
        exact .ite (fun _ => (Outcome.All.any _).bind fun c _ => .ret (.none h1)) fun _ => .panic
      · rw [hfe] at h2
        exact .ret (.some (h2 (by simp)))
    · rcases r with ⟨_, _ | _⟩ <;> exact h
  | flush =>
    refine (flush_spent F st).bind fun r h => .ret ?_
    rcases r with ⟨_, _ | _⟩ <;> exact h
  | loadAll =>
    refine (loadAll_spent F st).bind fun r h => .ret ?_
    rcases r with ⟨_, _ | _⟩ <;> exact h
  | data =>
    refine Outcome.All.bind (P := fun r => Spent (p st.s) (p r.1.s) (errOf r.2)) ?_ fun r h => .ret ?_
    · unfold data
      refine (loadAll_spent F st).bind fun r h => ?_
      rcases r with ⟨st', e | _⟩ <;> exact .ret h
    · rcases r with ⟨_, _ | _⟩ <;> exact h
  | getSlice start count =>
    refine (getSlice_spent F st _ _).bind fun r h => .ret ?_
    rcases r with ⟨_, _ | _⟩ <;> exact h
  | edit start count at_ v =>
    refine (getSlice_spent F st _ _).bind fun r h => ?_
    rcases r with ⟨st', e | w⟩
    · exact .ret h
    · refine Outcome.All.bind (P := fun r => Spent (p st.s) (p r.1.s) (errOf r.2)) ?_ fun r h => .ret ?_
      · unfold markBlockRangeDirty
        refine (checkBounds_err _ _ _).bind fun c hc => ?_
        cases c with
        | some c => rw [hc c rfl]; exact .ret (.range h.1)
        | none => exact (Outcome.All.any _).bind fun c _ => .ret (.none h.1)
      · rcases r with ⟨_, _ | _⟩ <;> exact h

omit F in
/-- An operation inside the object does not fail with ErrArgumentOutOfRange. -/
theorem within_err {bpb t : Nat} (hb : 0 < bpb) {op : Op} (hop : ∀ n, op ≠ .resize n) (hw : Within bpb t op) : ¬ Justified b bpb (t * bpb) op .argumentOutOfRange := by
  have lt : ∀ s, s < t → s * bpb < t * bpb := fun s h => Nat.mul_lt_mul_of_pos_right h hb
  have le : ∀ s n, s + n ≤ t → s * bpb + n * bpb ≤ t * bpb := fun s n h => by
    rw [← Nat.add_mul]; exact Nat.mul_le_mul_right _ h
  intro h
  cases op with
  | read buf start => exact h ⟨lt _ hw.1, hw.2⟩
  | write buf start => exact h ⟨lt _ hw.1, hw.2⟩
  | getSlice start count => exact h ⟨lt _ hw.1, le _ _ hw.2⟩
  | edit start count at_ v => exact h ⟨lt _ hw.1, le _ _ hw.2⟩
  | resize n => exact absurd rfl (hop n)
  | flush => exact absurd h (Nat.ne_of_gt (Nat.mul_pos hw hb))
  | loadAll => exact absurd h (Nat.ne_of_gt (Nat.mul_pos hw hb))
  | data => exact absurd h (Nat.ne_of_gt (Nat.mul_pos hw hb))

omit F in
/-- Resize fails with the error of its callback only. -/
theorem resize_err (st : St S) (n : Nat) : (step b st (.resize n)).All fun r => r.2.err? ≠ some .argumentOutOfRange := by
  refine Outcome.All.bind (P := fun r => errOf r.2 ≠ some .argumentOutOfRange) ?_ fun r h => .ret ?_
  · unfold resize
    rcases hfe : b.resize st.s n with ⟨s1, _ | e⟩
    · exact .ite (fun _ => (Outcome.All.any _).bind fun c _ => .ret (by simp [errOf])) fun _ => .panic
    · exact .ret (by simp [errOf])
  · rcases r with ⟨_, _ | _⟩ <;> exact h

omit F in
/-- A call that fails leaves the object as it was. -/
theorem conforms_failed {bpb : Nat} {op : Op} {r : Result} {a a' : Bytes} (h : Conforms bpb op r a a') (he : r.err? ≠ none) : a' = a := by
  cases op <;> rcases r with (r | r | r | r) <;> rcases r with (e | v) <;>
    first
    | exact h.elim
    | exact h
    | exact absurd rfl he

omit F in
theorem nextTotal_failed {t : Nat} {op : Op} {r : Result} (he : r.err? ≠ none) : nextTotal t op r = t := by
  cases op <;> rcases r with (r | r | r | r) <;> rcases r with (e | v) <;>
    first
    | rfl
    | exact absurd rfl he

omit F in
theorem fits_cons {bpb t : Nat} {op : Op} {ops : List Op} {r : Result} {a a' : Bytes} (h : FitsIn bpb t (op :: ops)) (hc : Conforms bpb op r a a') (he : r.err? = none) :
    FitsIn bpb (nextTotal t op r) ops := by
  cases op with
  | resize n =>
    rcases r with (r | r | r | r) <;> rcases r with (e | v) <;> first | exact hc.elim | (cases he; done) | exact h
  | _ => exact h.2

omit F in
theorem fits_within {bpb t : Nat} {op : Op} {ops : List Op} (h : FitsIn bpb t (op :: ops)) : Within bpb t op := by
  cases op with
  | resize n => trivial
  | _ => exact h.1

theorem persistent_run {bpb : Nat} {view : S → Bytes} (L : Lawful b bpb view) : ∀ (ops : List Op), ((∃ n, .resize n ∈ ops) → ResizesFailAtMost b p) →
    (∀ op ∈ ops, Valid bpb op) → ∀ (m : Nat) (st : St S), p st.s ≤ m → WF view st → st.c.bpb = bpb → FitsIn bpb st.c.total ops →
    ∃ st' rs k, Persistent b st ops st' rs k ∧ k + p st'.s ≤ p st.s ∧ (∀ r ∈ rs, r.err? = none) ∧ WF view st' ∧ st'.c.bpb = bpb ∧
      ConformsAll bpb ops rs (contents view st) (contents view st')
  | [], _, _, _, st, _, w, hb, _ => ⟨st, [], 0, .done st, by omega, by simp, w, hb, rfl⟩
  | op :: ops, hr, hv, m, st, hm, w, hb, hfit => by
    obtain ⟨st1, r, h1, s1⟩ := step_spec L st w hb op (hv op (by simp))
    have hsp := step_spent F st op (fun ⟨n, hn⟩ => hr ⟨n, by simp [hn]⟩) _ h1
    simp only at hsp
    by_cases he : r.err? = none
    · obtain ⟨st', rs, k, g1, g2, g3, g4, g5, g6⟩ := persistent_run L ops (fun ⟨n, hn⟩ => hr ⟨n, by simp [hn]⟩) (fun o ho => hv o (by simp [ho]))
        (p st1.s) st1 (Nat.le_refl _) s1.wf (s1.bpb.trans hb) (by
          rw [s1.total]
          exact fits_cons hfit (by rw [← hb]; exact s1.conf) he)
      refine ⟨st', r :: rs, k, .next h1 he g1, by have := hsp.1; omega, ?_, g4, g5, _, by rw [← hb]; exact s1.conf, g6⟩
      intro x hx
      rcases List.mem_cons.1 hx with rfl | hx
      · exact he
      · exact g3 x hx
    · obtain ⟨e, hee⟩ : ∃ e, r.err? = some e := by
        cases hh : r.err? with
        | none => exact absurd hh he
        | some e => exact ⟨e, rfl⟩
      have hne : e ≠ .argumentOutOfRange := by
        rintro rfl
        by_cases hop : ∃ n, op = .resize n
        · obtain ⟨n, rfl⟩ := hop
          exact resize_err st n _ h1 hee
        · have := s1.errs _ hee
          rw [hb] at this
          exact within_err (by rw [← hb]; exact w.bpb_pos) (fun n hn => hop ⟨n, hn⟩) (fits_within hfit) this
      have hlt := hsp.2 e hee hne
      have hct := conforms_failed s1.conf he
      have htt : st1.c.total = st.c.total := s1.total.trans (nextTotal_failed he)
      match m, hm with
      | 0, hm => omega
      | m + 1, hm =>
        obtain ⟨st', rs, k, g1, g2, g3, g4, g5, g6⟩ := persistent_run L (op :: ops) hr hv m st1 (by omega) s1.wf (s1.bpb.trans hb) (by rw [htt]; exact hfit)
        exact ⟨st', rs, k + 1, .again h1 he g1, by omega, g3, g4, g5, by rw [← hct]; exact g6⟩
  termination_by ops _ _ m => (ops.length, m)

omit F in
theorem persistent_clean {bpb : Nat} {view : S → Bytes} (L : Lawful b bpb view) {ops : List Op} {st st' : St S} {rs : List Result} {k : Nat}
    (h : Persistent b st (ops ++ [.flush]) st' rs k) (w : WF view st) (hb : st.c.bpb = bpb) (hv : ∀ op ∈ ops, Valid bpb op) :
    ∀ j, j < st'.c.total → isDirty st'.c j = false := by
  generalize hall : ops ++ [.flush] = all at h
  induction h generalizing ops with
  | done st => simp at hall
  | @again st st1 st' op os r rs k h1 he hp ih =>
    have hvo : Valid bpb op := by
      cases ops with
      | nil => simp only [List.nil_append, List.cons.injEq] at hall; rw [← hall.1]; trivial
      | cons o ops => simp only [List.cons_append, List.cons.injEq] at hall; rw [← hall.1]; exact hv o (by simp)
    obtain ⟨st2, r2, e1, s1⟩ := step_spec L st w hb op hvo
    rw [h1] at e1
    simp only [Outcome.ret.injEq, Prod.mk.injEq] at e1
    obtain ⟨rfl, rfl⟩ := e1
    exact ih s1.wf (s1.bpb.trans hb) hv hall
  | @next st st1 st' op os r rs k h1 he hp ih =>
    cases ops with
    | nil =>
      simp only [List.nil_append, List.cons.injEq] at hall
      obtain ⟨rfl, rfl⟩ := hall
      cases hp
      simp only [step] at h1
      cases hfl : flush b st with
      | panic => rw [hfl] at h1; simp at h1
      | timeout => rw [hfl] at h1; simp at h1
      | ret x =>
        obtain ⟨x1, x2⟩ := x
        rw [hfl] at h1
        simp only [Outcome.bind_ret] at h1
        cases h1
        cases x2 with
        | error e => cases he
        | ok u =>
          obtain ⟨_, t3, _, _, d3⟩ := flush_ok_spec L w hb hfl
          intro j hj
          exact d3 j (by omega)
    | cons o ops =>
      simp only [List.cons_append, List.cons.injEq] at hall
      obtain ⟨rfl, hall⟩ := hall
      obtain ⟨st2, r2, e1, s1⟩ := step_spec L st w hb o (hv o (by simp))
      rw [h1] at e1
      simp only [Outcome.ret.injEq, Prod.mk.injEq] at e1
      obtain ⟨rfl, rfl⟩ := e1
      exact ih s1.wf (s1.bpb.trans hb) (fun q hq => hv q (by simp [hq])) hall

omit F in
theorem persistent_unique {ops : List Op} {st st1 st2 : St S} {rs1 rs2 : List Result} {k1 k2 : Nat} (h1 : Persistent b st ops st1 rs1 k1)
    (h2 : Persistent b st ops st2 rs2 k2) : st1 = st2 ∧ rs1 = rs2 ∧ k1 = k2 := by
  induction h1 generalizing st2 rs2 k2 with
  | done st => cases h2; exact ⟨rfl, rfl, rfl⟩
  | again a1 a2 _ ih =>
    cases h2 with
    | again b1 b2 b3 =>
      rw [a1] at b1
      simp only [Outcome.ret.injEq, Prod.mk.injEq] at b1
      obtain ⟨rfl, rfl⟩ := b1
      obtain ⟨e1, e2, e3⟩ := ih b3
      exact ⟨e1, e2, by omega⟩
    | next b1 b2 b3 =>
      rw [a1] at b1
      simp only [Outcome.ret.injEq, Prod.mk.injEq] at b1
      obtain ⟨rfl, rfl⟩ := b1
      exact absurd b2 a2
  | next a1 a2 _ ih =>
    cases h2 with
    | again b1 b2 b3 =>
      rw [a1] at b1
      simp only [Outcome.ret.injEq, Prod.mk.injEq] at b1
      obtain ⟨rfl, rfl⟩ := b1
      exact absurd a2 b2
    | next b1 b2 b3 =>
      rw [a1] at b1
      simp only [Outcome.ret.injEq, Prod.mk.injEq] at b1
      obtain ⟨rfl, rfl⟩ := b1
      obtain ⟨rfl, rfl, rfl⟩ := ih b3
      exact ⟨rfl, rfl, rfl⟩

end

/-! ### C159 -/

/-- **C159**: on storage whose callbacks fail finitely often, whenever they do so, the program that repeats every failed call ends, with at most as
many failed calls as the storage has failures; all its calls answer like a flat array; nothing else can happen. -/
theorem C159_ends {b : Backend S} {bpb total : Nat} {view : S → Bytes} {s0 : S} (H : Setup b bpb total view s0) {patience : S → Nat}
    (F : FailsAtMost b patience) {c : Cache} (hn : new bpb total = .ret c) (ops : List Op) (hr : (∃ n, .resize n ∈ ops) → ResizesFailAtMost b patience)
    (hv : ∀ op ∈ ops, Valid bpb op) (hf : FitsIn bpb total ops) :
    ∃ st rs k a, Persistent b ⟨c, s0⟩ ops st rs k ∧ k ≤ patience s0 ∧ (∀ r ∈ rs, r.err? = none) ∧
      ConformsAll bpb ops rs ((view s0).take (total * bpb)) a ∧
      ∀ st' rs' k', Persistent b ⟨c, s0⟩ ops st' rs' k' → st' = st ∧ rs' = rs ∧ k' = k := by
  obtain ⟨c', hn', w, hb, ht, _, _, hc⟩ := new_spec H.bpb_pos H.cap view s0 H.store
  rw [hn] at hn'; cases hn'
  obtain ⟨st, rs, k, g1, g2, g3, g4, g5, g6⟩ := persistent_run F H.lawful ops hr hv _ _ (Nat.le_refl _) w hb (by rw [ht]; exact hf)
  rw [hc] at g6
  exact ⟨st, rs, k, _, g1, by simp only at g2; omega, g3, g6, fun _ _ _ h => persistent_unique h g1⟩

/-- **C159**: and if the program ends with Flush, the storage holds exactly that array in the end. -/
theorem C159_durable {b : Backend S} {bpb total : Nat} {view : S → Bytes} {s0 : S} (H : Setup b bpb total view s0) {patience : S → Nat}
    (F : FailsAtMost b patience) {c : Cache} (hn : new bpb total = .ret c) (ops : List Op) (hr : (∃ n, .resize n ∈ ops) → ResizesFailAtMost b patience)
    (hv : ∀ op ∈ ops, Valid bpb op) (hf : FitsIn bpb total (ops ++ [.flush])) :
    ∃ st rs k a, Persistent b ⟨c, s0⟩ (ops ++ [.flush]) st rs k ∧ k ≤ patience s0 ∧
      ConformsAll bpb (ops ++ [.flush]) rs ((view s0).take (total * bpb)) a ∧ (view st.s).take a.length = a ∧ a.length = st.c.totalBlocks * bpb := by
  obtain ⟨c', hn', w, hb, ht, _, _, hc⟩ := new_spec H.bpb_pos H.cap view s0 H.store
  rw [hn] at hn'; cases hn'
  obtain ⟨st, rs, k, g1, g2, g3, g4, g5, g6⟩ := persistent_run F H.lawful (ops ++ [.flush])
    (fun ⟨n, hm⟩ => hr ⟨n, by simpa using hm⟩) (fun o ho => by
      rcases List.mem_append.1 ho with h | h
      · exact hv o h
      · rw [List.mem_singleton.1 h]; trivial) _ _ (Nat.le_refl _) w hb (by rw [ht]; exact hf)
  rw [hc] at g6
  have hcl := contents_of_clean g4 (persistent_clean H.lawful g1 w hb hv)
  have hlen : (contents view st).length = st.c.totalBlocks * bpb := by rw [length_contents, g5, Cache.totalBlocks]
  refine ⟨st, rs, k, _, g1, by simp only at g2; omega, g6, ?_, hlen⟩
  rw [hlen, ← hcl, Cache.totalBlocks, g5]

/-! Non-vacuity: the example storage has as many failures left as its script has faults. -/

/-- The number of faults in a script. -/
def faultsLeft (s : Bytes × List Bool) : Nat := (s.2.filter (fun x => x)).length

theorem mem_fails {bpb : Nat} : FailsAtMost (mem bpb) faultsLeft := by
  have h : ∀ l : List Bool, (l.tail.filter (fun x => x)).length + (if l.headD false = true then 1 else 0) = (l.filter (fun x => x)).length := by
    intro l
    cases l with
    | nil => rfl
    | cons x l => cases x <;> simp
  refine ⟨?_, ?_, ?_, ?_⟩ <;> intro s i buf <;> have := h s.2 <;> unfold faultsLeft <;> simp only [mem] <;> split <;> rename_i hh
  all_goals first | (rw [if_pos hh] at this; simp only; omega) | (rw [if_neg hh] at this; simp only; omega) | (intro hc; exact absurd rfl hc) |
    (intro _; rw [if_pos hh] at this; simp only; omega)

theorem mem_resizes {bpb : Nat} : ResizesFailAtMost (mem bpb) faultsLeft :=
  ⟨fun _ _ => Nat.le_refl _, fun _ _ h => absurd rfl h⟩

/-- Three faults; the read and the edit are repeated once each, the flush too: three calls fail. -/
example : ∃ st rs k a, Persistent (mem 2) ⟨exampleCache, ([1, 2, 3, 4, 5, 6, 7, 8], [true, false, false, true, false, true])⟩
      ([.read [0, 0, 0] 1, .write [9, 9] 0, .resize 4, .edit 2 2 1 [7, 7]] ++ [.flush]) st rs k ∧ k ≤ 3 ∧
    ConformsAll 2 ([.read [0, 0, 0] 1, .write [9, 9] 0, .resize 4, .edit 2 2 1 [7, 7]] ++ [.flush]) rs [1, 2, 3, 4, 5, 6] a ∧
    st.s.1.take a.length = a ∧ a.length = st.c.totalBlocks * 2 :=
  C159_durable (setup_mem _) mem_fails (by decide +kernel) _ (fun _ => mem_resizes) (by simp [Valid, maxInt]) (by simp [FitsIn, Within])

/-- The first of those calls does fail, so that it is repeated. -/
example : ((step (mem 2) ⟨exampleCache, ([1, 2, 3, 4, 5, 6, 7, 8], [true, false, false, true, false, true])⟩ (.read [0, 0, 0] 1)).bind fun r => .ret r.2.err?) =
    .ret (some (.fetchFailed 1 (.other 1))) := by decide +kernel

end Disko.BlockCache

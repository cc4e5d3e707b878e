import Verif.Testing.Model
import Verif.BlockCache.Props2
import Verif.Stream.Sim
/-! Caches on storages that cannot be told apart, and what the fixture's callbacks do (for C129). -/
namespace Disko
open BlockCache BlockCache.Spec

namespace Alike
variable {S T : Type} {b : Backend S} {b' : Backend T} {E : S → T → Prop} (A : Alike b b' E)
include A

theorem loadAll {x : St S} {y : St T} (h : StRel E x y) : (BlockCache.loadAll b x).Rel (ResRel E) (BlockCache.loadAll b' y) := by
  unfold BlockCache.loadAll
  rw [h.1]
  refine (A.loadBlockRange _ _ h).bind fun r r' hr => ?_
  rcases r with ⟨x1, e⟩
  rcases r' with ⟨y1, e'⟩
  obtain ⟨h1, h2⟩ := hr
  simp only at h1 h2
  subst h2
  rcases e' with _ | e <;> exact .ret ⟨h1, rfl⟩

theorem step (op : Op) {x : St S} {y : St T} (h : StRel E x y) : (Spec.step b x op).Rel (ResRel E) (Spec.step b' y op) := by
  cases op with
  | read buf start =>
    refine Outcome.Rel.bind (P := ResRel E) ?_ fun r r' hr => .ret ⟨hr.1, by rw [hr.2]⟩
    unfold BlockCache.readAt
    rw [h.1]
    refine .bindSame fun o => ?_
    rcases o with _ | e
    · refine .bindSame fun n => (A.loadBlockRange _ _ h).bind fun r r' hr => ?_
      rcases r with ⟨x1, e⟩
      rcases r' with ⟨y1, e'⟩
      obtain ⟨h1, h2⟩ := hr
      simp only at h1 h2
      subst h2
      rcases e' with _ | e
      · refine (A.getSlice _ _ h1).bind fun r r' hr => ?_
        rcases r with ⟨x2, e⟩
        rcases r' with ⟨y2, e'⟩
        obtain ⟨h3, h4⟩ := hr
        simp only at h3 h4
        subst h4
        rcases e' with e | w
        · exact .ret ⟨h3, rfl⟩
        · exact .ret ⟨h3, by simp only [h3.1]⟩
      · exact .ret ⟨h1, rfl⟩
    · exact .ret ⟨h, rfl⟩
  | write buf start =>
    refine Outcome.Rel.bind (P := ResRel E) ?_ fun r r' hr => .ret ⟨hr.1, by rw [hr.2]⟩
    unfold BlockCache.writeAt
    rw [h.1]
    refine .bindSame fun o => ?_
    rcases o with _ | e
    · refine .bindSame fun n => (A.getSlice _ _ h).bind fun r r' hr => ?_
      rcases r with ⟨x2, e⟩
      rcases r' with ⟨y2, e'⟩
      obtain ⟨h3, h4⟩ := hr
      simp only at h3 h4
      subst h4
      rcases e' with e | w
      · exact .ret ⟨h3, rfl⟩
      · simp only [h3.1]
        exact .bindSame fun c2 => .ret ⟨⟨rfl, h3.2⟩, rfl⟩
    · exact .ret ⟨h, rfl⟩
  | resize n => exact (A.resize' n h).bind fun r r' hr => .ret ⟨hr.1, by rw [hr.2]⟩
  | flush => exact (A.flush' h).bind fun r r' hr => .ret ⟨hr.1, by rw [hr.2]⟩
  | loadAll => exact (A.loadAll h).bind fun r r' hr => .ret ⟨hr.1, by rw [hr.2]⟩
  | data =>
    refine Outcome.Rel.bind (P := ResRel E) ?_ fun r r' hr => .ret ⟨hr.1, by rw [hr.2, hr.1.1]⟩
    unfold BlockCache.data
    refine (A.loadAll h).bind fun r r' hr => ?_
    rcases r with ⟨x1, e⟩
    rcases r' with ⟨y1, e'⟩
    obtain ⟨h1, h2⟩ := hr
    simp only at h1 h2
    subst h2
    rcases e' with e | _
    · exact .ret ⟨h1, rfl⟩
    · exact .ret ⟨h1, by simp only [h1.1]⟩
  | getSlice start count => exact (A.getSlice start count h).bind fun r r' hr => .ret ⟨hr.1, by rw [hr.2, hr.1.1]⟩
  | edit start count at_ v =>
    refine (A.getSlice start count h).bind fun r r' hr => ?_
    rcases r with ⟨x1, e⟩
    rcases r' with ⟨y1, e'⟩
    obtain ⟨h1, h2⟩ := hr
    simp only at h1 h2
    subst h2
    rcases e' with e | w
    · exact .ret ⟨h1, rfl⟩
    · refine Outcome.Rel.bind (P := ResRel E) ?_ fun r r' hr => .ret ⟨hr.1, by rw [hr.2]⟩
      unfold markBlockRangeDirty
      simp only [h1.1]
      refine .bindSame fun o => ?_
      rcases o with _ | e
      · exact .bindSame fun c' => .ret ⟨⟨rfl, h1.2⟩, rfl⟩
      · exact .ret ⟨⟨rfl, h1.2⟩, rfl⟩

end Alike
end Disko

namespace Disko.Testing
open Disko BlockCache BlockCache.Spec

/-- What the callbacks complain about when they are called. -/
def complain (total : Nat) (writable : Bool) : Event → Option Complaint
  | .fetch j _ _ => if j ≥ total then some (.readOutside j) else none
  | .flush j buf _ => if writable then (if j ≥ total then some (.writeOutside j) else none) else some (.writeToReadOnly buf.length j)
  | .resize _ _ => none

/-- The complaints are those about the calls. -/
theorem alike (bpb total : Nat) (writable : Bool) (l0 : List Complaint) :
    Alike (callbacks bpb total writable) (logged (callbacks bpb total writable))
      (fun s t => t.1 = s ∧ s.complaints = l0 ++ t.2.filterMap (complain total writable) ∧ (writable = false → ∀ j buf, Event.flush j buf true ∉ t.2)) where
  fetch s t i buf h := by
    obtain ⟨rfl, h, hn⟩ := h
    refine ⟨rfl, rfl, ?_, fun hw j buf hm => ?_⟩
    · simp only [logged, callbacks, List.filterMap_append, List.filterMap_cons, List.filterMap_nil, complain]
      split <;> simp [h]
    · simp only [logged, List.mem_append, List.mem_singleton, reduceCtorEq, or_false] at hm
      exact hn hw _ _ hm
  flush s t i buf h := by
    obtain ⟨rfl, h, hn⟩ := h
    refine ⟨rfl, rfl, ?_, fun hw j buf hm => ?_⟩
    · simp only [logged, callbacks, List.filterMap_append, List.filterMap_cons, List.filterMap_nil, complain]
      cases writable
      · simp [h]
      · simp only [if_true]
        split <;> simp [h]
    · subst hw
      simp only [logged, callbacks, List.mem_append, List.mem_singleton, Bool.false_eq_true, if_false, Event.flush.injEq, Option.isNone_some] at hm
      rcases hm with hm | ⟨_, _, h⟩
      · exact hn rfl _ _ hm
      · cases h
  resize s t n h := by
    obtain ⟨rfl, h, hn⟩ := h
    refine ⟨rfl, rfl, ?_, fun hw j buf hm => ?_⟩
    · simp [logged, callbacks, nilResize, complain, h]
    · simp only [logged, List.mem_append, List.mem_singleton, reduceCtorEq, or_false] at hm
      exact hn hw _ _ hm

theorem lawful {bpb total : Nat} {writable : Bool} (hb : 0 < bpb) (hcap : total * bpb ≤ maxInt) : Lawful (callbacks bpb total writable) bpb Fixture.image := by
  have hlt : ∀ i, i < total → i * bpb + bpb ≤ total * bpb := fun i hi => by
    rw [← Nat.succ_mul]; exact Nat.mul_le_mul_right _ hi
  refine ⟨fun s i buf => ?_, fun s i buf h1 h2 h3 => ?_, fun s i buf h1 h2 h3 => ?_, fun s i buf h1 h2 h3 => ?_, fun s n hn h => ?_, fun s n h => rfl⟩
  · simp only [callbacks]; split <;> rfl
  · simp only [callbacks] at h3 ⊢
    split
    · rename_i h; rw [if_pos h] at h3; cases h3
    · rename_i h
      have := hlt i (by omega)
      simp only
      rw [u64_of_lt (by unfold maxInt at *; omega), goCopy_eq_of_length]
      rw [h2, length_slice_of_le h1]
  · simp only [callbacks] at h3 ⊢
    cases writable
    · cases h3
    · simp only [if_true] at h3 ⊢
      split
      · rename_i h; rw [if_pos h] at h3; cases h3
      · rename_i h
        have := hlt i (by omega)
        simp only
        rw [u64_of_lt (by unfold maxInt at *; omega), goCopy_eq_of_length]
        rw [h2, length_slice_of_le h1]
  · simp only [callbacks] at h3 ⊢
    cases writable
    · exact ⟨rfl, fun _ _ => rfl⟩
    · simp only [if_true] at h3 ⊢
      split
      · exact ⟨rfl, fun _ _ => rfl⟩
      · rename_i h
        rw [if_neg h] at h3
        exact absurd rfl h3
  · cases h

/-- What a result of an operation says about complaints: a Flush of a read-only image that fails is one. -/
def blame (bpb : Nat) : Result → Option Complaint
  | .unit (.error (.flushFailed j _)) => some (.writeToReadOnly bpb j)
  | _ => none

theorem filterMap_none {α β : Type} {f : α → Option β} {l : List α} (h : ∀ a ∈ l, f a = none) : l.filterMap f = [] := List.filterMap_eq_nil_iff.2 h

/-- No operation but Flush calls the flush callback. -/
theorem no_flush {S : Type} (b : Backend S) {bpb : Nat} (hb64 : bpb < 2 ^ 64) (st : St (S × List Event)) (hs : st.c.bpb = bpb) (op : Op) (hop : op ≠ .flush) {st' : St (S × List Event)} {r : Result}
    (h : step (logged b) st op = .ret (st', r)) : ∀ j buf ok, Event.flush j buf ok ∈ st'.s.2 → Event.flush j buf ok ∈ st.s.2 := by
  have := step_frame (R := fun a c : S × List Event => ∀ j buf ok, Event.flush j buf ok ∈ c.2 → Event.flush j buf ok ∈ a.2)
    (fun s j buf ok h => h) (fun h1 h2 j buf ok h => h1 _ _ _ (h2 _ _ _ h)) (logged b) bpb hb64 (fun s i buf j buf' ok h => by simpa [logged] using h)
    (fun s n j buf ok h => by simpa [logged] using h) st hs op (fun h => absurd h hop)
  exact (this _ h).1

/-- One operation on a cache over the fixture. -/
structure Stepped (bpb total : Nat) (writable : Bool) (st : St Fixture) (op : Op) (st' : St Fixture) (r : Result) : Prop where
  wf : WF Fixture.image st'
  block : st'.c.bpb = bpb
  blocks : st'.c.total = total
  complaints : st'.s.complaints = st.s.complaints ++ (if writable then [] else (blame bpb r).toList)
  dirty : writable = false → ∀ j, j < total → isDirty st.c j = true → isDirty st'.c j = true
  pending : ∃ evs, ∀ j, j < total → isDirty st'.c j = nextPending bpb total op r evs (isDirty st.c) j
  caught : writable = false → op = .flush → (∃ j, j < total ∧ isDirty st.c j = true) → ∃ j, j < total ∧ r = .unit (.error (.flushFailed j readOnlyFileSystem))

theorem stepped {bpb total : Nat} {writable : Bool} (hb : 0 < bpb) (hb64 : bpb < 2 ^ 64) (hcap : total * bpb ≤ maxInt) {st : St Fixture} (w : WF Fixture.image st) (hbp : st.c.bpb = bpb)
    (ht : st.c.total = total) (op : Op) (hv : Valid bpb op) :
    ∃ st' r, step (callbacks bpb total writable) st op = .ret (st', r) ∧ StepOK (callbacks bpb total writable) Fixture.image st op st' r ∧ Stepped bpb total writable st op st' r := by
  have L := lawful (writable := writable) hb hcap
  obtain ⟨st', r, h1, s1⟩ := step_spec L st w hbp op hv
  refine ⟨st', r, h1, s1, ?_⟩
  have htot : st'.c.total = total := by
    rw [s1.total, ht]
    cases op with
    | resize n =>
      simp only [step] at h1
      have : resize (callbacks bpb total writable) st n = .ret (st, .error (.resizeFailed .notSupported)) := rfl
      rw [this] at h1
      cases h1
      rfl
    | _ => rfl
  -- the same with a log
  have hrel := (alike bpb total writable st.s.complaints).step op (x := st) (y := ⟨st.c, (st.s, [])⟩) ⟨rfl, rfl, by simp, fun _ j buf h => by simp at h⟩
  rw [h1] at hrel
  rcases hy : step (logged (callbacks bpb total writable)) ⟨st.c, (st.s, [])⟩ op with ⟨y, r'⟩ | _ | _ <;> rw [hy] at hrel <;> cases hrel
  rename_i hrel
  obtain ⟨⟨hc, hs, hcomp, hno⟩, hr⟩ := hrel
  simp only at hc hs hcomp hno hr
  subst hr
  have w2 : WF (fun s : Fixture × List Event => s.1.image) ⟨st.c, (st.s, [])⟩ := ⟨w.bpb_pos, w.cap, w.data_len, w.loaded_len, w.dirty_len, w.dirty_loaded, w.store, w.clean⟩
  have L2 := lawful_logged L
  obtain ⟨y2, r2, h2, s2⟩ := step_spec L2 ⟨st.c, (st.s, [])⟩ w2 hbp op hv
  rw [hy] at h2
  cases h2
  obtain ⟨evs, e1, tr⟩ := s2.trace _ (logs_logged _)
  simp only [List.nil_append] at e1
  have hblame : op ≠ .flush → blame bpb r' = none := fun hop => by
    have := s1.errs
    cases hr : r' with
    | unit x =>
      cases x with
      | error e =>
        cases e with
        | flushFailed j be => exact absurd (show op = .flush ∧ _ from this (.flushFailed j be) (by rw [hr]; rfl)).1 hop
        | _ => rfl
      | ok _ => rfl
    | _ => rfl
  have hpend : writable = false → ∀ j, j < total → isDirty st.c j = true → isDirty st'.c j = true := fun hw j hj hd => by
    have hp := tr.pending j (by show j < y.c.total; rw [hc, htot]; exact hj)
    have hf : flushedOk evs = [] := by
      have hn := hno hw
      rw [e1] at hn
      clear hp tr e1 hcomp
      induction evs with
      | nil => rfl
      | cons e es ih =>
        cases e with
        | flush k buf ok =>
          cases ok with
          | true => exact absurd (List.mem_cons_self ..) (hn k buf)
          | false => exact ih fun j buf h => hn j buf (List.mem_cons_of_mem _ h)
        | _ => exact ih fun j buf h => hn j buf (List.mem_cons_of_mem _ h)
    rw [hc] at hp
    rw [hp]
    simp only [nextPending, hf]
    generalize isDirty st.c = p at hd
    split <;> simp [hd]
  have hpe : ∃ evs, ∀ j, j < total → isDirty st'.c j = nextPending bpb total op r' evs (isDirty st.c) j := ⟨evs, fun j hj => by
    have hp := tr.pending j (by show j < y.c.total; rw [hc, htot]; exact hj)
    rw [hc] at hp
    rw [hp]
    simp only [hbp, ht]⟩
  by_cases hop : op = .flush
  · subst hop
    have hev : ∀ e ∈ y.s.2, EventOK st.c.bpb st.c.total .flush e := by rw [e1]; exact tr.ok
    rcases flush_spec L2 ⟨st.c, (st.s, [])⟩ w2 hbp with ⟨h0, h4⟩ | ⟨hpos, y3, e3, m, F, h4⟩
    · simp only [step, h4] at hy
      cases hy
      have : evs = [] := by simpa using e1.symm
      subst this
      refine ⟨s1.wf, s1.bpb.trans hbp, htot, ?_, hpend, hpe, fun _ _ ⟨j, hj, _⟩ => ?_⟩
      · rw [hcomp]; simp [blame]
      · simp only at h0; omega
    · simp only [step, h4] at hy
      cases hy
      have T := F.trace _ (logs_logged _)
      simp only [List.nil_append] at T
      cases writable with
      | true =>
        refine ⟨s1.wf, s1.bpb.trans hbp, htot, ?_, (fun h => by cases h), hpe, (fun h => by cases h)⟩
        rw [hcomp, filterMap_none]
        · simp
        · intro e he
          have := hev e he
          cases e with
          | fetch j len ok => simp only [EventOK, ht] at this; simp only [complain]; rw [if_neg (by omega)]
          | flush j buf ok => simp only [EventOK, ht] at this; simp only [complain, if_true]; rw [if_neg (by omega)]
          | resize n ok => rfl
      | false =>
        have hn := hno rfl
        have hfe : flushEvents st.c 0 m = [] := by
          rcases hl : flushEvents st.c 0 m with _ | ⟨e, es⟩
          · rfl
          · exfalso
            have hm : e ∈ flushEvents st.c 0 m := by rw [hl]; exact List.mem_cons_self ..
            simp only [flushEvents, List.mem_map] at hm
            obtain ⟨j, _, rfl⟩ := hm
            refine hn j (slice st.c.data (j * st.c.bpb) st.c.bpb) ?_
            rw [T]
            simp only [hl]
            exact List.mem_append_left _ (List.mem_cons_self ..)
        simp only [hfe, List.nil_append] at T
        refine ⟨s1.wf, s1.bpb.trans hbp, htot, ?_, hpend, hpe, fun _ _ ⟨j, hj, hd⟩ => ?_⟩
        · rw [hcomp, T]
          cases e3 with
          | none => simp [ofErr, blame]
          | some x =>
            obtain ⟨f1, f2, be, rfl, s, buf, f4, f5, f6⟩ := F.fail x rfl
            have hsl := w.data_len
            simp only at f1
            have hend : m * bpb + bpb ≤ total * bpb := by rw [← Nat.succ_mul]; exact Nat.mul_le_mul_right _ (by omega)
            simp only [Nat.zero_add, Option.isSome_some, if_true, List.filterMap_cons, List.filterMap_nil, complain, Bool.false_eq_true, if_false, ofErr, blame, Option.toList]
            rw [length_slice_of_le (by rw [hsl, hbp, ht]; exact hend), hbp]
        · cases e3 with
          | none =>
            exfalso
            have hm := F.ok rfl
            have : Event.flush j (slice st.c.data (j * st.c.bpb) st.c.bpb) true ∈ flushEvents st.c 0 m := by
              simp only [flushEvents, List.mem_map, List.mem_filter, List.mem_range'_1]
              exact ⟨j, ⟨⟨by omega, by rw [hm]; simp only; omega⟩, hd⟩, rfl⟩
            rw [hfe] at this
            cases this
          | some x =>
            obtain ⟨f1, f2, be, rfl, s, buf, f4, f5, f6⟩ := F.fail x rfl
            simp only [logged, callbacks, Bool.false_eq_true, if_false, Option.some.injEq] at f4
            refine ⟨0 + m, by simp only at f1; omega, ?_⟩
            rw [← f4]
            rfl
  · refine ⟨s1.wf, s1.bpb.trans hbp, htot, ?_, hpend, hpe, fun _ h => absurd h hop⟩
    rw [hblame hop, hcomp, filterMap_none]
    · simp
    · intro e he
      have hnf := no_flush (callbacks bpb total writable) hb64 ⟨st.c, (st.s, [])⟩ hbp op hop hy
      have := tr.ok e (by rw [← e1]; exact he)
      cases e with
      | fetch j len ok => simp only [EventOK, ht] at this; simp only [complain]; rw [if_neg (by omega)]
      | flush j buf ok => have := hnf _ _ _ he; cases this
      | resize n ok => rfl

end Disko.Testing

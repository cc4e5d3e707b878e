import Verif.Stream.Unsynced
/-! C154: what one Sync at the end stores. -/
namespace Disko.Stream.Reference
open Disko Disko.BlockCache Disko.BlockCache.Spec Disko.Stream Disko.Stream.Spec

variable {S : Type}

theorem held_all {view : S → Bytes} {st : St S} {d : Bytes} (h : held view st = Stored.all d) : (view st.s).take d.length = d ∧ d.length = st.c.total * st.c.bpb := by
  have hl : d.length = st.c.total * st.c.bpb := by
    rw [← length_held view st, h]; unfold Stored.all; rw [List.length_map]
  refine ⟨?_, hl⟩
  apply List.ext_getElem?
  intro k
  rw [List.getElem?_take]
  by_cases hk : k < d.length
  · rw [if_pos hk]
    have e : (held view st)[k]? = (Stored.all d)[k]? := by rw [h]
    unfold Stored.all at e
    rw [getElem?_held, if_pos (by omega), List.getElem?_map, List.getElem?_eq_getElem hk] at e
    rw [List.getElem?_eq_getElem hk]
    split at e
    · cases e
    · simpa using e
  · rw [if_neg hk, List.getElem?_eq_none (by omega)]

theorem ran_snoc {b : Backend S} {cs : List Call} : ∀ {x x1 x2 : Stm S} {as : List (Answer × Int × Int)} {c : Call} {a : Answer}, ran b x cs = .ret (x1, as) →
    answerCall b x1 c = .ret (x2, a) → ran b x (cs ++ [c]) = .ret (x2, as ++ [(a, x2.size', x2.tell)]) := by
  induction cs with
  | nil => intro x x1 x2 as c a h1 h2; cases h1; simp only [List.nil_append, ran, h2]; rfl
  | cons c0 cs ih =>
    intro x x1 x2 as c a h1 h2
    simp only [List.cons_append, ran] at h1 ⊢
    rcases h0 : answerCall b x c0 with ⟨y, a0⟩ | _ | _
    · rw [h0] at h1
      simp only [Outcome.bind_ret] at h1 ⊢
      rcases h3 : ran b y cs with ⟨z, as0⟩ | _ | _
      · rw [h3] at h1
        cases h1
        rw [ih h3 h2]
        rfl
      · rw [h3] at h1; cases h1
      · rw [h3] at h1; cases h1
    · rw [h0] at h1; cases h1
    · rw [h0] at h1; cases h1

/-- Sync after a history of which it is known what waits. -/
theorem sync_waiting {b : Backend S} {bpb : Nat} {view : S → Bytes} (L : Lawful b bpb view) (R : AllReliable b) {x : Stm S} (hi : Inv bpb view x) {d : Bytes} {low : Nat}
    (hw : Waiting d low (shown view x).object.length (held view x.st)) :
    ∃ x', sync b x = .ret (x', (shown view x).sync) ∧ Inv bpb view x' ∧ shown view x' = shown view x ∧
      (view x'.st.s).take (shown view x).object.length = d.take low ++ (shown view x).object.drop low := by
  obtain ⟨x', e1, i1, s1, p1⟩ := sync_machine L R hi
  obtain ⟨x2, e, e2, i2, m2⟩ : ∃ x2 e, answerCall b x .sync = .ret (x2, .did e) ∧ Inv bpb view x2 ∧ shown view x2 = shown view x := by
    rcases call_machine L R hi .sync trivial with ⟨_, h⟩ | ⟨x2, a, e2, i2, m2⟩
    · cases h
    · simp only [Machine.call, Option.some.injEq, Prod.mk.injEq] at m2
      obtain ⟨m2, rfl⟩ := m2
      exact ⟨x2, (shown view x).sync, e2, i2, m2.symm⟩
  simp only [answerCall, e1, Outcome.bind_ret, Outcome.pure_eq, Outcome.ret.injEq, Prod.mk.injEq] at e2
  obtain ⟨rfl, _⟩ := e2
  have hh := sync_held L R hi e1
  have hh2 := hh.trans (hw.flushed (object := (shown view x).object))
  obtain ⟨h1, h2⟩ := held_all hh2
  refine ⟨x', e1, i1, m2, ?_⟩
  have hl : (d.take low ++ (shown view x).object.drop low).length = (shown view x).object.length := by
    rw [List.length_append, List.length_take, List.length_drop]
    have := hw.1
    have := hw.2.1
    omega
  rw [hl] at h1
  exact h1

/-- C154: a stream opened without O_SYNC on a new cache, any history of calls other than Sync, and then one Sync (or Close): the storage then holds what it held before
in those blocks that the object had all the time, and all the object's bytes in the others. -/
theorem C154_unsynced {b : Backend S} {bpb total : Nat} {view : S → Bytes} {s0 : S} (H : StreamSetup b bpb total view s0) (R : AllReliable b)
    {x : Stm S} (ho : Opened b bpb total s0 x) (hs : Flags.synchronous x.flags = false) (cs : List Call) (hno : ∀ c ∈ cs, c ≠ .sync) (hf : FitsAll b x cs)
    {m : Machine} {as : List (Answer × Int × Int)} (hm : (shown view x).run cs = some (m, as)) :
    ∃ x', ran b x (cs ++ [.sync]) = .ret (x', as ++ [(.did m.sync, (m.size : Int), (m.pos : Int))]) ∧ shown view x' = m ∧
      (view x'.st.s).take m.object.length = (view s0).take ((shown view x).lowest cs) ++ m.object.drop ((shown view x).lowest cs) := by
  obtain ⟨hi, h0⟩ := opened_held H ho
  have hbp : 0 < (shown view x).block := hi.weak.bpb_pos
  rcases ran_machine H.cache.lawful R cs hi hf with ⟨a, e⟩ | ⟨x1, as', a, i1, e⟩
  · rw [e] at hm; cases hm
  rw [e] at hm
  cases hm
  have hh := ran_held H.cache.lawful R cs hi hf a
  rw [h0] at hh
  have hdl : ((view s0).take (shown view x).object.length).length = (shown view x).object.length := by
    have := congrArg List.length h0
    rw [length_held] at this
    unfold Stored.all at this
    rw [List.length_map] at this
    rw [← this]
    exact (length_contents view x.st).symm
  have hw0 : Waiting ((view s0).take (shown view x).object.length) (shown view x).object.length (shown view x).object.length (Stored.all ((view s0).take (shown view x).object.length)) := by
    have := waiting_all (d := (view s0).take (shown view x).object.length)
    rwa [hdl] at this
  have hw := Waiting.run _ cs hbp (show (shown view x).syncs = false from hs) hw0 hno e
  rw [← hh] at hw
  have hlow : (shown view x).lowest cs ≤ (shown view x).object.length := by
    cases cs with
    | nil => exact Nat.le_refl _
    | cons c cs => simp only [Machine.lowest]; split <;> omega
  rw [Nat.min_eq_right hlow] at hw
  obtain ⟨x', e1, i2, m2, v2⟩ := sync_waiting H.cache.lawful R i1 hw
  refine ⟨x', ?_, m2, ?_⟩
  · have hans : answerCall b x1 .sync = .ret (x', .did (shown view x1).sync) := by simp only [answerCall, e1]; rfl
    have := ran_snoc a hans
    rw [this, ← m2]
    have hsz : x'.size' = ((shown view x').size : Int) := (Int.toNat_of_nonneg i2.size_nn).symm
    have hps : x'.tell = ((shown view x').pos : Int) := (Int.toNat_of_nonneg i2.pos_nn).symm
    rw [← hsz, ← hps]
  · rw [v2, List.take_take, Nat.min_eq_left hlow]

/-- C154, files written anew: a stream opened with O_TRUNC and without O_SYNC (on any cache), any history of calls other than Sync, and then one Sync (or Close).
The storage holds the whole file that the stream shows. -/
theorem C154_anew {b : Backend S} {bpb total : Nat} {view : S → Bytes} {s0 : S} (H : StreamSetup b bpb total view s0) (R : AllReliable b)
    {ops : List Op} {st : St S} {rs : List Result} (ha : After b bpb total s0 ops st rs) {size : Int} {flags : Flags.IOFlags} {x : Stm S} (hn : Stream.new b size st flags = .ret (some x, none))
    (ht : Flags.truncate flags = true) (hs : Flags.synchronous flags = false) (cs : List Call) (hno : ∀ c ∈ cs, c ≠ .sync) (hf : FitsAll b x cs)
    {x' : Stm S} {as : List (Answer × Int × Int)} (hr : ran b x (cs ++ [.sync]) = .ret (x', as)) :
    (view x'.st.s).take x'.size'.toNat = file view x' ∧ (file view x').length = x'.size'.toNat := by
  have hi : Inv bpb view x := new_inv H ha hn
  have hbp : 0 < (shown view x).block := hi.weak.bpb_pos
  have hobj : (shown view x).object = [] ∧ (shown view x).syncs = false := by
    obtain ⟨o, e, q1, q2⟩ := C148_open H R ha size flags
    rw [hn] at q1
    cases q1
    unfold open_ at q2
    split at q2
    · cases q2
    · simp only [ht, if_true, Option.map_some, Prod.mk.injEq, Option.some.injEq] at q2
      obtain ⟨q2, q3⟩ := q2
      rw [q2]
      unfold Machine.truncate at q3 ⊢
      split at q3
      · cases q3
      · next hcw =>
        rw [if_neg hcw]
        refine ⟨?_, hs⟩
        show fit _ (whole bpb 0) = []
        have : whole bpb 0 = 0 := by
          unfold whole
          have hb : 0 < bpb := by have := hi.weak.bpb_pos; rw [hi.bpb] at this; exact this
          rw [Nat.div_eq_of_lt (by omega), Nat.zero_mul]
        rw [this, ← List.length_eq_zero_iff]
        exact length_fit _ _
  rcases ran_machine H.cache.lawful R cs hi hf with ⟨a, e⟩ | ⟨x1, as', a, i1, e⟩
  · exfalso
    have : ∀ (cs : List Call) (x : Stm S) (c : Call), ran b x cs = .timeout → ran b x (cs ++ [c]) = .timeout := by
      intro cs
      induction cs with
      | nil => intro x c h; cases h
      | cons c0 cs ih =>
        intro x c h
        simp only [List.cons_append, ran] at h ⊢
        rcases h0 : answerCall b x c0 with ⟨y, a0⟩ | _ | _
        · rw [h0] at h
          simp only [Outcome.bind_ret] at h ⊢
          rcases h3 : ran b y cs with ⟨z, as0⟩ | _ | _
          · rw [h3] at h; cases h
          · rw [h3] at h; cases h
          · rw [ih y c h3]; rfl
        · rw [h0] at h; cases h
        · rfl
    rw [this cs x .sync a] at hr
    cases hr
  · have hh := ran_held H.cache.lawful R cs hi hf a
    have h0 : held view x.st = [] := by
      rw [← List.length_eq_zero_iff, length_held]
      have := congrArg List.length hobj.1
      exact (length_contents view x.st).symm.trans this
    rw [h0] at hh
    have hw0 : Waiting [] 0 (shown view x).object.length [] := by
      rw [hobj.1]
      exact ⟨Nat.le_refl _, Nat.le_refl _, fun k => by simp⟩
    have hw := Waiting.run _ cs hbp hobj.2 hw0 hno e
    rw [← hh, Nat.zero_min] at hw
    obtain ⟨x2, e1, i2, m2, v2⟩ := sync_waiting H.cache.lawful R i1 hw
    have hans : answerCall b x1 .sync = .ret (x2, .did (shown view x1).sync) := by simp only [answerCall, e1]; rfl
    rw [ran_snoc a hans] at hr
    simp only [Outcome.ret.injEq, Prod.mk.injEq] at hr
    obtain ⟨rfl, _⟩ := hr
    have v3 : (view x2.st.s).take (contents view x2.st).length = contents view x2.st := by
      have hc : (shown view x1).object = contents view x2.st := by rw [← m2]; rfl
      rw [hc] at v2
      rw [v2]; rfl
    have hle : x2.size'.toNat ≤ (contents view x2.st).length := by
      rw [length_contents]
      have := i2.size_le
      have := i2.size_nn
      show x2.size.toNat ≤ _
      omega
    refine ⟨?_, ?_⟩
    · unfold file
      show _ = (contents view x2.st).take x2.size'.toNat
      rw [← v3, List.take_take, Nat.min_eq_left hle]
    · unfold file
      rw [List.length_take]
      exact Nat.min_eq_left hle

/-- The hypotheses of C154_unsynced are met by the history of C149's example: the object is at its smallest after Truncate, with 2 bytes; those are stored as they were
(`C149_history`'s example has the stream, its set-up and the fitting of the calls). -/
example : (exMachine false).lowest [.writeAt [9, 9] 1, .truncate 1, .writeAt [7, 7, 7, 7, 7, 7, 7] 0] = 2 ∧
    ((exMachine false).run [.writeAt [9, 9] 1, .truncate 1, .writeAt [7, 7, 7, 7, 7, 7, 7] 0]).map (fun r => ([1, 2, 3, 4, 5, 6] : Bytes).take 2 ++ r.1.object.drop 2) = some [1, 2, 7, 7, 7, 7, 7, 0] ∧
    (match ran (steady 2) (okStream 6 Flags.O_RDWR) [.writeAt [9, 9] 1, .truncate 1, .writeAt [7, 7, 7, 7, 7, 7, 7] 0, .sync] with
      | .ret (x', _) => decide (x'.st.s = [1, 2, 7, 7, 7, 7, 7, 0])
      | _ => false) = true := by decide +kernel

/-- That stream opened with O_TRUNC. -/
def emptied : Stm Bytes := ⟨0, 0, ⟨⟨2, 0, [], [], []⟩, []⟩, Flags.O_RDWR ||| Flags.O_TRUNC⟩

/-- The hypotheses of C154_anew are met by a file that is written in pieces, partly overwritten and extended ... -/
example : Stream.new (steady 2) 6 ⟨exampleCache, [1, 2, 3, 4, 5, 6]⟩ (Flags.O_RDWR ||| Flags.O_TRUNC) = .ret (some emptied, none) ∧ Flags.truncate (Flags.O_RDWR ||| Flags.O_TRUNC) = true ∧
    Flags.synchronous (Flags.O_RDWR ||| Flags.O_TRUNC) = false ∧ FitsAll (steady 2) emptied [.write [1, 2, 3], .writeAt [9] 1, .truncate 7, .writeAt [8] 3] := by
  refine ⟨by decide +kernel, by decide, by decide, ?_⟩
  let x1 := (after emptied (.write [1, 2, 3])).1
  let x2 := (after x1 (.writeAt [9] 1)).1
  let x3 := (after x2 (.truncate 7)).1
  refine fitsAll_cons (y := x1) (a := .wrote 3 none) (by show FitsWrite emptied _ _; decide +kernel) (by decide +kernel) ?_
  refine fitsAll_cons (y := x2) (a := .wrote 1 none) (by show FitsWrite x1 _ _ ∧ _; decide +kernel) (by decide +kernel) ?_
  refine fitsAll_cons (y := x3) (a := .did none) (by show FitsSize x2 _; decide +kernel) (by decide +kernel) ?_
  exact ⟨by show FitsWrite x3 _ _ ∧ _; decide +kernel, fun _ _ _ => trivial⟩

/-- ... all of which is stored; -/
example : (match ran (steady 2) emptied [.write [1, 2, 3], .writeAt [9] 1, .truncate 7, .writeAt [8] 3, .sync] with
    | .ret (x', _) => decide (x'.st.s = [1, 9, 3, 8, 0, 0, 0, 0] ∧ file (fun s => s) x' = [1, 9, 3, 8, 0, 0, 0])
    | _ => false) = true := by decide +kernel

/-- The restriction on Sync is needed: after one, what is written over is never stored. -/
theorem C154_sync_between : ∃ (cs : List Call) (x' : Stm Bytes) (as : List (Answer × Int × Int)), FitsAll (steady 2) emptied cs ∧ ran (steady 2) emptied (cs ++ [.sync]) = .ret (x', as) ∧
    (∀ a ∈ as, (match a.1 with | .wrote _ e => e.isNone | .did e => e.isNone | _ => true) = true) ∧ x'.st.s.take x'.size'.toNat ≠ file (fun s => s) x' := by
  let cs : List Call := [.write [1, 2, 3], .sync, .writeAt [9] 1]
  let x1 := (after emptied (.write [1, 2, 3])).1
  let x2 := (after x1 .sync).1
  let x3 := (after x2 (.writeAt [9] 1)).1
  let x4 := (after x3 .sync).1
  refine ⟨cs, x4, [(.wrote 3 none, 3, 3), (.did none, 3, 3), (.wrote 1 none, 3, 3), (.did none, 3, 3)], ?_, by decide +kernel, by decide +kernel, by decide +kernel⟩
  refine fitsAll_cons (y := x1) (a := .wrote 3 none) (by show FitsWrite emptied _ _; decide +kernel) (by decide +kernel) ?_
  refine fitsAll_cons (y := x2) (a := .did none) trivial (by decide +kernel) ?_
  exact ⟨by show FitsWrite x2 _ _ ∧ _; decide +kernel, fun _ _ _ => trivial⟩

end Disko.Stream.Reference

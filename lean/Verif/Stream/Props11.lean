import Verif.Stream.StorageLemmas
import Verif.Stream.Props10
import Verif.Stream.Props6
/-! C149: what an open stream leaves in the storage. -/
namespace Disko.Stream.Reference
open Disko Disko.BlockCache Disko.BlockCache.Spec Disko.Stream Disko.Stream.Spec

variable {S : Type}

/-- What the storage holds when a stream has just been opened on a new cache: everything. -/
def Stored.all (d : Bytes) : Stored := d.map some

theorem opened_held {b : Backend S} {bpb total : Nat} {view : S → Bytes} {s0 : S} (H : StreamSetup b bpb total view s0)
    {x : Stm S} (ho : Opened b bpb total s0 x) :
    Inv bpb view x ∧ held view x.st = Stored.all ((view s0).take (shown view x).object.length) := by
  obtain ⟨hi, u⟩ := opened_clean H ho
  refine ⟨hi, ?_⟩
  have hbp := hi.weak.bpb_pos
  apply List.ext_getElem?
  intro k
  unfold Stored.all
  rw [getElem?_held, List.getElem?_map, List.getElem?_take]
  show _ = Option.map some (if k < (contents view x.st).length then _ else _)
  rw [length_contents]
  by_cases hk : k < x.st.c.total * x.st.c.bpb
  · have hj : k / x.st.c.bpb < x.st.c.total := by rw [Nat.div_lt_iff_lt_mul hbp]; exact hk
    rw [if_pos hk, if_pos hk, u.clean _ hj, u.bytes k hj]
    have hv := u.bytes k hj
    rw [List.getElem?_eq_getElem (show k < (view x.st.s).length by have := hi.weak.store; omega)] at hv
    rw [← hv]
    rfl
  · rw [if_neg hk, if_neg hk]; rfl

/-- C149: a stream opened on a new cache, and any history of calls (with arguments that fit): the storage holds what `Stored.run` says, for every byte of the
object whose block is not waiting to be written; there is an entry for every byte of the object. -/
theorem C149_history {b : Backend S} {bpb total : Nat} {view : S → Bytes} {s0 : S} (H : StreamSetup b bpb total view s0) (R : AllReliable b)
    {x : Stm S} (ho : Opened b bpb total s0 x) (cs : List Call) (hf : FitsAll b x cs) {m : Machine} {as : List (Answer × Int × Int)}
    (hm : (shown view x).run cs = some (m, as)) :
    ∃ x', ran b x cs = .ret (x', as) ∧ shown view x' = m ∧
      (Stored.run (shown view x) (Stored.all ((view s0).take (shown view x).object.length)) cs).length = m.object.length ∧
      ∀ (k : Nat) (v : UInt8), (Stored.run (shown view x) (Stored.all ((view s0).take (shown view x).object.length)) cs)[k]? = some (some v) → (view x'.st.s)[k]? = some v := by
  obtain ⟨hi, h0⟩ := opened_held H ho
  rcases ran_machine H.cache.lawful R cs hi hf with ⟨a, e⟩ | ⟨x', as', a, i', e⟩
  · rw [e] at hm; cases hm
  · rw [e] at hm
    cases hm
    have hh := ran_held H.cache.lawful R cs hi hf a
    rw [h0] at hh
    refine ⟨x', a, rfl, ?_, ?_⟩
    · rw [← hh, length_held]; exact (length_contents _ _).symm
    · intro k v hk
      rw [← hh, getElem?_held] at hk
      split at hk
      · split at hk
        · cases hk
        · simpa using hk
      · cases hk

/-- C149 after a Sync: the storage holds all bytes of the object, and they are those of `Stored.run`. -/
theorem C149_synced {b : Backend S} {bpb total : Nat} {view : S → Bytes} {s0 : S} (H : StreamSetup b bpb total view s0) (R : AllReliable b)
    {x : Stm S} (ho : Opened b bpb total s0 x) (cs : List Call) (hf : FitsAll b x (cs ++ [.sync])) {m : Machine} {as : List (Answer × Int × Int)}
    (hm : (shown view x).run (cs ++ [.sync]) = some (m, as)) :
    ∃ x', ran b x (cs ++ [.sync]) = .ret (x', as) ∧ shown view x' = m ∧ ∃ d : Bytes, (view x'.st.s).take m.object.length = d ∧
      Stored.run (shown view x) (Stored.all ((view s0).take (shown view x).object.length)) (cs ++ [.sync]) = Stored.all d := by
  have hsome : ∀ (cs : List Call) (m0 : Machine) (s : Stored) m1 as1, m0.run (cs ++ [.sync]) = some (m1, as1) →
      ∀ (k : Nat) (o : Option UInt8), (Stored.run m0 s (cs ++ [.sync]))[k]? = some o → ∃ v, o = some v := by
    intro cs
    induction cs with
    | nil =>
      intro m0 s m1 as1 _ k o hk
      have hk' : (Stored.flushed m0.object s)[k]? = some o := hk
      rw [getElem?_flushed] at hk'
      split at hk'
      · cases hk'; exact ⟨_, rfl⟩
      · cases hk'
    | cons c cs ih =>
      intro m0 s m1 as1 hm k o hk
      simp only [List.cons_append, Machine.run, Stored.run] at hm hk
      rcases hc : m0.call c with _ | ⟨m2, a2⟩
      · rw [hc] at hm; cases hm
      · rw [hc] at hm hk
        simp only [Option.bind_eq_bind, Option.bind_some] at hm hk
        rcases hr : m2.run (cs ++ [.sync]) with _ | ⟨m3, as3⟩
        · rw [hr] at hm; cases hm
        · exact ih m2 _ m3 as3 hr k o hk
  obtain ⟨x', a1, a2, a3, a4⟩ := C149_history H R ho _ hf hm
  refine ⟨x', a1, a2, _, rfl, ?_⟩
  apply List.ext_getElem?
  intro k
  unfold Stored.all
  rw [List.getElem?_map, List.getElem?_take]
  by_cases hk : k < m.object.length
  · rw [if_pos hk]
    have hke := List.getElem?_eq_getElem (l := Stored.run (shown view x) (Stored.all ((view s0).take (shown view x).object.length)) (cs ++ [.sync])) (i := k) (by omega)
    obtain ⟨v, hv⟩ := hsome cs _ _ _ _ hm k _ hke
    rw [hv] at hke
    rw [a4 k v hke]
    exact hke
  · rw [if_neg hk, List.getElem?_eq_none (by unfold Stored.all at a3; omega)]; rfl

/-- C149 for streams in use, on caches in use. -/
theorem C149_reachable {b : Backend S} {bpb total : Nat} {view : S → Bytes} {s0 : S} (H : StreamSetup b bpb total view s0) (R : AllReliable b)
    {x x' : Stm S} (hr : Reachable b bpb total s0 x) (cs : List Call) (hf : FitsAll b x cs) {as : List (Answer × Int × Int)} (h : ran b x cs = .ret (x', as)) :
    held view x'.st = Stored.run (shown view x) (held view x.st) cs :=
  ran_held H.cache.lawful R cs (reachable_inv H hr) hf h

/-- The machine of the examples: 3 blocks of 2 bytes. -/
def exMachine (syncs : Bool) : Machine := ⟨[1, 2, 3, 4, 5, 6], 2, 6, 0, true, true, false, syncs⟩

/-- Overwriting two bytes, cutting the file to 1 byte (1 block), writing 7 bytes (which adds three blocks) and Sync: the file is then 7 7 7 7 7 7 7,
but in the block that was there the storage still has the old bytes. -/
example : Stored.run (exMachine false) (Stored.all [1, 2, 3, 4, 5, 6]) [.writeAt [9, 9] 1, .truncate 1, .writeAt [7, 7, 7, 7, 7, 7, 7] 0, .sync] =
      Stored.all [1, 2, 7, 7, 7, 7, 7, 0] ∧
    ((exMachine false).run [.writeAt [9, 9] 1, .truncate 1, .writeAt [7, 7, 7, 7, 7, 7, 7] 0, .sync]).map (fun r => r.1.object) = some [7, 7, 7, 7, 7, 7, 7, 0] ∧
    -- before the Sync what was added is waiting
    Stored.run (exMachine false) (Stored.all [1, 2, 3, 4, 5, 6]) [.writeAt [9, 9] 1, .truncate 1, .writeAt [7, 7, 7, 7, 7, 7, 7] 0] =
      [some 1, some 2, none, none, none, none, none, none] ∧
    -- with O_SYNC zeros are stored
    Stored.run (exMachine true) (Stored.all [1, 2, 3, 4, 5, 6]) [.truncate 1, .writeAt [7, 7, 7, 7, 7, 7, 7] 0] = Stored.all [1, 2, 0, 0, 0, 0, 0, 0] := by decide +kernel

theorem fitsAll_cons {b : Backend S} {x y : Stm S} {c : Call} {cs : List Call} {a : Answer} (h : Fits b x c) (he : answerCall b x c = .ret (y, a))
    (ht : FitsAll b y cs) : FitsAll b x (c :: cs) := ⟨h, fun x' a' h' => by rw [he] at h'; cases h'; exact ht⟩

/-- The stream of the example after a call. -/
def after (x : Stm Bytes) (c : Call) : Stm Bytes × Answer :=
  match answerCall (steady 2) x c with
  | .ret y => y
  | _ => (x, .did none)

/-- The hypotheses are met by that history. -/
example : Opened (steady 2) 2 3 [1, 2, 3, 4, 5, 6] (okStream 6 Flags.O_RDWR) ∧ AllReliable (steady 2) ∧
    shown (fun s => s) (okStream 6 Flags.O_RDWR) = exMachine false ∧
    FitsAll (steady 2) (okStream 6 Flags.O_RDWR) ([.writeAt [9, 9] 1, .truncate 1, .writeAt [7, 7, 7, 7, 7, 7, 7] 0] ++ [.sync]) := by
  refine ⟨⟨⟨exampleCache, [1, 2, 3, 4, 5, 6]⟩, 6, Flags.O_RDWR, none, ⟨exampleCache, by decide +kernel, by simp, rfl⟩, by decide +kernel⟩, okReliable,
    by decide +kernel, ?_⟩
  let x0 := okStream 6 Flags.O_RDWR
  let x1 := (after x0 (.writeAt [9, 9] 1)).1
  let x2 := (after x1 (.truncate 1)).1
  let x3 := (after x2 (.writeAt [7, 7, 7, 7, 7, 7, 7] 0)).1
  refine fitsAll_cons (y := x1) (a := .wrote 2 none) (by show FitsWrite x0 _ _ ∧ _; decide +kernel) (by decide +kernel) ?_
  refine fitsAll_cons (y := x2) (a := .did none) (by show FitsSize x1 _; decide +kernel) (by decide +kernel) ?_
  refine fitsAll_cons (y := x3) (a := .wrote 7 none) (by show FitsWrite x2 _ _ ∧ _; decide +kernel) (by decide +kernel) ?_
  exact ⟨trivial, fun _ _ _ => trivial⟩

end Disko.Stream.Reference

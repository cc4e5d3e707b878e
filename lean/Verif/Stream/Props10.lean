import Verif.Stream.MachineLemmas
import Verif.Stream.Props3
/-! C148: an open stream is a simple machine. -/
namespace Disko.Stream.Reference
open Disko Disko.BlockCache Disko.BlockCache.Spec Disko.Stream Disko.Stream.Spec

variable {S : Type}

/-- C148, opening: whatever was done with the cache before, New always returns, and gives what `open_` says for the bytes of the cached object. -/
theorem C148_open {b : Backend S} {bpb total : Nat} {view : S → Bytes} {s0 : S} (H : StreamSetup b bpb total view s0) (R : AllReliable b)
    {ops : List Op} {st : St S} {rs : List Result} (ha : After b bpb total s0 ops st rs) (size : Int) (flags : Flags.IOFlags) :
    ∃ o e, new b size st flags = .ret (o, e) ∧ (o.map (shown view), e) = open_ (contents view st) bpb size flags := by
  obtain ⟨wf, hb, _⟩ := after_spec H.cache ha
  have hle : st.c.bpb ≤ maxInt := by rw [hb]; exact H.bpb_le
  have hcs := cacheSize_eq wf hle
  have hsz : ((contents view st).length : Int) = st.c.size := by rw [length_contents, hcs]
  unfold new open_
  rw [hsz]
  by_cases hc : size < 0 ∨ st.c.size < size
  · rw [if_pos hc, if_pos hc]
    exact ⟨none, _, rfl, rfl⟩
  · rw [if_neg hc, if_neg hc]
    simp only
    have hsh : shown view (⟨size, 0, st, flags⟩ : Stm S) =
        ⟨contents view st, bpb, size.toNat, 0, Flags.read flags, Flags.write flags, Flags.append flags, Flags.synchronous flags⟩ := by
      unfold shown Stm.size' Stm.tell
      simp only [hb]
      rfl
    have hnew : ∀ f : Flags.IOFlags, Flags.truncate f = false → new b size st f = .ret (some ⟨size, 0, st, f⟩, none) := by
      intro f hf
      unfold new
      rw [if_neg hc]
      simp only [hf]
      rfl
    have hinv : Inv bpb view (⟨size, 0, st, flags⟩ : Stm S) := by
      have h0 := new_inv H ha (hnew 0 (by decide))
      exact ⟨h0.weak, h0.bpb, h0.bpb_le, h0.size_nn, h0.size_le, h0.pos_nn, h0.pos_lt⟩
    cases ht : Flags.truncate flags with
    | false => exact ⟨_, _, rfl, by simp only [Option.map_some, hsh]; rfl⟩
    | true =>
      have hfs : FitsSize (⟨size, 0, st, flags⟩ : Stm S) 0 := by
        show (0 : Int) + (st.c.bpb : Nat) ≤ (maxInt : Nat)
        omega
      obtain ⟨x', a1, a2, a3⟩ := truncate_machine H.cache.lawful R hinv hfs
      rw [hsh] at a1 a3
      simp only [if_true]
      rw [a1]
      refine ⟨some x', _, rfl, ?_⟩
      rw [Option.map_some, a3]

/-- C148: whatever was done before, an open stream answers every history of calls (with arguments that fit) as the reference machine does that shows the same object,
size, position and access mode; afterwards it looks as that machine does.  It fails to answer only if a WriteTo or ReadFrom of the machine does not end either;
in particular it never panics. -/
theorem C148_history {b : Backend S} {bpb total : Nat} {view : S → Bytes} {s0 : S} (H : StreamSetup b bpb total view s0) (R : AllReliable b)
    {x : Stm S} (hr : Reachable b bpb total s0 x) (cs : List Call) (hf : FitsAll b x cs) :
    (∀ m as, (shown view x).run cs = some (m, as) → ∃ x', ran b x cs = .ret (x', as) ∧ shown view x' = m) ∧
    ((shown view x).run cs = none → ran b x cs = .timeout) := by
  rcases ran_machine H.cache.lawful R cs (reachable_inv H hr) hf with ⟨a, e⟩ | ⟨x', as, a, _, e⟩
  · exact ⟨fun m as h => by rw [e] at h; (exact absurd h (by simp)), fun _ => a⟩
  · refine ⟨fun m as' h => ?_, fun h => by rw [e] at h; (exact absurd h (by simp))⟩
    rw [e] at h
    cases h
    exact ⟨x', a, rfl⟩

/-- The history of these examples: what an open stream does (with 3 blocks of 2 bytes). -/
def exCalls : List Call := [.read [0, 0, 0], .writeAt [9, 9] 1, .seek 1 0, .read [0, 0, 0], .truncate 9, .readAt [7, 7] 7, .writeAt [5] 8, .seek (-1) 2,
  .read [0, 0], .seek 0 0, .writeTo Compression.bufferSink [] 9, .sync, .truncate 0, .sync]

/-- The machine's answers. -/
example : (shown (fun s => s) (okStream 6 Flags.O_RDWR)).run exCalls =
    some (⟨[], 2, 0, 8, true, true, false, false⟩, [(.read ⟨[1, 2, 3], 3, none⟩, 6, 3), (.wrote 2 none, 6, 3), (.moved 1 none, 6, 1),
      (.read ⟨[9, 9, 4], 3, none⟩, 6, 4), (.did none, 9, 4), (.read ⟨[0, 0], 2, none⟩, 9, 4), (.wrote 0 (some (.cache .argumentOutOfRange)), 9, 4),
      (.moved 8 none, 9, 8), (.read ⟨[0, 0], 1, some .eof⟩, 9, 8), (.moved 0 none, 9, 0),
      (.copied [[1, 9], [9, 4], [5, 6], [0, 0], [0]] 9 none, 9, 8), (.did none, 9, 8), (.did none, 0, 8),
      (.did (some (.cache .argumentOutOfRange)), 0, 8)]) := by decide +kernel

/-- The hypotheses are met. -/
example : Reachable (steady 2) 2 3 [1, 2, 3, 4, 5, 6] (okStream 6 Flags.O_RDWR) ∧ AllReliable (steady 2) ∧
    FitsAll (steady 2) (okStream 6 Flags.O_RDWR) [.read [0, 0, 0], .seek 1 0] :=
  ⟨okReachable 6 Flags.O_RDWR (by omega) (by decide +kernel), okReliable,
    by show FitsRead _ _; decide +kernel, fun x' a _ => ⟨⟨by omega, by omega⟩, fun _ _ _ => trivial⟩⟩

/-- New with O_TRUNC and O_SYNC: the object is emptied and there is an error. -/
example : (open_ [1, 2, 3, 4, 5, 6] 2 5 (Flags.O_RDWR ||| Flags.O_TRUNC ||| Flags.O_SYNC)) =
    (some ⟨[], 2, 0, 0, true, true, false, true⟩, some (.cache .argumentOutOfRange)) := by decide +kernel

end Disko.Stream.Reference

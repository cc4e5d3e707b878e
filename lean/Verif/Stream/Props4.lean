import Verif.Stream.Twin
import Verif.Stream.Props3
/-! C124: caching is invisible. -/
namespace Disko.Stream
open Disko Disko.BlockCache Disko.BlockCache.Spec Disko.Stream.Spec

variable {S T : Type}

/-- C124: two streams, however they came about and whatever storage lies below them (with callbacks that do not fail), that show the
same object: the same bytes, block size, size, position and access mode.  Then any sequence of calls gets the same answers from
both: what they have cached, loaded or marked dirty cannot be seen. -/
theorem C124_cache_invisible {b : Backend S} {b' : Backend T} {bpb total total' : Nat} {view : S → Bytes} {view' : T → Bytes} {s0 : S} {s0' : T}
    (H : StreamSetup b bpb total view s0) (H' : StreamSetup b' bpb total' view' s0') (R : AllReliable b) (R' : AllReliable b')
    {x : Stm S} {y : Stm T} (hx : Reachable b bpb total s0 x) (hy : Reachable b' bpb total' s0' y)
    (same : contents view' y.st = contents view x.st) (hsize : y.size' = x.size') (htell : y.tell = x.tell) (hflags : y.flags = x.flags)
    (cs : List Call) (hf : FitsAll b x cs) : answers b' y cs = answers b x cs :=
  answers_twin H.cache.lawful H'.cache.lawful R R' cs ⟨reachable_inv H hx, reachable_inv H' hy, hsize, htell, hflags, same⟩ hf

/-- C124: ReadAt and Sync, whatever they answer, do not change the answers of any later calls. -/
theorem C124_queries_invisible {b : Backend S} {bpb total : Nat} {view : S → Bytes} {s0 : S} (H : StreamSetup b bpb total view s0) (R : AllReliable b)
    {x x' : Stm S} (hx : Reachable b bpb total s0 x) {c : Call} (hc : c = .sync ∨ ∃ buf off, c = .readAt buf off) (hfc : Fits b x c) {a : Answer}
    (h : answerCall b x c = .ret (x', a)) (cs : List Call) (hf : FitsAll b x cs) : answers b x' cs = answers b x cs := by
  have hi := reachable_inv H hx
  refine answers_twin H.cache.lawful H.cache.lawful R R cs (x := x) (y := x') ?_ hf
  rcases hc with rfl | ⟨buf, off, rfl⟩
  · obtain ⟨x1, e, s1, s2, s3⟩ := sync_spec H.cache.lawful hi
    simp only [answerCall, s1, Outcome.bind_ret, Outcome.pure_eq, Outcome.ret.injEq, Prod.mk.injEq] at h
    obtain ⟨rfl, _⟩ := h
    exact ⟨hi, s2, s3.size, s3.position, s3.flags, s3.contents⟩
  · obtain ⟨x1, r, s1, s2, s3, s4, _⟩ := readAt_effect H.cache.lawful hi buf hfc.2 hfc.1
    simp only [answerCall, s1, Outcome.bind_ret, Outcome.pure_eq, Outcome.ret.injEq, Prod.mk.injEq] at h
    obtain ⟨rfl, _⟩ := h
    exact ⟨hi, s2, s3.size, s4, s3.flags, s3.contents⟩

/-- A history of the examples. -/
def exHistory : List Call := [.read [0, 0, 0], .writeAt [9, 9] 1, .seek 1 0, .read [0, 0, 0], .truncate 9, .readAt [7, 7] 7, .writeAt [5] 8, .seek (-1) 2, .read [0, 0]]

/-- The stream after all its blocks have been loaded. -/
def warmed : Stm Bytes := match readAt (steady 2) (okStream 6 Flags.O_RDWR) [0, 0, 0, 0, 0, 0] 0 with
  | .ret (x, _) => x
  | _ => okStream 6 Flags.O_RDWR

/-- A fresh stream and one whose blocks are all in memory differ, but not in what they answer. -/
example : warmed.st.c ≠ (okStream 6 Flags.O_RDWR).st.c ∧
    answers (steady 2) warmed exHistory = answers (steady 2) (okStream 6 Flags.O_RDWR) exHistory ∧
    answers (steady 2) warmed exHistory = .ret [(.read ⟨[1, 2, 3], 3, none⟩, 6, 3), (.wrote 2 none, 6, 3), (.moved 1 none, 6, 1), (.read ⟨[9, 9, 4], 3, none⟩, 6, 4),
      (.did none, 9, 4), (.read ⟨[0, 0], 2, none⟩, 9, 4), (.wrote 0 (some (.cache .argumentOutOfRange)), 9, 4), (.moved 8 none, 9, 8), (.read ⟨[0, 0], 1, some .eof⟩, 9, 8)] := by
  decide +kernel

/-- The hypotheses are met: two reachable streams with the same contents, and calls that fit. -/
example : Reachable (steady 2) 2 3 [1, 2, 3, 4, 5, 6] warmed ∧ contents (fun s => s) warmed.st = contents (fun s => s) (okStream 6 Flags.O_RDWR).st ∧
    FitsAll (steady 2) (okStream 6 Flags.O_RDWR) [.read [0, 0, 0], .seek 1 0] := by
  refine ⟨.call (c := .readAt [0, 0, 0, 0, 0, 0] 0) (okReachable 6 Flags.O_RDWR (by omega) (by decide +kernel)) ⟨by decide +kernel, by decide⟩ (by decide +kernel),
    by decide +kernel, by show FitsRead _ _; decide +kernel, fun x' a _ => ⟨⟨by omega, by omega⟩, fun _ _ _ => trivial⟩⟩

end Disko.Stream

import Verif.Compression.Twice
/-
C07, exactly: which inputs DecompressRLERecursive gives back.
-/
namespace Disko.Compression
open Disko Disko.Compression.Spec Disko.Compression.Twice

/-- **C07, exactly** (partial: the property asks for every input): DecompressRLERecursive gives back what CompressRLERecursive was given if and only if every
run of the input is a single byte or consists of exactly three bytes of value 1.  (`MaximalRuns x rs`: `rs` are the maximal runs of `x`; every input has
some, `C07_runs_exist`.) -/
theorem C07_exact_partial (x : Bytes) (rs : List ByteRun) (h : MaximalRuns x rs) (hx : 2 * x.length < maxInt) :
    (decompressRLERecursive bufferSink ⟨(compressRLERecursive bufferSink ⟨x, none⟩ []).out, none⟩ []).out = x ↔
      ∀ r ∈ rs, r.runLength = 1 ∨ r = ⟨1, 3⟩ := by
  have h1 := (enc_compress h (by omega)).2
  obtain ⟨rs', h'⟩ := maximalRuns_exist (compressRLERecursive bufferSink ⟨x, none⟩ []).out
  have h2 := (enc_compress h' (by have := h1.length; omega)).2
  rw [← good_runs h]
  change (compressRLERecursive bufferSink ⟨_, none⟩ []).out = x ↔ _
  constructor
  · intro he
    rw [he] at h2
    exact (good_of_twice h1 h2).1
  · intro hg
    have e1 := h1.unique hg.enc
    rw [e1] at h2
    rw [e1]
    exact h2.unique hg.enc

/-- Every input has maximal runs, so the criterion always applies. -/
theorem C07_runs_exist (x : Bytes) : ∃ rs, MaximalRuns x rs := maximalRuns_exist x

/- 5, 1, 1, 1, 7 comes back although it has repeated bytes, and 1, 1 does not. -/
example : MaximalRuns [5, 1, 1, 1, 7] [⟨5, 1⟩, ⟨1, 3⟩, ⟨7, 1⟩] ∧
    (decompressRLERecursive bufferSink ⟨(compressRLERecursive bufferSink ⟨[5, 1, 1, 1, 7], none⟩ []).out, none⟩ []).out = [5, 1, 1, 1, 7] :=
  ⟨⟨rfl, by simp, by simp [NeighboursDiffer]⟩, by decide +kernel⟩

example : MaximalRuns [1, 1] [⟨1, 2⟩] ∧
    (decompressRLERecursive bufferSink ⟨(compressRLERecursive bufferSink ⟨[1, 1], none⟩ []).out, none⟩ []).out ≠ [1, 1] :=
  ⟨⟨rfl, by simp, by simp [NeighboursDiffer]⟩, by decide +kernel⟩

end Disko.Compression

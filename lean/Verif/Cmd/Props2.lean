import Verif.Cmd.Props
import Verif.Compression.Props3
/-! C150, C151 for the commands: zipimage interrupted, and unzipimage of what it left. -/
namespace Disko.Cmd
open Disko Compression Compression.Spec Spec

theorem writeAll_room : ∀ (ps : List Bytes) (c : Bytes) (r n : Nat) (f : Option Nat),
    (writeAll (countingSink outSink) ⟨⟨c, some r, f⟩, n⟩ ps).1.inner.content = c ++ ps.flatten.take r ∧
    ((writeAll (countingSink outSink) ⟨⟨c, some r, f⟩, n⟩ ps).2 = none ↔ ps.flatten.length ≤ r)
  | [], c, r, n, f => by simp [writeAll]
  | p :: ps, c, r, n, f => by
    by_cases h : p.length ≤ r
    · have hw : (countingSink outSink).write ⟨⟨c, some r, f⟩, n⟩ p = (⟨⟨c ++ p, some (r - p.length), f⟩, n + p.length⟩, p.length, none) := by
        simp [countingSink, outSink, h]
      simp only [writeAll, hw]
      obtain ⟨h1, h2⟩ := writeAll_room ps (c ++ p) (r - p.length) (n + p.length) f
      refine ⟨?_, ?_⟩
      · rw [h1, List.flatten_cons, List.take_append, List.take_of_length_le h, List.append_assoc]
      · rw [h2, List.flatten_cons, List.length_append]; omega
    · have hw : (countingSink outSink).write ⟨⟨c, some r, f⟩, n⟩ p = (⟨⟨c ++ p.take r, some 0, some 28⟩, n⟩, r, some 28) := by
        simp [countingSink, outSink, h]
      simp only [writeAll, hw]
      refine ⟨?_, ?_⟩
      · rw [List.flatten_cons, List.take_append_of_le_length (by omega)]
      · rw [List.flatten_cons, List.length_append]; simp; omega

section
variable (z : Gzip) {h : Host} {prog src dst : Str} {ex : Exit} (hs : Sane h)
include hs

/-- **C150** zipimage of a file that can be read, to another file, when only `r` bytes can be written (or it is stopped after writing so many): the output file holds the first
`r` bytes of the complete compressed image; the exit status is 0 exactly if that is all of it. -/
theorem C150_zipimage {i r : Nat} (hi : h.names src = some i) (hne : h.names dst ≠ some i) (hb : h.bad i = none) (hroom : h.room = some r)
    (hr : zipimage z h [prog, src, dst] = .ret ex) (h1 : ex.status ≠ 1) :
    (ex.status = 0 ↔ (complete z (h.content i)).length ≤ r) ∧
    ∃ out, OnlyOutput h ex.host dst out ∧ ex.host.content out = (complete z (h.content i)).take r := by
  rcases main_spec _ hs hr with ⟨rfl, _⟩ | ⟨i', out, h1', r', hi', hc, hrr, ho, _, hco, _, _, _, _, hst⟩
  · exact absurd rfl h1
  · rw [hi] at hi'
    cases hi'
    obtain ⟨hrd, _⟩ := reader_other hs hi hc hne
    rw [hrd, hroom] at hrr
    unfold Host.reader at hrr
    rw [hb] at hrr
    simp only at hrr
    obtain ⟨c1, _, c3⟩ := compressImage_runs z outSink ⟨h.content i, none⟩ ⟨[], some r, none⟩
    have hw := writeAll_room (z.emitted z.init (pieces (collectRuns ⟨h.content i, none⟩).1)) [] r 0 none
    rw [← complete_eq] at hw
    have heof : (collectRuns ⟨h.content i, none⟩).2 = .eof :=
      ((compressImage_runs z bufferSink ⟨h.content i, none⟩ []).2.2.mp (C08_image_roundtrip z (h.content i)).1).2
    rw [heof, hw.2] at c3
    rw [← hrr] at c1 c3
    refine ⟨?_, out, ho, by rw [hco, c1, hw.1, List.nil_append]⟩
    rcases hst with ⟨he, h0, _⟩ | ⟨he, h2, _⟩
    · rw [h0]
      exact ⟨fun _ => (c3.mp he).1, fun _ => rfl⟩
    · rw [h2]
      exact ⟨fun h => by omega, fun hl => absurd (c3.mpr ⟨hl, rfl⟩) he⟩

/-- **C150** unzipimage of a file that holds only a beginning of a compressed image (or that cannot be read to its end) to another file never exits with 0, in whatever state the computer is;
what it leaves in the output file is a beginning of the image. -/
theorem C150_unzipimage (hz : NoticesCuts z) {i : Nat} {x : Bytes} (hi : h.names src = some i) (hne : h.names dst ≠ some i)
    (hc : CutShort (complete z x) (h.reader i)) (hr : unzipimage z h [prog, src, dst] = .ret ex) :
    ex.status ≠ 0 ∧ (ex.status = 2 → ∃ out, OnlyOutput h ex.host dst out ∧ ex.host.content out <+: x) := by
  rcases main_spec _ hs hr with ⟨rfl, _⟩ | ⟨i', out, h1', r', hi', hcr, hrr, ho, _, hco, _, _, _, _, hst⟩
  · exact ⟨by simp, by intro h; simp at h⟩
  · rw [hi] at hi'
    cases hi'
    obtain ⟨hrd, _⟩ := reader_other hs hi hcr hne
    rw [hrd] at hrr
    obtain ⟨k1, d, k2, k3⟩ := C150_cut z hz x (h.reader i) hc outSink ⟨[], h.room, none⟩ rfl
    rw [← hrr] at k1 k3
    refine ⟨?_, fun _ => ⟨out, ho, ?_⟩⟩
    · rcases hst with ⟨he, _⟩ | ⟨_, h2, _⟩
      · exact absurd he k1
      · omega
    · rw [hco, show r'.1.content = d from k3]
      exact k2

/-- **C151 (partial)** zipimage of a file that cannot be read to its end: exit status 2, but with enough room the output file holds a complete compressed image, of the bytes that could
be read without their last run; unzipimage will accept it. -/
theorem C151_zipimage_partial {i n e : Nat} (hi : h.names src = some i) (hne : h.names dst ≠ some i) (hre : h.readable src = true) (hcr : h.creatable dst = true)
    (hb : h.bad i = some (n, e)) (hroom : h.room = none) (rs : List ByteRun) (hm : MaximalRuns ((h.content i).take n) rs) (hl : (h.content i).length < maxInt)
    (hr : zipimage z h [prog, src, dst] = .ret ex) :
    ex.status = 2 ∧ ∃ out, OnlyOutput h ex.host dst out ∧ ex.host.content out = complete z (expand rs.dropLast) := by
  rcases main_spec _ hs hr with ⟨rfl, hn⟩ | ⟨i', out, h1', r', hi', hc, hrr, ho, _, hco, _, _, _, _, hst⟩
  · rw [hi, hre, hcr] at hn; simp at hn
  · rw [hi] at hi'
    cases hi'
    obtain ⟨hrd, _⟩ := reader_other hs hi hc hne
    rw [hrd, hroom] at hrr
    unfold Host.reader at hrr
    rw [hb] at hrr
    simp only at hrr
    obtain ⟨c1, c2⟩ := C151_exact_partial z _ e (by simp; omega) rs hm outSink ⟨[], none, none⟩
    rw [← hrr] at c1 c2
    refine ⟨?_, out, ho, ?_⟩
    · rcases hst with ⟨he, _⟩ | ⟨_, h2, _⟩
      · exact absurd he c1
      · exact h2
    · rw [hco, c2]
      obtain ⟨d, _, d2, d3⟩ := C150_delivered z outSink ⟨[], none, none⟩ (expand rs.dropLast)
      have hf := unlimited z (expand rs.dropLast) []
      have := d3 ((C08_compress_size z outSink ⟨[], none, none⟩ rfl (expand rs.dropLast)).1.mpr hf)
      subst this
      exact d2

end

/-! ### Cases -/

/-- zipimage with room for four bytes, and unzipimage of what it has left. -/
example : shown (zipimage sealGzip { desk with room := some 4 } [str! "zip", str! "a", str! "c"]) = some (2, none, [7, 7, 7, 7], [31, 9, 9], [1, 7, 1, 7]) := by decide +kernel
example : (match zipimage sealGzip { desk with room := some 4 } [str! "zip", str! "a", str! "c"] with
      | .ret ex => shown (unzipimage sealGzip { ex.host with room := none } [str! "unzip", str! "c", str! "b"])
      | _ => none) = some (2, none, [7, 7, 7, 7], [7], [1, 7, 1, 7]) := by decide +kernel
/-- The hypotheses of C150_unzipimage. -/
example : CutShort (complete sealGzip [7, 7, 7, 7]) (({ desk with content := fun _ => [1, 7, 1, 7] } : Host).reader 0) := by
  have h : complete sealGzip [7, 7, 7, 7] = [1, 7, 1, 7, 1, 2, 0] := by decide +kernel
  rw [h]
  exact ⟨by decide, .inl (by decide)⟩
/-- A disk with a bad sector: three bytes of the image can be read; unzipimage accepts what zipimage has left. -/
def scratched : Host := { desk with content := fun i => if i = 0 then [5, 5, 6, 6] else [], bad := fun i => if i = 0 then some (3, 5) else none, room := none }

example : shown (zipimage sealGzip scratched [str! "zip", str! "a", str! "c"]) = some (2, none, [5, 5, 6, 6], [], [1, 5, 1, 5, 1, 0, 0]) := by decide +kernel
example : (match zipimage sealGzip scratched [str! "zip", str! "a", str! "c"] with
      | .ret ex => shown (unzipimage sealGzip ex.host [str! "unzip", str! "c", str! "b"])
      | _ => none) = some (0, some 2, [5, 5, 6, 6], [5, 5], [1, 5, 1, 5, 1, 0, 0]) := by decide +kernel

end Disko.Cmd

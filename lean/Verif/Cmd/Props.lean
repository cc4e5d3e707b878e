import Verif.Cmd.Model
import Verif.Compression.Props
/-! C106-C108: the commands zipimage and unzipimage. -/
namespace Disko.Cmd
open Disko Compression Compression.Spec

namespace Spec

/-- No name leads to a file that does not exist yet. -/
def Sane (h : Host) : Prop := ∀ p i, h.names p = some i → i < h.fresh

/-- Nothing but the name `path`, and what is in the file it leads to afterwards, is different. -/
structure OnlyOutput (h h' : Host) (path : Str) (out : Nat) : Prop where
  name : h'.names path = some out
  names : ∀ q, q ≠ path → h'.names q = h.names q
  content : ∀ q j, h.names q = some j → j ≠ out → h'.content j = h.content j
  kept : ∀ j, h.names path = some j → out = j

end Spec
open Spec

theorem create_spec {h h1 : Host} {path : Str} {out : Nat} (hs : Sane h) (hc : h.create path = some (h1, out)) :
    OnlyOutput h h1 path out ∧ Sane h1 ∧ h1.content out = [] ∧ h1.room = h.room ∧ h1.bad = h.bad ∧ h1.readable = h.readable ∧ h1.creatable = h.creatable ∧
    (∀ q j, h.names q = some j → h1.names q = some j) ∧ (∀ j, j < h.fresh → j ≠ out → h1.content j = h.content j) := by
  unfold Host.create at hc
  split at hc
  · split at hc
    · rename_i i hi
      cases hc
      exact ⟨⟨hi, fun _ _ => rfl, fun q j _ hj => if_neg hj, fun j hj => by rw [hi] at hj; cases hj; rfl⟩, hs, if_pos rfl, rfl, rfl, rfl, rfl, fun _ _ h => h, fun j _ hj => if_neg hj⟩
    · rename_i hi
      cases hc
      refine ⟨⟨if_pos rfl, fun q hq => if_neg hq, fun q j _ hj => if_neg hj, fun j hj => by rw [hi] at hj; cases hj⟩, fun p i hp => ?_, if_pos rfl, rfl, rfl, rfl, rfl, fun q j hq => ?_,
        fun j _ hj => if_neg hj⟩
      · simp only at hp ⊢
        split at hp
        · cases hp; omega
        · have := hs p i hp; omega
      · simp only
        rw [if_neg (by rintro rfl; rw [hi] at hq; cases hq)]
        exact hq
  · cases hc

/-- Compressing succeeds only if all of the input can be read. -/
theorem idealRun_end (chunks : UInt8 → Nat → List Bytes) (s : Src) (h : (idealRun chunks s).2 = none) : (collectRuns s).2 = .eof := by
  induction hl : s.rest.length using Nat.strongRecOn generalizing s with
  | ind l ih =>
    rcases heq : getNextRun s with ⟨⟨run, _ | _ | e⟩, s'⟩
    · rw [collectRuns_more heq]
      rw [idealRun_more heq] at h
      exact ih _ (by rw [← hl]; have := getNextRun_rest_lt (s := s) (by rw [heq]); rwa [heq] at this) s' h rfl
    · rw [collectRuns_end heq]
    · rw [idealRun_io heq] at h; cases h

theorem compress_read_error (z : Gzip) {W : Type} (k : Sink W) (w : W) (x : Bytes) (e : Nat) : (compressImage z k ⟨x, some e⟩ w).2.2 ≠ none := by
  intro h
  have hr : (compressRLE8 (gzSink z (countingSink k)) ⟨x, some e⟩ ⟨z.init, ⟨w, 0⟩, none, []⟩).err = none := by
    unfold compressImage at h
    simp only at h
    split at h
    · cases h
    · assumption
  rcases C03_compressRLE8 (gzSink z (countingSink k)) ⟨z.init, ⟨w, 0⟩, none, []⟩ rfl ⟨x, some e⟩ with ⟨_, _, h1, _⟩ | ⟨e', p, _, h1, _⟩
  · rw [hr] at h1
    have h2 := (runLoop_buffer chunks8 _ (emitRun8_eq bufferSink) ⟨x, some e⟩).2.1
    unfold compressRLE8 at h1
    rw [h2] at h1
    have h3 := idealRun_end chunks8 ⟨x, some e⟩ h1.symm
    rw [(C02_read_error x e).1] at h3
    cases h3
  · rw [hr] at h1; cases h1

theorem decompress_read_error {W : Type} (k : Sink W) (w : W) (hw : k.failure w = none) (x : Bytes) (e : Nat) : (decompressRLE8 k ⟨x, some e⟩ w).err ≠ none := by
  intro h
  rcases C03_decompressRLE8 k w hw ⟨x, some e⟩ with ⟨_, _, h1, _⟩ | ⟨e', p, _, h1, _⟩
  · rw [C04_read_error_reported, h] at h1; cases h1
  · rw [h] at h1; cases h1

/-- CompressImage is a sequence of writes, the same for every output. -/
theorem compress_writes (z : Gzip) (x : Bytes) : ∃ ps : List Bytes, ∀ {W : Type} (k : Sink W) (w : W),
    (compressImage z k ⟨x, none⟩ w).1 = (writeAll (countingSink k) ⟨w, 0⟩ ps).1.inner ∧ ((compressImage z k ⟨x, none⟩ w).2.2 = none ↔ (writeAll (countingSink k) ⟨w, 0⟩ ps).2 = none) := by
  obtain ⟨ps, hp, hrun⟩ := compress_pieces ⟨x, none⟩ rfl
  refine ⟨z.emitted z.init ps, fun k w => ?_⟩
  have hgz := gz_run z (countingSink k) ps z.init ⟨w, 0⟩ [] 0
  have hr := hrun (gzSink z (countingSink k)) ⟨z.init, ⟨w, 0⟩, none, []⟩ 0
  generalize writeAll (countingSink k) ⟨w, 0⟩ (z.emitted z.init ps) = r at hgz
  obtain ⟨c, _ | e⟩ := r
  · simp only at hgz
    obtain ⟨st, t', h1, h2⟩ := hgz
    rw [h1] at hr
    have : compressImage z k ⟨x, none⟩ w = (c.inner, c.bytesWritten, none) := by
      simp only [compressImage, compressRLE8, hr, h2]
    rw [this]; simp
  · simp only at hgz
    rcases hgz with ⟨st, t', h1, h2⟩ | ⟨st, t', h1, h2⟩
    · rw [h1] at hr
      have : compressImage z k ⟨x, none⟩ w = (c.inner, c.bytesWritten, some (.gzipClose e)) := by
        simp only [compressImage, compressRLE8, hr, h2]
      rw [this]; simp
    · rw [h1] at hr
      have : compressImage z k ⟨x, none⟩ w = (c.inner, c.bytesWritten, some (.rle (.write e))) := by
        simp only [compressImage, compressRLE8, hr, h2]
      rw [this]; simp

theorem writeAll_unlimited : ∀ (ps : List Bytes) (c : Bytes) (n : Nat), ∃ c' n', writeAll (countingSink outSink) ⟨⟨c, none, none⟩, n⟩ ps = (⟨⟨c', none, none⟩, n'⟩, none)
  | [], c, n => ⟨c, n, rfl⟩
  | p :: ps, c, n => by
    obtain ⟨c', n', h⟩ := writeAll_unlimited ps (c ++ p) (n + p.length)
    exact ⟨c', n', by simpa [writeAll, countingSink, outSink] using h⟩

theorem unlimited (z : Gzip) (x c : Bytes) : outSink.failure (compressImage z outSink ⟨x, none⟩ ⟨c, none, none⟩).1 = none := by
  obtain ⟨ps, h⟩ := compress_writes z x
  obtain ⟨c', n', h'⟩ := writeAll_unlimited ps c 0
  rw [(h outSink ⟨c, none, none⟩).1, h']
  rfl

theorem decLoop_unlimited (fin : Option Nat) (last : Option UInt8) (rest : Bytes) (w : OutFile) (t : Nat) (h : w.room = none) (hf : w.failed = none) :
    (decLoop outSink fin last rest w t).out.failed = none := by
  fun_induction decLoop outSink fin last rest w t with
  | case1 | case2 | case3 | case4 => exact hf
  | case5 _ _ _ _ _ _ _ _ hk => simp [outSink, h] at hk
  | case6 _ _ _ _ _ _ _ hk ih =>
    simp only [outSink, h, Prod.mk.injEq] at hk
    obtain ⟨rfl, _⟩ := hk
    exact ih rfl hf
  | case7 _ _ _ _ _ _ _ _ hk => simp [outSink, h] at hk
  | case8 _ _ _ _ _ _ _ hk ih =>
    simp only [outSink, h, Prod.mk.injEq] at hk
    obtain ⟨rfl, _⟩ := hk
    exact ih rfl hf
  | case9 _ _ _ _ _ _ _ _ _ _ hk => simp [outSink, h] at hk
  | case10 _ _ _ _ _ _ _ _ _ hk ih =>
    simp only [outSink, h, Prod.mk.injEq] at hk
    obtain ⟨rfl, _⟩ := hk
    exact ih rfl hf

theorem main_returns (image : Src → OutFile → OutFile × Nat × Option ImgErr) (h : Host) (prog src dst : Str) : ∃ ex, main image h [prog, src, dst] = .ret ex := by
  unfold main
  simp only
  split
  · exact ⟨_, rfl⟩
  · split
    · exact ⟨_, rfl⟩
    · split <;> exact ⟨_, rfl⟩

/-- What the two commands have in common. -/
theorem main_spec (image : Src → OutFile → OutFile × Nat × Option ImgErr) {h : Host} {prog src dst : Str} {ex : Exit} (hs : Sane h) (hr : main image h [prog, src, dst] = .ret ex) :
    (ex = ⟨h, 1, none⟩ ∧ (h.readable src = false ∨ h.names src = none ∨ h.creatable dst = false)) ∨
    ∃ i out h1 r, h.names src = some i ∧ h.create dst = some (h1, out) ∧ r = image (h1.reader i) ⟨[], h.room, none⟩ ∧
      OnlyOutput h ex.host dst out ∧ Sane ex.host ∧ ex.host.content out = r.1.content ∧ ex.host.room = r.1.room ∧
      ex.host.bad = h.bad ∧ ex.host.readable = h.readable ∧ ex.host.creatable = h.creatable ∧
      ((r.2.2 = none ∧ ex.status = 0 ∧ ex.printed = some r.2.1) ∨ (r.2.2 ≠ none ∧ ex.status = 2 ∧ ex.printed = none)) := by
  unfold main at hr
  simp only at hr
  rcases ho : h.open_ src with _ | i
  · rw [ho] at hr
    cases hr
    refine .inl ⟨rfl, ?_⟩
    unfold Host.open_ at ho
    split at ho
    · exact .inr (.inl ho)
    · rename_i hn; exact .inl (by simpa using hn)
  · have hi : h.names src = some i := by
      unfold Host.open_ at ho
      split at ho
      · exact ho
      · cases ho
    rw [ho] at hr
    simp only at hr
    rcases hc : h.create dst with _ | ⟨h1, out⟩
    · rw [hc] at hr
      cases hr
      refine .inl ⟨rfl, .inr (.inr ?_)⟩
      unfold Host.create at hc
      split at hc
      · split at hc <;> cases hc
      · rename_i hn; simpa using hn
    · rw [hc] at hr
      simp only at hr
      obtain ⟨h2, h3, h4, h5, h6, h7, h8, _⟩ := create_spec hs hc
      rw [h4, h5] at hr
      refine .inr ⟨i, out, h1, _, hi, rfl, rfl, ?_⟩
      generalize image (h1.reader i) ⟨[], h.room, none⟩ = r at hr
      have key : ∀ st pr, ex = ⟨{ h1 with content := fun j => if j = out then r.1.content else h1.content j, room := r.1.room }, st, pr⟩ →
          OnlyOutput h ex.host dst out ∧ Sane ex.host ∧ ex.host.content out = r.1.content ∧ ex.host.room = r.1.room ∧ ex.host.bad = h.bad ∧ ex.host.readable = h.readable ∧
            ex.host.creatable = h.creatable ∧ ex.status = st ∧ ex.printed = pr := by
        rintro st pr rfl
        refine ⟨⟨h2.name, h2.names, fun q j hq hj => ?_, h2.kept⟩, h3, if_pos rfl, rfl, h6, h7, h8, rfl, rfl⟩
        simp only [if_neg hj]
        exact h2.content q j hq hj
      rcases he : r.2.2 with _ | e
      · rw [he] at hr
        simp only [Outcome.ret.injEq] at hr
        obtain ⟨k1, k2, k3, k4, k5, k6, k7, k8, k9⟩ := key _ _ hr.symm
        exact ⟨k1, k2, k3, k4, k5, k6, k7, .inl ⟨rfl, k8, k9⟩⟩
      · rw [he] at hr
        simp only [Outcome.ret.injEq] at hr
        obtain ⟨k1, k2, k3, k4, k5, k6, k7, k8, k9⟩ := key _ _ hr.symm
        exact ⟨k1, k2, k3, k4, k5, k6, k7, .inr ⟨by simp, k8, k9⟩⟩

/-- What the source delivers, when it is another file than the output. -/
theorem reader_other {h h1 : Host} {src dst : Str} {i out : Nat} (hs : Sane h) (hi : h.names src = some i) (hc : h.create dst = some (h1, out)) (hne : h.names dst ≠ some i) :
    h1.reader i = h.reader i ∧ i ≠ out := by
  obtain ⟨h2, _, _, _, h6, _⟩ := create_spec hs hc
  have hio : i ≠ out := by
    rintro rfl
    rcases hd : h.names dst with _ | j
    · unfold Host.create at hc
      rw [hd] at hc
      split at hc
      · cases hc
        have := hs src _ hi
        omega
      · cases hc
    · have := h2.kept j hd
      subst this
      exact hne hd
  refine ⟨?_, hio⟩
  unfold Host.reader
  rw [h6, h2.content src i hi hio]

/-- What the source delivers, when it is the same file as the output: nothing. -/
theorem reader_same {h h1 : Host} {dst : Str} {i out : Nat} (hs : Sane h) (hd : h.names dst = some i) (hc : h.create dst = some (h1, out)) (hb : h.bad i = none) :
    h1.reader i = ⟨[], none⟩ ∧ i = out := by
  obtain ⟨h2, _, h4, _, h6, _⟩ := create_spec hs hc
  have := h2.kept i hd
  subst this
  refine ⟨?_, rfl⟩
  unfold Host.reader
  rw [h6, hb, h4]

/-! ### C106: what the exit status tells -/

section
variable (z : Gzip) {h : Host} {prog src dst : Str} {ex : Exit} (hs : Sane h)

/-- C106: with a wrong number of arguments nothing is done and the exit status is 1. -/
theorem C106_usage (args : List Str) (h0 : args ≠ []) (h3 : args.length ≠ 3) : zipimage z h args = .ret ⟨h, 1, none⟩ ∧ unzipimage z h args = .ret ⟨h, 1, none⟩ := by
  have key : ∀ image, main image h args = .ret ⟨h, 1, none⟩ := by
    intro image
    rcases args with _ | ⟨a, _ | ⟨b, _ | ⟨c, _ | ⟨d, args⟩⟩⟩⟩
    · exact absurd rfl h0
    · rfl
    · rfl
    · exact absurd rfl h3
    · rfl
  exact ⟨key _, key _⟩

/-- C106: without even a program name the commands panic (they print the name in their usage); with one they always come to an end. -/
theorem C106_returns (args : List Str) : ((∃ ex, zipimage z h args = .ret ex) ↔ args ≠ []) ∧ ((∃ ex, unzipimage z h args = .ret ex) ↔ args ≠ []) := by
  have key : ∀ image, (∃ ex, main image h args = .ret ex) ↔ args ≠ [] := by
    intro image
    rcases args with _ | ⟨a, _ | ⟨b, _ | ⟨c, _ | ⟨d, args⟩⟩⟩⟩
    · exact ⟨(fun ⟨_, h⟩ => nomatch h), fun h => absurd rfl h⟩
    · exact ⟨fun _ => by simp, fun _ => ⟨_, rfl⟩⟩
    · exact ⟨fun _ => by simp, fun _ => ⟨_, rfl⟩⟩
    · refine ⟨fun _ => by simp, fun _ => ?_⟩
      simp only [main]
      repeat' split
      all_goals exact ⟨_, rfl⟩
    · exact ⟨fun _ => by simp, fun _ => ⟨_, rfl⟩⟩
  exact ⟨key _, key _⟩

include hs
/-- C106: the exit status is 0, 1 or 2; a number is printed exactly when it is 0; with 1 nothing has changed, and it means that a file could not be opened; with 0 and 2 nothing
but the output file has changed. -/
theorem C106_status (hr : zipimage z h [prog, src, dst] = .ret ex ∨ unzipimage z h [prog, src, dst] = .ret ex) :
    ex.status ≤ 2 ∧ (ex.status = 0 ↔ ex.printed ≠ none) ∧
    (ex.status = 1 ↔ h.readable src = false ∨ h.names src = none ∨ h.creatable dst = false) ∧ (ex.status = 1 → ex.host = h) ∧
    (ex.status ≠ 1 → ∃ out, OnlyOutput h ex.host dst out) := by
  have key : ∀ image, main image h [prog, src, dst] = .ret ex → _ := fun image hm => main_spec image hs hm
  have hm : ∃ image, main image h [prog, src, dst] = .ret ex := hr.elim (fun h => ⟨_, h⟩) fun h => ⟨_, h⟩
  obtain ⟨image, hm⟩ := hm
  rcases key image hm with ⟨rfl, hn⟩ | ⟨i, out, h1, r, hi, hc, _, ho, _, _, _, _, _, _, hst⟩
  · exact ⟨by simp, by simp, by simp [hn], fun _ => rfl, fun h => absurd rfl h⟩
  · have hne : ¬ (h.readable src = false ∨ h.names src = none ∨ h.creatable dst = false) := by
      rintro (h' | h' | h')
      · have : ex.status = 1 := by
          unfold main Host.open_ at hm
          simp only [h', Bool.false_eq_true, if_false] at hm
          cases hm; rfl
        rcases hst with ⟨_, h0, _⟩ | ⟨_, h0, _⟩ <;> omega
      · rw [hi] at h'; cases h'
      · unfold Host.create at hc
        rw [h'] at hc
        cases hc
    rcases hst with ⟨_, h0, hp⟩ | ⟨_, h0, hp⟩
    · exact ⟨by omega, by simp [h0, hp], by simp [h0, hne], fun h => by omega, fun _ => ⟨out, ho⟩⟩
    · exact ⟨by omega, by simp [h0, hp], by simp [h0, hne], fun h => by omega, fun _ => ⟨out, ho⟩⟩

/-! ### C107: zipimage -/

omit hs in
/-- C107: what one expects of zipimage: if it exits with 0, the output stands for what the input was. -/
def C107_statement : Prop :=
  ∀ (z : Gzip) (h : Host) (prog src dst : Str) (i : Nat) (ex : Exit), Sane h → h.names src = some i → zipimage z h [prog, src, dst] = .ret ex → ex.status = 0 →
    ∃ out, ex.host.names dst = some out ∧ decompressImage z bufferSink ⟨ex.host.content out, none⟩ [] = (h.content i, (h.content i).length, none)

/-- C107, partial: if zipimage exits with 0 and input and output are different files, all of the input has been read, the output, decompressed, is the input, the number printed is
its size, and nothing else has changed.  (Missing: the case that they are the same file, of which it is false.) -/
theorem C107_zip_partial {i : Nat} (hi : h.names src = some i) (hne : h.names dst ≠ some i) (hr : zipimage z h [prog, src, dst] = .ret ex) (h0 : ex.status = 0) :
    h.bad i = none ∧ ∃ out, OnlyOutput h ex.host dst out ∧ out ≠ i ∧ decompressImage z bufferSink ⟨ex.host.content out, none⟩ [] = (h.content i, (h.content i).length, none) ∧
      ex.printed = some (ex.host.content out).length := by
  rcases main_spec _ hs hr with ⟨rfl, _⟩ | ⟨i', out, h1, r, hi', hc, hrr, ho, _, hco, _, _, _, _, hst⟩
  · cases h0
  · rw [hi] at hi'
    cases hi'
    obtain ⟨hrd, hio⟩ := reader_other hs hi hc hne
    rcases hst with ⟨he, _, hp⟩ | ⟨_, h2, _⟩
    · rw [hrd] at hrr
      have hb : h.bad i = none := by
        rcases hb : h.bad i with _ | ⟨n, e⟩
        · rfl
        · exfalso
          unfold Host.reader at hrr
          rw [hb] at hrr
          rw [hrr] at he
          exact compress_read_error z outSink _ _ e he
      refine ⟨hb, out, ho, fun h => hio h.symm, ?_⟩
      unfold Host.reader at hrr
      rw [hb] at hrr
      simp only at hrr
      rw [hrr] at he
      obtain ⟨d, h4, h5, h6⟩ := (C08_compress_size z outSink ⟨[], h.room, none⟩ rfl (h.content i)).2 he
      have h7 : ex.host.content out = d := by
        rw [hco, hrr]; exact h4
      rw [h7]
      exact ⟨h6, by rw [hp, hrr, h5]⟩
    · omega

/-- C107: when input and output are the same file, what was in it is lost, and zipimage does not say so: the file then stands for an empty image, and with enough room the exit status is 0. -/
theorem C107_same_file {i : Nat} (hi : h.names src = some i) (hd : h.names dst = some i) (hre : h.readable src = true) (hcr : h.creatable dst = true) (hb : h.bad i = none)
    (hroom : h.room = none) (hr : zipimage z h [prog, src, dst] = .ret ex) :
    ex.status = 0 ∧ decompressImage z bufferSink ⟨ex.host.content i, none⟩ [] = ([], 0, none) := by
  rcases main_spec _ hs hr with ⟨rfl, hn⟩ | ⟨i', out, h1, r, hi', hc, hrr, ho, _, hco, _, _, _, _, hst⟩
  · rw [hi, hre, hcr] at hn; simp at hn
  · rw [hi] at hi'
    cases hi'
    obtain ⟨hrd, rfl⟩ := reader_same hs hd hc hb
    rw [hrd, hroom] at hrr
    have hnf : outSink.failure (compressImage z outSink ⟨[], none⟩ ⟨[], none, none⟩).1 = none := unlimited z [] []
    have he := (C08_compress_size z outSink ⟨[], none, none⟩ rfl []).1.mpr hnf
    obtain ⟨d, h4, _, h6⟩ := (C08_compress_size z outSink ⟨[], none, none⟩ rfl []).2 he
    rw [← hrr] at he h4
    have h7 : ex.host.content i = d := by rw [hco]; exact h4
    rw [h7]
    refine ⟨?_, h6⟩
    rcases hst with ⟨_, h0, _⟩ | ⟨h0, _⟩
    · exact h0
    · exact absurd he h0

/-- C107: with enough room, a source that can be read and names that may be used, zipimage exits with 0. -/
theorem C107_success {i : Nat} (hi : h.names src = some i) (hne : h.names dst ≠ some i) (hre : h.readable src = true) (hcr : h.creatable dst = true) (hb : h.bad i = none)
    (hroom : h.room = none) : ∃ ex, zipimage z h [prog, src, dst] = .ret ex ∧ ex.status = 0 := by
  obtain ⟨ex, hr⟩ : ∃ ex, zipimage z h [prog, src, dst] = .ret ex := main_returns _ _ _ _ _
  refine ⟨ex, hr, ?_⟩
  rcases main_spec _ hs hr with ⟨rfl, hn⟩ | ⟨i', out, h1, r, hi', hc, hrr, ho, _, hco, _, _, _, _, hst⟩
  · rw [hi, hre, hcr] at hn; simp at hn
  · rw [hi] at hi'
    cases hi'
    obtain ⟨hrd, _⟩ := reader_other hs hi hc hne
    unfold Host.reader at hrd
    rw [hb] at hrd
    rcases hst with ⟨_, h0, _⟩ | ⟨he, _⟩
    · exact h0
    · exfalso
      apply he
      rw [hrr, hroom, show h1.reader i = ⟨h.content i, none⟩ from hrd]
      exact (C08_compress_size z outSink ⟨[], none, none⟩ rfl (h.content i)).1.mpr (unlimited z _ _)

/-! ### C108: unzipimage -/

omit hs in
/-- C108: what one expects of unzipimage: if it does not exit with 0, the output file is as it was. -/
def C108_statement : Prop :=
  ∀ (z : Gzip) (h : Host) (prog src dst : Str) (o : Nat) (ex : Exit), Sane h → h.names dst = some o → unzipimage z h [prog, src, dst] = .ret ex → ex.status ≠ 0 →
    ex.host.content o = h.content o

/-- C108, partial: if unzipimage exits with 0 and input and output are different files, the input is a gzip file of RLE8 data, the output is what the data stands for, the number
printed is its size, and nothing else has changed.  (Missing: that what the output file was is kept if the input is none, which is false.) -/
theorem C108_unzip_partial {i : Nat} (hi : h.names src = some i) (hne : h.names dst ≠ some i) (hr : unzipimage z h [prog, src, dst] = .ret ex) (h0 : ex.status = 0) :
    ∃ out e o, OnlyOutput h ex.host dst out ∧ out ≠ i ∧ z.gunzip (h.reader i) = some ⟨e, none⟩ ∧ RLE8 e (ex.host.content out) o ∧ ex.printed = some (ex.host.content out).length := by
  rcases main_spec _ hs hr with ⟨rfl, _⟩ | ⟨i', out, h1, r, hi', hc, hrr, ho, _, hco, _, _, _, _, hst⟩
  · cases h0
  · rw [hi] at hi'
    cases hi'
    obtain ⟨hrd, hio⟩ := reader_other hs hi hc hne
    rw [hrd] at hrr
    rcases hst with ⟨he, _, hp⟩ | ⟨_, h2, _⟩
    · obtain ⟨k1, k2⟩ := C08_decompress_delivers z outSink ⟨[], h.room, none⟩ rfl (h.reader i)
      rcases hg : z.gunzip (h.reader i) with _ | ⟨e, fin⟩
      · rw [k1 hg] at hrr
        rw [hrr] at he; cases he
      · obtain ⟨r', h3, h4⟩ := k2 _ hg
        rw [h3] at hrr
        subst hrr
        simp only [Option.map_eq_none_iff] at he
        rcases h4 with ⟨_, h5, h6, h7⟩ | ⟨e', p, _, h6, _⟩
        · rw [he] at h6
          rcases fin with _ | n
          · have h5' : ex.host.content out = (decompressRLE8 bufferSink ⟨e, none⟩ []).out := by rw [hco]; simpa [outSink] using h5
            rcases C04_decompressRLE8_total e with ⟨d, o, hd, hdec⟩ | ⟨e', a, d, o, _, _, _, hdec⟩
            · rw [hdec] at h5' h7
              simp only at h5' h7
              exact ⟨out, e, o, ho, fun h => hio h.symm, rfl, by rw [h5']; exact hd, by rw [hp, h7, h5']⟩
            · rw [hdec] at h6; cases h6
          · rw [C04_read_error_reported] at h6; cases h6
        · rw [he] at h6; cases h6
    · omega

/-- C108: zipimage and then unzipimage give back what was in the file, in whatever state the rest of the computer was, and whatever the third file was (unless it is the second). -/
theorem C108_roundtrip {a b c : Str} {i : Nat} {ex' : Exit} (hi : h.names a = some i) (hne : h.names b ≠ some i) (hr : zipimage z h [prog, a, b] = .ret ex) (h0 : ex.status = 0)
    (hne' : ex.host.names c ≠ ex.host.names b) (hgood : ∀ j, ex.host.names b = some j → h.bad j = none)
    (hr' : unzipimage z ex.host [prog, b, c] = .ret ex') (h0' : ex'.status = 0) : ∃ out, ex'.host.names c = some out ∧ ex'.host.content out = h.content i := by
  obtain ⟨_, j, ho, hj, hdec, _⟩ := C107_zip_partial z hs hi hne hr h0
  obtain ⟨hs', hbad⟩ : Sane ex.host ∧ ex.host.bad = h.bad := by
    rcases main_spec _ hs hr with ⟨rfl, _⟩ | ⟨_, _, _, _, _, _, _, _, k, _, _, kb, _⟩
    · exact ⟨hs, rfl⟩
    · exact ⟨k, kb⟩
  obtain ⟨out, e, o, ho', _, hg, hrle, _⟩ := C108_unzip_partial z hs' ho.name (by rw [ho.name] at hne'; exact hne') hr' h0'
  refine ⟨out, ho'.name, ?_⟩
  have hb : ex.host.bad j = none := by rw [hbad]; exact hgood j ho.name
  unfold Host.reader at hg
  rw [hb] at hg
  simp only at hg
  unfold decompressImage at hdec
  rw [hg] at hdec
  simp only [Prod.mk.injEq, Option.map_eq_none_iff] at hdec
  have := (C04_accepts_iff e _).mpr ⟨o, hrle⟩
  rw [this] at hdec
  exact hdec.1

/-- C108: the way back exits with 0 if there is enough room. -/
theorem C108_success {i : Nat} {x : Bytes} (hi : h.names src = some i) (hne : h.names dst ≠ some i) (hre : h.readable src = true) (hcr : h.creatable dst = true) (hb : h.bad i = none)
    (hroom : h.room = none) (hx : decompressImage z bufferSink ⟨h.content i, none⟩ [] = (x, x.length, none)) :
    ∃ ex out, unzipimage z h [prog, src, dst] = .ret ex ∧ ex.status = 0 ∧ ex.host.names dst = some out ∧ ex.host.content out = x := by
  obtain ⟨ex, hr⟩ : ∃ ex, unzipimage z h [prog, src, dst] = .ret ex := main_returns _ _ _ _ _
  have h0 : ex.status = 0 := by
    rcases main_spec _ hs hr with ⟨rfl, hn⟩ | ⟨i', out, h1, r, hi', hc, hrr, ho, _, hco, _, _, _, _, hst⟩
    · rw [hi, hre, hcr] at hn; simp at hn
    · rw [hi] at hi'
      cases hi'
      obtain ⟨hrd, _⟩ := reader_other hs hi hc hne
      unfold Host.reader at hrd
      rw [hb] at hrd
      rcases hst with ⟨_, h0, _⟩ | ⟨he, _⟩
      · exact h0
      · exfalso
        apply he
        rw [hrr, hroom, show h1.reader i = ⟨h.content i, none⟩ from hrd]
        unfold decompressImage at hx ⊢
        rcases hg : z.gunzip ⟨h.content i, none⟩ with _ | src
        · rw [hg] at hx; cases hx
        · rw [hg] at hx
          simp only [Prod.mk.injEq, Option.map_eq_none_iff] at hx ⊢
          rcases C03_decompressRLE8 outSink ⟨[], none, none⟩ rfl src with ⟨_, _, h1, _⟩ | ⟨e, p, h1, _⟩
          · rw [h1]; exact hx.2.2
          · have := decLoop_unlimited src.fin none src.rest ⟨[], none, none⟩ 0 rfl rfl
            unfold decompressRLE8 at h1
            rw [show outSink.failure = OutFile.failed from rfl, this] at h1; cases h1
  obtain ⟨out, e, o, ho, _, hg, hrle, _⟩ := C108_unzip_partial z hs hi hne hr h0
  refine ⟨ex, out, hr, h0, ho.name, ?_⟩
  unfold Host.reader at hg
  rw [hb] at hg
  simp only at hg
  unfold decompressImage at hx
  rw [hg] at hx
  simp only [Prod.mk.injEq, Option.map_eq_none_iff] at hx
  rw [(C04_accepts_iff e _).mpr ⟨o, hrle⟩] at hx
  exact hx.1

end

/-! ### A computer -/

/-- Two files, "a" with an image and "b", which is also called "l". -/
def desk : Host where
  names p := if p = str! "a" then some 0 else if p = str! "b" ∨ p = str! "l" then some 1 else none
  content i := if i = 0 then [7, 7, 7, 7] else [31, 9, 9]
  bad _ := none
  readable _ := true
  creatable _ := true
  fresh := 2
  room := some 10

theorem desk_sane : Sane desk := by
  intro p i h
  simp only [desk] at h ⊢
  split at h
  · cases h; omega
  · split at h
    · cases h; omega
    · cases h

/-- Exit status, number printed, and the contents of the files 0 and 1 and the new one. -/
def shown (o : Outcome Exit) : Option (Nat × Option Nat × Bytes × Bytes × Bytes) :=
  match o with
  | .ret ex => some (ex.status, ex.printed, ex.host.content 0, ex.host.content 1, ex.host.content 2)
  | _ => none

example : shown (zipimage storeGzip desk [str! "zip", str! "a", str! "c"]) = some (0, some 4, [7, 7, 7, 7], [31, 9, 9], [31, 7, 7, 2]) := by decide +kernel
example : shown (unzipimage storeGzip { desk with content := fun i => if i = 0 then [31, 7, 7, 2] else [1] } [str! "unzip", str! "a", str! "b"]) =
    some (0, some 4, [31, 7, 7, 2], [7, 7, 7, 7], [1]) := by decide +kernel
/-- There and back. -/
example : (match zipimage storeGzip desk [str! "zip", str! "a", str! "c"] with
    | .ret ex => shown (unzipimage storeGzip ex.host [str! "unzip", str! "c", str! "l"])
    | _ => none) = some (0, some 4, [7, 7, 7, 7], [7, 7, 7, 7], [31, 7, 7, 2]) := by decide +kernel
example : ∃ ex, zipimage storeGzip { desk with room := none } [str! "zip", str! "a", str! "b"] = .ret ex ∧ ex.status = 0 :=
  C107_success storeGzip (h := { desk with room := none }) desk_sane (i := 0) rfl (by decide) rfl rfl rfl rfl
/-- Without enough room: exit status 2. -/
example : shown (zipimage storeGzip { desk with room := some 2 } [str! "zip", str! "a", str! "c"]) = some (2, none, [7, 7, 7, 7], [31, 9, 9], [31, 7]) := by decide +kernel
example : shown (zipimage storeGzip desk [str! "zip", str! "nothing", str! "c"]) = some (1, none, [7, 7, 7, 7], [31, 9, 9], [31, 9, 9]) := by decide +kernel
example : shown (zipimage storeGzip desk [str! "zip", str! "a"]) = some (1, none, [7, 7, 7, 7], [31, 9, 9], [31, 9, 9]) := by decide +kernel

/-- C107 is FALSE: compressing a file onto itself empties it first. -/
theorem C107_refuted : ¬ C107_statement := by
  intro h
  rcases hr : zipimage storeGzip desk [str! "zip", str! "a", str! "a"] with ex | _ | _
  · have hsh : shown (zipimage storeGzip desk [str! "zip", str! "a", str! "a"]) = some (0, some 1, [31], [31, 9, 9], [31, 9, 9]) := by decide +kernel
    rw [hr] at hsh
    simp only [shown, Option.some.injEq, Prod.mk.injEq] at hsh
    obtain ⟨h0, _, hc, _⟩ := hsh
    obtain ⟨out, hn, hd⟩ := h storeGzip desk _ _ _ 0 ex desk_sane rfl hr h0
    rcases main_spec _ desk_sane hr with ⟨rfl, _⟩ | ⟨_, out', _, _, _, _, _, ho, _⟩
    · cases h0
    · have h1 := ho.kept 0 rfl
      subst h1
      rw [ho.name] at hn
      cases hn
      rw [hc] at hd
      have : decompressImage storeGzip bufferSink ⟨[31], none⟩ [] = ([], 0, none) := by decide +kernel
      rw [this] at hd
      cases hd
  · have : shown (zipimage storeGzip desk [str! "zip", str! "a", str! "a"]) ≠ none := by decide +kernel
    rw [hr] at this; exact this rfl
  · have : shown (zipimage storeGzip desk [str! "zip", str! "a", str! "a"]) ≠ none := by decide +kernel
    rw [hr] at this; exact this rfl

/-- C108 is FALSE: the output file is emptied before the input is looked at; here the input (the same file, by another name, or any file that is not a gzip file) is none. -/
theorem C108_refuted : ¬ C108_statement := by
  intro h
  rcases hr : unzipimage storeGzip desk [str! "unzip", str! "a", str! "b"] with ex | _ | _
  · have hsh : shown (unzipimage storeGzip desk [str! "unzip", str! "a", str! "b"]) = some (2, none, [7, 7, 7, 7], [], [31, 9, 9]) := by decide +kernel
    rw [hr] at hsh
    simp only [shown, Option.some.injEq, Prod.mk.injEq] at hsh
    obtain ⟨h0, _, _, hc, _⟩ := hsh
    have := h storeGzip desk _ _ _ 1 ex desk_sane rfl hr (by omega)
    rw [hc] at this
    cases this
  · have : shown (unzipimage storeGzip desk [str! "unzip", str! "a", str! "b"]) ≠ none := by decide +kernel
    rw [hr] at this; exact this rfl
  · have : shown (unzipimage storeGzip desk [str! "unzip", str! "a", str! "b"]) ≠ none := by decide +kernel
    rw [hr] at this; exact this rfl

end Disko.Cmd

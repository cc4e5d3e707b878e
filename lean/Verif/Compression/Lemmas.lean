import Verif.Compression.Spec
/-! Helper lemmas for the compression properties. -/
namespace Disko.Compression
open Disko Disko.Compression.Spec

/-! ### The run grouper -/

theorem scanRun_spec (b : UInt8) (fin : Option Nat) (n : Nat) (cs : Bytes) (hn : n ≤ maxInt) :
    ∃ m t, cs = List.replicate m b ++ t ∧ n + m ≤ maxInt ∧
      ((scanRun b fin n cs = ((⟨b, n + m⟩, none), ⟨t, fin⟩) ∧
          (n + m = maxInt ∨ ∃ c t', t = c :: t' ∧ c ≠ b)) ∨
       (t = [] ∧ n + m < maxInt ∧ fin = none ∧
          scanRun b fin n cs = ((⟨b, n + m⟩, some .eof), ⟨[], fin⟩)) ∨
       (t = [] ∧ n + m < maxInt ∧ ∃ e, fin = some e ∧
          scanRun b fin n cs = ((invalidRLERun, some (.io e)), ⟨[], fin⟩))) := by
  induction cs generalizing n with
  | nil =>
    refine ⟨0, [], rfl, hn, ?_⟩
    by_cases h : n < maxInt
    · cases fin with
      | none => simp [scanRun, h]
      | some e => simp [scanRun, h]
    · have : n = maxInt := by omega
      simp [scanRun, this]
  | cons c cs ih =>
    by_cases h : n < maxInt
    · by_cases hc : c = b
      · obtain ⟨m, t, h1, h2, h3⟩ := ih (n + 1) (by omega)
        refine ⟨m + 1, t, ?_, by omega, ?_⟩
        · rw [h1, hc]; rfl
        · have : scanRun b fin n (c :: cs) = scanRun b fin (n + 1) cs := by
            simp [scanRun, h, hc]
          rw [this]
          have e : n + (m + 1) = n + 1 + m := by omega
          rw [e]; exact h3
      · refine ⟨0, c :: cs, rfl, hn, Or.inl ⟨?_, Or.inr ⟨c, cs, rfl, hc⟩⟩⟩
        simp [scanRun, h, hc]
    · refine ⟨0, c :: cs, rfl, hn, Or.inl ⟨?_, Or.inl (by omega)⟩⟩
      simp [scanRun, h]

/-- Everything about one call of GetNextRun on a non-empty input. -/
theorem getNextRun_spec (b : UInt8) (cs : Bytes) (fin : Option Nat) :
    ∃ n t, b :: cs = List.replicate n b ++ t ∧ 1 ≤ n ∧ n ≤ maxInt ∧
      ((getNextRun ⟨b :: cs, fin⟩ = ((⟨b, n⟩, none), ⟨t, fin⟩) ∧
          (n = maxInt ∨ ∃ c t', t = c :: t' ∧ c ≠ b)) ∨
       (t = [] ∧ n < maxInt ∧ fin = none ∧
          getNextRun ⟨b :: cs, fin⟩ = ((⟨b, n⟩, some .eof), ⟨[], fin⟩)) ∨
       (t = [] ∧ n < maxInt ∧ ∃ e, fin = some e ∧
          getNextRun ⟨b :: cs, fin⟩ = ((invalidRLERun, some (.io e)), ⟨[], fin⟩))) := by
  obtain ⟨m, t, h1, h2, h3⟩ := scanRun_spec b fin 1 cs (by decide)
  refine ⟨1 + m, t, ?_, by omega, h2, h3⟩
  rw [h1, Nat.add_comm]; rfl

theorem getNextRun_nil (fin : Option Nat) :
    getNextRun ⟨[], fin⟩ = ((invalidRLERun, some (Src.endErr ⟨[], fin⟩)), ⟨[], fin⟩) := rfl

/-! ### Chunk view of the writers -/

/-- The writes CompressRLE8 issues for one run. -/
def chunks8 (b : UInt8) (n : Nat) : List Bytes :=
  if n ≥ 2 then
    let repeatCount := if n > 257 then 255 else n - 2
    [b, b, UInt8.ofNat repeatCount] :: chunks8 b (n - (repeatCount + 2))
  else if n = 1 then [[b]] else []
termination_by n
decreasing_by grind

/-- The writes CompressRLERecursive issues for one run. -/
def chunksRec (b : UInt8) (n : Nat) : List Bytes :=
  if n = 1 then [[b]]
  else if n ≥ 2 then
    [[b, b], List.replicate ((n - 2) / 255) 255, [UInt8.ofNat ((n - 2) % 255)]]
  else []

def writeCount {W : Type} (k : Sink W) : List Bytes → W → Nat → W × Nat × Option Nat
  | [], w, total => (w, total, none)
  | p :: ps, w, total =>
    match k.write w p with
    | (w', _, some e) => (w', total, some e)
    | (w', m, none) => writeCount k ps w' (total + m)

theorem emitRun8_eq {W : Type} (k : Sink W) (b : UInt8) (n : Nat) (w : W) (total : Nat) :
    emitRun8 k b n w total = writeCount k (chunks8 b n) w total := by
  induction n using Nat.strongRecOn generalizing w total with
  | ind n ih =>
    rw [emitRun8, chunks8]
    by_cases h : n ≥ 2
    · simp only [h, if_true, writeCount]
      generalize k.write w _ = r
      obtain ⟨w', m, e⟩ := r
      cases e with
      | some e => rfl
      | none => exact ih _ (by split <;> omega) _ _
    · by_cases h1 : n = 1
      · subst h1
        rcases hk : k.write w [b] with ⟨w', m, _ | e⟩ <;> simp [writeCount, hk]
      · simp [h, h1, writeCount]

theorem write_len {W : Type} (k : Sink W) {w : W} {p : Bytes} {w' : W} {m : Nat}
    (h : k.write w p = (w', m, none)) : m = p.length := by
  have := (k.law w p).2.2; rw [h] at this; exact this rfl

theorem emitRunRec_eq {W : Type} (k : Sink W) (b : UInt8) (n : Nat) (w : W) (total : Nat) :
    emitRunRec k b n w total = writeCount k (chunksRec b n) w total := by
  unfold emitRunRec chunksRec
  by_cases h1 : n = 1
  · simp only [h1, if_true, writeCount]
    rcases h : k.write w [b] with ⟨w', m, _ | e⟩
    · simp [write_len k h]
    · rfl
  · by_cases h : n ≥ 2
    · simp only [h1, h, if_true, if_false, writeCount]
      rcases hw : k.write w [b, b] with ⟨w', m, _ | e⟩
      · have := write_len k hw; subst this
        simp only []
        rcases hw2 : k.write w' (List.replicate ((n - 2) / 255) 255) with ⟨w2, m2, _ | e⟩
        · have := write_len k hw2; subst this
          simp only []
          rcases hw3 : k.write w2 [UInt8.ofNat ((n - 2) % 255)] with ⟨w3, m3, _ | e⟩
          · have := write_len k hw3; subst this
            simp
          · simp
        · simp
      · rfl
    · simp [h1, h, writeCount]

/-- Outcome of issuing a sequence of writes. -/
theorem writeCount_spec {W : Type} (k : Sink W) (cs : List Bytes) (w : W) (total : Nat)
    (hw : k.failure w = none) :
    ((writeCount k cs w total).2.2 = none ∧ k.failure (writeCount k cs w total).1 = none ∧
      k.accepted (writeCount k cs w total).1 = k.accepted w ++ cs.flatten ∧
      (writeCount k cs w total).2.1 = total + cs.flatten.length) ∨
    ∃ e p, (writeCount k cs w total).2.2 = some e ∧
      k.failure (writeCount k cs w total).1 = some e ∧
      k.accepted (writeCount k cs w total).1 = k.accepted w ++ p ∧ p <+: cs.flatten ∧
      (writeCount k cs w total).2.1 ≤ total + p.length := by
  induction cs generalizing w total with
  | nil => left; simp [writeCount, hw]
  | cons p ps ih =>
    obtain ⟨l1, l2, l3⟩ := k.law w p
    have l4 := k.failure_law w p
    rcases h : k.write w p with ⟨w', m, _ | e⟩
    · simp only [h] at l1 l2 l3 l4
      have hm := l3 trivial
      subst hm
      simp only [writeCount, h]
      rcases ih w' (total + p.length) (by simpa [hw] using l4) with ⟨a, b, c, d⟩ | ⟨e, q, a, b, c, d, f⟩
      · left; refine ⟨a, b, ?_, ?_⟩
        · rw [c, l2]; simp
        · rw [d]; simp; omega
      · right; refine ⟨e, p ++ q, a, b, ?_, ?_, ?_⟩
        · rw [c, l2]; simp
        · simpa using d
        · simp; omega
    · simp only [h] at l1 l2 l3 l4
      right
      refine ⟨e, p.take m, by simp [writeCount, h], ?_, ?_, ?_, ?_⟩
      · simpa [writeCount, h] using l4
      · simpa [writeCount, h] using l2
      · exact (List.take_prefix _ _).trans (by simp)
      · simp [writeCount, h]

/-! ### The outer loop -/

/-- What `runLoop` does with an output that never fails. -/
def idealRun (chunks : UInt8 → Nat → List Bytes) (s : Src) : Bytes × Option CErr :=
  match _h : getNextRun s with
  | ((_, some (.io e)), _) => ([], some (.read e))
  | ((run, some .eof), _) => ((chunks run.byte run.runLength).flatten, none)
  | ((run, none), s') =>
    ((chunks run.byte run.runLength).flatten ++ (idealRun chunks s').1, (idealRun chunks s').2)
termination_by s.rest.length
decreasing_by
  all_goals
    have := getNextRun_rest_lt (s := s) (by rw [_h])
    rw [_h] at this; exact this

theorem idealRun_io {chunks : UInt8 → Nat → List Bytes} {s s' : Src} {run e}
    (h : getNextRun s = ((run, some (.io e)), s')) : idealRun chunks s = ([], some (.read e)) := by
  rw [idealRun]; split <;> simp_all

theorem idealRun_eof {chunks : UInt8 → Nat → List Bytes} {s s' : Src} {run}
    (h : getNextRun s = ((run, some .eof), s')) :
    idealRun chunks s = ((chunks run.byte run.runLength).flatten, none) := by
  rw [idealRun]; split <;> simp_all

theorem idealRun_more {chunks : UInt8 → Nat → List Bytes} {s s' : Src} {run}
    (h : getNextRun s = ((run, none), s')) :
    idealRun chunks s = ((chunks run.byte run.runLength).flatten ++ (idealRun chunks s').1,
      (idealRun chunks s').2) := by
  rw [idealRun]; split <;> simp_all

theorem collectRuns_end {s s' : Src} {run e} (h : getNextRun s = ((run, some e), s')) :
    collectRuns s = (if 1 ≤ run.runLength then [run] else [], e) := by
  rw [collectRuns]; split <;> simp_all

theorem collectRuns_more {s s' : Src} {run} (h : getNextRun s = ((run, none), s')) :
    collectRuns s = (run :: (collectRuns s').1, (collectRuns s').2) := by
  rw [collectRuns]; split <;> simp_all

theorem runLoop_io {W : Type} {emit : UInt8 → Nat → W → Nat → W × Nat × Option Nat}
    {s s' : Src} {run e w total} (h : getNextRun s = ((run, some (.io e)), s')) :
    runLoop emit s w total = ⟨w, total, some (.read e)⟩ := by
  rw [runLoop]; split <;> simp_all

theorem runLoop_eof {W : Type} {emit : UInt8 → Nat → W → Nat → W × Nat × Option Nat}
    {s s' : Src} {run w total} (h : getNextRun s = ((run, some .eof), s')) :
    runLoop emit s w total = match emit run.byte run.runLength w total with
    | (w', total', some e) => ⟨w', total', some (.write e)⟩
    | (w', total', none) => ⟨w', total', none⟩ := by
  rw [runLoop]; split <;> simp_all
  rcases emit run.byte run.runLength w total with ⟨w', t', _ | e⟩ <;> rfl

theorem runLoop_more {W : Type} {emit : UInt8 → Nat → W → Nat → W × Nat × Option Nat}
    {s s' : Src} {run w total} (h : getNextRun s = ((run, none), s')) :
    runLoop emit s w total = match emit run.byte run.runLength w total with
    | (w', total', some e) => ⟨w', total', some (.write e)⟩
    | (w', total', none) => runLoop emit s' w' total' := by
  rw [runLoop]; split <;> simp_all
  rcases emit run.byte run.runLength w total with ⟨w', t', _ | e⟩ <;> rfl

theorem runLoop_spec {W : Type} (k : Sink W) (chunks : UInt8 → Nat → List Bytes)
    (emit : UInt8 → Nat → W → Nat → W × Nat × Option Nat)
    (hemit : ∀ b n w t, emit b n w t = writeCount k (chunks b n) w t)
    (s : Src) (w : W) (total : Nat) (hw : k.failure w = none) :
    (k.failure (runLoop emit s w total).out = none ∧
      k.accepted (runLoop emit s w total).out = k.accepted w ++ (idealRun chunks s).1 ∧
      (runLoop emit s w total).err = (idealRun chunks s).2 ∧
      (runLoop emit s w total).count = total + (idealRun chunks s).1.length) ∨
    (∃ e p, k.failure (runLoop emit s w total).out = some e ∧
      (runLoop emit s w total).err = some (.write e) ∧
      k.accepted (runLoop emit s w total).out = k.accepted w ++ p ∧
      p <+: (idealRun chunks s).1 ∧ (runLoop emit s w total).count ≤ total + p.length) := by
  induction h : s.rest.length using Nat.strongRecOn generalizing s w total with
  | ind l ih =>
    rcases heq : getNextRun s with ⟨⟨run, _ | _ | e⟩, s'⟩
    · rw [runLoop_more heq, idealRun_more heq]
      have hlt := getNextRun_rest_lt (s := s) (by rw [heq])
      rw [heq] at hlt
      have hs := writeCount_spec k (chunks run.byte run.runLength) w total hw
      rw [← hemit] at hs
      generalize emit run.byte run.runLength w total = r at hs ⊢
      obtain ⟨w', t', _ | e⟩ := r
      · simp only [reduceCtorEq, false_and, exists_false, or_false, true_and] at hs
        obtain ⟨h1, h2, h3⟩ := hs
        simp only []
        rcases ih _ (by rw [← h]; exact hlt) s' w' t' h1 rfl with
          ⟨a, b, c, d⟩ | ⟨e, p, a, b, c, d, f⟩
        · left; refine ⟨a, ?_, c, ?_⟩
          · rw [b, h2]; simp
          · rw [d, h3]; simp only [List.length_append]; omega
        · right; refine ⟨e, (chunks run.byte run.runLength).flatten ++ p, a, b, ?_, ?_, ?_⟩
          · rw [c, h2]; simp
          · simpa using d
          · simp only [List.length_append]; omega
      · simp only [reduceCtorEq, false_and, false_or, Option.some.injEq] at hs
        obtain ⟨e, p, rfl, h1, h2, h3, h4⟩ := hs
        right; exact ⟨_, p, h1, rfl, h2, h3.trans (List.prefix_append _ _), h4⟩
    · rw [runLoop_eof heq, idealRun_eof heq]
      have hs := writeCount_spec k (chunks run.byte run.runLength) w total hw
      rw [← hemit] at hs
      generalize emit run.byte run.runLength w total = r at hs ⊢
      obtain ⟨w', t', _ | e⟩ := r
      · simp at hs; left; simp [hs]
      · simp only [reduceCtorEq, false_and, false_or, Option.some.injEq] at hs
        obtain ⟨e, p, rfl, h1, h2, h3, h4⟩ := hs
        right; exact ⟨_, p, h1, rfl, h2, h3, h4⟩
    · rw [runLoop_io heq, idealRun_io heq]
      left; simp [hw]

/-- With a buffer as output. -/
theorem runLoop_buffer (chunks : UInt8 → Nat → List Bytes)
    (emit : UInt8 → Nat → Bytes → Nat → Bytes × Nat × Option Nat)
    (hemit : ∀ b n w t, emit b n w t = writeCount bufferSink (chunks b n) w t) (s : Src) :
    (runLoop emit s [] 0).out = (idealRun chunks s).1 ∧
    (runLoop emit s [] 0).err = (idealRun chunks s).2 ∧
    (runLoop emit s [] 0).count = (idealRun chunks s).1.length := by
  rcases runLoop_spec bufferSink chunks emit hemit s [] 0 rfl with ⟨_, b, c, d⟩ | ⟨e, p, a, _⟩
  · refine ⟨?_, c, ?_⟩
    · simpa [bufferSink] using b
    · simpa using d
  · simp [bufferSink] at a

/-! ### RLE8 encoding -/

theorem chunks8_grammar (b : UInt8) (n : Nat) (hn : 1 ≤ n) {e d : Bytes} {o : Option UInt8}
    (hg : RLE8 e d o) (ho : o ≠ some b) :
    RLE8 (e ++ (chunks8 b n).flatten) (d ++ List.replicate n b)
      (if n % 257 = 1 then some b else none) := by
  induction n using Nat.strongRecOn generalizing e d o with
  | ind n ih =>
    rw [chunks8]
    by_cases h1 : n = 1
    · subst h1
      simpa using RLE8.literal b hg ho
    · have h2 : n ≥ 2 := by omega
      simp only [h2, if_true]
      by_cases h3 : n > 257
      · simp only [h3, if_true, List.flatten_cons]
        have := ih (n - (255 + 2)) (by omega) (by omega) (RLE8.repeated b (UInt8.ofNat 255) hg ho) (by simp)
        have e1 : (n - (255 + 2)) % 257 = n % 257 := by omega
        rw [e1] at this
        have e2 : List.replicate ((UInt8.ofNat 255).toNat + 2) b ++ List.replicate (n - (255 + 2)) b
            = List.replicate n b := by
          have e3 : 255 % 2 ^ 8 + 2 + (n - (255 + 2)) = n := by omega
          rw [List.replicate_append_replicate, UInt8.toNat_ofNat', e3]
        rw [List.append_assoc, List.append_assoc, e2] at this
        exact this
      · simp only [h3, if_false, List.flatten_cons]
        have hz : n - (n - 2 + 2) = 0 := by omega
        have hc : chunks8 b 0 = [] := by rw [chunks8]; simp
        rw [hz, hc]
        have := RLE8.repeated b (UInt8.ofNat (n - 2)) hg ho
        have e1 : (UInt8.ofNat (n - 2)).toNat + 2 = n := by
          rw [UInt8.toNat_ofNat']; omega
        rw [e1] at this
        have e2 : ¬ n % 257 = 1 := by omega
        simpa [e2] using this

theorem idealRun_rle8 (s : Src) (hs : s.fin = none) {e d : Bytes} {o : Option UInt8}
    (hg : RLE8 e d o) (ho : ∀ c cs, s.rest = c :: cs → o ≠ some c) :
    (idealRun chunks8 s).2 = none ∧
    ∃ o', RLE8 (e ++ (idealRun chunks8 s).1) (d ++ s.rest) o' := by
  induction h : s.rest.length using Nat.strongRecOn generalizing s e d o with
  | ind l ih =>
    obtain ⟨rest, fin⟩ := s
    simp only at hs; subst hs
    cases rest with
    | nil =>
      rw [idealRun]
      simp [getNextRun_nil, Src.endErr, invalidRLERun, chunks8]
      exact ⟨o, hg⟩
    | cons b cs =>
      have hob := ho b cs rfl
      obtain ⟨n, t, h1, h2, h3, h4⟩ := getNextRun_spec b cs none
      have hgr := chunks8_grammar b n h2 hg hob
      rcases h4 with ⟨hr, h4⟩ | ⟨ht, h5, -, hr⟩ | ⟨_, _, e, he, _⟩
      · rw [idealRun_more hr]
        · have hlen : t.length < l := by
            have := congrArg List.length h1
            simp at this h; omega
          obtain ⟨ha, o', hb⟩ := ih t.length hlen ⟨t, none⟩ rfl hgr (by
            intro c cs' hc
            simp only at hc
            rcases h4 with h4 | ⟨c', t', h5, h6⟩
            · rw [h4]; simp [maxInt]
            · rw [h5] at hc
              simp only [List.cons.injEq] at hc
              obtain ⟨rfl, rfl⟩ := hc
              split
              · simpa using fun x => h6 x.symm
              · simp) rfl
          refine ⟨ha, o', ?_⟩
          simp only [h1]
          simpa using hb
      · rw [idealRun_eof hr]
        rw [ht, List.append_nil] at h1
        rw [h1]
        exact ⟨rfl, _, hgr⟩
      · simp at he

/-! ### RLE8 decoding -/

theorem decLoop_cons_ne {W : Type} (k : Sink W) (fin : Option Nat) (last : Option UInt8) (c : UInt8)
    (rest : Bytes) (w : W) (total : Nat) (h : last ≠ some c) :
    decLoop k fin last (c :: rest) w total =
      match k.write w [c] with
      | (w', _, some e) => ⟨w', total, some (.writeWrapped e)⟩
      | (w', m, none) => decLoop k fin (some c) rest w' (total + m) := by
  cases rest <;> simp only [decLoop, h, if_false] <;>
    rcases k.write w [c] with ⟨w', m, _ | e⟩ <;> rfl

theorem decLoop_grammar {e d : Bytes} {o : Option UInt8} (hg : RLE8 e d o) (fin : Option Nat)
    (rest w : Bytes) (total : Nat) :
    decLoop bufferSink fin none (e ++ rest) w total =
      decLoop bufferSink fin o rest (w ++ d) (total + d.length) := by
  induction hg generalizing rest w total with
  | empty => simp
  | @literal e d o a _ ho ih =>
    rw [List.append_assoc, ih, List.singleton_append, decLoop_cons_ne _ _ _ _ _ _ _ ho]
    simp [bufferSink, Nat.add_assoc]
  | @repeated e d o a c _ ho ih =>
    rw [List.append_assoc, ih]
    simp only [List.cons_append, List.nil_append]
    rw [decLoop_cons_ne _ _ _ _ _ _ _ ho]
    simp [bufferSink, decLoop]
    congr 1
    omega

/-- Every byte string is a sequence of complete groups, or such a sequence
followed by an unfinished pair. -/
theorem rle8_total (rest : Bytes) {e d : Bytes} {o : Option UInt8} (hg : RLE8 e d o)
    (ho : ∀ c cs, rest = c :: cs → o ≠ some c) :
    (∃ d' o', RLE8 (e ++ rest) d' o') ∨
    (∃ e' a d' o', e ++ rest = e' ++ [a, a] ∧ RLE8 e' d' o' ∧ o' ≠ some a) := by
  induction h : rest.length using Nat.strongRecOn generalizing rest e d o with
  | ind l ih =>
    match rest, h with
    | [], _ => left; exact ⟨d, o, by simpa using hg⟩
    | [a], _ => left; exact ⟨_, _, RLE8.literal a hg (ho a [] rfl)⟩
    | a :: b :: t, h =>
      have hoa := ho a _ rfl
      by_cases hab : a = b
      · subst hab
        match t, h with
        | [], _ => right; exact ⟨e, a, d, o, rfl, hg, hoa⟩
        | c :: t', h =>
          have := ih t'.length (by simp at h; omega) t' (RLE8.repeated a c hg hoa) (by simp) rfl
          simpa using this
      · have := ih (b :: t).length (by simp at h ⊢; omega) (b :: t) (RLE8.literal a hg hoa) (by
          intro c cs hc; simp at hc; simpa using fun hh => hab (hh.trans hc.1.symm)) rfl
        simpa using this

/-! ### Recursive RLE -/

theorem chunksRec_grammar (b : UInt8) (n : Nat) (hn : 1 ≤ n) {e d : Bytes} {o : Option UInt8}
    (hg : RRLE e d o) (ho : o ≠ some b) :
    RRLE (e ++ (chunksRec b n).flatten) (d ++ List.replicate n b)
      (if n = 1 then some b else none) := by
  unfold chunksRec
  by_cases h1 : n = 1
  · subst h1; simpa using RRLE.literal b hg ho
  · have h2 : n ≥ 2 := by omega
    simp only [h1, h2, if_true, if_false]
    have hm : (n - 2) % 255 < 255 := Nat.mod_lt _ (by omega)
    have ht : (UInt8.ofNat ((n - 2) % 255)).toNat = (n - 2) % 255 := by
      rw [UInt8.toNat_ofNat']; omega
    have := RRLE.repeated b ((n - 2) / 255) (UInt8.ofNat ((n - 2) % 255)) hg ho (by
      intro hh
      have := congrArg UInt8.toNat hh
      rw [ht] at this
      have h255 : (255 : UInt8).toNat = 255 := by decide
      omega)
    rw [ht] at this
    have e1 : 2 + 255 * ((n - 2) / 255) + (n - 2) % 255 = n := by omega
    rw [e1] at this
    simpa using this

theorem idealRun_rrle (s : Src) (hs : s.fin = none) {e d : Bytes} {o : Option UInt8}
    (hg : RRLE e d o) (ho : ∀ c cs, s.rest = c :: cs → o ≠ some c) :
    (idealRun chunksRec s).2 = none ∧
    ∃ o', RRLE (e ++ (idealRun chunksRec s).1) (d ++ s.rest) o' := by
  induction h : s.rest.length using Nat.strongRecOn generalizing s e d o with
  | ind l ih =>
    obtain ⟨rest, fin⟩ := s
    simp only at hs; subst hs
    cases rest with
    | nil =>
      rw [idealRun]
      simp [getNextRun_nil, Src.endErr, invalidRLERun, chunksRec]
      exact ⟨o, hg⟩
    | cons b cs =>
      have hob := ho b cs rfl
      obtain ⟨n, t, h1, h2, h3, h4⟩ := getNextRun_spec b cs none
      have hgr := chunksRec_grammar b n h2 hg hob
      rcases h4 with ⟨hr, h4⟩ | ⟨ht, h5, -, hr⟩ | ⟨_, _, e, he, _⟩
      · rw [idealRun_more hr]
        · have hlen : t.length < l := by
            have := congrArg List.length h1
            simp at this h; omega
          obtain ⟨ha, o', hb⟩ := ih t.length hlen ⟨t, none⟩ rfl hgr (by
            intro c cs' hc
            simp only at hc
            rcases h4 with h4 | ⟨c', t', h5, h6⟩
            · rw [h4]; simp [maxInt]
            · rw [h5] at hc
              simp only [List.cons.injEq] at hc
              obtain ⟨rfl, rfl⟩ := hc
              split
              · simpa using fun x => h6 x.symm
              · simp) rfl
          refine ⟨ha, o', ?_⟩
          simp only [h1]
          simpa using hb
      · rw [idealRun_eof hr]
        rw [ht, List.append_nil] at h1
        rw [h1]
        exact ⟨rfl, _, hgr⟩
      · simp at he

theorem counts_replicate (a : UInt8) (n k : Nat) (r : UInt8) (hr : r ≠ 255) (rest : Bytes) :
    readRRLE.counts a n (List.replicate k 255 ++ r :: rest) =
      (readRRLE rest).map (List.replicate (n + 255 * k + r.toNat) a ++ ·) := by
  induction k generalizing n with
  | zero => simp [readRRLE.counts, hr]
  | succ k ih =>
    simp only [List.replicate_succ, List.cons_append, readRRLE.counts, if_true]
    rw [ih]
    have : n + 255 + 255 * k + r.toNat = n + 255 * (k + 1) + r.toNat := by omega
    rw [this]

theorem readRRLE_cons_ne (a : UInt8) (rest : Bytes) (h : ∀ c cs, rest = c :: cs → a ≠ c) :
    readRRLE (a :: rest) = (readRRLE rest).map (a :: ·) := by
  cases rest with
  | nil => simp [readRRLE]
  | cons c cs => simp [readRRLE, h c cs rfl]

theorem readRRLE_grammar {e d : Bytes} {o : Option UInt8} (hg : RRLE e d o) (rest : Bytes)
    (ho : ∀ c cs, rest = c :: cs → o ≠ some c) :
    readRRLE (e ++ rest) = (readRRLE rest).map (d ++ ·) := by
  induction hg generalizing rest with
  | empty => simp
  | @literal e d o a _ hoa ih =>
    rw [List.append_assoc, ih _ (by intro c cs hc; simp at hc; rw [← hc.1]; exact hoa)]
    rw [List.singleton_append, readRRLE_cons_ne _ _ (by
      intro c cs hc hac; exact ho c cs hc (by rw [hac]))]
    simp [Function.comp_def]
  | @repeated e d o a k r _ hoa hr ih =>
    rw [List.append_assoc, ih _ (by intro c cs hc; simp at hc; rw [← hc.1]; exact hoa)]
    simp only [List.cons_append, List.nil_append, List.append_assoc, readRRLE, if_true]
    rw [counts_replicate a 2 k r hr]
    simp [Function.comp_def]

/-! ### Maximal runs -/

theorem idealRun_congr (c1 c2 : UInt8 → Nat → List Bytes) (s : Src)
    (h : ∀ r ∈ (collectRuns s).1, (c1 r.byte r.runLength).flatten = (c2 r.byte r.runLength).flatten)
    (h0 : (c1 0 0).flatten = (c2 0 0).flatten) :
    idealRun c1 s = idealRun c2 s := by
  induction hl : s.rest.length using Nat.strongRecOn generalizing s with
  | ind l ih =>
    rcases heq : getNextRun s with ⟨⟨run, _ | _ | e⟩, s'⟩
    · rw [collectRuns_more heq] at h
      rw [idealRun_more heq, idealRun_more heq]
      have hlt := getNextRun_rest_lt (s := s) (by rw [heq])
      rw [heq] at hlt
      rw [ih _ (by rw [← hl]; exact hlt) s' (fun r hr => h r (by simp [hr])) rfl]
      rw [h run (by simp)]
    · rw [collectRuns_end heq] at h
      rw [idealRun_eof heq, idealRun_eof heq]
      by_cases hr : 1 ≤ run.runLength
      · simp [hr] at h; simp [h]
      · obtain ⟨rest, fin⟩ := s
        cases rest with
        | nil => rw [getNextRun_nil] at heq; simp at heq; simp [← heq.1.1, invalidRLERun, h0]
        | cons b cs =>
          obtain ⟨n, t, h1, h2, h3, h4⟩ := getNextRun_spec b cs fin
          rcases h4 with ⟨hr', h4⟩ | ⟨ht, h5, -, hr'⟩ | ⟨_, _, e, he, hr'⟩
          · rw [hr'] at heq; simp at heq
          · rw [hr'] at heq; simp at heq; rw [← heq.1] at hr; simp at hr; omega
          · rw [hr'] at heq; simp at heq
    · rw [idealRun_io heq, idealRun_io heq]

theorem expand_cons (r : ByteRun) (rs : List ByteRun) :
    expand (r :: rs) = List.replicate r.runLength r.byte ++ expand rs := rfl

theorem replicate_append_inj {b : UInt8} {n m : Nat} {t t' : Bytes}
    (h : List.replicate n b ++ t = List.replicate m b ++ t')
    (ht : ∀ c cs, t = c :: cs → c ≠ b) (ht' : ∀ c cs, t' = c :: cs → c ≠ b) : n = m ∧ t = t' := by
  induction n generalizing m with
  | zero =>
    cases m with
    | zero => exact ⟨rfl, by simpa using h⟩
    | succ m =>
      simp [List.replicate_succ] at h
      exact absurd rfl (ht _ _ h)
  | succ n ih =>
    cases m with
    | zero =>
      simp [List.replicate_succ] at h
      exact absurd rfl (ht' _ _ h.symm)
    | succ m =>
      simp [List.replicate_succ] at h
      obtain ⟨a, b⟩ := ih h
      exact ⟨by omega, b⟩

theorem neighbours_tail {r : ByteRun} {rs : List ByteRun} (h : NeighboursDiffer (r :: rs)) :
    NeighboursDiffer rs := by
  cases rs with
  | nil => simp [NeighboursDiffer]
  | cons a t => exact h.2

theorem expand_head_ne {r : ByteRun} {rs : List ByteRun} (h : NeighboursDiffer (r :: rs))
    (hp : ∀ x ∈ rs, 1 ≤ x.runLength) : ∀ c cs, expand rs = c :: cs → c ≠ r.byte := by
  intro c cs hc
  cases rs with
  | nil => simp [expand] at hc
  | cons a t =>
    have ha := hp a (by simp)
    rw [expand_cons] at hc
    obtain ⟨m, hm⟩ : ∃ m, a.runLength = m + 1 := ⟨a.runLength - 1, by omega⟩
    rw [hm, List.replicate_succ] at hc
    simp at hc
    rw [← hc.1]
    exact fun hh => h.1 hh.symm

/-- GetNextRun called repeatedly returns exactly the maximal runs. -/
theorem collectRuns_eq {x : Bytes} {rs : List ByteRun} (h : MaximalRuns x rs)
    (hx : x.length < maxInt) : collectRuns ⟨x, none⟩ = (rs, .eof) := by
  induction rs generalizing x with
  | nil =>
    have : x = [] := by simpa [expand] using h.expands.symm
    subst this
    rw [collectRuns]
    simp [getNextRun_nil, invalidRLERun, Src.endErr]
  | cons r rs ih =>
    have hr := h.nonempty r (by simp)
    have hexp := h.expands
    rw [expand_cons] at hexp
    obtain ⟨m, hm⟩ : ∃ m, r.runLength = m + 1 := ⟨r.runLength - 1, by omega⟩
    have hx' : x = r.byte :: (List.replicate m r.byte ++ expand rs) := by
      rw [← hexp, hm]; rfl
    obtain ⟨n, t, h1, h2, h3, h4⟩ := getNextRun_spec r.byte (List.replicate m r.byte ++ expand rs) none
    rw [← hx'] at h1 h4
    have hnlt : n < maxInt := by
      have := congrArg List.length h1; simp at this; omega
    have hhead := expand_head_ne h.maximal (fun y hy => h.nonempty y (by simp [hy]))
    have ht : ∀ c cs, t = c :: cs → c ≠ r.byte := by
      intro c cs hc
      rcases h4 with ⟨_, h4 | ⟨c', t', h5, h6⟩⟩ | ⟨ht, _⟩ | ⟨ht, _⟩
      · omega
      · rw [h5] at hc; simp at hc; rw [← hc.1]; exact h6
      · rw [ht] at hc; simp at hc
      · rw [ht] at hc; simp at hc
    obtain ⟨e1, e2⟩ := replicate_append_inj (hexp.trans h1) hhead ht
    have hlen : t.length < maxInt := by
      have := congrArg List.length h1; simp at this; omega
    have hrec := ih (x := t) ⟨e2, fun y hy => h.nonempty y (by simp [hy]), neighbours_tail h.maximal⟩ hlen
    rcases h4 with ⟨hg, h4⟩ | ⟨ht', h5, _, hg⟩ | ⟨_, _, e, he, _⟩
    · rw [collectRuns_more hg, hrec]
      obtain ⟨rb, rl⟩ := r
      simp at e1 ⊢; omega
    · rw [collectRuns_end hg]
      have hn : rs = [] := by
        cases rs with
        | nil => rfl
        | cons a t2 =>
          exfalso
          have ha := h.nonempty a (by simp)
          rw [ht', expand_cons] at e2
          have := congrArg List.length e2; simp at this; omega
      obtain ⟨rb, rl⟩ := r
      simp at e1
      simp [h2, hn, e1]
    · simp at he

/-- With a reader that fails at its end: all maximal runs but the last. -/
theorem collectRuns_fail (e : Nat) {x : Bytes} {rs : List ByteRun} (h : MaximalRuns x rs)
    (hx : x.length < maxInt) : collectRuns ⟨x, some e⟩ = (rs.dropLast, .io e) := by
  induction rs generalizing x with
  | nil =>
    have : x = [] := by simpa [expand] using h.expands.symm
    subst this
    rw [collectRuns]
    simp [getNextRun_nil, invalidRLERun, Src.endErr]
  | cons r rs ih =>
    have hr := h.nonempty r (by simp)
    have hexp := h.expands
    rw [expand_cons] at hexp
    obtain ⟨m, hm⟩ : ∃ m, r.runLength = m + 1 := ⟨r.runLength - 1, by omega⟩
    have hx' : x = r.byte :: (List.replicate m r.byte ++ expand rs) := by
      rw [← hexp, hm]; rfl
    obtain ⟨n, t, h1, h2, h3, h4⟩ := getNextRun_spec r.byte (List.replicate m r.byte ++ expand rs) (some e)
    rw [← hx'] at h1 h4
    have hnlt : n < maxInt := by
      have := congrArg List.length h1; simp at this; omega
    have hhead := expand_head_ne h.maximal (fun y hy => h.nonempty y (by simp [hy]))
    have ht : ∀ c cs, t = c :: cs → c ≠ r.byte := by
      intro c cs hc
      rcases h4 with ⟨_, h4 | ⟨c', t', h5, h6⟩⟩ | ⟨ht, _⟩ | ⟨ht, _⟩
      · omega
      · rw [h5] at hc; simp at hc; rw [← hc.1]; exact h6
      · rw [ht] at hc; simp at hc
      · rw [ht] at hc; simp at hc
    obtain ⟨e1, e2⟩ := replicate_append_inj (hexp.trans h1) hhead ht
    have hlen : t.length < maxInt := by
      have := congrArg List.length h1; simp at this; omega
    have hrec := ih (x := t) ⟨e2, fun y hy => h.nonempty y (by simp [hy]), neighbours_tail h.maximal⟩ hlen
    rcases h4 with ⟨hg, h4⟩ | ⟨_, _, he, _⟩ | ⟨ht', h5, e', he, hg⟩
    · rw [collectRuns_more hg, hrec]
      obtain ⟨rb, rl⟩ := r
      have hne : rs ≠ [] := by
        rintro rfl
        rcases h4 with h4 | ⟨c, t', h5, _⟩
        · omega
        · rw [h5] at e2; simp [expand] at e2
      rw [List.dropLast_cons_of_ne_nil hne]
      simp at e1 ⊢; omega
    · simp at he
    · rw [collectRuns_end hg]
      have hn : rs = [] := by
        cases rs with
        | nil => rfl
        | cons a t2 =>
          exfalso
          have ha := h.nonempty a (by simp)
          rw [ht', expand_cons] at e2
          have := congrArg List.length e2; simp at this; omega
      simp only [Option.some.injEq] at he
      subst hn he
      simp [invalidRLERun]

/-- Every input has maximal runs. -/
theorem maximalRuns_exist (x : Bytes) : ∃ rs, MaximalRuns x rs := by
  induction x with
  | nil => exact ⟨[], rfl, by simp, by simp [NeighboursDiffer]⟩
  | cons b x ih =>
    obtain ⟨rs, h1, h2, h3⟩ := ih
    cases rs with
    | nil =>
      refine ⟨[⟨b, 1⟩], ?_, by simp, by simp [NeighboursDiffer]⟩
      simp [expand] at h1 ⊢; exact h1
    | cons r rs =>
      by_cases hb : r.byte = b
      · refine ⟨⟨b, r.runLength + 1⟩ :: rs, ?_, ?_, ?_⟩
        · rw [← h1, expand_cons, expand_cons, hb]; rfl
        · intro y hy; simp at hy
          rcases hy with rfl | hy
          · simp
          · exact h2 y (by simp [hy])
        · cases rs with
          | nil => simp [NeighboursDiffer]
          | cons a t => exact ⟨by rw [← hb]; exact h3.1, h3.2⟩
      · refine ⟨⟨b, 1⟩ :: r :: rs, ?_, ?_, ⟨fun hh => hb hh.symm, h3⟩⟩
        · rw [expand_cons, h1]; rfl
        · intro y hy; rw [List.mem_cons] at hy
          rcases hy with rfl | hy
          · simp
          · exact h2 y hy

/-- The fault-free output is the concatenation of the encodings of the runs. -/
theorem idealRun_eq_collect (chunks : UInt8 → Nat → List Bytes) (h0 : chunks 0 0 = []) (s : Src)
    (hs : s.fin = none) :
    idealRun chunks s = ((collectRuns s).1.flatMap fun r => (chunks r.byte r.runLength).flatten, none) := by
  induction hl : s.rest.length using Nat.strongRecOn generalizing s with
  | ind l ih =>
    obtain ⟨rest, fin⟩ := s
    simp only at hs; subst hs
    cases rest with
    | nil =>
      rw [idealRun_eof (getNextRun_nil none), collectRuns_end (getNextRun_nil none)]
      simp [invalidRLERun, h0]
    | cons b cs =>
      obtain ⟨n, t, h1, h2, h3, h4⟩ := getNextRun_spec b cs none
      rcases h4 with ⟨hg, h4⟩ | ⟨ht', h5, _, hg⟩ | ⟨_, _, e, he, _⟩
      · have hlt : t.length < l := by
          have := congrArg List.length h1; simp at this hl; omega
        have := ih _ hlt ⟨t, none⟩ rfl rfl
        rw [idealRun_more hg, collectRuns_more hg, this]; rfl
      · rw [idealRun_eof hg, collectRuns_end hg]; simp [h2]
      · simp at he

/-! ### Decompression with failing outputs -/

/-- What `decLoop` does with an output that never fails. -/
def idealDec (fin : Option Nat) : Option UInt8 → Bytes → Bytes × Option CErr
  | _, [] => ([], fin.map .readWrapped)
  | last, [c] =>
    if last = some c then
      match fin with
      | none => ([], some .unexpectedEOF)
      | some e => ([], some (.readWrapped e))
    else ([c], fin.map .readWrapped)
  | last, c :: r :: rest =>
    if last = some c then
      (List.replicate (r.toNat + 1) c ++ (idealDec fin none rest).1, (idealDec fin none rest).2)
    else (c :: (idealDec fin (some c) (r :: rest)).1, (idealDec fin (some c) (r :: rest)).2)

theorem decLoop_spec {W : Type} (k : Sink W) (fin : Option Nat) (last : Option UInt8) (rest : Bytes)
    (w : W) (total : Nat) (hw : k.failure w = none) :
    (k.failure (decLoop k fin last rest w total).out = none ∧
      k.accepted (decLoop k fin last rest w total).out =
        k.accepted w ++ (idealDec fin last rest).1 ∧
      (decLoop k fin last rest w total).err = (idealDec fin last rest).2 ∧
      (decLoop k fin last rest w total).count = total + (idealDec fin last rest).1.length) ∨
    (∃ e p, k.failure (decLoop k fin last rest w total).out = some e ∧
      (decLoop k fin last rest w total).err = some (.writeWrapped e) ∧
      k.accepted (decLoop k fin last rest w total).out = k.accepted w ++ p ∧
      p <+: (idealDec fin last rest).1 ∧
      (decLoop k fin last rest w total).count ≤ total + p.length) := by
  fun_induction decLoop k fin last rest w total with
  | case1 _ _ _ hf => simp [idealDec, hw, hf]
  | case2 _ _ _ _ hf => simp [idealDec, hw, hf]
  | case3 => simp_all [idealDec]
  | case4 => simp_all [idealDec]
  | case5 last c w total hne w' m e hk =>
    right
    have l := k.law w [c]; have l4 := k.failure_law w [c]
    simp only [hk] at l l4
    refine ⟨e, [c].take m, by simpa using l4, rfl, l.2.1, ?_, by simp⟩
    simp only [idealDec, hne, if_false]
    exact List.take_prefix _ _
  | case6 last c w total hne w' m hk ih =>
    have l := k.law w [c]; have l4 := k.failure_law w [c]
    simp only [hk, hw] at l l4
    have hm : m = 1 := by simpa using l.2.2 trivial
    subst hm
    rcases ih (by simpa using l4) with ⟨a, b, d, e⟩ | ⟨e, p, a, b, d, f, g⟩
    · left; refine ⟨a, ?_, ?_, ?_⟩
      · rw [b, l.2.1]; simp [idealDec, hne]
      · rw [d]; simp [idealDec, hne]
      · rw [e]; simp [idealDec, hne]
    · right; refine ⟨e, [c] ++ p, a, b, ?_, ?_, ?_⟩
      · rw [d, l.2.1]; simp
      · simp [idealDec] at f; simp [idealDec, hne, f]
      · simp; omega
  | case7 c r rest w total w' n e hk =>
    right
    have l := k.law w (List.replicate (r.toNat + 1) c)
    have l4 := k.failure_law w (List.replicate (r.toNat + 1) c)
    simp only [hk] at l l4
    refine ⟨_, List.take n (List.replicate (r.toNat + 1) c), by simpa using l4, rfl, l.2.1, ?_, by simp⟩
    simp only [idealDec, if_true]
    exact (List.take_prefix _ _).trans (List.prefix_append _ _)
  | case8 c r rest w total w' m hk ih =>
    have l := k.law w (List.replicate (r.toNat + 1) c)
    have l4 := k.failure_law w (List.replicate (r.toNat + 1) c)
    simp only [hk, hw] at l l4
    have hm : m = r.toNat + 1 := by simpa using l.2.2 trivial
    subst hm
    rcases ih (by simpa using l4) with ⟨a, b, d, e⟩ | ⟨e, p, a, b, d, f, g⟩
    · left; refine ⟨a, ?_, ?_, ?_⟩
      · rw [b, l.2.1]; simp [idealDec]
      · rw [d]; simp [idealDec]
      · rw [e]; simp [idealDec]; omega
    · right; refine ⟨e, List.replicate (r.toNat + 1) c ++ p, a, b, ?_, ?_, ?_⟩
      · rw [d, l.2.1]; simp
      · simp only [idealDec, if_true]; simpa using f
      · simp; omega
  | case9 last c r rest w total hne w' m e hk =>
    right
    have l := k.law w [c]; have l4 := k.failure_law w [c]
    simp only [hk] at l l4
    refine ⟨e, [c].take m, by simpa using l4, rfl, l.2.1, ?_, by simp⟩
    simp only [idealDec, hne, if_false]
    exact (List.take_prefix _ _).trans (by simp)
  | case10 last c r rest w total hne w' m hk ih =>
    have l := k.law w [c]; have l4 := k.failure_law w [c]
    simp only [hk, hw] at l l4
    have hm : m = 1 := by simpa using l.2.2 trivial
    subst hm
    rcases ih (by simpa using l4) with ⟨a, b, d, e⟩ | ⟨e, p, a, b, d, f, g⟩
    · left; refine ⟨a, ?_, ?_, ?_⟩
      · rw [b, l.2.1]; simp [idealDec, hne]
      · rw [d]; simp [idealDec, hne]
      · rw [e]; simp [idealDec, hne]; omega
    · right; refine ⟨e, [c] ++ p, a, b, ?_, ?_, ?_⟩
      · rw [d, l.2.1]; simp
      · simp only [idealDec, hne, if_false]; simpa using f
      · simp; omega

theorem decLoop_buffer (fin : Option Nat) (last : Option UInt8) (rest : Bytes) :
    (decLoop bufferSink fin last rest [] 0).out = (idealDec fin last rest).1 ∧
    (decLoop bufferSink fin last rest [] 0).err = (idealDec fin last rest).2 ∧
    (decLoop bufferSink fin last rest [] 0).count = (idealDec fin last rest).1.length := by
  rcases decLoop_spec bufferSink fin last rest [] 0 rfl with ⟨_, b, c, d⟩ | ⟨e, p, a, _⟩
  · exact ⟨by simpa [bufferSink] using b, c, by simpa using d⟩
  · simp [bufferSink] at a

/-! ### gzip pipeline -/

theorem writeCount_append {W : Type} (k : Sink W) (as bs : List Bytes) (w : W) (t : Nat) :
    writeCount k (as ++ bs) w t = match writeCount k as w t with
      | (w', t', some e) => (w', t', some e)
      | (w', t', none) => writeCount k bs w' t' := by
  induction as generalizing w t with
  | nil => rfl
  | cons a as ih =>
    simp only [List.cons_append, writeCount]
    rcases k.write w a with ⟨w', m, _ | e⟩
    · exact ih _ _
    · rfl

/-- The sequence of writes CompressRLE8 issues for an input that ends in io.EOF. -/
theorem compress_pieces (s : Src) (hs : s.fin = none) :
    ∃ ps : List Bytes, ps.flatten = (idealRun chunks8 s).1 ∧
      ∀ {W : Type} (k : Sink W) (w : W) (t : Nat),
        runLoop (emitRun8 k) s w t = match writeCount k ps w t with
          | (w', t', some e) => ⟨w', t', some (.write e)⟩
          | (w', t', none) => ⟨w', t', none⟩ := by
  induction h : s.rest.length using Nat.strongRecOn generalizing s with
  | ind l ih =>
    rcases heq : getNextRun s with ⟨⟨run, _ | _ | e⟩, s'⟩
    · have hlt := getNextRun_rest_lt (s := s) (by rw [heq])
      rw [heq] at hlt
      have hfin : s'.fin = none := by
        obtain ⟨rest, fin⟩ := s
        simp only at hs; subst hs
        cases rest with
        | nil => simp [getNextRun_nil] at heq
        | cons b cs =>
          obtain ⟨n, t, h1, h2, h3, h4⟩ := getNextRun_spec b cs none
          rcases h4 with ⟨hg, h4⟩ | ⟨ht', h5, _, hg⟩ | ⟨_, _, e, he, _⟩
          · rw [hg] at heq; simp at heq; rw [← heq.2]
          · rw [hg] at heq; simp at heq
          · simp at he
      obtain ⟨ps, hp, hrun⟩ := ih _ (by rw [← h]; exact hlt) s' hfin rfl
      refine ⟨chunks8 run.byte run.runLength ++ ps, ?_, ?_⟩
      · rw [idealRun_more heq, List.flatten_append, hp]
      · intro W k w t
        rw [runLoop_more heq, emitRun8_eq, writeCount_append]
        rcases writeCount k (chunks8 run.byte run.runLength) w t with ⟨w', t', _ | e⟩
        · exact hrun k w' t'
        · rfl
    · refine ⟨chunks8 run.byte run.runLength, ?_, ?_⟩
      · rw [idealRun_eof heq]
      · intro W k w t
        rw [runLoop_eof heq, emitRun8_eq]
    · exfalso
      obtain ⟨rest, fin⟩ := s
      simp only at hs; subst hs
      cases rest with
      | nil => simp [getNextRun_nil, Src.endErr] at heq
      | cons b cs =>
        obtain ⟨n, t, h1, h2, h3, h4⟩ := getNextRun_spec b cs none
        rcases h4 with ⟨hg, h4⟩ | ⟨ht', h5, _, hg⟩ | ⟨_, _, e, he, _⟩
        · rw [hg] at heq; simp at heq
        · rw [hg] at heq; simp at heq
        · simp at he

theorem writeAll_append {W : Type} (k : Sink W) (as bs : List Bytes) (w : W) :
    writeAll k w (as ++ bs) = match writeAll k w as with
      | (w', some e) => (w', some e)
      | (w', none) => writeAll k w' bs := by
  induction as generalizing w with
  | nil => rfl
  | cons a as ih =>
    simp only [List.cons_append, writeAll]
    rcases k.write w a with ⟨w', m, _ | e⟩
    · exact ih _
    · rfl

/-- Writing pieces to gzip and closing it amounts to writing the emitted pieces
to the underlying writer. -/
theorem gz_run (z : Gzip) {W : Type} (k : Sink W) (ps : List Bytes) (g : z.G) (w : W) (fed : Bytes)
    (t : Nat) :
    match writeAll k w (z.emitted g ps) with
    | (w', none) =>
      ∃ st t', writeCount (gzSink z k) ps ⟨g, w, none, fed⟩ t = (st, t', none) ∧
        gzClose z k st = (w', none)
    | (w', some e) =>
      (∃ st t', writeCount (gzSink z k) ps ⟨g, w, none, fed⟩ t = (st, t', none) ∧
        gzClose z k st = (w', some e)) ∨
      (∃ st t', writeCount (gzSink z k) ps ⟨g, w, none, fed⟩ t = (st, t', some e) ∧
        gzClose z k st = (w', some e)) := by
  induction ps generalizing g w fed t with
  | nil =>
    rw [z.emitted_nil]
    simp only [writeCount, gzClose]
    rcases h : writeAll k w (z.finish g) with ⟨w', _ | e⟩
    · exact ⟨_, _, rfl, h⟩
    · exact Or.inl ⟨_, _, rfl, h⟩
  | cons p ps ih =>
    rw [z.emitted_cons, writeAll_append]
    rcases h : writeAll k w (z.feed g p).2 with ⟨w', _ | e⟩
    · simp only []
      have := ih (z.feed g p).1 w' (fed ++ p) (t + p.length)
      simpa [writeCount, gzSink, h] using this
    · simp only []
      right
      refine ⟨⟨(z.feed g p).1, w', some e, fed⟩, t, ?_, rfl⟩
      simp [writeCount, gzSink, h]

theorem writeAll_counting {W : Type} (k : Sink W) (ps : List Bytes) (c : Counting W)
    (hf : k.failure c.inner = none) :
    ((writeAll (countingSink k) c ps).2 = none ∧
      k.failure (writeAll (countingSink k) c ps).1.inner = none ∧
      k.accepted (writeAll (countingSink k) c ps).1.inner = k.accepted c.inner ++ ps.flatten ∧
      (writeAll (countingSink k) c ps).1.bytesWritten = c.bytesWritten + ps.flatten.length) ∨
    (∃ e, (writeAll (countingSink k) c ps).2 = some e ∧
      k.failure (writeAll (countingSink k) c ps).1.inner = some e) := by
  induction ps generalizing c with
  | nil => left; simp [writeAll, hf]
  | cons p ps ih =>
    have l := k.law c.inner p
    have l4 := k.failure_law c.inner p
    rcases h : k.write c.inner p with ⟨w', m, _ | e⟩
    · simp only [h] at l l4
      have hm : m = p.length := l.2.2 trivial
      subst hm
      have hh : (countingSink k).write c p = (⟨w', c.bytesWritten + p.length⟩, p.length, none) := by
        simp [countingSink, h]
      simp only [writeAll, hh]
      rcases ih ⟨w', c.bytesWritten + p.length⟩ (by simpa [hf] using l4) with ⟨a, b, c', d⟩ | hr
      · left; refine ⟨a, b, ?_, ?_⟩
        · rw [c', l.2.1]; simp
        · rw [d]; simp only [List.flatten_cons, List.length_append]; omega
      · right; exact hr
    · simp only [h] at l l4
      right
      have hh : (countingSink k).write c p = (⟨w', c.bytesWritten⟩, m, some e) := by
        simp [countingSink, h]
      refine ⟨e, by simp [writeAll, hh], by simpa [writeAll, hh] using l4⟩

/-! ### Size arithmetic -/

theorem chunks8_length (b : UInt8) (n : Nat) : (chunks8 b n).flatten.length = rle8Cost n := by
  induction n using Nat.strongRecOn with
  | ind n ih =>
    rw [chunks8]
    by_cases h2 : n ≥ 2
    · simp only [h2, if_true]
      by_cases h3 : n > 257
      · simp only [h3, if_true, List.flatten_cons, List.length_append]
        rw [ih _ (by omega)]
        have e1 : (n - (255 + 2)) % 257 = n % 257 := by omega
        have e2 : n / 257 = (n - (255 + 2)) / 257 + 1 := by omega
        simp only [rle8Cost, e1, e2, List.length_cons, List.length_nil]
        omega
      · simp only [h3, if_false, List.flatten_cons, List.length_append]
        have hz : n - (n - 2 + 2) = 0 := by omega
        rw [hz, ih 0 (by omega)]
        by_cases h4 : n = 257
        · subst h4; simp [rle8Cost]
        · have e1 : n % 257 = n := by omega
          have e2 : n / 257 = 0 := by omega
          have e3 : n ≠ 0 := by omega
          have e4 : n ≠ 1 := by omega
          simp [rle8Cost, e1, e2, e3, e4]
    · by_cases h1 : n = 1
      · subst h1; simp [rle8Cost]
      · have : n = 0 := by omega
        subst this; simp [rle8Cost]

end Disko.Compression

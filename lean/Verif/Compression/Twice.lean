import Verif.Compression.Lemmas
/-
Compressing twice with CompressRLERecursive (which is what CompressRLERecursive followed by DecompressRLERecursive does): for which inputs the result is
the input.  Only lemmas; the theorem is C07_exact in `Props2.lean`.
-/
namespace Disko.Compression.Twice
open Disko Disko.Compression Disko.Compression.Spec

/-- How many copies of `c` stand at the end of `z`. -/
def trail (c : UInt8) (z : Bytes) : Nat := (z.reverse.takeWhile (· == c)).length

theorem trail_nil (c : UInt8) : trail c [] = 0 := rfl

theorem trail_same (c : UInt8) (z : Bytes) : trail c (z ++ [c]) = trail c z + 1 := by
  simp [trail]

theorem trail_other {c d : UInt8} (h : d ≠ c) (z : Bytes) : trail c (z ++ [d]) = 0 := by
  simp [trail, h]

theorem trail_rep (c : UInt8) (z : Bytes) (n : Nat) : trail c (z ++ List.replicate n c) = trail c z + n := by
  induction n with
  | zero => simp
  | succ n ih => rw [List.replicate_succ', ← List.append_assoc, trail_same, ih]; omega

theorem trail_rep_ne {c d : UInt8} (h : d ≠ c) (z : Bytes) {n : Nat} (hn : 0 < n) : trail c (z ++ List.replicate n d) = 0 := by
  obtain ⟨m, rfl⟩ : ∃ m, n = m + 1 := ⟨n - 1, by omega⟩
  rw [List.replicate_succ', ← List.append_assoc, trail_other h]

/-- The code of one run. -/
def code (b : UInt8) (n : Nat) : Bytes :=
  if n = 1 then [b] else [b, b] ++ List.replicate ((n - 2) / 255) 255 ++ [UInt8.ofNat ((n - 2) % 255)]

/-- `y` is what CompressRLERecursive makes of `x`. -/
inductive Enc : Bytes → Bytes → Prop
  | nil : Enc [] []
  | snoc {x y : Bytes} (c : UInt8) (m : Nat) : Enc x y → trail c x = 0 → 1 ≤ m → Enc (x ++ List.replicate m c) (y ++ code c m)

/-- Appending whole runs. -/
theorem Enc.runs {x y : Bytes} (h : Enc x y) (rs : List ByteRun) (hn : ∀ r ∈ rs, 1 ≤ r.runLength) (hd : NeighboursDiffer rs)
    (hh : ∀ r, rs.head? = some r → trail r.byte x = 0) : Enc (x ++ expand rs) (y ++ rs.flatMap fun r => code r.byte r.runLength) := by
  induction rs generalizing x y with
  | nil => simpa [expand] using h
  | cons r rs ih =>
    have h1 := Enc.snoc r.byte r.runLength h (hh r rfl) (hn r (by simp))
    have h2 := ih h1 (fun q hq => hn q (by simp [hq])) (neighbours_tail hd) (by
      intro q hq
      cases rs with
      | nil => simp at hq
      | cons a t =>
        simp only [List.head?_cons, Option.some.injEq] at hq; subst hq
        exact trail_rep_ne hd.1 _ (hn r (by simp)))
    rw [expand_cons]
    simpa [List.append_assoc] using h2

theorem enc_compress {x : Bytes} {rs : List ByteRun} (h : MaximalRuns x rs) (hx : x.length < maxInt) :
    (compressRLERecursive bufferSink ⟨x, none⟩ []).out = rs.flatMap (fun r => code r.byte r.runLength) ∧
    Enc x (compressRLERecursive bufferSink ⟨x, none⟩ []).out := by
  have hc : (compressRLERecursive bufferSink ⟨x, none⟩ []).out = rs.flatMap (fun r => code r.byte r.runLength) := by
    obtain ⟨h1, _, _⟩ := runLoop_buffer chunksRec _ (emitRunRec_eq bufferSink) ⟨x, none⟩
    unfold compressRLERecursive
    rw [h1, idealRun_eq_collect chunksRec (by simp [chunksRec]) _ rfl, collectRuns_eq h hx]
    have hn := h.nonempty
    clear h h1 hx
    simp only
    induction rs with
    | nil => rfl
    | cons r rs ih =>
      rw [List.flatMap_cons, List.flatMap_cons, ih fun q hq => hn q (by simp [hq])]
      congr 1
      have := hn r (by simp)
      unfold chunksRec code
      by_cases h1 : r.runLength = 1
      · simp [h1]
      · have h2 : r.runLength ≥ 2 := by omega
        rw [if_neg h1, if_pos h2, if_neg h1]; simp
  refine ⟨hc, ?_⟩
  rw [hc]
  have := Enc.nil.runs rs h.nonempty h.maximal (fun _ _ => rfl)
  rw [h.expands] at this
  simpa using this

theorem code_length (b : UInt8) {n : Nat} (hn : 1 ≤ n) : (code b n).length ≤ 2 * n := by
  unfold code; split
  · simp; omega
  · simp; omega

theorem Enc.length {x y : Bytes} (h : Enc x y) : y.length ≤ 2 * x.length := by
  induction h with
  | nil => simp
  | snoc c m _ _ hm ih =>
    have := code_length c hm
    simp only [List.length_append, List.length_replicate]; omega

/-- The remainder is a byte below 255. -/
theorem rem_ne (n : Nat) : UInt8.ofNat (n % 255) ≠ 255 := by
  intro h
  have := congrArg UInt8.toNat h
  simp at this; omega

theorem rem_toNat (n : Nat) : (UInt8.ofNat (n % 255)).toNat = n % 255 := by
  simp; omega

/-- The last run of a nonempty input. -/
theorem Enc.inv {x y : Bytes} (h : Enc x y) : (x = [] ∧ y = []) ∨ ∃ x0 y0 c m, Enc x0 y0 ∧ trail c x0 = 0 ∧ 1 ≤ m ∧
    x = x0 ++ List.replicate m c ∧ y = y0 ++ code c m := by
  cases h with
  | nil => exact .inl ⟨rfl, rfl⟩
  | snoc c m h1 h2 h3 => exact .inr ⟨_, _, c, m, h1, h2, h3, rfl, rfl⟩

/-- The runs of an input are determined. -/
theorem rep_inj {x x' : Bytes} {c c' : UInt8} {m m' : Nat} (h : x ++ List.replicate m c = x' ++ List.replicate m' c') (hm : 1 ≤ m) (hm' : 1 ≤ m')
    (hx : trail c x = 0) (hx' : trail c' x' = 0) : x = x' ∧ c = c' ∧ m = m' := by
  have hc : c = c' := by
    obtain ⟨k, rfl⟩ : ∃ k, m = k + 1 := ⟨m - 1, by omega⟩
    obtain ⟨k', rfl⟩ : ∃ k, m' = k + 1 := ⟨m' - 1, by omega⟩
    rw [List.replicate_succ', List.replicate_succ', ← List.append_assoc, ← List.append_assoc] at h
    have := congrArg List.getLast? h
    simpa using this
  subst hc
  have hl : m = m' := by
    have := congrArg (trail c) h
    rw [trail_rep, trail_rep, hx, hx'] at this; omega
  subst hl
  exact ⟨List.append_cancel_right h, rfl, rfl⟩

/-- What the code of an input that does not end in `c` has at its end: no `c`, or one: the remainder of the last run. -/
theorem trail_enc {x y : Bytes} (h : Enc x y) {c : UInt8} (hc : trail c x = 0) :
    trail c y = 0 ∨ (trail c y = 1 ∧ c ≠ 255 ∧ ∃ x1 y1 d l, Enc x1 y1 ∧ trail d x1 = 0 ∧ 2 ≤ l ∧ d ≠ c ∧ (l - 2) % 255 = c.toNat ∧
      x = x1 ++ List.replicate l d ∧ y = y1 ++ [d, d] ++ List.replicate ((l - 2) / 255) 255 ++ [c]) := by
  rcases h.inv with ⟨rfl, rfl⟩ | ⟨x1, y1, d, l, h1, h2, h3, rfl, rfl⟩
  · exact .inl rfl
  · have hd : d ≠ c := by
      intro he; subst he
      rw [trail_rep] at hc; omega
    unfold code
    by_cases hl : l = 1
    · rw [if_pos hl, trail_other hd]; exact .inl rfl
    · rw [if_neg hl]
      by_cases hr : UInt8.ofNat ((l - 2) % 255) = c
      · right
        have h5 : c ≠ 255 := hr ▸ rem_ne _
        have ht : (l - 2) % 255 = c.toNat := by rw [← hr, rem_toNat]
        rw [hr]
        refine ⟨?_, h5, x1, y1, d, l, h1, h2, by omega, hd, ht, rfl, by simp [List.append_assoc]⟩
        rw [← List.append_assoc, trail_same]
        by_cases hk : (l - 2) / 255 = 0
        · rw [hk]
          have : y1 ++ ([d, d] ++ List.replicate 0 255) = (y1 ++ [d]) ++ [d] := by simp
          rw [this, trail_other hd]
        · rw [← List.append_assoc, trail_rep_ne (fun h => h5 h.symm) _ (by omega)]
      · left
        rw [← List.append_assoc, trail_other hr]

/-- Inputs whose runs are single bytes or 1, 1, 1. -/
inductive Good : Bytes → Prop
  | nil : Good []
  | one {x : Bytes} (c : UInt8) : Good x → trail c x = 0 → Good (x ++ [c])
  | three {x : Bytes} : Good x → trail 1 x = 0 → Good (x ++ [1, 1, 1])

/-- The end of a code. -/
theorem code_last (c : UInt8) {m : Nat} (hm : 2 ≤ m) : code c m = [c, c] ++ List.replicate ((m - 2) / 255) 255 ++ [UInt8.ofNat ((m - 2) % 255)] := by
  unfold code; rw [if_neg (by omega)]

/-- If the last run of `y` is one byte, the last run of its code, `x`, is not longer, given that `y` is the code of `x`. -/
theorem single {x y x0 y0 w0 v0 : Bytes} {c d : UInt8} {m j : Nat} (h1 : Enc x0 y0) (h2 : trail c x0 = 0)
    (hx : x = x0 ++ List.replicate m c) (hy : y = y0 ++ code c m) (g2 : trail d w0 = 0) (g3 : 1 ≤ j)
    (gy : y = w0 ++ List.replicate j d) (gx : x = v0 ++ code d j) (hm : m = 1) : j = 1 := by
  subst hm
  by_cases hj : j = 1
  · exact hj
  exfalso
  have hyc : y = y0 ++ [c] := by rw [hy]; rfl
  have hxc : x = x0 ++ [c] := by rw [hx]; rfl
  have hdc : d = c := by
    have h := hyc.symm.trans gy
    obtain ⟨k, rfl⟩ : ∃ k, j = k + 1 := ⟨j - 1, by omega⟩
    rw [List.replicate_succ', ← List.append_assoc] at h
    have := congrArg List.getLast? h
    simp at this; exact this.symm
  subst hdc
  have hty : trail d y0 + 1 = j := by
    have := congrArg (trail d) (hyc.symm.trans gy)
    rw [trail_same, trail_rep, g2] at this; omega
  rw [code_last d (by omega)] at gx
  have h := hxc.symm.trans gx
  rw [← List.append_assoc] at h
  obtain ⟨h3, h4⟩ := List.append_inj' h rfl
  simp only [List.cons.injEq, and_true] at h4
  have hd5 : d ≠ 255 := h4 ▸ rem_ne _
  by_cases hk : (j - 2) / 255 = 0
  · rw [hk] at h3
    have : x0 = (v0 ++ [d]) ++ [d] := by rw [h3]; simp
    rw [this, trail_same] at h2; omega
  · rcases trail_enc h1 h2 with h5 | ⟨h5, _⟩
    · omega
    · omega

/-- Two inputs that are each other's codes have only such runs. -/
theorem good_of_twice {x y : Bytes} (h : Enc x y) (g : Enc y x) : Good x ∧ x = y := by
  induction hl : x.length using Nat.strongRecOn generalizing x y with
  | ind n ih =>
    rcases h.inv with ⟨rfl, rfl⟩ | ⟨x0, y0, c, m, h1, h2, h3, hx, hy⟩
    · exact ⟨.nil, rfl⟩
    rcases g.inv with ⟨rfl, rfl⟩ | ⟨w0, v0, d, j, g1, g2, g3, gy, gx⟩
    · have := congrArg List.length hx; simp at this; omega
    have hmj : m = 1 ↔ j = 1 :=
      ⟨fun hm => single h1 h2 hx hy g2 g3 gy gx hm, fun hj => single g1 g2 gy gx h2 h3 hx hy hj⟩
    by_cases hm : m = 1
    · have hj := hmj.1 hm
      subst hm hj
      have e1 : y0 ++ [c] = w0 ++ [d] := by rw [← show y = y0 ++ [c] from hy]; exact gy
      have e2 : v0 ++ [d] = x0 ++ [c] := by rw [← show x = v0 ++ [d] from gx]; exact hx
      obtain ⟨e3, e4⟩ := List.append_inj' e1 rfl
      obtain ⟨e5, _⟩ := List.append_inj' e2 rfl
      simp only [List.cons.injEq, and_true] at e4
      subst e3 e5 e4
      obtain ⟨i1, i2⟩ := ih v0.length (by rw [← hl, hx]; simp) h1 g1 rfl
      refine ⟨?_, ?_⟩
      · rw [hx]; exact .one c i1 h2
      · rw [hx, hy, i2]; rfl
    · have hm2 : 2 ≤ m := by omega
      have hj2 : 2 ≤ j := by omega
      rw [code_last c hm2] at hy
      rw [code_last d hj2] at gx
      have tx : trail c x = m := by rw [hx, trail_rep, h2]; omega
      have ty : trail d y = j := by rw [gy, trail_rep, g2]; omega
      -- the last bytes
      have ly : UInt8.ofNat ((m - 2) % 255) = d := by
        have h := hy.symm.trans gy
        obtain ⟨k, rfl⟩ : ∃ k, j = k + 1 := ⟨j - 1, by omega⟩
        rw [List.replicate_succ'] at h
        simp only [← List.append_assoc] at h
        have := (List.append_inj' h rfl).2
        simpa only [List.cons.injEq, and_true] using this
      have lx : UInt8.ofNat ((j - 2) % 255) = c := by
        have h := gx.symm.trans hx
        obtain ⟨k, rfl⟩ : ∃ k, m = k + 1 := ⟨m - 1, by omega⟩
        rw [List.replicate_succ'] at h
        simp only [← List.append_assoc] at h
        have := (List.append_inj' h rfl).2
        simpa only [List.cons.injEq, and_true] using this
      have d5 : d ≠ 255 := ly ▸ rem_ne _
      have c5 : c ≠ 255 := lx ▸ rem_ne _
      have k0 : (m - 2) / 255 = 0 := by
        by_cases hk : (m - 2) / 255 = 0
        · exact hk
        · exfalso
          rw [hy, ly, ← List.append_assoc, trail_same, ← List.append_assoc, trail_rep_ne (fun h => d5 h.symm) _ (by omega)] at ty
          omega
      have k0' : (j - 2) / 255 = 0 := by
        by_cases hk : (j - 2) / 255 = 0
        · exact hk
        · exfalso
          rw [gx, lx, ← List.append_assoc, trail_same, ← List.append_assoc, trail_rep_ne (fun h => c5 h.symm) _ (by omega)] at tx
          omega
      have hcd : c = d := by
        by_cases hcd : c = d
        · exact hcd
        · exfalso
          have : y = ((y0 ++ [c]) ++ [c]) ++ [d] := by rw [hy, k0, ly]; simp
          rw [this, trail_same, trail_other hcd] at ty
          omega
      subst hcd
      have hy' : y = y0 ++ [c, c, c] := by rw [hy, k0, ly]; simp
      have hx' : x = v0 ++ [c, c, c] := by rw [gx, k0', lx]; simp
      have mc : m = c.toNat + 2 := by have := congrArg UInt8.toNat ly; rw [rem_toNat] at this; omega
      have jc : j = c.toNat + 2 := by have := congrArg UInt8.toNat lx; rw [rem_toNat] at this; omega
      have ty0 : trail c y0 + 3 = j := by
        have : y = y0 ++ List.replicate 3 c := hy'
        rw [this, trail_rep] at ty; exact ty
      have tv0 : trail c v0 + 3 = m := by
        have : x = v0 ++ List.replicate 3 c := hx'
        rw [this, trail_rep] at tx; exact tx
      have t1 := trail_enc h1 h2
      have t2 := trail_enc g1 g2
      by_cases hc1 : c.toNat = 1
      · have hc : c = 1 := by apply UInt8.toNat.inj; rw [hc1]; rfl
        have m3 : m = 3 := by omega
        have j3 : j = 3 := by omega
        subst m3 j3
        have e1 : v0 = x0 := List.append_cancel_right (hx'.symm.trans hx)
        have e2 : y0 = w0 := List.append_cancel_right (hy'.symm.trans gy)
        subst e1 e2
        obtain ⟨i1, i2⟩ := ih v0.length (by rw [← hl, hx']; simp) h1 g1 rfl
        subst hc
        refine ⟨?_, ?_⟩
        · rw [hx']; exact .three i1 h2
        · rw [hx', hy', i2]
      · exfalso
        have hc2 : c.toNat = 2 := by
          rcases t1 with t1 | ⟨t1, _⟩ <;> omega
        have m4 : m = 4 := by omega
        have j4 : j = 4 := by omega
        have e1 : v0 = x0 ++ [c] := by
          have h := hx'.symm.trans hx
          rw [m4] at h
          have : x0 ++ List.replicate 4 c = (x0 ++ [c]) ++ [c, c, c] := by simp [List.replicate]
          rw [this] at h; exact List.append_cancel_right h
        have e2 : y0 = w0 ++ [c] := by
          have h := hy'.symm.trans gy
          rw [j4] at h
          have : w0 ++ List.replicate 4 c = (w0 ++ [c]) ++ [c, c, c] := by simp [List.replicate]
          rw [this] at h; exact List.append_cancel_right h
        rcases t1 with t1 | ⟨_, _, x1, y1, p, l, a1, a2, a3, a4, a5, a6, a7⟩
        · omega
        rcases t2 with t2 | ⟨_, _, w1, v1, q, l', b1, b2, b3, b4, b5, b6, b7⟩
        · omega
        have a8 : w0 = y1 ++ [p, p] ++ List.replicate ((l - 2) / 255) 255 := List.append_cancel_right (e2.symm.trans a7)
        have b8 : x0 = v1 ++ [q, q] ++ List.replicate ((l' - 2) / 255) 255 := List.append_cancel_right (e1.symm.trans b7)
        have tp : trail p x0 = l := by rw [a6, trail_rep, a2]; omega
        have tq : trail q w0 = l' := by rw [b6, trail_rep, b2]; omega
        have ends : ∀ {z : Bytes} {u : UInt8} {n : Nat}, 0 < trail u z → ∀ v, v ≠ u → trail v z = 0 := by
          intro z u _ hz v hv
          rcases List.eq_nil_or_concat z with rfl | ⟨z', e, rfl⟩
          · rfl
          · by_cases he : e = u
            · subst he; rw [List.concat_eq_append, trail_other (fun h => hv h.symm)]
            · rw [List.concat_eq_append, trail_other he] at hz; omega
        -- the copies of 255 at the ends of the two codes
        have z1 : trail p y1 ≤ 1 ∧ (p = 255 → trail p y1 = 0) := by
          rcases trail_enc a1 a2 with t | ⟨t, t', _⟩
          · exact ⟨by omega, fun _ => t⟩
          · exact ⟨by omega, fun h => absurd h t'⟩
        have z2 : trail q v1 ≤ 1 ∧ (q = 255 → trail q v1 = 0) := by
          rcases trail_enc b1 b2 with t | ⟨t, t', _⟩
          · exact ⟨by omega, fun _ => t⟩
          · exact ⟨by omega, fun h => absurd h t'⟩
        have wend : ∀ n, trail p (y1 ++ [p, p] ++ List.replicate n 255) = if n = 0 then trail p y1 + 2 else if p = 255 then trail p y1 + 2 + n else 0 := by
          intro n
          have e : trail p (y1 ++ [p, p]) = trail p y1 + 2 := by
            rw [show y1 ++ [p, p] = y1 ++ List.replicate 2 p from rfl, trail_rep]
          by_cases hn : n = 0
          · subst hn; simp [e]
          · rw [if_neg hn]
            by_cases hp : p = 255
            · rw [if_pos hp]
              rw [show List.replicate n (255 : UInt8) = List.replicate n p by rw [hp], trail_rep, e]
            · rw [if_neg hp, trail_rep_ne (fun h => hp h.symm) _ (by omega)]
        have xend : ∀ n, trail q (v1 ++ [q, q] ++ List.replicate n 255) = if n = 0 then trail q v1 + 2 else if q = 255 then trail q v1 + 2 + n else 0 := by
          intro n
          have e : trail q (v1 ++ [q, q]) = trail q v1 + 2 := by
            rw [show v1 ++ [q, q] = v1 ++ List.replicate 2 q from rfl, trail_rep]
          by_cases hn : n = 0
          · subst hn; simp [e]
          · rw [if_neg hn]
            by_cases hp : q = 255
            · rw [if_pos hp]
              rw [show List.replicate n (255 : UInt8) = List.replicate n q by rw [hp], trail_rep, e]
            · rw [if_neg hp, trail_rep_ne (fun h => hp h.symm) _ (by omega)]
        have w5 : 0 < (l - 2) / 255 → 0 < trail 255 w0 := by
          intro h; rw [a8, trail_rep]; omega
        have x5 : 0 < (l' - 2) / 255 → 0 < trail 255 x0 := by
          intro h; rw [b8, trail_rep]; omega
        have q5 : 0 < (l - 2) / 255 → q = 255 := by
          intro h
          by_cases hq : q = 255
          · exact hq
          · have := ends (n := 0) (w5 h) q hq; omega
        have p5 : 0 < (l' - 2) / 255 → p = 255 := by
          intro h
          by_cases hq : p = 255
          · exact hq
          · have := ends (n := 0) (x5 h) p hq; omega
        have wl := wend ((l - 2) / 255)
        rw [← a8] at wl
        have xl := xend ((l' - 2) / 255)
        rw [← b8] at xl
        by_cases hk : (l - 2) / 255 = 0
        · rw [if_pos hk] at wl
          have hpq : q = p := by
            by_cases hpq : q = p
            · exact hpq
            · have := ends (n := 0) (z := w0) (u := p) (by omega) q hpq; omega
          subst hpq
          omega
        · rw [if_neg hk] at wl
          have hq := q5 (by omega)
          by_cases hk' : (l' - 2) / 255 = 0
          · rw [if_pos hk'] at xl
            have hpq : p = q := by
              by_cases hpq : p = q
              · exact hpq
              · have := ends (n := 0) (z := x0) (u := q) (by omega) p hpq; omega
            subst hpq
            omega
          · rw [if_neg hk', if_pos hq] at xl
            have hp := p5 (by omega)
            rw [if_pos hp] at wl
            have hpq : p = q := hp.trans hq.symm
            subst hpq
            have := z1.2 hp
            have := z2.2 hq
            omega

/-- Inputs with only such runs are their own codes. -/
theorem Good.enc {x : Bytes} (h : Good x) : Enc x x := by
  induction h with
  | nil => exact .nil
  | one c _ h2 ih => exact .snoc c 1 ih h2 (by omega)
  | three _ h2 ih => exact .snoc 1 3 ih h2 (by omega)

/-- A code is determined by its input. -/
theorem Enc.unique {x y z : Bytes} (h : Enc x y) (g : Enc x z) : y = z := by
  induction h generalizing z with
  | nil =>
    rcases g.inv with ⟨_, rfl⟩ | ⟨x0, y0, c, m, _, _, hm, hx, _⟩
    · rfl
    · have := congrArg List.length hx; simp at this; omega
  | snoc c m h1 h2 h3 ih =>
    rcases g.inv with ⟨hx, _⟩ | ⟨x0, y0, c', m', g1, g2, g3, gx, rfl⟩
    · have := congrArg List.length hx; simp at this; omega
    · obtain ⟨rfl, rfl, rfl⟩ := rep_inj gx h3 g3 h2 g2
      rw [ih g1]

/-- In terms of the runs. -/
theorem good_runs {x : Bytes} {rs : List ByteRun} (h : MaximalRuns x rs) : Good x ↔ ∀ r ∈ rs, r.runLength = 1 ∨ r = ⟨1, 3⟩ := by
  have key : ∀ (z : Bytes) (rs : List ByteRun), (∀ r ∈ rs, 1 ≤ r.runLength) → NeighboursDiffer rs → (∀ r, rs.head? = some r → trail r.byte z = 0) →
      (Good (z ++ expand rs) ↔ Good z ∧ ∀ r ∈ rs, r.runLength = 1 ∨ r = ⟨1, 3⟩) := by
    intro z rs
    induction rs generalizing z with
    | nil => intro _ _ _; simp [expand]
    | cons r rs ih =>
      intro hn hd hh
      have h1 := hn r (by simp)
      have ht := hh r rfl
      rw [expand_cons, ← List.append_assoc, ih _ (fun q hq => hn q (by simp [hq])) (neighbours_tail hd) (by
        intro q hq
        cases rs with
        | nil => simp at hq
        | cons a t =>
          simp only [List.head?_cons, Option.some.injEq] at hq; subst hq
          exact trail_rep_ne hd.1 _ h1)]
      have : Good (z ++ List.replicate r.runLength r.byte) ↔ Good z ∧ (r.runLength = 1 ∨ r = ⟨1, 3⟩) := by
        constructor
        · intro hg
          generalize hz : z ++ List.replicate r.runLength r.byte = u at hg
          cases hg with
          | nil => have := congrArg List.length hz; simp at this; omega
          | one c g1 g2 =>
            obtain ⟨rfl, e1, e2⟩ := rep_inj (m' := 1) hz h1 (by omega) ht g2
            exact ⟨g1, .inl e2⟩
          | three g1 g2 =>
            obtain ⟨rfl, e1, e2⟩ := rep_inj (m' := 3) hz h1 (by omega) ht g2
            refine ⟨g1, .inr ?_⟩
            cases r; simp only at e1 e2; rw [e1, e2]
        · rintro ⟨g1, e | e⟩
          · rw [e]; exact .one _ g1 ht
          · subst e; exact .three g1 ht
      rw [this]
      simp only [List.mem_cons, forall_eq_or_imp]
      constructor
      · rintro ⟨⟨a, b⟩, c⟩; exact ⟨a, b, c⟩
      · rintro ⟨a, b, c⟩; exact ⟨⟨a, b⟩, c⟩
  have := key [] rs h.nonempty h.maximal (fun _ _ => rfl)
  rw [List.nil_append, h.expands] at this
  rw [this]
  exact ⟨fun h => h.2, fun h => ⟨.nil, h⟩⟩

end Disko.Compression.Twice

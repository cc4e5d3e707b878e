import Verif.Driver.Contents
/-! What a call can do to the state and which errors it can return, carried through the sequencing
combinators and path resolution. -/
namespace Disko.Driver
open Disko Spec BlockCache

variable {σ H α β : Type}

/-- Whenever the call returns, the state after it is related to the one before by `R`, and an error
satisfies `E`. -/
def Keeps (R : σ → σ → Prop) (E : Err → Prop) (m : M σ α) : Prop :=
  ∀ s s' r, m s = .ret (s', r) → R s s' ∧ ∀ e, r = .error e → E e

/-- `R` is a preorder. -/
structure Pre (R : σ → σ → Prop) : Prop where
  refl : ∀ s, R s s
  trans : ∀ {a b c}, R a b → R b c → R a c

theorem Pre.eq : Pre (fun a b : σ => b = a) := ⟨fun _ => rfl, fun h k => k.trans h⟩
theorem Pre.top : Pre (fun _ _ : σ => True) := ⟨fun _ => trivial, fun _ _ => trivial⟩

section
variable {R : σ → σ → Prop} {E : Err → Prop} (P : Pre R)
include P

theorem Keeps.ok (a : α) : Keeps R E (M.ok a : M σ α) := by
  intro s s' r h; cases h; exact ⟨P.refl s, fun _ h => by cases h⟩
theorem Keeps.fail {e : Err} (he : E e) : Keeps R E (M.fail e : M σ α) := by
  intro s s' r h; cases h; exact ⟨P.refl s, fun _ h => by cases h; exact he⟩
omit P in
theorem Keeps.crash : Keeps R E (M.crash : M σ α) := by intro s s' r h; cases h
omit P in
theorem Keeps.timeout : Keeps R E (fun _ => .timeout : M σ α) := by intro s s' r h; cases h
theorem Keeps.andThen {m : M σ α} {f : α → M σ β} (h : Keeps R E m) (hf : ∀ a, Keeps R E (f a)) : Keeps R E (M.andThen m f) := by
  intro s s' r h1
  unfold M.andThen at h1
  rcases e : m s with ⟨s1, er | a⟩ | _ | _
  · rw [e] at h1; cases h1
    exact ⟨(h _ _ _ e).1, fun e' he => by cases he; exact (h _ _ _ e).2 _ rfl⟩
  · rw [e] at h1
    obtain ⟨h2, h3⟩ := hf a _ _ _ h1
    exact ⟨P.trans (h _ _ _ e).1 h2, h3⟩
  · rw [e] at h1; cases h1
  · rw [e] at h1; cases h1
/-- The continuation need only cope with the errors that can occur. -/
theorem Keeps.either {E' : Err → Prop} {m : M σ α} {f : Except Err α → M σ β} (h : Keeps R E' m)
    (hf : ∀ a, Keeps R E (f (.ok a))) (hfe : ∀ e, E' e → Keeps R E (f (.error e))) : Keeps R E (M.either m f) := by
  intro s s' r h1
  unfold M.either at h1
  rcases e : m s with ⟨s1, er | a⟩ | _ | _
  · rw [e] at h1
    obtain ⟨h2, h3⟩ := hfe er ((h _ _ _ e).2 er rfl) _ _ _ h1
    exact ⟨P.trans (h _ _ _ e).1 h2, h3⟩
  · rw [e] at h1
    obtain ⟨h2, h3⟩ := hf a _ _ _ h1
    exact ⟨P.trans (h _ _ _ e).1 h2, h3⟩
  · rw [e] at h1; cases h1
  · rw [e] at h1; cases h1
omit P in
theorem Keeps.weaken {E' : Err → Prop} {m : M σ α} (h : Keeps R E m) (hw : ∀ e, E e → E' e) : Keeps R E' m := by
  intro s s' r h1
  exact ⟨(h _ _ _ h1).1, fun e he => hw e ((h _ _ _ h1).2 e he)⟩
theorem Keeps.deferred {E' : Err → Prop} {c : M σ Unit} {m : M σ α} (hc : Keeps R E' c) (h : Keeps R E m) : Keeps R E (M.deferred c m) := by
  intro s s' r h1
  unfold M.deferred M.either at h1
  rcases e : m s with ⟨s1, r1⟩ | _ | _
  · rw [e] at h1
    simp only at h1
    rcases e2 : c s1 with ⟨s2, r2⟩ | _ | _
    · rw [e2] at h1; cases h1
      exact ⟨P.trans (h _ _ _ e).1 (hc _ _ _ e2).1, (h _ _ _ e).2⟩
    · rw [e2] at h1; cases h1
    · rw [e2] at h1; cases h1
  · rw [e] at h1; cases h1
  · rw [e] at h1; cases h1
omit P in
theorem Keeps.ite {p : Prop} [Decidable p] {m k : M σ α} (h : p → Keeps R E m) (hk : ¬ p → Keeps R E k) : Keeps R E (if p then m else k) := by
  by_cases hp : p
  · rw [if_pos hp]; exact h hp
  · rw [if_neg hp]; exact hk hp
omit P in
theorem Keeps.method {e : Ext H} {f : H → M σ α} (h : ∀ x, Keeps R E (f x)) : Keeps R E (e.method f) := by
  unfold Ext.method
  split
  · exact Keeps.crash
  · exact h _
omit P in
theorem Keeps.call {f : σ → σ × Except Err α} (h : ∀ s, R s (f s).1 ∧ ∀ e, (f s).2 = .error e → E e) : Keeps R E (M.call f) := by
  intro s s' r h1
  simp only [M.call, Outcome.ret.injEq] at h1
  have := h s
  rw [h1] at this
  exact this
omit P in
theorem Keeps.callE {f : σ → σ × Option Err} (h : ∀ s, R s (f s).1 ∧ ∀ e, (f s).2 = some e → E e) : Keeps R E (M.callE f) := by
  intro s s' r h1
  have hk := h s
  unfold M.callE at h1
  rcases e : f s with ⟨s1, _ | er⟩
  · rw [e] at h1 hk; cases h1; exact ⟨hk.1, fun _ h => by cases h⟩
  · rw [e] at h1 hk; cases h1; exact ⟨hk.1, fun _ h => by cases h; exact hk.2 _ rfl⟩
theorem Keeps.statOf (d : Drv σ H) (e : Ext H) : Keeps R E (statOf d e) :=
  Keeps.method fun h => by intro s s' r h1; cases h1; exact ⟨P.refl s, fun _ h => by cases h⟩

variable (d : Drv σ H)

/-- Path resolution, given what its primitives do. -/
theorem resolve_keeps (hg : ∀ s n h, R s (d.impl.getObject s n h).1 ∧ ∀ e, (d.impl.getObject s n h).2 = .error e → E e)
    (hc : ∀ s h, R s (d.impl.close s h).1) (hcont : ∀ e, Keeps R E (getContentsOfObject d e))
    (h1 : E .notADirectory) (h2 : E .linkCycleDetected) : ∀ n : Nat,
    (∀ p, Keeps R E (getNoFollow d n p)) ∧ (∀ p, Keeps R E (getFollow d n p)) ∧
    (∀ e, Keeps R E (followLoop d n e)) ∧ (∀ e, Keeps R E (resolveSymlink d n e)) ∧
    (∀ c e, Keeps R E (symlinkLoop d n c e))
  | 0 => ⟨fun p => by rw [getNoFollow]; exact Keeps.timeout, fun p => by rw [getFollow]; exact Keeps.timeout,
      fun p => by rw [followLoop]; exact Keeps.timeout, fun p => by rw [resolveSymlink]; exact Keeps.timeout,
      fun c p => by rw [symlinkLoop]; exact Keeps.timeout⟩
  | n + 1 => by
    obtain ⟨i1, i2, i3, i4, i5⟩ := resolve_keeps hg hc hcont h1 h2 n
    have hcl : ∀ e : Ext H, Keeps R (fun _ => True) (closeOf d e) := fun e =>
      Keeps.method fun h => Keeps.callE fun s => ⟨hc s h, fun _ _ => trivial⟩
    refine ⟨fun p => ?_, fun p => ?_, fun e => ?_, fun e => ?_, fun c e => ?_⟩
    · rw [getNoFollow]
      refine Keeps.ite (fun _ => ?_) fun _ => Keeps.andThen P (i2 _) fun _ => Keeps.deferred P (hcl _) <| Keeps.andThen P (Keeps.statOf P d _)
        fun _ => Keeps.ite (fun _ => Keeps.fail P h1) fun _ => Keeps.method fun x => Keeps.andThen P (Keeps.call fun s => hg s _ _) fun _ => Keeps.ok P _
      intro s s' r h; cases h; exact ⟨P.refl s, fun _ h => by cases h⟩
    · rw [getFollow]
      exact Keeps.andThen P (i1 _) fun _ => i3 _
    · rw [followLoop]
      exact Keeps.andThen P (Keeps.statOf P d _) fun _ => Keeps.ite (fun _ => Keeps.ok P _) fun _ =>
        Keeps.andThen P (Keeps.deferred P (hcl _) (i4 _)) fun _ => i3 _
    · rw [resolveSymlink]
      exact Keeps.andThen P (Keeps.statOf P d _) fun _ => Keeps.ite (fun _ => Keeps.ok P _) fun _ => i5 _ _
    · rw [symlinkLoop]
      exact Keeps.andThen P (Keeps.deferred P (hcl _) (hcont _)) fun _ => Keeps.ite (fun _ => Keeps.fail P h2) fun _ =>
        Keeps.andThen P (i1 _) fun _ => Keeps.andThen P (Keeps.statOf P d _) fun _ => Keeps.ite (fun _ => Keeps.ok P _) fun _ => i5 _ _

end

/-! ### Reading the contents of an object -/

/-- Opening a file without O_TRUNC leaves the state as it is, and the new cache is clean. -/
theorem newFile_spec (d : Drv σ H) (e : Ext H) (flags : Flags.IOFlags) {s s' : σ} {r : Except Err (File H)}
    (h : newFile d e flags s = .ret (s', r)) :
    (Flags.truncate flags = false → s' = s ∧ ∀ f, r = .ok f → ∀ j, f.cache.dirty.getD j false = false) ∧
    (∀ er, r = .error er → ∃ se, er = .stream se) ∧ (∀ f, r = .ok f → f.objectHandle = e) := by
  rcases e with ⟨_ | x, p⟩
  · unfold newFile M.andThen statOf Ext.method at h; cases h
  · unfold newFile at h
    rw [andThen_ok (a := d.impl.stat s x) (s' := s) rfl] at h
    simp only [Ext.method] at h
    rcases hc : BlockCache.new (Stream.toUint (d.impl.stat s x).blockSize) (Stream.toUint (d.impl.stat s x).numBlocks) with c | _ | _
    · rw [hc] at h
      simp only at h
      rcases hn : Stream.new (backendOf d.impl x) (d.impl.stat s x).size ⟨c, s⟩ flags with ⟨o, e⟩ | _ | _
      · rw [hn] at h
        have hst : Flags.truncate flags = false → ∀ y, o = some y → y.st = ⟨c, s⟩ := by
          intro ht y hy
          unfold Stream.new at hn
          split at hn
          · simp only [Outcome.pure_eq] at hn; cases hn; cases hy
          · simp only [ht] at hn; cases hn; cases hy; rfl
        rcases o with _ | y <;> rcases e with _ | er
        · simp only at h; cases h
        · simp only at h; cases h
          exact ⟨fun _ => ⟨rfl, fun _ h => by cases h⟩, fun _ h => by cases h; exact ⟨_, rfl⟩, fun _ h => by cases h⟩
        · simp only at h; cases h
          refine ⟨fun ht => ?_, fun _ h => (by cases h), fun _ h => (by cases h; rfl)⟩
          have := hst ht y rfl
          refine ⟨by rw [this], fun f hf => ?_⟩
          cases hf
          simp only [this]
          exact new_dirty hc
        · simp only at h; cases h
          refine ⟨fun ht => ⟨by rw [hst ht y rfl], fun _ h => by cases h⟩, fun _ h => by cases h; exact ⟨_, rfl⟩, fun _ h => by cases h⟩
      · rw [hn] at h; cases h
      · rw [hn] at h; cases h
    · rw [hc] at h; cases h
    · rw [hc] at h; cases h

/-- The only errors of getContentsOfObject are I/O errors. -/
theorem contents_errors (d : Drv σ H) (e : Ext H) : Keeps (fun _ _ => True) (fun er => ∃ se, er = .ioFailed se) (getContentsOfObject d e) := by
  unfold getContentsOfObject
  refine Keeps.either Pre.top (E' := fun er => ∃ se, er = .stream se) ?_ (fun f => ?_) (fun er her => ?_)
  · intro s s' r h
    exact ⟨trivial, (newFile_spec d e _ h).2.1⟩
  · refine Keeps.andThen Pre.top (Keeps.statOf Pre.top d e) fun st => Keeps.ite (fun _ => Keeps.crash) fun _ =>
      Keeps.andThen Pre.top ?_ fun x => Keeps.deferred Pre.top (E' := fun _ => True) ?_ ?_
    · refine Keeps.method fun h => ?_
      intro s s' r h1
      refine ⟨trivial, fun er her => ?_⟩
      subst her
      simp only at h1
      split at h1 <;> cases h1
    · intro s s' r _
      exact ⟨trivial, fun _ _ => trivial⟩
    · split
      · exact Keeps.fail Pre.top ⟨_, rfl⟩
      · exact Keeps.ok Pre.top _
  · obtain ⟨se, rfl⟩ := her
    exact Keeps.fail Pre.top ⟨_, rfl⟩

/-- Reading the contents of an object leaves the state as it is, if ReadBlocks does. -/
theorem contents_still (d : Drv σ H) (hr : ∀ s h i buf, (d.impl.readBlocks s h i buf).1 = s) (e : Ext H) :
    Keeps (fun s s' => s' = s) (fun _ => True) (getContentsOfObject d e) := by
  intro s s' r h
  refine ⟨?_, fun _ _ => trivial⟩
  unfold getContentsOfObject M.either at h
  rcases h1 : newFile d e Flags.O_RDONLY s with ⟨s1, er | f⟩ | _ | _
  · obtain ⟨k, k2, _⟩ := newFile_spec d e _ h1
    obtain ⟨se, rfl⟩ := k2 er rfl
    rw [h1] at h
    cases h
    exact (k (by decide)).1
  · obtain ⟨k, _, k3⟩ := newFile_spec d e _ h1
    obtain ⟨hs1, hcl⟩ := k (by decide)
    subst hs1
    have hcl := hcl f rfl
    have hoh := k3 f rfl
    rcases e with ⟨_ | x, p⟩
    · unfold newFile M.andThen statOf Ext.method at h1; cases h1
    · rw [h1] at h
      simp only at h
      rw [andThen_ok (a := d.impl.stat s1 x) (s' := s1) rfl] at h
      split at h
      · cases h
      · unfold File.read at h
        rw [hoh] at h
        rcases h2 : Stream.read (backendOf d.impl x) (f.streamIn s1) (List.replicate (d.impl.stat s1 x).size.toNat 0) with ⟨y, rr⟩ | _ | _
        · obtain ⟨q1, q2⟩ := read_quiet (b := backendOf d.impl x) (fun s i buf => hr s x i buf) h2
          rw [andThen_ok (a := (f.after y, rr.buf, rr.err)) (s' := s1) (by simp only [Ext.method, h2]; rw [q1]; rfl)] at h
          simp only at h
          have hb : ∀ (m : M σ Bytes), (∀ q q' t, m q = .ret (q', t) → q' = q) →
              M.deferred (M.andThen ((f.after y).close d) fun _ => M.ok ()) m s1 = .ret (s', r) → s' = s1 := by
            intro m hm h3
            unfold M.deferred M.either at h3
            rcases h4 : m s1 with ⟨s2, r2⟩ | _ | _
            · rw [h4] at h3
              have hs2 := hm _ _ _ h4
              subst hs2
              simp only at h3
              have hin : ((f.after y).streamIn s2).st.c.dirty = y.st.c.dirty := rfl
              have hq3 : ∀ j, ((f.after y).streamIn s2).st.c.dirty.getD j false = false := fun j => by rw [hin]; exact q2 hcl j
              have hclose : ∀ q t, (f.after y).close d s2 = .ret (q, t) → q = s2 := by
                intro q t h5
                unfold File.close at h5
                rw [show (f.after y).objectHandle = f.objectHandle from rfl, hoh] at h5
                simp only [Ext.method] at h5
                rcases h6 : Stream.sync (backendOf d.impl x) ((f.after y).streamIn s2) with ⟨z, ez⟩ | _ | _
                · have := sync_clean hq3 h6
                  rw [h6] at h5
                  rcases ez with _ | ez <;> (simp only at h5; cases h5; exact this)
                · rw [h6] at h5; cases h5
                · rw [h6] at h5; cases h5
              unfold M.andThen at h3
              rcases h7 : (f.after y).close d s2 with ⟨q, er | t⟩ | _ | _
              · rw [h7] at h3; cases h3; exact hclose _ _ h7
              · rw [h7] at h3; cases h3; exact hclose _ _ h7
              · rw [h7] at h3; cases h3
              · rw [h7] at h3; cases h3
            · rw [h4] at h3; cases h3
            · rw [h4] at h3; cases h3
          refine hb _ ?_ h
          intro q q' t h8
          rcases e9 : rr.err with _ | e
          · rw [e9] at h8; cases h8; rfl
          · rw [e9] at h8; cases h8; rfl
        · rw [andThen_panic (by simp only [Ext.method, h2])] at h; cases h
        · rw [andThen_timeout (by simp only [Ext.method, h2])] at h; cases h
  · rw [h1] at h; cases h
  · rw [h1] at h; cases h

end Disko.Driver

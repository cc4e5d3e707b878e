import Verif.Driver.Recording
import Verif.Driver.History
/-! Object handles have a life: from GetObject, CreateObject or CreateHardLink to Close.  An
implementation whose handles remember theirs, and what the driver's calls do to it. -/
namespace Disko.Driver
open Disko Spec BlockCache

variable {σ H α β : Type}

namespace Spec

/-- The state of an implementation, with the number of handles given out so far, the numbers of those
closed, and whether a method other than Close was ever called on a closed handle. -/
structure Lives (σ : Type) where
  s : σ
  issued : Nat
  closed : List Nat
  misused : Bool

/-- A handle with its number.  The handles GetRootDirectory returns have none. -/
abbrev Tagged (H : Type) := H × Option Nat

/-- Whether the handle has been closed. -/
def Lives.dead (t : Lives σ) (h : Tagged H) : Bool :=
  match h.2 with
  | none => false
  | some k => decide (k ∈ t.closed)

/-- A method is called on `h` and leaves the state `s'`. -/
def Lives.use (t : Lives σ) (h : Tagged H) (s' : σ) : Lives σ := { t with s := s', misused := t.misused || t.dead h }

/-- A new handle is given out. -/
def Lives.issue (t : Lives σ) : Except Err H → Lives σ × Except Err (Tagged H)
  | .ok h => ({ t with issued := t.issued + 1 }, .ok (h, some t.issued))
  | .error e => (t, .error e)

/-- The handle is closed. -/
def Lives.close (t : Lives σ) (h : Tagged H) (s' : σ) : Lives σ :=
  match h.2 with
  | none => { t with s := s' }
  | some k => { t with s := s', closed := k :: t.closed }

/-- What Stat, Name and SameAs say about handles that have been closed. -/
structure Garbage (σ H : Type) where
  stat : Lives σ → Tagged H → FileStat
  name : Lives σ → Tagged H → Str
  sameAs : Lives σ → Tagged H → Tagged H → Bool

/-- The implementation `I`, with handles that become useless when they are closed: Stat, Name and SameAs
then say anything, and other methods leave a mark.  (Handles can be closed more than once.) -/
def mortal (I : Impl σ H) (g : Garbage σ H) : Impl (Lives σ) (Tagged H) where
  features := I.features
  getRootDirectory t := (I.getRootDirectory t.s, none)
  getObject t n p := (t.use p (I.getObject t.s n p.1).1).issue (I.getObject t.s n p.1).2
  createObject t n p m := (t.use p (I.createObject t.s n p.1 m).1).issue (I.createObject t.s n p.1 m).2
  createHardLink := I.createHardLink.map fun f t o p n => ((t.use o t.s).use p (f t.s o.1 p.1 n).1).issue (f t.s o.1 p.1 n).2
  stat t h := if t.dead h then g.stat t h else I.stat t.s h.1
  name t h := if t.dead h then g.name t h else I.name t.s h.1
  sameAs t h h' := if t.dead h || t.dead h' then g.sameAs t h h' else I.sameAs t.s h.1 h'.1
  resize t h n := (t.use h (I.resize t.s h.1 n).1, (I.resize t.s h.1 n).2)
  readBlocks t h i buf := (t.use h (I.readBlocks t.s h.1 i buf).1, (I.readBlocks t.s h.1 i buf).2)
  writeBlocks t h i buf := (t.use h (I.writeBlocks t.s h.1 i buf).1, (I.writeBlocks t.s h.1 i buf).2)
  unlink t h := (t.use h (I.unlink t.s h.1).1, (I.unlink t.s h.1).2)
  close t h := (t.close h (I.close t.s h.1).1, (I.close t.s h.1).2)
  listDir h := (I.listDir h.1).map fun f t => (t.use h (f t.s).1, (f t.s).2)
  chmod h := (I.chmod h.1).map fun f t m => (t.use h (f t.s m).1, (f t.s m).2)
  chown h := (I.chown h.1).map fun f t u v => (t.use h (f t.s u v).1, (f t.s u v).2)
  chtimes h := (I.chtimes h.1).map fun f t a b c e v => (t.use h (f t.s a b c e v).1, (f t.s a b c e v).2)

/-- Nothing has been given out yet. -/
def Lives.start (s : σ) : Lives σ := ⟨s, 0, [], false⟩

end Spec

namespace Mortal

/-! ### What a call may do -/

/-- The numbers of closed handles have been given out. -/
def Lives.Inv (t : Lives σ) : Prop := ∀ k ∈ t.closed, k < t.issued

/-- The number of the handle in a wrapper. -/
def tag (e : Ext (Tagged H)) : Option Nat := e.inner.bind (·.2)

theorem tag_some {e : Ext (Tagged H)} {h : Tagged H} (he : e.inner = some h) : tag e = h.2 := by unfold tag; rw [he]; rfl

/-- From `t` to `t'` no closed handle was used, and only handles with numbers in `A` were closed. -/
structure Step (A : Nat → Prop) (t t' : Lives σ) : Prop where
  fine : t'.misused = t.misused
  more : t.issued ≤ t'.issued
  only : ∀ k ∈ t'.closed, k ∈ t.closed ∨ A k

theorem Step.refl {A : Nat → Prop} (t : Lives σ) : Step A t t := ⟨rfl, Nat.le_refl _, fun _ h => .inl h⟩
theorem Step.trans {A : Nat → Prop} {a b c : Lives σ} (h : Step A a b) (k : Step A b c) : Step A a c :=
  ⟨k.fine.trans h.fine, Nat.le_trans h.more k.more, fun x hx => (k.only x hx).elim (h.only x) .inr⟩
theorem Step.mono {A B : Nat → Prop} {a b : Lives σ} (h : Step A a b) (hb : ∀ k, A k → B k) : Step B a b :=
  ⟨h.fine, h.more, fun x hx => (h.only x hx).imp id (hb x)⟩

/-- `A` has all numbers not given out yet. -/
def Room (A : Nat → Prop) (t : Lives σ) : Prop := ∀ k, t.issued ≤ k → A k
/-- The numbers not given out yet. -/
def New (t : Lives σ) (k : Nat) : Prop := t.issued ≤ k
theorem room_new (t : Lives σ) : Room (New t) t := fun _ h => h
theorem Room.step {A B : Nat → Prop} {t t' : Lives σ} (h : Room A t) (k : Step B t t') : Room A t' := fun x hx => h x (Nat.le_trans k.more hx)

/-- The handle, if it has a number, is open. -/
def Live (t : Lives σ) (e : Ext (Tagged H)) : Prop := ∀ k, tag e = some k → k < t.issued ∧ k ∉ t.closed
/-- The handle, if it has a number, has one in `A`. -/
def Tied (A : Nat → Prop) (t : Lives σ) (e : Ext (Tagged H)) : Prop := ∀ k, tag e = some k → A k ∧ k < t.issued
/-- Both. -/
structure Owned (A : Nat → Prop) (t : Lives σ) (e : Ext (Tagged H)) : Prop where
  live : Live t e
  held : Tied A t e

theorem Live.step {A : Nat → Prop} {t t' : Lives σ} {e : Ext (Tagged H)} (h : Live t e) (k : Step A t t') (hA : ∀ i, tag e = some i → ¬ A i) : Live t' e :=
  fun i hi => ⟨Nat.lt_of_lt_of_le (h i hi).1 k.more, fun hm => (k.only i hm).elim (h i hi).2 (hA i hi)⟩
theorem Live.stepNew {t t' : Lives σ} {e : Ext (Tagged H)} (h : Live t e) (k : Step (New t) t t') : Live t' e :=
  h.step k fun i hi ha => Nat.lt_irrefl _ (Nat.lt_of_lt_of_le (h i hi).1 ha)
theorem Tied.step {A B : Nat → Prop} {t t' : Lives σ} {e : Ext (Tagged H)} (h : Tied A t e) (k : Step B t t') : Tied A t' e :=
  fun i hi => ⟨(h i hi).1, Nat.lt_of_lt_of_le (h i hi).2 k.more⟩
theorem Tied.mono {A B : Nat → Prop} {t : Lives σ} {e : Ext (Tagged H)} (h : Tied A t e) (hb : ∀ k, A k → B k) : Tied B t e :=
  fun i hi => ⟨hb i (h i hi).1, (h i hi).2⟩
theorem Owned.mono {A B : Nat → Prop} {t : Lives σ} {e : Ext (Tagged H)} (h : Owned A t e) (hb : ∀ k, A k → B k) : Owned B t e := ⟨h.live, h.held.mono hb⟩

theorem live_dead {t : Lives σ} {e : Ext (Tagged H)} {h : Tagged H} (hl : Live t e) (he : e.inner = some h) : t.dead h = false := by
  have ht := tag_some he
  unfold Lives.dead
  rcases h with ⟨x, _ | k⟩
  · rfl
  · simp only [decide_eq_false_iff_not]
    exact (hl k ht).2

/-- Called in state `t`, both calls do the same; no closed handle is used, only handles in `A` are
closed, and a result satisfies `Q`. -/
def SafeAt (A : Nat → Prop) (t : Lives σ) (m m' : M (Lives σ) α) (Q : Lives σ → α → Prop) : Prop :=
  m t = m' t ∧ ∀ t' r, m' t = .ret (t', r) → Step A t t' ∧ Lives.Inv t' ∧ ∀ a, r = .ok a → Q t' a

namespace SafeAt
variable {A B : Nat → Prop} {t : Lives σ} {m m' : M (Lives σ) α} {Q : Lives σ → α → Prop}

theorem mono (h : SafeAt A t m m' Q) (hb : ∀ k, A k → B k) : SafeAt B t m m' Q :=
  ⟨h.1, fun t' r e => ⟨(h.2 t' r e).1.mono hb, (h.2 t' r e).2⟩⟩
theorem room (h : SafeAt (New t) t m m' Q) (hr : Room B t) : SafeAt B t m m' Q := h.mono hr
theorem imp {Q' : Lives σ → α → Prop} (h : SafeAt A t m m' Q) (hq : ∀ t' a, Step A t t' → Q t' a → Q' t' a) : SafeAt A t m m' Q' :=
  ⟨h.1, fun t' r e => ⟨(h.2 t' r e).1, (h.2 t' r e).2.1, fun a ha => hq _ _ (h.2 t' r e).1 ((h.2 t' r e).2.2 a ha)⟩⟩
theorem ok (hi : Lives.Inv t) {a : α} (hq : Q t a) : SafeAt A t (M.ok a) (M.ok a) Q :=
  ⟨rfl, fun t' r e => by cases e; exact ⟨.refl t, hi, fun a h => by cases h; exact hq⟩⟩
theorem fail (hi : Lives.Inv t) {e : Err} : SafeAt A t (M.fail e) (M.fail e) Q :=
  ⟨rfl, fun t' r e => by cases e; exact ⟨.refl t, hi, fun a h => by cases h⟩⟩
theorem crash : SafeAt A t M.crash M.crash Q := ⟨rfl, fun t' r e => by cases e⟩
theorem timeout : SafeAt A t (fun _ => .timeout) (fun _ => .timeout) Q := ⟨rfl, fun t' r e => by cases e⟩
theorem ite {p : Prop} [Decidable p] {k k' : M (Lives σ) α} (h : p → SafeAt A t m m' Q) (hk : ¬ p → SafeAt A t k k' Q) :
    SafeAt A t (if p then m else k) (if p then m' else k') Q := by
  by_cases hp : p
  · rw [if_pos hp, if_pos hp]; exact h hp
  · rw [if_neg hp, if_neg hp]; exact hk hp
theorem method {e : Ext (Tagged H)} {f f' : Tagged H → M (Lives σ) α} (h : ∀ x, e.inner = some x → SafeAt A t (f x) (f' x) Q) :
    SafeAt A t (e.method f) (e.method f') Q := by
  unfold Ext.method
  split
  · exact crash
  · rename_i x hx; exact h x hx

theorem either {Q2 : Lives σ → β → Prop} {f f' : Except Err α → M (Lives σ) β} (h : SafeAt A t m m' Q)
    (hf : ∀ t1 a, Step A t t1 → Lives.Inv t1 → Q t1 a → SafeAt A t1 (f (.ok a)) (f' (.ok a)) Q2)
    (hfe : ∀ t1 e, Step A t t1 → Lives.Inv t1 → SafeAt A t1 (f (.error e)) (f' (.error e)) Q2) : SafeAt A t (M.either m f) (M.either m' f') Q2 := by
  obtain ⟨h1, h2⟩ := h
  unfold SafeAt M.either
  rw [h1]
  rcases e : m' t with ⟨t1, er | a⟩ | _ | _
  · obtain ⟨k1, k2, _⟩ := h2 _ _ e
    obtain ⟨k4, k5⟩ := hfe t1 er k1 k2
    exact ⟨k4, fun t' r hr => ⟨k1.trans (k5 _ _ hr).1, (k5 _ _ hr).2⟩⟩
  · obtain ⟨k1, k2, k3⟩ := h2 _ _ e
    obtain ⟨k4, k5⟩ := hf t1 a k1 k2 (k3 a rfl)
    exact ⟨k4, fun t' r hr => ⟨k1.trans (k5 _ _ hr).1, (k5 _ _ hr).2⟩⟩
  · exact ⟨rfl, fun t' r hr => by cases hr⟩
  · exact ⟨rfl, fun t' r hr => by cases hr⟩

theorem andThen {Q2 : Lives σ → β → Prop} {f f' : α → M (Lives σ) β} (h : SafeAt A t m m' Q)
    (hf : ∀ t1 a, Step A t t1 → Lives.Inv t1 → Q t1 a → SafeAt A t1 (f a) (f' a) Q2) : SafeAt A t (M.andThen m f) (M.andThen m' f') Q2 := by
  obtain ⟨h1, h2⟩ := h
  unfold SafeAt M.andThen
  rw [h1]
  rcases e : m' t with ⟨t1, er | a⟩ | _ | _
  · obtain ⟨k1, k2, _⟩ := h2 _ _ e
    exact ⟨rfl, fun t' r hr => by cases hr; exact ⟨k1, k2, fun a h => by cases h⟩⟩
  · obtain ⟨k1, k2, k3⟩ := h2 _ _ e
    obtain ⟨k4, k5⟩ := hf t1 a k1 k2 (k3 a rfl)
    exact ⟨k4, fun t' r hr => ⟨k1.trans (k5 _ _ hr).1, (k5 _ _ hr).2⟩⟩
  · exact ⟨rfl, fun t' r hr => by cases hr⟩
  · exact ⟨rfl, fun t' r hr => by cases hr⟩

/-- The first call closes less. -/
theorem eitherSub {Q2 : Lives σ → β → Prop} {f f' : Except Err α → M (Lives σ) β} (hB : ∀ k, B k → A k) (h : SafeAt B t m m' Q)
    (hf : ∀ t1 a, Step B t t1 → Lives.Inv t1 → Q t1 a → SafeAt A t1 (f (.ok a)) (f' (.ok a)) Q2)
    (hfe : ∀ t1 e, Step B t t1 → Lives.Inv t1 → SafeAt A t1 (f (.error e)) (f' (.error e)) Q2) : SafeAt A t (M.either m f) (M.either m' f') Q2 := by
  obtain ⟨h1, h2⟩ := h
  unfold SafeAt M.either
  rw [h1]
  rcases e : m' t with ⟨t1, er | a⟩ | _ | _
  · obtain ⟨k1, k2, _⟩ := h2 _ _ e
    obtain ⟨k4, k5⟩ := hfe t1 er k1 k2
    exact ⟨k4, fun t' r hr => ⟨(k1.mono hB).trans (k5 _ _ hr).1, (k5 _ _ hr).2⟩⟩
  · obtain ⟨k1, k2, k3⟩ := h2 _ _ e
    obtain ⟨k4, k5⟩ := hf t1 a k1 k2 (k3 a rfl)
    exact ⟨k4, fun t' r hr => ⟨(k1.mono hB).trans (k5 _ _ hr).1, (k5 _ _ hr).2⟩⟩
  · exact ⟨rfl, fun t' r hr => by cases hr⟩
  · exact ⟨rfl, fun t' r hr => by cases hr⟩

/-- The first call closes less. -/
theorem andThenSub {Q2 : Lives σ → β → Prop} {f f' : α → M (Lives σ) β} (hB : ∀ k, B k → A k) (h : SafeAt B t m m' Q)
    (hf : ∀ t1 a, Step B t t1 → Lives.Inv t1 → Q t1 a → SafeAt A t1 (f a) (f' a) Q2) : SafeAt A t (M.andThen m f) (M.andThen m' f') Q2 := by
  obtain ⟨h1, h2⟩ := h
  unfold SafeAt M.andThen
  rw [h1]
  rcases e : m' t with ⟨t1, er | a⟩ | _ | _
  · obtain ⟨k1, k2, _⟩ := h2 _ _ e
    exact ⟨rfl, fun t' r hr => by cases hr; exact ⟨k1.mono hB, k2, fun a h => by cases h⟩⟩
  · obtain ⟨k1, k2, k3⟩ := h2 _ _ e
    obtain ⟨k4, k5⟩ := hf t1 a k1 k2 (k3 a rfl)
    exact ⟨k4, fun t' r hr => ⟨(k1.mono hB).trans (k5 _ _ hr).1, (k5 _ _ hr).2⟩⟩
  · exact ⟨rfl, fun t' r hr => by cases hr⟩
  · exact ⟨rfl, fun t' r hr => by cases hr⟩

/-- The handle `e` is closed on the way out. -/
theorem deferred {c c' : M (Lives σ) Unit} {Q2 : Lives σ → α → Prop} (h : SafeAt A t m m' Q)
    (hc : ∀ t1 r, Step A t t1 → Lives.Inv t1 → m' t = .ret (t1, r) → SafeAt A t1 c c' fun _ _ => True)
    (hq : ∀ t1 t2 a u, Q t1 a → c' t1 = .ret (t2, u) → Q2 t2 a) : SafeAt A t (M.deferred c m) (M.deferred c' m') Q2 := by
  obtain ⟨h1, h2⟩ := h
  unfold SafeAt M.deferred M.either
  rw [h1]
  rcases e : m' t with ⟨t1, r⟩ | _ | _
  · obtain ⟨k1, k2, k3⟩ := h2 _ _ e
    obtain ⟨k4, k5⟩ := hc t1 r k1 k2 e
    simp only
    rw [k4]
    rcases e2 : c' t1 with ⟨t2, u⟩ | _ | _
    · obtain ⟨k6, k7, _⟩ := k5 _ _ e2
      exact ⟨rfl, fun t' r' hr => by cases hr; exact ⟨k1.trans k6, k7, fun a ha => hq t1 t2 a u (k3 a ha) e2⟩⟩
    · exact ⟨rfl, fun t' r hr => by cases hr⟩
    · exact ⟨rfl, fun t' r hr => by cases hr⟩
  · exact ⟨rfl, fun t' r hr => by cases hr⟩
  · exact ⟨rfl, fun t' r hr => by cases hr⟩

end SafeAt

theorem optional_tag {cfg : Cfg} {e : Ext (Tagged H)} {f : Tagged H → Option α} {a : α} (h : e.optional cfg f = some a) : ∃ x, e.inner = some x ∧ f x = some a := by
  unfold Ext.optional at h
  split at h
  · rcases hi : e.inner with _ | x
    · rw [hi] at h; cases h
    · rw [hi] at h; exact ⟨x, rfl, h⟩
  · cases h

/-! ### The methods of the implementation -/

/-- A driver on the implementation with mortal handles. -/
def md (cfg : Cfg) (I : Impl σ H) (mf : MountFlags) (wd : Str) (g : Garbage σ H) : Drv (Lives σ) (Tagged H) := ⟨cfg, mortal I g, mf, wd⟩

section
variable (cfg : Cfg) (I : Impl σ H) (mf : MountFlags) (wd : Str) (g g' : Garbage σ H)

local notation "d" => md cfg I mf wd g
local notation "d'" => md cfg I mf wd g'

theorem use_live {t : Lives σ} {h : Tagged H} (s' : σ) (hd : t.dead h = false) : t.use h s' = { t with s := s' } := by
  unfold Lives.use; rw [hd, Bool.or_false]

theorem inv_s {t : Lives σ} (hi : Lives.Inv t) (s' : σ) : Lives.Inv { t with s := s' } := hi
theorem step_s {A : Nat → Prop} (t : Lives σ) (s' : σ) : Step A t { t with s := s' } := ⟨rfl, Nat.le_refl _, fun _ h => .inl h⟩

theorem stat_safe {A : Nat → Prop} {t : Lives σ} (hi : Lives.Inv t) {e : Ext (Tagged H)} (hl : Live t e) :
    SafeAt A t (statOf d e) (statOf d' e) fun t1 st => t1 = t ∧ ∃ h, e.inner = some h ∧ st = I.stat t.s h.1 := by
  refine .method fun h he => ?_
  have hd := live_dead hl he
  have hs : ∀ g, (mortal I g).stat t h = I.stat t.s h.1 := fun g => by
    show (if t.dead h then _ else _) = _
    rw [hd]; rfl
  have : ∀ g : Garbage σ H, ((fun s => .ret (s, .ok ((md cfg I mf wd g).impl.stat s h)) : M (Lives σ) FileStat) t) = .ret (t, .ok (I.stat t.s h.1)) := fun g => by
    show (Outcome.ret (t, .ok ((mortal I g).stat t h)) : Outcome (Lives σ × Except Err FileStat)) = _
    rw [hs]
  refine ⟨(this g).trans (this g').symm, fun t' r hr => ?_⟩
  rw [this g'] at hr
  cases hr
  exact ⟨.refl _, hi, fun a ha => by cases ha; exact ⟨rfl, h, he, rfl⟩⟩

/-- A call that does not depend on what is said about closed handles. -/
theorem call_safe {A : Nat → Prop} {t : Lives σ} {f : Lives σ → Lives σ × Except Err α} {Q : Lives σ → α → Prop}
    (h : Step A t (f t).1 ∧ Lives.Inv (f t).1 ∧ ∀ a, (f t).2 = .ok a → Q (f t).1 a) : SafeAt A t (M.call f) (M.call f) Q := by
  refine ⟨rfl, fun t' r hr => ?_⟩
  unfold M.call at hr
  injection hr with hr
  rw [hr] at h
  exact h

theorem callE_safe {A : Nat → Prop} {t : Lives σ} {f : Lives σ → Lives σ × Option Err} (h : Step A t (f t).1 ∧ Lives.Inv (f t).1) :
    SafeAt A t (M.callE f) (M.callE f) fun _ _ => True := by
  refine ⟨rfl, fun t' r hr => ?_⟩
  unfold M.callE at hr
  rcases e : f t with ⟨t1, _ | er⟩
  · rw [e] at hr h; cases hr; exact ⟨h.1, h.2, fun _ _ => trivial⟩
  · rw [e] at hr h; cases hr; exact ⟨h.1, h.2, fun _ _ => trivial⟩

theorem close_tag (t : Lives σ) (h : Tagged H) (s' : σ) : (t.close h s').issued = t.issued ∧ (t.close h s').misused = t.misused ∧
    ∀ k, k ∈ (t.close h s').closed ↔ k ∈ t.closed ∨ h.2 = some k := by
  rcases h with ⟨x, _ | k⟩
  · exact ⟨rfl, rfl, fun k => by simp [Lives.close]⟩
  · exact ⟨rfl, rfl, fun j => by simp [Lives.close, or_comm, eq_comm]⟩

/-- Closing a handle. -/
theorem closeH_safe {A : Nat → Prop} {t : Lives σ} (hi : Lives.Inv t) (h : Tagged H) (hA : ∀ k, h.2 = some k → A k ∧ k < t.issued) :
    SafeAt A t (M.callE ((d).impl.close · h)) (M.callE ((d').impl.close · h)) fun _ _ => True := by
  refine callE_safe (f := fun t => (t.close h (I.close t.s h.1).1, (I.close t.s h.1).2)) ?_
  obtain ⟨k1, k2, k3⟩ := close_tag t h (I.close t.s h.1).1
  refine ⟨⟨k2, by rw [k1]; exact Nat.le_refl _, fun k hk => ((k3 k).mp hk).imp id fun e => (hA k e).1⟩, fun k hk => ?_⟩
  show k < (t.close h _).issued
  rw [k1]
  exact ((k3 k).mp hk).elim (hi k) fun e => (hA k e).2

theorem close_safe {A : Nat → Prop} {t : Lives σ} (hi : Lives.Inv t) {e : Ext (Tagged H)} (he : Tied A t e) :
    SafeAt A t (closeOf d e) (closeOf d' e) fun _ _ => True :=
  .method fun h eh => closeH_safe cfg I mf wd g g' hi h fun k hk => he k (by rw [tag_some eh]; exact hk)

/-- What closing does. -/
theorem close_does {t t2 : Lives σ} {e : Ext (Tagged H)} {u : Except Err Unit} (h : closeOf d e t = .ret (t2, u)) :
    t2.issued = t.issued ∧ ∀ k, k ∈ t2.closed ↔ k ∈ t.closed ∨ tag e = some k := by
  unfold closeOf Ext.method at h
  rcases he : e.inner with _ | x
  · rw [he] at h; cases h
  · rw [he] at h
    obtain ⟨k1, _, k3⟩ := close_tag t x (I.close t.s x.1).1
    have hc : (d).impl.close t x = (t.close x (I.close t.s x.1).1, (I.close t.s x.1).2) := rfl
    simp only [M.callE, hc] at h
    rw [tag_some he]
    rcases e2 : (I.close t.s x.1).2 with _ | er
    · rw [e2] at h; cases h; exact ⟨k1, k3⟩
    · rw [e2] at h; cases h; exact ⟨k1, k3⟩

/-- `defer e.Close()`. -/
theorem deferClose_safe {A : Nat → Prop} {t : Lives σ} {e : Ext (Tagged H)} (he : Tied A t e) {m m' : M (Lives σ) α} {Q Q2 : Lives σ → α → Prop} (h : SafeAt A t m m' Q)
    (hq : ∀ t1 t2 a, Q t1 a → t2.issued = t1.issued → (∀ k, k ∈ t2.closed ↔ k ∈ t1.closed ∨ tag e = some k) → Q2 t2 a) :
    SafeAt A t (M.deferred (closeOf d e) m) (M.deferred (closeOf d' e) m') Q2 :=
  .deferred h (fun t1 _ s1 i1 _ => close_safe cfg I mf wd g g' i1 (he.step s1)) fun t1 t2 a _ k hc =>
    have := close_does cfg I mf wd g' hc
    hq t1 t2 a k this.1 this.2

theorem deferCloseT_safe {A : Nat → Prop} {t : Lives σ} {e : Ext (Tagged H)} (he : Tied A t e) {m m' : M (Lives σ) α} {Q : Lives σ → α → Prop} (h : SafeAt A t m m' Q) :
    SafeAt A t (M.deferred (closeOf d e) m) (M.deferred (closeOf d' e) m') fun _ _ => True :=
  deferClose_safe cfg I mf wd g g' he h fun _ _ _ _ _ _ => trivial

/-- The handle in a wrapper just made. -/
theorem wrap_owned {t : Lives σ} (h : Tagged H) (p : Str) {A : Nat → Prop} (hi : Lives.Inv t) (hk : ∀ k, h.2 = some k → A k ∧ k < t.issued ∧ k ∉ t.closed) :
    Owned A t (wrapObjectHandle cfg (some h) p) := by
  have : ∀ k, tag (wrapObjectHandle cfg (some h) p) = some k → h.2 = some k := by
    intro k hk
    unfold tag wrapObjectHandle at hk
    simp only at hk
    split at hk
    · exact hk
    · cases hk
  exact ⟨fun k e => (hk k (this k e)).2, fun k e => ⟨(hk k (this k e)).1, (hk k (this k e)).2.1⟩⟩

/-- Giving out a handle. -/
theorem issue_safe {A : Nat → Prop} {t : Lives σ} (hi : Lives.Inv t) {f : Lives σ → Lives σ × Except Err (Tagged H)} (s' : σ) (r : Except Err H)
    (hf : f t = ({ t with s := s' } : Lives σ).issue r) :
    SafeAt A t (M.call f) (M.call f) fun t1 h => h.2 = some t.issued ∧ t1.issued = t.issued + 1 ∧ t1.closed = t.closed := by
  refine call_safe ?_
  rw [hf]
  rcases r with er | h
  · exact ⟨step_s _ _, hi, fun a ha => by cases ha⟩
  · refine ⟨⟨rfl, Nat.le_succ _, fun k hk => .inl hk⟩, fun k hk => Nat.lt_succ_of_lt (hi k hk), fun a ha => ?_⟩
    cases ha
    exact ⟨rfl, rfl, rfl⟩

theorem getObject_safe {A : Nat → Prop} {t : Lives σ} (hi : Lives.Inv t) (n : Str) (p : Tagged H) (hd : t.dead p = false) :
    SafeAt A t (M.call ((d).impl.getObject · n p)) (M.call ((d').impl.getObject · n p)) fun t1 h => h.2 = some t.issued ∧ t1.issued = t.issued + 1 ∧ t1.closed = t.closed := by
  refine issue_safe (f := fun t => (t.use p (I.getObject t.s n p.1).1).issue (I.getObject t.s n p.1).2) hi (I.getObject t.s n p.1).1 (I.getObject t.s n p.1).2 ?_
  show (t.use p _).issue _ = _
  rw [use_live _ hd]

theorem createObject_safe {A : Nat → Prop} {t : Lives σ} (hi : Lives.Inv t) (n : Str) (p : Tagged H) (m : FileMode) (hd : t.dead p = false) :
    SafeAt A t (M.call ((d).impl.createObject · n p m)) (M.call ((d').impl.createObject · n p m)) fun t1 h => h.2 = some t.issued ∧ t1.issued = t.issued + 1 ∧ t1.closed = t.closed := by
  refine issue_safe (f := fun t => (t.use p (I.createObject t.s n p.1 m).1).issue (I.createObject t.s n p.1 m).2) hi (I.createObject t.s n p.1 m).1 (I.createObject t.s n p.1 m).2 ?_
  show (t.use p _).issue _ = _
  rw [use_live _ hd]

theorem unlink_safe {A : Nat → Prop} {t : Lives σ} (hi : Lives.Inv t) {e : Ext (Tagged H)} (hl : Live t e) :
    SafeAt A t (unlinkOf d e) (unlinkOf d' e) fun _ _ => True := by
  refine .method fun h he => callE_safe (f := fun t => (t.use h (I.unlink t.s h.1).1, (I.unlink t.s h.1).2)) ?_
  show Step A t (t.use h _) ∧ Lives.Inv (t.use h _)
  rw [use_live _ (live_dead hl he)]
  exact ⟨step_s _ _, hi⟩

theorem resize_safe {A : Nat → Prop} {t : Lives σ} (hi : Lives.Inv t) {e : Ext (Tagged H)} (hl : Live t e) (n : Nat) :
    SafeAt A t (resizeOf d e n) (resizeOf d' e n) fun _ _ => True := by
  refine .method fun h he => ⟨rfl, fun t' r hr => ?_⟩
  have hc : (d').impl.resize t h n = ({ t with s := (I.resize t.s h.1 n).1 }, (I.resize t.s h.1 n).2) := by
    show (t.use h _, _) = _
    rw [use_live _ (live_dead hl he)]
  simp only [hc] at hr
  rcases e2 : (I.resize t.s h.1 n).2 with _ | er
  · rw [e2] at hr; cases hr; exact ⟨step_s _ _, hi, fun _ _ => trivial⟩
  · rw [e2] at hr; cases hr; exact ⟨step_s _ _, hi, fun _ _ => trivial⟩

theorem listDir_safe {A : Nat → Prop} {t : Lives σ} (hi : Lives.Inv t) {h : Tagged H} (hd : t.dead h = false) {f : Lives σ → Lives σ × Except Err (List Str)}
    (hf : (mortal I g).listDir h = some f) : SafeAt A t (M.call f) (M.call f) fun t1 _ => t1.closed = t.closed ∧ t1.issued = t.issued := by
  have hf : (I.listDir h.1).map (fun f (t : Lives σ) => (t.use h (f t.s).1, (f t.s).2)) = some f := hf
  rcases e : I.listDir h.1 with _ | q
  · rw [e] at hf; cases hf
  · rw [e] at hf; cases hf
    refine call_safe ?_
    show Step A t (t.use h _) ∧ Lives.Inv (t.use h _) ∧ ∀ a, _ → (t.use h _).closed = _ ∧ (t.use h _).issued = _
    rw [use_live _ hd]
    exact ⟨step_s _ _, hi, fun _ _ => ⟨rfl, rfl⟩⟩

/-! ### Contents -/

/-- As long as the handle is open, nothing happens to the handles. -/
def Calm (h : Tagged H) (t t' : Lives σ) : Prop := t.dead h = false → t'.issued = t.issued ∧ t'.closed = t.closed ∧ t'.misused = t.misused

theorem Calm.pre (h : Tagged H) : Pre (Calm (σ := σ) h) :=
  ⟨fun _ _ => ⟨rfl, rfl, rfl⟩, fun {a b c} k1 k2 hd => by
    obtain ⟨e1, e2, e3⟩ := k1 hd
    have hb : b.dead h = false := by unfold Lives.dead at hd ⊢; rw [e2]; exact hd
    obtain ⟨f1, f2, f3⟩ := k2 hb
    exact ⟨f1.trans e1, f2.trans e2, f3.trans e3⟩⟩

theorem calm_use (h : Tagged H) (t : Lives σ) (s' : σ) : Calm h t (t.use h s') := fun hd => by rw [use_live _ hd]; exact ⟨rfl, rfl, rfl⟩

theorem Calm.safe {A : Nat → Prop} {h : Tagged H} {t t' : Lives σ} (k : Calm h t t') (hd : t.dead h = false) (hi : Lives.Inv t) : Step A t t' ∧ Lives.Inv t' := by
  obtain ⟨e1, e2, e3⟩ := k hd
  exact ⟨⟨e3, Nat.le_of_eq e1.symm, fun i hi => .inl (e2 ▸ hi)⟩, fun i h => by rw [e1]; exact hi i (e2 ▸ h)⟩

theorem Calm.live {h : Tagged H} {t t' : Lives σ} (k : Calm h t t') (hd : t.dead h = false) {e : Ext (Tagged H)} (hl : Live t e) : Live t' e := by
  obtain ⟨e1, e2, _⟩ := k hd
  exact fun i hi => by rw [e1, e2]; exact hl i hi

/-- Nothing happens to the handles. -/
def Still (t t' : Lives σ) : Prop := t'.issued = t.issued ∧ t'.closed = t.closed

theorem Still.refl (t : Lives σ) : Still t t := ⟨rfl, rfl⟩
theorem Still.trans {a b c : Lives σ} (h : Still a b) (k : Still b c) : Still a c := ⟨k.1.trans h.1, k.2.trans h.2⟩
theorem Still.live {t t' : Lives σ} (k : Still t t') {e : Ext (Tagged H)} (hl : Live t e) : Live t' e := fun i hi => by rw [k.1, k.2]; exact hl i hi

/-- A call that is calm. -/
theorem calm_safe {A : Nat → Prop} {t : Lives σ} (hi : Lives.Inv t) {h : Tagged H} (hd : t.dead h = false) {m m' : M (Lives σ) α} {Q : Lives σ → α → Prop} (hm : m t = m' t)
    (hc : ∀ t' r, m' t = .ret (t', r) → Calm h t t' ∧ ∀ a, r = .ok a → Q t' a) : SafeAt A t m m' fun t1 a => Still t t1 ∧ Q t1 a :=
  ⟨hm, fun t' r hr => ⟨((hc t' r hr).1.safe (A := A) hd hi).1, ((hc t' r hr).1.safe (A := A) hd hi).2, fun a ha =>
    ⟨⟨((hc t' r hr).1 hd).1, ((hc t' r hr).1 hd).2.1⟩, (hc t' r hr).2 a ha⟩⟩⟩

theorem newFile_safe {A : Nat → Prop} {t : Lives σ} (hi : Lives.Inv t) {e : Ext (Tagged H)} (hl : Live t e) (flags : Flags.IOFlags) :
    SafeAt A t (newFile d e flags) (newFile d' e flags) fun t1 f => Still t t1 ∧ f.objectHandle = e := by
  have hspec := fun t' r h => (newFile_spec d' e flags (s := t) (s' := t') (r := r) h).2.2
  refine SafeAt.imp (Q := fun t1 f => Still t t1) ?_ (fun t' f _ k => k) |> fun h => ⟨h.1, fun t' r hr => ⟨(h.2 t' r hr).1, (h.2 t' r hr).2.1, fun a ha => ⟨(h.2 t' r hr).2.2 a ha, hspec t' r hr a ha⟩⟩⟩
  refine .andThen (stat_safe cfg I mf wd g g' hi hl) fun t1 st _ i1 hq => ?_
  obtain ⟨rfl, _, _, _⟩ := hq
  refine .method fun h he => SafeAt.imp (calm_safe (Q := fun _ _ => True) i1 (live_dead hl he) rfl fun t' r hn => ⟨?_, fun _ _ => trivial⟩) fun _ _ _ k => k.1
  have P := Calm.pre (σ := σ) h
  rcases hc : BlockCache.new (Stream.toUint st.blockSize) (Stream.toUint st.numBlocks) with c | _ | _
  · rw [hc] at hn
    simp only at hn
    have hfr := Stream.new_frame (R := Calm h) P.refl (backendOf (d').impl h) st.size ⟨c, t1⟩ flags fun _ s => calm_use h s _
    rcases hs : Stream.new (backendOf (d').impl h) st.size ⟨c, t1⟩ flags with ⟨o, er⟩ | _ | _
    · have hx := hfr _ hs
      rw [hs] at hn
      rcases o with _ | y <;> rcases er with _ | er
      · simp only at hn; cases hn
      · simp only at hn; cases hn; exact P.refl _
      · simp only at hn; cases hn; exact hx y rfl
      · simp only at hn; cases hn; exact hx y rfl
    · rw [hs] at hn; cases hn
    · rw [hs] at hn; cases hn
  · rw [hc] at hn; cases hn
  · rw [hc] at hn; cases hn

theorem contents_safe {A : Nat → Prop} {t : Lives σ} (hi : Lives.Inv t) {e : Ext (Tagged H)} (hl : Live t e) :
    SafeAt A t (getContentsOfObject d e) (getContentsOfObject d' e) fun t1 _ => Still t t1 := by
  rcases he : e.inner with _ | h
  · have : ∀ g : Garbage σ H, getContentsOfObject (md cfg I mf wd g) e t = .panic := fun g => by
      unfold getContentsOfObject newFile statOf M.either M.andThen Ext.method
      simp only [he, M.crash]
    exact ⟨(this g).trans (this g').symm, fun t' r hr => by rw [this] at hr; cases hr⟩
  refine SafeAt.imp (calm_safe (Q := fun _ _ => True) hi (live_dead hl he) ?_ fun t' r hn =>
    ⟨contents_frame (Calm.pre h) d' e t (fun x hx s i buf _ => by rw [he] at hx; cases hx; exact calm_use h s _) hn, fun _ _ => trivial⟩) fun _ _ _ k => k.1
  refine (SafeAt.either (A := A) (newFile_safe cfg I mf wd g g' hi hl Flags.O_RDONLY) (Q2 := fun _ _ => True) (fun t1 f _ i1 k => ?_) fun t1 er _ i1 => ?_).1
  · refine .andThen (stat_safe cfg I mf wd g g' i1 (k.1.live hl)) fun t2 st _ i2 hq => .ite (fun _ => .crash) fun _ => ?_
    obtain ⟨rfl, _⟩ := hq
    have hoh : f.objectHandle.inner = some h := by rw [k.2]; exact he
    have hd := live_dead (k.1.live hl) he
    have P := Calm.pre (σ := σ) h
    refine .andThen (Q := fun t1 x => Still t2 t1 ∧ x.1.objectHandle = e) ?_ fun t3 x _ i3 q3 => ?_
    · have := calm_safe (A := A) (Q := fun _ x => x.1.objectHandle = e) i2 hd (m := f.read d st.size.toNat) (m' := f.read d' st.size.toNat) rfl fun t' r hn => ?_
      · exact this
      unfold File.read Ext.method at hn
      rw [hoh] at hn
      simp only at hn
      rcases h2 : Stream.read (backendOf (d').impl h) (f.streamIn t2) (List.replicate st.size.toNat 0) with ⟨y, rr⟩ | _ | _
      · have hL : Loaded (Calm h) (f.streamIn t2).st y.st := Stream.read_frame P.refl P.trans (backendOf (d').impl h) (f.streamIn t2)
          (fun s i buf _ => calm_use h s _) _ _ h2
        rw [h2] at hn
        cases hn
        exact ⟨hL.rel, fun a ha => by cases ha; exact k.2⟩
      · rw [h2] at hn; cases hn
      · rw [h2] at hn; cases hn
    · rcases x with ⟨f', buf, err⟩
      simp only at q3 ⊢
      have hoh' : f'.objectHandle.inner = some h := by rw [q3.2]; exact he
      have hl3 := q3.1.live (k.1.live hl)
      refine .deferred (Q := fun _ _ => True) ?_ (fun t4 r s4 i4 hm => ?_) fun _ _ _ _ _ _ => trivial
      · rcases err with _ | er
        · exact .ok i3 trivial
        · exact .fail i3
      · have ht : t4 = t3 := by rcases err with _ | er <;> cases hm <;> rfl
        subst ht
        refine .andThen (Q := fun _ _ => True) ?_ fun t5 _ _ i5 _ => .ok i5 trivial
        refine (calm_safe (A := A) (Q := fun _ _ => True) i4 (live_dead hl3 he) (m := f'.close d) (m' := f'.close d') rfl fun t' r hn => ⟨?_, fun _ _ => trivial⟩).imp fun _ _ _ _ => trivial
        unfold File.close Ext.method at hn
        rw [hoh'] at hn
        simp only at hn
        rcases h2 : Stream.sync (backendOf (d').impl h) (f'.streamIn t4) with ⟨y, rr⟩ | _ | _
        · have hL := Stream.sync_frame P.refl P.trans (backendOf (d').impl h) (fun s i buf => calm_use h s _) (fun s i buf => calm_use h s _) (f'.streamIn t4) _ h2
          rw [h2] at hn
          rcases rr with _ | er <;> (simp only at hn; cases hn; exact hL)
        · rw [h2] at hn; cases hn
        · rw [h2] at hn; cases hn
  · cases er <;> exact .fail i1

/-! ### Paths -/

theorem getExt_safe {A : Nat → Prop} {t : Lives σ} (hi : Lives.Inv t) (n : Str) {p : Ext (Tagged H)} (hl : Live t p) :
    SafeAt A t (getExtObjectInDir d n p) (getExtObjectInDir d' n p) fun t1 e => Owned (New t) t1 e ∧ Live t1 p ∧ ∀ k, tag e = some k → tag p ≠ some k := by
  refine .method fun h he => .andThen (getObject_safe cfg I mf wd g g' hi n h (live_dead hl he)) fun t1 x s1 i1 q => .ok i1 ?_
  obtain ⟨q1, q2, q3⟩ := q
  have ho : Owned (New t) t1 (wrapObjectHandle cfg (some x) (Path.join p.absolutePath n)) := wrap_owned cfg x _ i1 fun k hk => by
    rw [q1] at hk; cases hk
    exact ⟨Nat.le_refl _, by omega, fun hm => Nat.lt_irrefl _ (hi _ (q3 ▸ hm))⟩
  refine ⟨ho, fun k hk => ⟨Nat.lt_of_lt_of_le (hl k hk).1 s1.more, by rw [q3]; exact (hl k hk).2⟩, fun k hk hp => ?_⟩
  have h1 : t.issued ≤ k := (ho.held k hk).1
  have := (hl k hp).1
  omega

theorem create_safe {A : Nat → Prop} {t : Lives σ} (hi : Lives.Inv t) (n : Str) (m : FileMode) {p : Ext (Tagged H)} (hl : Live t p) :
    SafeAt A t (createExtObject d n p m) (createExtObject d' n p m) fun t1 e => Owned (New t) t1 e ∧ ∀ k, tag e = some k → tag p ≠ some k := by
  refine .method fun h he => .andThen (createObject_safe cfg I mf wd g g' hi n h m (live_dead hl he)) fun t1 x s1 i1 q => .ok i1 ?_
  obtain ⟨q1, q2, q3⟩ := q
  have ho : Owned (New t) t1 (wrapObjectHandle cfg (some x) (Path.join p.absolutePath n)) := wrap_owned cfg x _ i1 fun k hk => by
    rw [q1] at hk; cases hk
    exact ⟨Nat.le_refl _, by omega, fun hm => Nat.lt_irrefl _ (hi _ (q3 ▸ hm))⟩
  refine ⟨ho, fun k hk hp => ?_⟩
  have h1 : t.issued ≤ k := (ho.held k hk).1
  have := (hl k hp).1
  omega

/-- A handle stays the caller's when another one is closed. -/
theorem Owned.close {A : Nat → Prop} {t1 t2 : Lives σ} {e p : Ext (Tagged H)} (h : Owned A t1 e) (hne : ∀ k, tag e = some k → tag p ≠ some k)
    (h1 : t2.issued = t1.issued) (h2 : ∀ k, k ∈ t2.closed ↔ k ∈ t1.closed ∨ tag p = some k) : Owned A t2 e :=
  ⟨fun k hk => ⟨by rw [h1]; exact (h.live k hk).1, fun hm => ((h2 k).mp hm).elim (h.live k hk).2 (hne k hk)⟩,
   fun k hk => ⟨(h.held k hk).1, by rw [h1]; exact (h.held k hk).2⟩⟩

theorem resolve_safe : ∀ n : Nat,
    (∀ (t : Lives σ) p, Lives.Inv t → SafeAt (New t) t (getNoFollow d n p) (getNoFollow d' n p) (Owned (New t))) ∧
    (∀ (t : Lives σ) p, Lives.Inv t → SafeAt (New t) t (getFollow d n p) (getFollow d' n p) (Owned (New t))) ∧
    (∀ (A : Nat → Prop) (t : Lives σ) e, Lives.Inv t → Room A t → Owned A t e → SafeAt A t (followLoop d n e) (followLoop d' n e) (Owned A)) ∧
    (∀ (A : Nat → Prop) (t : Lives σ) e, Lives.Inv t → Room A t → Owned A t e → SafeAt A t (resolveSymlink d n e) (resolveSymlink d' n e)
      fun t1 e1 => Owned A t1 e1 ∧ ((∀ h, e.inner = some h → (I.stat t.s h.1).isSymlink = true) → Tied (New t) t1 e1)) ∧
    (∀ (A : Nat → Prop) (t : Lives σ) c e, Lives.Inv t → Room A t → Owned A t e → SafeAt A t (symlinkLoop d n c e) (symlinkLoop d' n c e) (Owned (New t)))
  | 0 => ⟨fun t p _ => by rw [getNoFollow, getNoFollow]; exact .timeout, fun t p _ => by rw [getFollow, getFollow]; exact .timeout,
      fun A t e _ _ _ => by rw [followLoop, followLoop]; exact .timeout, fun A t e _ _ _ => by rw [resolveSymlink, resolveSymlink]; exact .timeout,
      fun A t c e _ _ _ => by rw [symlinkLoop, symlinkLoop]; exact .timeout⟩
  | n + 1 => by
    obtain ⟨i1, i2, i3, i4, i5⟩ := resolve_safe n
    refine ⟨fun t p hi => ?_, fun t p hi => ?_, fun A t e hi hr ho => ?_, fun A t e hi hr ho => ?_, fun A t c e hi hr ho => ?_⟩
    · rw [getNoFollow, getNoFollow]
      refine .ite (fun _ => ?_) fun _ => .andThen (i2 t _ hi) fun t1 e s1 j1 ho => ?_
      · have hw : Owned (New t) t (wrapObjectHandle cfg (some (I.getRootDirectory t.s, none)) p) := wrap_owned cfg (t := t) (A := New t) (I.getRootDirectory t.s, (none : Option Nat)) p hi fun k hk => by cases hk
        refine ⟨rfl, fun t' r hr => ?_⟩
        cases hr
        exact ⟨.refl _, hi, fun a ha => by cases ha; exact hw⟩
      · refine deferClose_safe cfg I mf wd g g' ho.held (Q := fun t2 e2 => Owned (New t) t2 e2 ∧ ∀ k, tag e2 = some k → tag e ≠ some k) ?_ fun t2 t3 a q h1 h2 => q.1.close q.2 h1 h2
        refine .andThen (stat_safe cfg I mf wd g g' j1 ho.live) fun t2 st s2 j2 q => .ite (fun _ => .fail j2) fun _ => ?_
        obtain ⟨rfl, _⟩ := q
        exact (getExt_safe cfg I mf wd g g' j2 _ ho.live).imp fun t3 e3 _ q => ⟨q.1.mono fun k hk => Nat.le_trans s1.more hk, q.2.2⟩
    · rw [getFollow, getFollow]
      exact .andThen (i1 t _ hi) fun t1 e s1 j1 ho => i3 _ t1 e j1 ((room_new t).step s1) ho
    · rw [followLoop, followLoop]
      refine .andThen (stat_safe cfg I mf wd g g' hi ho.live) fun t1 st s1 j1 q => .ite (fun _ => ?_) fun hst => ?_
      · obtain ⟨rfl, _⟩ := q
        exact .ok j1 ho
      · obtain ⟨rfl, h, he, rfl⟩ := q
        have hsym : ∀ x, e.inner = some x → (I.stat t1.s x.1).isSymlink = true := fun x hx => by rw [he] at hx; cases hx; simpa using hst
        refine .andThen (Q := Owned A) ?_ fun t2 e2 s2 j2 o2 => i3 A t2 e2 j2 (hr.step s2) o2
        refine deferClose_safe cfg I mf wd g g' ho.held (i4 A t1 e j1 hr ho) fun t2 t3 a q h1 h2 => q.1.close (fun k hk hp => ?_) h1 h2
        have h3 : t1.issued ≤ k := (q.2 hsym k hk).1
        have := (ho.live k hp).1
        omega
    · rw [resolveSymlink, resolveSymlink]
      refine .andThen (stat_safe cfg I mf wd g g' hi ho.live) fun t1 st s1 j1 q => .ite (fun hst => ?_) fun hst => ?_
      · obtain ⟨rfl, h, he, rfl⟩ := q
        exact .ok j1 ⟨ho, fun hs => by rw [hs h he] at hst; simp at hst⟩
      · obtain ⟨rfl, h, he, rfl⟩ := q
        exact (i5 A t1 _ e j1 hr ho).imp fun t2 e2 _ o => ⟨o.mono hr, fun _ => o.held⟩
    · rw [symlinkLoop, symlinkLoop]
      refine .andThen (Q := fun _ _ => True) ?_ fun t1 text s1 j1 _ => ?_
      · exact deferCloseT_safe cfg I mf wd g g' ho.held (contents_safe cfg I mf wd g g' hi ho.live)
      · show SafeAt A t1 (if normalizePath wd text ∈ c then _ else _) (if normalizePath wd text ∈ c then _ else _) _
        refine .ite (fun _ => .fail j1) fun _ => .andThen ((i1 t1 _ j1).room (hr.step s1)) fun t2 e2 s2 j2 o2 => ?_
        refine .andThen (stat_safe cfg I mf wd g g' j2 o2.live) fun t3 st s3 j3 q => ?_
        obtain ⟨rfl, _⟩ := q
        have hm : ∀ k, New t1 k → New t k := fun k hk => Nat.le_trans s1.more hk
        refine .ite (fun _ => .ok j3 (o2.mono hm)) fun _ => ?_
        have hm' : ∀ k, New t3 k → New t k := fun k hk => Nat.le_trans (Nat.le_trans s1.more s2.more) hk
        exact (i5 A t3 c e2 j3 ((hr.step s1).step s2) (o2.mono (hr.step s1))).imp fun t4 e4 _ o => o.mono hm'

/-! ### Operations -/

theorem follow_safe (n : Nat) (t : Lives σ) (p : Str) (hi : Lives.Inv t) : SafeAt (New t) t (getFollow d n p) (getFollow d' n p) (Owned (New t)) :=
  (resolve_safe cfg I mf wd g g' n).2.1 t p hi

theorem nofollow_safe (n : Nat) (t : Lives σ) (p : Str) (hi : Lives.Inv t) : SafeAt (New t) t (getNoFollow d n p) (getNoFollow d' n p) (Owned (New t)) :=
  (resolve_safe cfg I mf wd g g' n).1 t p hi

/-- The shape of most operations: find, do, close. -/
theorem path_safe (n : Nat) (t : Lives σ) (p : Str) (hi : Lives.Inv t) {body body' : Ext (Tagged H) → M (Lives σ) α}
    (hb : ∀ t1 e, Lives.Inv t1 → Live t1 e → SafeAt (New t1) t1 (body e) (body' e) fun _ _ => True) :
    SafeAt (New t) t (M.andThen (getFollow d n p) fun e => M.deferred (closeOf d e) (body e))
      (M.andThen (getFollow d' n p) fun e => M.deferred (closeOf d' e) (body' e)) fun _ _ => True :=
  .andThen (follow_safe cfg I mf wd g g' n t p hi) fun t1 e s1 j1 o => deferCloseT_safe cfg I mf wd g g' o.held
    ((hb t1 e j1 o.live).room ((room_new t).step s1))

theorem createMissing_safe (n : Nat) (t : Lives σ) (p : Str) (perm : FileMode) (hi : Lives.Inv t) :
    SafeAt (New t) t (createMissing d n p perm) (createMissing d' n p perm) (Owned (New t)) :=
  .andThen (follow_safe cfg I mf wd g g' n t _ hi) fun t1 e s1 j1 o => deferClose_safe cfg I mf wd g g' o.held
    (create_safe cfg I mf wd g g' j1 _ perm o.live) fun t2 t3 a q h1 h2 => (q.1.mono (B := New t) fun k hk => Nat.le_trans s1.more hk).close q.2 h1 h2

/-- The file holds a handle that is open. -/
def Good (t : Lives σ) (f : File (Tagged H)) : Prop := Live t f.objectHandle

theorem openFile_safe (n : Nat) (t : Lives σ) (p : Str) (flags : Flags.IOFlags) (perm : FileMode) (hi : Lives.Inv t) :
    SafeAt (New t) t (openFile d n p flags perm) (openFile d' n p flags perm) Good := by
  unfold openFile
  have tail : ∀ (m m' : M (Lives σ) (Ext (Tagged H))) (t1 : Lives σ), SafeAt (New t) t1 m m' (fun t2 e => Live t2 e) →
      SafeAt (New t) t1 (M.andThen m fun object => M.andThen (statOf d object) fun st => if !st.isFile then M.fail .isADirectory else newFile d object flags)
        (M.andThen m' fun object => M.andThen (statOf d' object) fun st => if !st.isFile then M.fail .isADirectory else newFile d' object flags) Good := by
    intro m m' t1 h
    refine .andThen h fun t2 e s2 j2 l2 => .andThen (stat_safe cfg I mf wd g g' j2 l2) fun t3 st s3 j3 q => .ite (fun _ => .fail j3) fun _ => ?_
    obtain ⟨rfl, _⟩ := q
    exact (newFile_safe cfg I mf wd g g' j3 l2 flags).imp fun t4 f _ q => by
      unfold Good
      rw [q.2]
      exact q.1.live l2
  refine .ite (fun _ => .fail hi) fun _ => .either (follow_safe cfg I mf wd g g' n t _ hi) (fun t1 e s1 j1 o => tail _ _ t1 (.ok j1 o.live)) fun t1 er s1 j1 => tail _ _ t1 ?_
  refine .ite (fun _ => ?_) fun _ => .fail j1
  exact ((createMissing_safe cfg I mf wd g g' n t1 _ perm j1).room ((room_new t).step s1)).imp fun _ _ _ o => o.live

theorem chdirTo_safe {A : Nat → Prop} {t : Lives σ} (hi : Lives.Inv t) {e : Ext (Tagged H)} (hl : Live t e) :
    SafeAt A t (chdirToObject d e) (chdirToObject d' e) fun _ _ => True :=
  .andThen (stat_safe cfg I mf wd g g' hi hl) fun _ _ _ j _ => .ite (fun _ => .fail j) fun _ => .ok j trivial

/-- A method of an optional interface. -/
theorem optional_safe {A : Nat → Prop} {t : Lives σ} (hi : Lives.Inv t) {e : Ext (Tagged H)} (hl : Live t e) (f : Tagged H → Option (Lives σ → Lives σ × Option Err))
    (hf : ∀ h m, f h = some m → ∀ t, Calm h t (m t).1) : SafeAt A t (optionalCall d e f) (optionalCall d' e f) fun _ _ => True := by
  unfold optionalCall
  rw [show Ext.optional (d).cfg e f = e.optional cfg f from rfl, show Ext.optional (d').cfg e f = e.optional cfg f from rfl]
  rcases he : e.optional cfg f with _ | m
  · exact .fail hi
  · obtain ⟨x, hx, hm⟩ := optional_tag he
    exact callE_safe ((hf x m hm t).safe (live_dead hl hx) hi)

theorem chmod_calm (mode : FileMode) (h : Tagged H) (m : Lives σ → Lives σ × Option Err)
    (hm : ((mortal I g).chmod h).map (fun m s => m s mode) = some m) (t : Lives σ) : Calm h t (m t).1 := by
  have hm : ((I.chmod h.1).map fun f (t : Lives σ) m => (t.use h (f t.s m).1, (f t.s m).2)).map (fun m s => m s mode) = some m := hm
  rcases e : I.chmod h.1 with _ | q
  · rw [e] at hm; cases hm
  · rw [e] at hm; cases hm; exact calm_use h t _

theorem chown_calm (u v : Int) (h : Tagged H) (m : Lives σ → Lives σ × Option Err)
    (hm : ((mortal I g).chown h).map (fun m s => m s u v) = some m) (t : Lives σ) : Calm h t (m t).1 := by
  have hm : ((I.chown h.1).map fun f (t : Lives σ) u v => (t.use h (f t.s u v).1, (f t.s u v).2)).map (fun m s => m s u v) = some m := hm
  rcases e : I.chown h.1 with _ | q
  · rw [e] at hm; cases hm
  · rw [e] at hm; cases hm; exact calm_use h t _

theorem chtimes_calm (a b c a' b' : Time) (h : Tagged H) (m : Lives σ → Lives σ × Option Err)
    (hm : ((mortal I g).chtimes h).map (fun m s => m s a b c a' b') = some m) (t : Lives σ) : Calm h t (m t).1 := by
  have hm : ((I.chtimes h.1).map fun f (t : Lives σ) a b c e v => (t.use h (f t.s a b c e v).1, (f t.s a b c e v).2)).map (fun m s => m s a b c a' b') = some m := hm
  rcases e : I.chtimes h.1 with _ | q
  · rw [e] at hm; cases hm
  · rw [e] at hm; cases hm; exact calm_use h t _

theorem readDirLoop_safe {t0 : Lives σ} (h : Tagged H) (names : List Str) : ∀ (t : Lives σ) (out : List DirEntry), Lives.Inv t → Step (New t0) t0 t →
    (∀ k, h.2 = some k → k < t0.issued) → t.dead h = false →
    SafeAt (New t0) t (readDirLoop d h names out) (readDirLoop d' h names out) fun _ _ => True := by
  induction names with
  | nil => intro t out hi _ _ _; exact .ok hi trivial
  | cons n ns ih =>
    intro t out hi s0 hk hd
    rw [readDirLoop, readDirLoop]
    have alive : ∀ t1 : Lives σ, (∀ k ∈ t1.closed, k ∈ t.closed ∨ New t0 k) → t1.dead h = false := by
      intro t1 h1
      rcases h with ⟨x, _ | k⟩
      · rfl
      · unfold Lives.dead at hd ⊢
        simp only [decide_eq_false_iff_not] at hd ⊢
        exact fun hm => (h1 k hm).elim hd fun hn => Nat.lt_irrefl _ (Nat.lt_of_lt_of_le (hk k rfl) hn)
    refine .ite (fun _ => ih t out hi s0 hk hd) fun _ => .andThen (getObject_safe cfg I mf wd g g' hi n h hd) fun t1 x s1 j1 q => ?_
    obtain ⟨q1, q2, q3⟩ := q
    have hx : t1.dead x = false := by
      unfold Lives.dead
      rw [q1]
      simp only [decide_eq_false_iff_not]
      rw [q3]
      exact fun hm => Nat.lt_irrefl _ (hi _ hm)
    have hde : ∀ g : Garbage σ H, newDirectoryEntry (md cfg I mf wd g).impl t1 x = ⟨I.name t1.s x.1, I.stat t1.s x.1⟩ := fun g => by
      show (⟨(if t1.dead x then _ else _), (if t1.dead x then _ else _)⟩ : DirEntry) = _
      rw [hx]; rfl
    have key : SafeAt (New t0) t1 (M.either (M.callE ((d).impl.close · x)) fun _ => readDirLoop d h ns (out ++ [newDirectoryEntry (d).impl t1 x]))
        (M.either (M.callE ((d').impl.close · x)) fun _ => readDirLoop d' h ns (out ++ [newDirectoryEntry (d').impl t1 x])) fun _ _ => True := by
      rw [hde g, hde g']
      have cl := closeH_safe (A := New t0) cfg I mf wd g g' j1 x fun k hk => by
        rw [q1] at hk; cases hk
        exact ⟨s0.more, by omega⟩
      have s01 : Step (New t0) t0 t1 := s0.trans s1
      refine .either cl (fun t2 _ s2 j2 _ => ih t2 _ j2 (s01.trans s2) hk (alive t2 fun k hk2 => ?_)) fun t2 _ s2 j2 => ih t2 _ j2 (s01.trans s2) hk (alive t2 fun k hk2 => ?_)
      · exact (s2.only k hk2).imp (fun hm => q3 ▸ hm) id
      · exact (s2.only k hk2).imp (fun hm => q3 ▸ hm) id
    exact key

theorem readDirObject_safe (t : Lives σ) (hi : Lives.Inv t) {e : Ext (Tagged H)} (hl : Live t e) :
    SafeAt (New t) t (readDirObject d e) (readDirObject d' e) fun _ _ => True := by
  unfold readDirObject
  rw [show Ext.optional (d).cfg e (d).impl.listDir = e.optional cfg (mortal I g).listDir from rfl, show Ext.optional (d').cfg e (d').impl.listDir = e.optional cfg (mortal I g).listDir from rfl]
  rcases he : e.optional cfg (mortal I g).listDir with _ | f
  · exact .crash
  · obtain ⟨x, hx, hf⟩ := optional_tag he
    have hd := live_dead hl hx
    refine .andThen (listDir_safe I g hi hd hf) fun t1 names s1 j1 q => .method fun h hh => ?_
    rw [hx] at hh
    cases hh
    refine readDirLoop_safe cfg I mf wd g g' (t0 := t) x names t1 [] j1 s1 (fun k hk => (hl k (by rw [tag_some hx]; exact hk)).1) ?_
    unfold Lives.dead at hd ⊢
    rw [q.1]
    exact hd

theorem createAndClose_safe {A : Nat → Prop} (t : Lives σ) (hi : Lives.Inv t) (hr : Room A t) (n : Str) (m : FileMode) {e : Ext (Tagged H)} (hl : Live t e) :
    SafeAt A t (createAndClose d n e m) (createAndClose d' n e m) fun _ _ => True := by
  refine .method fun h he => .andThen (createObject_safe cfg I mf wd g g' hi n h m (live_dead hl he)) fun t1 x s1 j1 q => ?_
  refine .either (closeH_safe (A := A) cfg I mf wd g g' j1 x fun k hk => ?_) (fun t2 _ _ j2 _ => .ok j2 trivial) fun t2 _ _ j2 => .ok j2 trivial
  rw [q.1] at hk
  cases hk
  exact ⟨hr _ (Nat.le_refl _), by omega⟩

theorem mkdirAll_safe : ∀ (n : Nat) (t : Lives σ) (p : Str) (perm : FileMode), Lives.Inv t → SafeAt (New t) t (mkdirAll d n p perm) (mkdirAll d' n p perm) fun _ _ => True
  | 0, t, p, perm, hi => by rw [mkdirAll, mkdirAll]; exact .timeout
  | n + 1, t, p, perm, hi => by
    rw [mkdirAll, mkdirAll]
    refine .either (follow_safe cfg I mf wd g g' n t _ hi) (fun t1 e s1 j1 o => ?_) fun t1 er s1 j1 => ?_
    · exact deferCloseT_safe cfg I mf wd g g' o.held (createAndClose_safe cfg I mf wd g g' t1 j1 ((room_new t).step s1) _ _ o.live)
    · refine .ite (fun _ => ?_) fun _ => .fail j1
      exact .either ((mkdirAll_safe n t1 _ _ j1).room ((room_new t).step s1)) (fun _ _ _ _ _ => .crash) fun _ _ _ _ => .crash

theorem link_safe (n : Nat) (t : Lives σ) (o w : Str) (hi : Lives.Inv t) : SafeAt (New t) t (link d n o w) (link d' n o w) fun _ _ => True := by
  unfold link
  have hh : ∀ g, (md cfg I mf wd g).impl.createHardLink = I.createHardLink.map fun f t o p n => ((t.use o t.s).use p (f t.s o.1 p.1 n).1).issue (f t.s o.1 p.1 n).2 := fun g => rfl
  rw [hh, hh]
  rcases hl : I.createHardLink with _ | f
  · exact .fail hi
  · refine .andThen (follow_safe cfg I mf wd g g' n t _ hi) fun t1 old s1 j1 o1 => ?_
    have r1 := (room_new t).step s1
    refine .eitherSub r1 (follow_safe cfg I mf wd g g' n t1 _ j1) (fun t2 _ _ j2 _ => .fail j2) fun t2 _ s2 j2 => ?_
    have r2 := r1.step s2
    have l2 : Live t2 old := o1.live.stepNew s2
    refine .andThenSub r2 (follow_safe cfg I mf wd g g' n t2 _ j2) fun t3 parent s3 j3 o3 => .method fun a ha => .method fun b hb => ?_
    have l3 : Live t3 old := l2.stepNew s3
    refine .andThen (issue_safe j3 (f t3.s a.1 b.1 (Path.splitLast (normalizePath wd w)).2).1 (f t3.s a.1 b.1 (Path.splitLast (normalizePath wd w)).2).2 ?_) fun t4 _ _ j4 _ => .ok j4 trivial
    show Lives.issue (Lives.use (Lives.use t3 a t3.s) b _) _ = _
    rw [use_live _ (live_dead l3 ha)]
    have : ({ t3 with s := t3.s } : Lives σ) = t3 := rfl
    rw [this, use_live _ (live_dead o3.live hb)]
    rfl

theorem removeLoop_safe {rec rec' : Ext (Tagged H) → M (Lives σ) Unit} (hrec : ∀ (t : Lives σ) e, Lives.Inv t → Live t e → SafeAt (New t) t (rec e) (rec' e) fun _ _ => True)
    {dir : Ext (Tagged H)} (names : List Str) : ∀ t : Lives σ, Lives.Inv t → Live t dir →
    SafeAt (New t) t (removeLoop d rec dir names) (removeLoop d' rec' dir names) fun _ _ => True := by
  induction names with
  | nil => intro t hi _; exact .ok hi trivial
  | cons n ns ih =>
    intro t hi hl
    rw [removeLoop, removeLoop]
    refine .ite (fun _ => ih t hi hl) fun _ => .andThen (getExt_safe cfg I mf wd g g' hi n hl) fun t1 e s1 j1 q => ?_
    obtain ⟨o1, ld1, hne⟩ := q
    have r1 := (room_new t).step s1
    refine .andThen (stat_safe cfg I mf wd g g' j1 o1.live) fun t1' st _ j1' q => ?_
    obtain ⟨rfl, _⟩ := q
    have lw : Live t1' (wrapObjectHandle cfg e.inner (Path.join dir.absolutePath n)) := by
      intro k hk
      refine o1.live k ?_
      unfold tag wrapObjectHandle at hk
      unfold tag
      simp only at hk
      split at hk
      · exact hk
      · cases hk
    have hold : ∀ t2, Step (New t1') t1' t2 → Tied (New t) t2 e := fun t2 s2 => o1.held.step s2
    refine .andThen (Q := fun t2 _ => Live t2 e ∧ Live t2 dir ∧ Tied (New t) t2 e ∧ t1'.issued ≤ t2.issued) ?_ fun t2 _ s2 j2 q => ?_
    · refine .ite (fun _ => ?_) fun _ => .ok j1' ⟨o1.live, ld1, o1.held, Nat.le_refl _⟩
      refine .eitherSub r1 (hrec t1' _ j1' lw) (fun t2 _ s2 j2 _ => .ok j2 ⟨o1.live.stepNew s2, ld1.stepNew s2, hold t2 s2, s2.more⟩) fun t2 er s2 j2 => ?_
      exact .either (close_safe cfg I mf wd g g' j2 (hold t2 s2)) (fun t3 _ _ j3 _ => .fail j3) fun t3 _ _ j3 => .fail j3
    · obtain ⟨l2, ld2, h2, m2⟩ := q
      refine .andThen (Q := fun t3 _ => Live t3 dir) ?_ fun t3 _ s3 j3 ld3 => (ih t3 j3 ld3).room (((room_new t).step s1).step (s2.trans s3))
      have hs : SafeAt (New t) t2 (M.deferred (closeOf d e) (unlinkOf d e)) (M.deferred (closeOf d' e) (unlinkOf d' e)) fun _ _ => True :=
        deferCloseT_safe cfg I mf wd g g' h2 (unlink_safe cfg I mf wd g g' j2 l2)
      exact hs.imp fun t3 _ s3 _ => ld2.step s3 fun i hi2 hn => Nat.lt_irrefl _ (Nat.lt_of_lt_of_le (hl i hi2).1 hn)

theorem removeDirectory_safe : ∀ (n : Nat) (t : Lives σ) (e : Ext (Tagged H)), Lives.Inv t → Live t e →
    SafeAt (New t) t (removeDirectory d n e) (removeDirectory d' n e) fun _ _ => True
  | 0, t, e, _, _ => by rw [removeDirectory, removeDirectory]; exact .timeout
  | n + 1, t, e, hi, hl => by
    rw [removeDirectory, removeDirectory]
    rw [show Ext.optional (d).cfg e (d).impl.listDir = e.optional cfg (mortal I g).listDir from rfl, show Ext.optional (d').cfg e (d').impl.listDir = e.optional cfg (mortal I g).listDir from rfl]
    rcases he : e.optional cfg (mortal I g).listDir with _ | f
    · exact .crash
    · obtain ⟨x, hx, hf⟩ := optional_tag he
      refine .andThen (listDir_safe I g hi (live_dead hl hx) hf) fun t1 names s1 j1 q => ?_
      exact (removeLoop_safe cfg I mf wd g g' (removeDirectory_safe n) names t1 j1 (Still.live ⟨q.2, q.1⟩ hl)).room ((room_new t).step s1)

theorem removeAll_safe (n : Nat) (t : Lives σ) (p : Str) (hi : Lives.Inv t) : SafeAt (New t) t (removeAll d n p) (removeAll d' n p) fun _ _ => True := by
  refine path_safe cfg I mf wd g g' n t _ hi fun t1 e j1 l1 => .andThen (stat_safe cfg I mf wd g g' j1 l1) fun t2 st _ j2 q => .ite (fun _ => .fail j2) fun _ => .method fun h he => ?_
  obtain ⟨rfl, _⟩ := q
  have hs : ∀ g : Garbage σ H, (md cfg I mf wd g).impl.sameAs t2 ((md cfg I mf wd g).impl.getRootDirectory t2) h = I.sameAs t2.s (I.getRootDirectory t2.s) h.1 := fun g => by
    show (if t2.dead (I.getRootDirectory t2.s, none) || t2.dead h then _ else _) = _
    rw [live_dead l1 he]; rfl
  have key : SafeAt (New t2) t2 (if I.sameAs t2.s (I.getRootDirectory t2.s) h.1 then M.fail .permissionDenied else removeDirectory d n e)
      (if I.sameAs t2.s (I.getRootDirectory t2.s) h.1 then M.fail .permissionDenied else removeDirectory d' n e) fun _ _ => True :=
    .ite (fun _ => .fail j2) fun _ => removeDirectory_safe cfg I mf wd g g' n t2 e j2 l1
  unfold SafeAt at key ⊢
  simp only [hs]
  exact key

theorem remove_safe (n : Nat) (t : Lives σ) (p : Str) (hi : Lives.Inv t) : SafeAt (New t) t (remove d n p) (remove d' n p) fun _ _ => True := by
  refine path_safe cfg I mf wd g g' n t _ hi fun t1 e j1 l1 => .andThen (stat_safe cfg I mf wd g g' j1 l1) fun t2 st _ j2 q => ?_
  obtain ⟨rfl, _⟩ := q
  refine .ite (fun _ => ?_) fun _ => .ite (fun _ => .fail j2) fun _ => unlink_safe cfg I mf wd g g' j2 l1
  rw [show Ext.optional (d).cfg e (d).impl.listDir = e.optional cfg (mortal I g).listDir from rfl, show Ext.optional (d').cfg e (d').impl.listDir = e.optional cfg (mortal I g).listDir from rfl]
  rcases he : e.optional cfg (mortal I g).listDir with _ | f
  · exact .crash
  · obtain ⟨x, hx, hf⟩ := optional_tag he
    refine .andThen (listDir_safe I g j2 (live_dead l1 hx) hf) fun t3 names s3 j3 q => .ite (fun _ => .fail j3) fun _ => unlink_safe cfg I mf wd g g' j3 (Still.live ⟨q.2, q.1⟩ l1)

theorem lstat_safe (n : Nat) (t : Lives σ) (p : Str) (hi : Lives.Inv t) : SafeAt (New t) t (lstat d n p) (lstat d' n p) fun _ _ => True :=
  .andThen (nofollow_safe cfg I mf wd g g' n t _ hi) fun t1 e s1 j1 o => deferCloseT_safe cfg I mf wd g g' o.held <|
    .andThen ((resolve_safe cfg I mf wd g g' n).2.2.2.1 (New t) t1 e j1 ((room_new t).step s1) o) fun t2 e2 _ j2 q =>
      deferCloseT_safe cfg I mf wd g g' q.1.held (stat_safe cfg I mf wd g g' j2 q.1.live)

theorem readlink_safe (n : Nat) (t : Lives σ) (p : Str) (hi : Lives.Inv t) : SafeAt (New t) t (readlink d n p) (readlink d' n p) fun _ _ => True := by
  unfold readlink
  refine .ite (fun _ => .fail hi) fun _ => .andThen (nofollow_safe cfg I mf wd g g' n t _ hi) fun t1 e s1 j1 o =>
    deferCloseT_safe cfg I mf wd g g' (Q := fun _ _ => True) o.held <| .andThen (stat_safe cfg I mf wd g g' j1 o.live) fun t2 st _ j2 q => .ite (fun _ => .fail j2) fun _ => ?_
  obtain ⟨rfl, _⟩ := q
  exact (contents_safe cfg I mf wd g g' j2 o.live).imp fun _ _ _ _ => trivial

/-- A method of the stream of an open file. -/
theorem onStream_safe {A : Nat → Prop} {t : Lives σ} (hi : Lives.Inv t) {f : File (Tagged H)} (hf : Good t f)
    {op : Backend (Lives σ) → Stream.Stm (Lives σ) → Outcome (Stream.Stm (Lives σ) × α)}
    (hop : ∀ h, f.objectHandle.inner = some h → ∀ r, op (backendOf (d').impl h) (f.streamIn t) = .ret r → Calm h t r.1.st.s) :
    SafeAt A t (f.onStream d op) (f.onStream d' op) fun t1 r => Still t t1 ∧ Good t1 r.1 := by
  refine .method fun h he => SafeAt.imp (calm_safe (Q := fun _ r => r.1.objectHandle = f.objectHandle) hi (live_dead hf he) rfl fun t' r hn => ?_) fun t1 r _ k => ⟨k.1, by
    unfold Good; rw [k.2]; exact k.1.live hf⟩
  rcases h2 : op (backendOf (d').impl h) (f.streamIn t) with ⟨x, a⟩ | _ | _
  · have := hop h he _ h2
    rw [h2] at hn
    cases hn
    exact ⟨this, fun a ha => by cases ha; rfl⟩
  · rw [h2] at hn; cases hn
  · rw [h2] at hn; cases hn

theorem writeFile_safe (n : Nat) (t : Lives σ) (p : Str) (data : Bytes) (perm : FileMode) (hi : Lives.Inv t) :
    SafeAt (New t) t (writeFile d n p data perm) (writeFile d' n p data perm) fun _ _ => True := by
  refine .andThen (openFile_safe cfg I mf wd g g' n t p _ perm hi) fun t1 f s1 j1 hf => .method fun h he =>
    SafeAt.imp (calm_safe (Q := fun _ _ => True) j1 (live_dead hf he) rfl fun t' r hn => ⟨?_, fun _ _ => trivial⟩) fun _ _ _ _ => trivial
  have P := Calm.pre (σ := σ) h
  rcases h1 : Stream.write (backendOf (d').impl h) (f.streamIn t1) data with ⟨x, n, e⟩ | _ | _
  · have k1 := Stream.write_frame P.refl P.trans (backendOf (d').impl h) (fun s i buf => calm_use h s _) (fun s i buf => calm_use h s _) (fun s n => calm_use h s _) _ _ _ h1
    rw [h1] at hn
    simp only at hn
    rcases h2 : Stream.sync (backendOf (d').impl h) x with ⟨x', e'⟩ | _ | _
    · have k2 := Stream.sync_frame P.refl P.trans (backendOf (d').impl h) (fun s i buf => calm_use h s _) (fun s i buf => calm_use h s _) _ _ h2
      rw [h2] at hn
      simp only at hn
      cases hn
      exact P.trans k1 k2
    · rw [h2] at hn; cases hn
    · rw [h2] at hn; cases hn
  · rw [h1] at hn; cases hn
  · rw [h1] at hn; cases hn

end

end Mortal

end Disko.Driver

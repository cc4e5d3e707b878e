import Verif.BlockCache.Props2
import Verif.Stream.Sim
/-!
Recording the callback invocations does not change what a cache does; so what C13-C15 say about the recorded
storage holds of the storage itself.
-/
namespace Disko
open BlockCache BlockCache.Spec

namespace Alike
variable {S T : Type} {b : Backend S} {b' : Backend T} {E : S → T → Prop} (A : Alike b b' E)
include A

theorem cacheReadAt (buf : Bytes) (i : Nat) {x : St S} {y : St T} (h : StRel E x y) : (BlockCache.readAt b x buf i).Rel (ResRel E) (BlockCache.readAt b' y buf i) := by
  unfold BlockCache.readAt
  rw [h.1]
  refine .bindSame fun o => ?_
  rcases o with _ | e
  · refine .bindSame fun n => (A.loadBlockRange i n h).bind fun r r' hr => ?_
    rcases r with ⟨x1, e⟩
    rcases r' with ⟨y1, e'⟩
    obtain ⟨h1, h2⟩ := hr
    simp only at h1 h2
    subst h2
    rcases e' with _ | e
    · refine (A.getSlice i n h1).bind fun r r' hr => ?_
      rcases r with ⟨x2, o⟩
      rcases r' with ⟨y2, o'⟩
      obtain ⟨h3, h4⟩ := hr
      simp only at h3 h4
      subst h4
      rcases o' with e | w
      · exact .ret ⟨h3, rfl⟩
      · simp only [h3.1]
        exact .ret ⟨h3, rfl⟩
    · exact .ret ⟨h1, rfl⟩
  · exact .ret ⟨h, rfl⟩

theorem cacheWriteAt (buf : Bytes) (i : Nat) {x : St S} {y : St T} (h : StRel E x y) : (BlockCache.writeAt b x buf i).Rel (ResRel E) (BlockCache.writeAt b' y buf i) := by
  unfold BlockCache.writeAt
  rw [h.1]
  refine .bindSame fun o => ?_
  rcases o with _ | e
  · refine .bindSame fun n => (A.getSlice i n h).bind fun r r' hr => ?_
    rcases r with ⟨x2, o⟩
    rcases r' with ⟨y2, o'⟩
    obtain ⟨h3, h4⟩ := hr
    simp only at h3 h4
    subst h4
    rcases o' with e | w
    · exact .ret ⟨h3, rfl⟩
    · simp only [h3.1]
      exact .bindSame fun c => .ret ⟨⟨rfl, h3.2⟩, rfl⟩
  · exact .ret ⟨h, rfl⟩

theorem mark (i n : Nat) {x : St S} {y : St T} (h : StRel E x y) : (markBlockRangeDirty x i n).Rel (ResRel E) (markBlockRangeDirty y i n) := by
  unfold markBlockRangeDirty
  rw [h.1]
  refine .bindSame fun o => ?_
  rcases o with _ | e
  · exact .bindSame fun c => .ret ⟨⟨rfl, h.2⟩, rfl⟩
  · exact .ret ⟨h, rfl⟩

theorem cacheLoadAll {x : St S} {y : St T} (h : StRel E x y) : (BlockCache.loadAll b x).Rel (ResRel E) (BlockCache.loadAll b' y) := by
  unfold BlockCache.loadAll
  rw [h.1]
  refine (A.loadBlockRange 0 _ h).bind fun r r' hr => ?_
  rcases r with ⟨x1, e⟩
  rcases r' with ⟨y1, e'⟩
  obtain ⟨h1, h2⟩ := hr
  simp only at h1 h2
  subst h2
  rcases e' with _ | e <;> exact .ret ⟨h1, rfl⟩

theorem cacheData {x : St S} {y : St T} (h : StRel E x y) : (BlockCache.data b x).Rel (ResRel E) (BlockCache.data b' y) := by
  unfold BlockCache.data
  refine (A.cacheLoadAll h).bind fun r r' hr => ?_
  rcases r with ⟨x1, e⟩
  rcases r' with ⟨y1, e'⟩
  obtain ⟨h1, h2⟩ := hr
  simp only at h1 h2
  subst h2
  rcases e' with e | _
  · exact .ret ⟨h1, rfl⟩
  · simp only [h1.1]
    exact .ret ⟨h1, rfl⟩

theorem ret {α β : Type} {m : Outcome (St S × α)} {m' : Outcome (St T × α)} (h : m.Rel (ResRel E) m') (f : St S → α → β) (f' : St T → α → β)
    (hf : ∀ x y a, StRel E x y → f' y a = f x a) :
    (m >>= fun r => pure (r.1, f r.1 r.2) : Outcome (St S × β)).Rel (ResRel E) (m' >>= fun r => pure (r.1, f' r.1 r.2)) := by
  refine h.bind fun r r' hr => .ret ⟨hr.1, ?_⟩
  rw [hr.2]
  exact hf _ _ _ hr.1

theorem step (op : Op) {x : St S} {y : St T} (h : StRel E x y) : (Spec.step b x op).Rel (ResRel E) (Spec.step b' y op) := by
  cases op with
  | read buf i => exact A.ret (A.cacheReadAt buf i h) (fun _ r => Result.read r) (fun _ r => Result.read r) fun _ _ _ _ => rfl
  | write buf i => exact A.ret (A.cacheWriteAt buf i h) (fun _ r => Result.write r) (fun _ r => Result.write r) fun _ _ _ _ => rfl
  | resize n => exact A.ret (A.resize' n h) (fun _ r => Result.unit r) (fun _ r => Result.unit r) fun _ _ _ _ => rfl
  | flush => exact A.ret (A.flush' h) (fun _ r => Result.unit r) (fun _ r => Result.unit r) fun _ _ _ _ => rfl
  | loadAll => exact A.ret (A.cacheLoadAll h) (fun _ r => Result.unit r) (fun _ r => Result.unit r) fun _ _ _ _ => rfl
  | data => exact A.ret (A.cacheData h) (fun x r => Result.bytes (r.map x.c.peek)) (fun y r => Result.bytes (r.map y.c.peek)) fun x y a hr => by rw [hr.1]
  | getSlice i n => exact A.ret (A.getSlice i n h) (fun x r => Result.bytes (r.map x.c.peek)) (fun y r => Result.bytes (r.map y.c.peek)) fun x y a hr => by rw [hr.1]
  | edit i n k v =>
    refine (A.getSlice i n h).bind fun r r' hr => ?_
    rcases r with ⟨x1, o⟩
    rcases r' with ⟨y1, o'⟩
    obtain ⟨h1, h2⟩ := hr
    simp only at h1 h2
    subst h2
    rcases o' with e | w
    · exact .ret ⟨h1, rfl⟩
    · exact A.ret (A.mark i n (x := ⟨x1.c.poke w k v, x1.s⟩) (y := ⟨y1.c.poke w k v, y1.s⟩) ⟨by simp only [h1.1], h1.2⟩) (fun _ r => Result.unit r) (fun _ r => Result.unit r) fun _ _ _ _ => rfl

theorem runOps : ∀ (ops : List Op) {x : St S} {y : St T}, StRel E x y → (Spec.runOps b x ops).Rel (ResRel E) (Spec.runOps b' y ops)
  | [], _, _, h => .ret ⟨h, rfl⟩
  | op :: ops, _, _, h => (A.step op h).bind fun r r' hr => (runOps ops hr.1).bind fun q q' hq => .ret ⟨hq.1, by
      show r'.2 :: q'.2 = r.2 :: q.2
      rw [hr.2, hq.2]⟩

end Alike

namespace BlockCache
variable {S : Type}

theorem alike_logged (b : Backend S) : Alike b (logged b) fun s t => t.1 = s where
  fetch s t i buf h := by subst h; exact ⟨rfl, rfl⟩
  flush s t i buf h := by subst h; exact ⟨rfl, rfl⟩
  resize s t n h := by subst h; exact ⟨rfl, rfl⟩

/-- A run on the storage is a run on the recorded one, with the same cache and results. -/
theorem logged_run (b : Backend S) (ops : List Op) (c : Cache) (s : S) (l : List Event) {st : St S} {rs : List Result}
    (h : runOps b ⟨c, s⟩ ops = .ret (st, rs)) :
    ∃ l', runOps (logged b) ⟨c, (s, l)⟩ ops = .ret (⟨st.c, (st.s, l')⟩, rs) := by
  have := (alike_logged b).runOps ops (x := ⟨c, s⟩) (y := ⟨c, (s, l)⟩) ⟨rfl, rfl⟩
  rw [h] at this
  cases e : runOps (logged b) ⟨c, (s, l)⟩ ops with
  | ret r =>
    rw [e] at this
    obtain ⟨⟨c', s', l'⟩, rs'⟩ := r
    cases this with
    | ret h =>
      obtain ⟨⟨h1, h2⟩, h3⟩ := h
      simp only at h1 h2 h3
      subst h1 h2 h3
      exact ⟨l', rfl⟩
  | panic => rw [e] at this; cases this
  | timeout => rw [e] at this; cases this

end BlockCache
end Disko

import Verif.Driver.Props4
/-! C65: listing a directory in pages. -/
namespace Disko.Driver
open Disko Spec

variable {σ H : Type}

namespace Spec

/-- One call of File.ReadDir: the state before, the argument, and what was returned. -/
structure ListCall (σ : Type) where
  state : σ
  n : Int
  page : List DirEntry
  err : Option Err

/-- Successive calls of ReadDir on a file.  Between the calls anything may happen to the file system. -/
inductive Calls (d : Drv σ H) : File H → List (ListCall σ) → File H → Prop where
  | nil (f : File H) : Calls d f [] f
  | cons {f f' f'' : File H} {s s' : σ} {n : Int} {es : List DirEntry} {e : Option Err} {cs : List (ListCall σ)}
      (h : f.readDir d n s = .ret (s', .ok (f', es, e))) (hr : Calls d f' cs f'') : Calls d f (⟨s, n, es, e⟩ :: cs) f''

/-- The file's object is a directory and listing it in state `s` gives `es`. -/
def ListsAs (d : Drv σ H) (f : File H) (s : σ) (es : List DirEntry) : Prop :=
  (∃ h, f.objectHandle.inner = some h ∧ (d.impl.stat s h).isDir = true) ∧ ∃ s', readDirObject d f.objectHandle s = .ret (s', .ok es)

/-- No listing is under way: the file was just opened, or the last call of ReadDir said io.EOF. -/
inductive Idle (d : Drv σ H) : File H → Prop where
  | opened {e : Ext H} {flags : Flags.IOFlags} {s s' : σ} {f : File H} (h : newFile d e flags s = .ret (s', .ok f)) : Idle d f
  | ended {f f' : File H} {s s' : σ} {n : Int} {es : List DirEntry} (h : f.readDir d n s = .ret (s', .ok (f', es, some .eof)))
      (hne : ∀ s s', readDirObject d f.objectHandle s ≠ .ret (s', .error .eof)) : Idle d f'

end Spec

theorem newFile_fresh (d : Drv σ H) (e : Ext H) (flags : Flags.IOFlags) {s s' : σ} {f : File H} (h : newFile d e flags s = .ret (s', .ok f)) :
    f.lastReadDirResult = none ∧ f.objectHandle = e := by
  refine ⟨?_, (newFile_spec d e flags h).2.2 f rfl⟩
  rcases e with ⟨_ | x, p⟩
  · unfold newFile M.andThen statOf Ext.method at h; cases h
  · unfold newFile at h
    rw [andThen_ok (a := d.impl.stat s x) (s' := s) rfl] at h
    simp only [Ext.method] at h
    split at h
    · cases h
    · cases h
    · split at h <;> first | (cases h; done) | (cases h; rfl)

theorem page_cases (es : List DirEntry) (p : Nat) (n : Int) :
    (es.length ≤ p ∧ page es p n = ([], some .eof, none, 0)) ∨
    (p < es.length ∧ ∃ k, 0 < k ∧ p + k ≤ es.length ∧ (0 < n → (k : Int) ≤ n) ∧ (n ≤ 0 → p + k = es.length) ∧
      page es p n = ((es.drop p).take k, none, some es, p + k)) := by
  unfold page remaining
  by_cases h : es.length ≤ p
  · left
    simp only [show es.length - p = 0 by omega, if_true]
    exact ⟨h, trivial⟩
  · right
    have h0 : es.length - p ≠ 0 := by omega
    simp only [h0, if_false]
    refine ⟨by omega, if n ≤ 0 ∨ n > (es.length - p : Nat) then es.length - p else n.toNat, ?_, ?_, ?_, ?_, rfl⟩
    all_goals split <;> omega

/-- One call, in terms of the queue. -/
theorem readDir_queue (d : Drv σ H) {f f' : File H} {s s' : σ} {n : Int} {es : List DirEntry} {e : Option Err}
    (h : f.readDir d n s = .ret (s', .ok (f', es, e))) :
    (∃ er, e = some er ∧ es = [] ∧ f' = f ∧ (f.lastReadDirResult = none ∨ er = .notADirectory) ∧
      (er = .notADirectory ∨ ∃ s1, readDirObject d f.objectHandle s = .ret (s1, .error er))) ∨
    ∃ q p, (f.lastReadDirResult = some q ∧ p = f.readDirResultPointer ∨ f.lastReadDirResult = none ∧ ListsAs d f s q ∧ p = 0) ∧
      (es, e) = ((page q p n).1, (page q p n).2.1) ∧
      f' = { f with lastReadDirResult := (page q p n).2.2.1, readDirResultPointer := (page q p n).2.2.2 } := by
  rcases ho : f.objectHandle with ⟨_ | x, ap⟩
  · unfold File.readDir at h
    rw [ho] at h
    unfold M.andThen statOf Ext.method at h; cases h
  · unfold File.readDir at h
    rw [ho, andThen_ok (a := d.impl.stat s x) (s' := s) rfl] at h
    rcases hd : (d.impl.stat s x).isDir with _ | _
    · rw [hd] at h
      simp only [Bool.not_false, if_true, M.ok] at h
      cases h
      exact .inl ⟨_, rfl, rfl, rfl, .inr rfl, .inl rfl⟩
    · rw [hd] at h
      simp only [Bool.not_true, Bool.false_eq_true, if_false] at h
      rcases hq : f.lastReadDirResult with _ | q
      · rw [hq] at h
        simp only at h
        rcases hr : readDirObject d ⟨some x, ap⟩ s with ⟨s1, er | q⟩ | _ | _
        · rw [either_ret hr] at h
          simp only [M.ok] at h
          cases h
          exact .inl ⟨er, rfl, rfl, rfl, .inl rfl, .inr ⟨_, rfl⟩⟩
        · rw [either_ret hr] at h
          simp only [M.ok] at h
          cases h
          right
          refine ⟨q, 0, .inr ⟨rfl, ⟨⟨x, by rw [ho], hd⟩, s', by rw [ho]; exact hr⟩, rfl⟩, rfl, rfl⟩
        · rw [either_panic hr] at h; cases h
        · rw [either_timeout hr] at h; cases h
      · rw [hq] at h
        simp only [M.ok] at h
        cases h
        exact .inr ⟨q, _, .inl ⟨rfl, rfl⟩, rfl, rfl⟩

theorem idle_fresh (d : Drv σ H) {f : File H} (h : Idle d f) : f.lastReadDirResult = none := by
  cases h with
  | opened h => exact (newFile_fresh d _ _ h).1
  | ended h hne =>
    rcases readDir_queue d h with ⟨er, e, _, hf, hq, hc⟩ | ⟨q, p, _, he, hf⟩
    · cases e
      rcases hc with hc | ⟨s1, hc⟩
      · cases hc
      · exact absurd hc (hne _ _)
    · rcases page_cases q p ‹Int› with ⟨_, hp⟩ | ⟨_, k, _, _, _, _, hp⟩
      · rw [hf, hp]
      · rw [hp] at he; cases he

/-- Calls with a queue: the pages are the entries from the pointer on. -/
theorem calls_queue (d : Drv σ H) {f f' : File H} {cs : List (ListCall σ)} (h : Calls d f cs f') : ∀ (q : List DirEntry),
    f.lastReadDirResult = some q → f.readDirResultPointer ≤ q.length → (∀ c ∈ cs, c.err ≠ some .eof) →
    f'.lastReadDirResult = some q ∧ f'.readDirResultPointer = f.readDirResultPointer + (cs.flatMap (·.page)).length ∧
    f'.readDirResultPointer ≤ q.length ∧
    cs.flatMap (·.page) = (q.drop f.readDirResultPointer).take (cs.flatMap (·.page)).length ∧
    (∀ c ∈ cs, (c.err = none ∧ c.page ≠ [] ∧ (0 < c.n → (c.page.length : Int) ≤ c.n)) ∨ (c.err = some .notADirectory ∧ c.page = [])) ∧
    (∀ c ∈ cs, c.err = none → c.n ≤ 0 → f'.readDirResultPointer = q.length) := by
  induction h with
  | nil f => intro q hq hp _; exact ⟨hq, by simp, hp, by simp, by simp, by simp⟩
  | @cons f f1 f2 s s' n es e cs h hr ih =>
    intro q hq hp hne
    rcases readDir_queue d h with ⟨er, rfl, rfl, rfl, hk, _⟩ | ⟨q', p, hqp, he, hf⟩
    · have her : er = .notADirectory := by
        rcases hk with hk | hk
        · rw [hq] at hk; cases hk
        · exact hk
      subst her
      obtain ⟨i1, i2, i3, i4, i5, i6⟩ := ih q hq hp (fun c hc => hne c (List.mem_cons_of_mem _ hc))
      refine ⟨i1, by simpa using i2, i3, by simpa using i4, ?_, ?_⟩
      · intro c hc
        rcases List.mem_cons.mp hc with rfl | hc
        · exact .inr ⟨rfl, rfl⟩
        · exact i5 c hc
      · intro c hc he
        rcases List.mem_cons.mp hc with rfl | hc
        · cases he
        · exact i6 c hc he
    · have hqq : q' = q ∧ p = f.readDirResultPointer := by
        rcases hqp with ⟨h1, h2⟩ | ⟨h1, _⟩
        · rw [hq] at h1; cases h1; exact ⟨rfl, h2⟩
        · rw [hq] at h1; cases h1
      obtain ⟨rfl, rfl⟩ := hqq
      rcases page_cases q' f.readDirResultPointer n with ⟨_, hpg⟩ | ⟨hlt, k, k0, k1, k2, k3, hpg⟩
      · rw [hpg] at he
        cases he
        exact absurd rfl (hne _ (List.mem_cons_self ..))
      · rw [hpg] at he hf
        cases he
        obtain ⟨i1, i2, i3, i4, i5, i6⟩ := ih q' (by rw [hf]) (by rw [hf]; exact k1) (fun c hc => hne c (List.mem_cons_of_mem _ hc))
        have hptr : f1.readDirResultPointer = f.readDirResultPointer + k := by rw [hf]
        rw [hptr] at i2 i4
        have hlen : ((q'.drop f.readDirResultPointer).take k).length = k := by
          rw [List.length_take, List.length_drop]; omega
        refine ⟨i1, ?_, i3, ?_, ?_, ?_⟩
        · rw [List.flatMap_cons, List.length_append, hlen, i2]; omega
        · rw [List.flatMap_cons, List.length_append, hlen, List.take_add, List.drop_drop]
          rw [← i4]
        · intro c hc
          rcases List.mem_cons.mp hc with rfl | hc
          · left
            refine ⟨rfl, ?_, ?_⟩
            · intro (hc : (q'.drop f.readDirResultPointer).take k = [])
              rw [hc] at hlen
              simp at hlen; omega
            · intro hn
              show (((q'.drop f.readDirResultPointer).take k).length : Int) ≤ n
              rw [hlen]; exact k2 hn
          · exact i5 c hc
        · intro c hc he hn
          rcases List.mem_cons.mp hc with rfl | hc
          · have := k3 hn
            omega
          · exact i6 c hc he hn

theorem calls_append (d : Drv σ H) {f f' : File H} {a b : List (ListCall σ)} (h : Calls d f (a ++ b) f') :
    ∃ m, Calls d f a m ∧ Calls d m b f' := by
  induction a generalizing f with
  | nil => exact ⟨f, .nil f, h⟩
  | cons c a ih =>
    cases h with
    | cons h1 h2 =>
      obtain ⟨m, i1, i2⟩ := ih h2
      exact ⟨m, .cons h1 i1, i2⟩

/-- The first call lists the directory. -/
theorem calls_first (d : Drv σ H) {f f' : File H} {c : ListCall σ} {cs : List (ListCall σ)} {es : List DirEntry} (hf : f.lastReadDirResult = none)
    (hl : ListsAs d f c.state es) (h : Calls d f (c :: cs) f') :
    Calls d { f with lastReadDirResult := some es, readDirResultPointer := 0 } (c :: cs) f' := by
  cases h with
  | cons h1 h2 =>
    rename_i f1 s s' n pg e
    refine .cons (s' := s) ?_ h2
    obtain ⟨⟨x, hx, hd⟩, s1, hr⟩ := hl
    have hst : statOf d f.objectHandle s = .ret (s, .ok (d.impl.stat s x)) := by
      unfold statOf Ext.method; rw [hx]
    unfold File.readDir at h1 ⊢
    rw [andThen_ok hst, hd] at h1
    rw [andThen_ok hst, hd]
    simp only [Bool.not_true, Bool.false_eq_true, if_false] at h1 ⊢
    rw [hf] at h1
    simp only at h1
    rw [either_ret hr] at h1
    simp only [M.ok] at h1 ⊢
    cases h1
    rfl

theorem successes_le (cs : List (ListCall σ)) (h : ∀ c ∈ cs, c.err = none → c.page ≠ []) :
    (cs.filter (·.err.isNone)).length ≤ (cs.flatMap (·.page)).length := by
  induction cs with
  | nil => simp
  | cons c cs ih =>
    have := ih fun x hx => h x (List.mem_cons_of_mem _ hx)
    rw [List.flatMap_cons, List.length_append, List.filter_cons]
    split
    · rename_i hc
      have h1 := h c (List.mem_cons_self ..) (Option.isNone_iff_eq_none.mp hc)
      have := List.length_pos_iff.mpr h1
      rw [List.length_cons]; omega
    · omega

/-- C65: from an idle file, the calls up to (not including) the first io.EOF return a prefix of the
listing, in order and without repetition or gap; no page is empty or longer than asked for, and asking
for n ≤ 0 delivers the rest; when io.EOF comes, all of the listing has been delivered, after at most as
many successful calls as there are entries.  The sizes `n` and the changes to the file system between
the calls are arbitrary.  Missing: the directories the driver itself opens (`C65_refuted`). -/
theorem C65_pages_partial (d : Drv σ H) (f f' : File H) (c : ListCall σ) (cs : List (ListCall σ)) (es : List DirEntry) (hi : Idle d f)
    (hl : ListsAs d f c.state es) (h : Calls d f (c :: cs) f') :
    ((∀ x ∈ c :: cs, x.err ≠ some .eof) →
      (c :: cs).flatMap (·.page) <+: es ∧
      (∀ x ∈ c :: cs, (x.err = none ∧ x.page ≠ [] ∧ (0 < x.n → (x.page.length : Int) ≤ x.n)) ∨ (x.err = some .notADirectory ∧ x.page = [])) ∧
      (∀ x ∈ c :: cs, x.err = none → x.n ≤ 0 → (c :: cs).flatMap (·.page) = es)) ∧
    (∀ pre last, c :: cs = pre ++ [last] → last.err = some .eof → (∀ x ∈ pre, x.err ≠ some .eof) →
      pre.flatMap (·.page) = es ∧ last.page = [] ∧ (pre.filter (·.err.isNone)).length ≤ es.length) := by
  have h := calls_first d (idle_fresh d hi) hl h
  constructor
  · intro hne
    obtain ⟨_, i2, i3, i4, i5, i6⟩ := calls_queue d h es rfl (Nat.zero_le _) hne
    simp only [List.drop_zero, Nat.zero_add] at i2 i4
    refine ⟨by rw [i4]; exact List.take_prefix .., i5, fun x hx he hn => ?_⟩
    have := i6 x hx he hn
    rw [i4, ← i2, this, List.take_length]
  · intro pre last hsplit heof hne
    rw [hsplit] at h
    obtain ⟨m, h1, h2⟩ := calls_append d h
    obtain ⟨i1, i2, i3, i4, i5, _⟩ := calls_queue d h1 es rfl (Nat.zero_le _) hne
    simp only [List.drop_zero, Nat.zero_add] at i2 i4
    cases h2 with
    | cons h3 h4 =>
      rename_i f2 s s' n pg e
      cases heof
      rcases readDir_queue d h3 with ⟨er, he, _, _, hk, _⟩ | ⟨q, p, hqp, he, hf⟩
      · cases he
        rcases hk with hk | hk
        · rw [i1] at hk; cases hk
        · cases hk
      · have hqq : q = es ∧ p = m.readDirResultPointer := by
          rcases hqp with ⟨h1, h2⟩ | ⟨h1, _⟩
          · rw [i1] at h1; cases h1; exact ⟨rfl, h2⟩
          · rw [i1] at h1; cases h1
        obtain ⟨rfl, rfl⟩ := hqq
        rcases page_cases q m.readDirResultPointer n with ⟨hle, hpg⟩ | ⟨_, k, _, _, _, _, hpg⟩
        · rw [hpg] at he
          have hall : pre.flatMap (·.page) = q := by
            rw [i4, ← i2, List.take_of_length_le hle]
          refine ⟨hall, by cases he; rfl, ?_⟩
          have := successes_le pre fun c hc he => by
            rcases i5 c hc with ⟨_, h, _⟩ | ⟨h, _⟩
            · exact h
            · rw [he] at h; cases h
          rw [hall] at this
          exact this
        · rw [hpg] at he; cases he

/-- C65: the calls go through (they neither panic nor recurse endlessly) while the object is a
directory and a listing is under way or listing it works. -/
theorem C65_returns_partial (d : Drv σ H) (f : File H) (s : σ) (n : Int) (x : H) (hx : f.objectHandle.inner = some x)
    (hl : ∀ s, (d.impl.stat s x).isDir = true → ∃ s' r, readDirObject d f.objectHandle s = .ret (s', r)) :
    ∃ s' f' es e, f.readDir d n s = .ret (s', .ok (f', es, e)) := by
  have hst : statOf d f.objectHandle s = .ret (s, .ok (d.impl.stat s x)) := by
    unfold statOf Ext.method; rw [hx]
  unfold File.readDir
  rw [andThen_ok hst]
  rcases hd : (d.impl.stat s x).isDir with _ | _
  · exact ⟨_, _, _, _, rfl⟩
  · simp only [Bool.not_true, Bool.false_eq_true, if_false]
    rcases hq : f.lastReadDirResult with _ | q
    · obtain ⟨s', r, hr⟩ := hl s hd
      simp only
      rw [either_ret hr]
      rcases r with e | r
      · exact ⟨_, _, _, _, rfl⟩
      · exact ⟨_, _, _, _, rfl⟩
    · exact ⟨_, _, _, _, rfl⟩

/-- C65: Readdir and Readdirnames are further ways to make the same calls: they return what ReadDir would
return in that state, Readdirnames only the names, and leave the file and the file system as it would; so
the pages of C65 may be asked for with any of the three methods, in any mixture. -/
theorem C65_readdir_partial (d : Drv σ H) (f : File H) (n : Int) (s : σ) :
    f.readdir d n s = f.readDir d n s ∧
    (∀ s' f' es e, f.readDir d n s = .ret (s', .ok (f', es, e)) → f.readdirnames d n s = .ret (s', .ok (f', es.map (·.name), e))) ∧
    ((¬ ∃ s' r, f.readDir d n s = .ret (s', .ok r)) → ¬ ∃ s' r, f.readdirnames d n s = .ret (s', .ok r)) := by
  have key : ∀ s' f' es er, f.readDir d n s = .ret (s', .ok (f', es, some er)) → es = [] := by
    intro s' f' es er h
    rcases readDir_queue d h with ⟨_, _, h1, _⟩ | ⟨q, p, _, h1, _⟩
    · exact h1
    · rcases page_cases q p n with ⟨_, hp⟩ | ⟨_, k, _, _, _, _, hp⟩
      · rw [hp] at h1; cases h1; rfl
      · rw [hp] at h1; cases h1
  refine ⟨?_, fun s' f' es e h => ?_, fun h ⟨s', r, h1⟩ => ?_⟩
  · unfold File.readdir M.andThen
    rcases h : f.readDir d n s with ⟨s', e | ⟨f', es, _ | er⟩⟩ | _ | _
    · rfl
    · rfl
    · rw [key _ _ _ _ h]; rfl
    · rfl
    · rfl
  · unfold File.readdirnames
    rw [andThen_ok h]
    rcases e with _ | er
    · rfl
    · rw [key _ _ _ _ h]; rfl
  · unfold File.readdirnames M.andThen at h1
    rcases h2 : f.readDir d n s with ⟨s2, e | r2⟩ | _ | _
    · rw [h2] at h1; cases h1
    · exact h ⟨s2, r2, h2⟩
    · rw [h2] at h1; cases h1
    · rw [h2] at h1; cases h1

/-- C65, what a listing contains: the objects ListDir names, except "." and "..", in that order. -/
theorem C65_listing_partial (d : Drv σ H) (Q : Quiet d.impl) (x : H) (p : Str) (hp : d.cfg.passOptional = true) (s s' : σ)
    (list : σ → σ × Except Err (List Str)) (names : List Str) (hlist : d.impl.listDir x = some list) (hn : list s = (s', .ok names))
    (obj : Str → H) (hobj : ∀ n ∈ names, n ≠ str! "." → n ≠ str! ".." → (d.impl.getObject s' n x).2 = .ok (obj n)) :
    readDirObject d ⟨some x, p⟩ s = .ret (s', .ok ((names.filter fun n => n ≠ str! "." ∧ n ≠ str! "..").map fun n =>
      ⟨d.impl.name s' (obj n), d.impl.stat s' (obj n)⟩)) := by
  have loop : ∀ (names : List Str) (out : List DirEntry),
      (∀ n ∈ names, n ≠ str! "." → n ≠ str! ".." → (d.impl.getObject s' n x).2 = .ok (obj n)) →
      readDirLoop d x names out s' = .ret (s', .ok (out ++ (names.filter fun n => n ≠ str! "." ∧ n ≠ str! "..").map fun n =>
        ⟨d.impl.name s' (obj n), d.impl.stat s' (obj n)⟩)) := by
    intro names
    induction names with
    | nil => intro out _; rw [readDirLoop]; simp [M.ok]
    | cons n names ih =>
      intro out ho
      have ho' := fun m hm => ho m (List.mem_cons_of_mem _ hm)
      rw [readDirLoop]
      by_cases hdot : n = str! "." ∨ n = str! ".."
      · rw [if_pos (c := n = Path.dot ∨ n = Path.dotdot) hdot, ih out ho', List.filter_cons_of_neg]
        rcases hdot with h | h <;> simp [h]
      · rw [if_neg (c := n = Path.dot ∨ n = Path.dotdot) hdot]
        have h1 : n ≠ str! "." := fun h => hdot (.inl h)
        have h2 : n ≠ str! ".." := fun h => hdot (.inr h)
        have hg := ho n (List.mem_cons_self ..) h1 h2
        have hgs := Q.getObject s' n x
        rw [andThen_ok (a := obj n) (s' := s') (by
          unfold M.call
          rcases e : d.impl.getObject s' n x with ⟨a, b⟩
          rw [e] at hg hgs
          simp only at hg hgs
          simp only [e, hg, hgs])]
        rw [either_ret (r := .ok ()) (s' := s') (by simp only [M.callE, Q.close])]
        rw [ih _ ho', List.filter_cons_of_pos (by simp [h1, h2])]
        simp [newDirectoryEntry]
  unfold readDirObject Ext.optional
  rw [if_pos hp]
  simp only [Option.bind_some, hlist]
  rw [andThen_ok (a := names) (s' := s') (by rw [M.call, hn])]
  simp only [Ext.method]
  rw [loop names [] hobj]
  rfl

/-! Three entries, read with n = 2: two, one, io.EOF. -/

/-- The state of `growing` used here. -/
def abc : List Str := [str! "a", str! "b", str! "c"]

example : (match newFile ⟨passing, growing, 3, str! "/"⟩ ⟨some 0, str! "/"⟩ 0 abc with
    | .ret (s1, .ok f) =>
      match f.readDir ⟨passing, growing, 3, str! "/"⟩ 2 s1 with
      | .ret (s2, .ok (f2, p2, e2)) =>
        match f2.readDir ⟨passing, growing, 3, str! "/"⟩ 2 s2 with
        | .ret (s3, .ok (f3, p3, e3)) =>
          match f3.readDir ⟨passing, growing, 3, str! "/"⟩ 2 s3 with
          | .ret (_, .ok (_, p4, e4)) =>
            p2.map (·.name) == [str! "a", str! "b"] && e2 == none && p3.map (·.name) == [str! "c"] && e3 == none && p4 == [] && e4 == some .eof
          | _ => false
        | _ => false
      | _ => false
    | _ => false) = true := by decide +kernel

/-- C65 through the driver: a directory opened with Open can be listed. -/
def C65_statement (cfg : Cfg) : Prop :=
  ∀ (σ H : Type) (impl : Impl σ H) (mf : MountFlags) (s : σ), Quiet impl → RootIsDir impl s →
    (∃ list names, impl.listDir (impl.getRootDirectory s) = some list ∧ list s = (s, .ok names)) →
    ∃ fuel s' f, open_ ⟨cfg, impl, mf, str! "/"⟩ fuel (str! "/") s = .ret (s', .ok f)

/-- C65 is false in every configuration of wrapObjectHandle: OpenFile refuses directories, so no file
it returns can be listed. -/
theorem C65_refuted (cfg : Cfg) : ¬ C65_statement cfg := by
  intro h
  obtain ⟨fuel, s', f, h⟩ := h _ _ growing 3 abc growing_peaceful.toQuiet ⟨by decide, by decide⟩ ⟨_, abc, rfl, rfl⟩
  have hnorm : normalizePath (str! "/") (str! "/") = render [] := normalize_canonical isLoc_nil (str! "/")
  have hroot : ∀ e s1, getFollow ⟨cfg, growing, 3, str! "/"⟩ fuel (render []) abc = .ret (s1, e) →
      e = .ok (wrapObjectHandle cfg (some 0) (str! "/")) ∧ s1 = abc := by
    intro e s1 hg
    rcases fuel with _ | _ | n
    · rw [getFollow] at hg; cases hg
    · rw [getFollow, andThen_timeout (by rw [getNoFollow])] at hg; cases hg
    · rw [getFollow, andThen_ok (a := wrapObjectHandle cfg (some 0) (str! "/")) (s' := abc) (by
        rw [show render [] = str! "/" from rfl, getNoFollow, if_pos (.inl rfl)]; rfl), followLoop] at hg
      unfold wrapObjectHandle at hg ⊢
      rcases hk : cfg.keepHandle with _ | _
      · rw [hk] at hg
        rw [andThen_panic rfl] at hg
        cases hg
      · rw [hk] at hg
        rw [andThen_ok (a := statWith Flags.ModeDir 0 0 0) (s' := abc) rfl] at hg
        rw [if_pos (by decide)] at hg
        cases hg
        exact ⟨rfl, rfl⟩
  unfold open_ openFile at h
  rw [if_neg (by simp [show Flags.requiresWritePerm Flags.O_RDONLY = false from by decide])] at h
  simp only [hnorm] at h
  rcases hg : getFollow ⟨cfg, growing, 3, str! "/"⟩ fuel (render []) abc with ⟨s1, e⟩ | _ | _
  · obtain ⟨rfl, rfl⟩ := hroot _ _ hg
    rw [either_ret hg] at h
    simp only at h
    rw [andThen_ok (a := wrapObjectHandle cfg (some 0) (str! "/")) (s' := abc) rfl] at h
    unfold wrapObjectHandle at h
    rcases hk : cfg.keepHandle with _ | _
    · rw [hk] at h
      rw [andThen_panic rfl] at h
      cases h
    · rw [hk] at h
      rw [andThen_ok (a := statWith Flags.ModeDir 0 0 0) (s' := abc) rfl] at h
      rw [if_pos (by decide)] at h
      cases h
  · rw [either_panic hg] at h; cases h
  · rw [either_timeout hg] at h; cases h

end Disko.Driver

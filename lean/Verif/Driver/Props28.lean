import Verif.Driver.Props27
/-! Claim C128: two open files of one object agree. -/
namespace Disko.Driver
open Disko Spec

variable {σ H : Type}

namespace Spec

/-- The calls of file number `i` in a history: reading, writing, seeking, truncating, syncing and describing. -/
def callsOn (i : Nat) : List Op → List FileOp
  | [] => []
  | .file j op :: ops => if j = i ∧ isIO op then op :: callsOn i ops else callsOn i ops
  | _ :: ops => callsOn i ops

end Spec

/-- One such call after the other, on one file. -/
def alone (d : Drv σ H) : File H → List FileOp → M σ (List Answer)
  | _, [] => M.ok []
  | f, op :: ops => M.andThen (stepFile d f op) fun (r, a) => M.andThen (alone d r.2 ops) fun as => M.ok (a :: as)

/-- The file's own part of a history, made on a file like it. -/
theorem runOps_alone {d : Drv σ H} {h : H} {E : σ → σ → Prop} (A : Apart d.impl h E) (fuel i : Nat) : ∀ (ops : List Op) (w : World H) (f g : File H) (s t s' : σ) (w' : World H) (as : List Answer),
    w.files[i]? = some f → f.objectHandle.inner = some h → SameStream f g → E s t → runOps d fuel w (ops.filter (own i)) s = .ret (s', .ok (w', as)) →
    ∃ t', alone d g (callsOn i ops) t = .ret (t', .ok as)
  | [], w, f, g, s, t, s', w', as, hf, hh, hfg, hE, e => by
    rw [List.filter_nil, runOps] at e
    cases e
    exact ⟨t, rfl⟩
  | op :: ops, w, f, g, s, t, s', w', as, hf, hh, hfg, hE, e => by
    by_cases hown : own i op = true
    · obtain ⟨j, fop, rfl⟩ : ∃ j fop, op = .file j fop := by cases op <;> first | exact ⟨_, _, rfl⟩ | cases hown
      rw [List.filter_cons_of_pos hown, runOps] at e
      unfold own at hown
      simp only [Bool.and_eq_true, beq_iff_eq] at hown
      obtain ⟨rfl, hio⟩ := hown
      obtain ⟨s1, ⟨w1, a⟩, e1, e2⟩ := andThen_inv e
      obtain ⟨s2, ⟨w2, as1⟩, e3, e4⟩ := andThen_inv e2
      simp only at e3 e4
      cases e4
      rw [stepOp, hf] at e1
      simp only at e1
      obtain ⟨s3, ⟨⟨wd, f1⟩, a1⟩, e5, e6⟩ := andThen_inv e1
      simp only at e5 e6
      cases e6
      have hlt : j < w.files.length := by
        rcases Nat.lt_or_ge j w.files.length with h | h
        · exact h
        · rw [List.getElem?_eq_none h] at hf; cases hf
      obtain ⟨t3, wd', g1, k1, k2, k3, k4⟩ := stepFile_io (d' := d) (d := { d with workingDirPath := w.wd }) A rfl hfg hh hio hE e5
      obtain ⟨t4, l1⟩ := runOps_alone A fuel j ops ⟨wd, w.files.set j f1⟩ f1 g1 s1 t3 s' w' as1 (by simp [hlt]) (by rw [k4]; exact hh) k3 k2 e3
      refine ⟨t4, ?_⟩
      rw [callsOn, if_pos ⟨rfl, hio⟩, alone, andThen_ok k1]
      simp only
      rw [andThen_ok l1]
      rfl
    · rw [List.filter_cons_of_neg hown] at e
      obtain ⟨t', l⟩ := runOps_alone A fuel i ops w f g s t s' w' as hf hh hfg hE e
      refine ⟨t', ?_⟩
      have : callsOn i (op :: ops) = callsOn i ops := by
        cases op with
        | file j o =>
          rw [callsOn, if_neg]
          intro hc
          exact hown (by unfold own; simp [hc.1, hc.2])
        | _ => rfl
      rw [this]
      exact l

/-- C128, the part that holds: on every implementation that keeps the contents of an object apart from everything else, in every
configuration of the code: two files of the object are open for reading, alike to start with (the same position, and the same blocks
loaded: as two files just opened), and no file open for writing is of the object.  However the program interleaves its calls: if it makes
the same calls on both, it gets the same answers from both. -/
theorem C128_readers_agree_partial {d : Drv σ H} {h : H} {E : σ → σ → Prop} (A : Apart d.impl h E) (fuel i j : Nat) (ops : List Op) (hops : ∀ op ∈ ops, NoPathWrites op)
    (w : World H) (f g : File H) (hf : w.files[i]? = some f) (hg : w.files[j]? = some g) (hh : f.objectHandle.inner = some h)
    (same : ∃ listed next, g = { f with lastReadDirResult := listed, readDirResultPointer := next })
    (others : ∀ (k : Nat) (x : File H), w.files[k]? = some x → (Flags.write x.ioFlags = false ∧ ∀ b, x.cache.dirty.getD b false = false) ∨ x.objectHandle.inner ≠ some h)
    (calls : callsOn i ops = callsOn j ops)
    {s s' : σ} {w' : World H} {as : List Answer} (e : runOps d fuel w ops s = .ret (s', .ok (w', as))) :
    ownAnswers i ops as = ownAnswers j ops as := by
  have hh' : g.objectHandle.inner = some h := by obtain ⟨_, _, rfl⟩ := same; exact hh
  obtain ⟨t1, v1, e1, _⟩ := C127_isolation A fuel i ops hops w f hf hh (fun k x _ hx => others k x hx) e
  obtain ⟨t2, v2, e2, _⟩ := C127_isolation A fuel j ops hops w g hg hh' (fun k x _ hx => others k x hx) e
  obtain ⟨t3, e3⟩ := runOps_alone A fuel i ops w f g s s _ _ _ hf hh same (A.refl s) e1
  obtain ⟨t4, e4⟩ := runOps_alone A fuel j ops w g g s s _ _ _ hg hh' (SameStream.refl g) (A.refl s) e2
  rw [calls, e4] at e3
  simp only [Outcome.ret.injEq, Prod.mk.injEq, Except.ok.injEq] at e3
  exact e3.2.symm

/-- C128 in full: a program opens a path twice, uses the first file in any way and makes Sync on it: then both files give the same answer to
ReadAt.  In every configuration of the code, on every implementation that keeps the contents of the object apart from everything else. -/
def C128_statement : Prop :=
  ∀ (σ H : Type) (cfg : Cfg) (impl : Impl σ H) (h : H) (E : σ → σ → Prop), Apart impl h E →
  ∀ (fuel : Nat) (mf : MountFlags) (p : Str) (flags : Flags.IOFlags) (uses : List FileOp) (n : Nat) (off : Int) (s s' : σ) (w' : World H) (as : List Answer) (x y : Answer),
    runOps (new cfg impl mf) fuel .start ([.openFile p flags 0, .openFile p flags 0] ++ uses.map (.file 0) ++ [.file 0 .sync, .file 0 (.readAt n off), .file 1 (.readAt n off)]) s
      = .ret (s', .ok (w', as ++ [.count 0 none, x, y])) →
    x = y

/-- The program of the refutation: it shortens "abcd" to two bytes through the first file. -/
def stale : List Op := [.openFile (str! "a") Flags.O_RDWR 0, .openFile (str! "a") Flags.O_RDWR 0] ++ [FileOp.truncate 2].map (.file 0) ++ [.file 0 .sync, .file 0 (.readAt 4 0), .file 1 (.readAt 4 0)]

/-- C128 is false, also with wrapObjectHandle repaired: every file has a cache and a size of its own, and Sync tells no other file.  The
second file still reads four bytes without an error, although the object has only two. -/
theorem C128_refuted : ¬ C128_statement := by
  intro hall
  have key : (match runOps (new keeping two 3) 19 .start stale (str! "abcd", str! "ABCD") with
      | .ret (s, .ok (_, as)) => decide (s.1 = str! "ab" ∧ as = [Answer.done, .done, .count 0 none] ++ [.count 0 none, .read 2 (str! "ab" ++ [0, 0]) (some .eof), .read 4 (str! "ab" ++ [0, 0]) none])
      | _ => false) = true := by decide +kernel
  rcases e : runOps (new keeping two 3) 19 .start stale (str! "abcd", str! "ABCD") with ⟨s, _ | ⟨w, as⟩⟩ | _ | _ <;> rw [e] at key
  · cases key
  · have key := of_decide_eq_true key
    rw [key.2] at e
    have := hall _ _ keeping two 1 _ two_apart 19 3 (str! "a") Flags.O_RDWR [.truncate 2] 4 0 _ _ _ _ _ _ e
    exact absurd this (by decide)
  · cases key
  · cases key

/-- Two readers of "a" (files 0 and 2) beside a writer of "b" (file 1): the same calls, interleaved, get the same answers. -/
example : (match runOps (new keeping two 3) 19 .start [.open_ (str! "a"), .openFile (str! "b") Flags.O_RDWR 0, .open_ (str! "a")] (str! "abcd", str! "ABCD") with
    | .ret (s, .ok (w, _)) =>
      let ops : List Op := [.file 0 (.read 3), .file 1 (.truncate 0), .file 2 (.read 3), .file 2 (.read 3), .file 1 (.write (str! "q")), .file 0 (.read 3)]
      decide (w.files[2]? = w.files[0]? ∧ w.files.map (fun f => (f.objectHandle.inner, Flags.write f.ioFlags, f.cache.dirty.contains true)) = [(some 1, false, false), (some 2, true, false), (some 1, false, false)]) &&
      (match runOps (new keeping two 3) 19 w ops s with
      | .ret (_, .ok (_, as)) => decide (ownAnswers 0 ops as = [.read 3 (str! "abc") none, .read 1 (str! "d" ++ [0, 0]) (some .eof)] ∧ ownAnswers 2 ops as = ownAnswers 0 ops as)
      | _ => false)
    | _ => false) = true := by decide +kernel

end Disko.Driver

import Verif.Driver.Isolation
import Verif.Driver.Props26
/-! Claim C127: open files do not interfere. -/
namespace Disko.Driver
open Disko Spec

variable {σ H : Type}

/-- C127: in every configuration of the code, for every implementation that keeps the contents of the object `h` apart from everything
else: a program has opened a file (number `i`) of this object, and the other files it has open are of other objects, or cannot write and
have nothing to write.  Whatever it then does with the volume and all its files (but writing to, truncating or removing what a path leads
to), the answers it gets from this file are those it would have got had it used nothing but this file; and so is what becomes of the
object. -/
theorem C127_isolation {d : Drv σ H} {h : H} {E : σ → σ → Prop} (A : Apart d.impl h E) (fuel i : Nat) (ops : List Op) (hops : ∀ op ∈ ops, NoPathWrites op)
    (w : World H) (f : File H) (hf : w.files[i]? = some f) (hh : f.objectHandle.inner = some h)
    (others : ∀ (j : Nat) (g : File H), j ≠ i → w.files[j]? = some g → (Flags.write g.ioFlags = false ∧ ∀ k, g.cache.dirty.getD k false = false) ∨ g.objectHandle.inner ≠ some h)
    {s s' : σ} {w' : World H} {as : List Answer} (e : runOps d fuel w ops s = .ret (s', .ok (w', as))) :
    ∃ t' v', runOps d fuel w (ops.filter (own i)) s = .ret (t', .ok (v', ownAnswers i ops as)) ∧ E s' t' := by
  refine runOps_own A fuel i ops hops w w f f s s s' w' as hf hf (SameStream.refl f) hh ?_ (A.refl s) e
  intro j g hj hg
  rcases others j g hj hg with ⟨h1, h2⟩ | h1
  · exact .inl ⟨h1, h2⟩
  · exact .inr h1

/-- For examples: a volume with two files "a" (handle 1) and "b" (handle 2) in "/" (handle 0), in blocks of two bytes; resizing to `n`
makes room for `n` blocks. -/
def two : Impl (Bytes × Bytes) Nat where
  features := ⟨true, true, true⟩
  getRootDirectory _ := 0
  getObject s n h := (s, if h = 0 then (if n = str! "a" then .ok 1 else if n = str! "b" then .ok 2 else .error .notFound) else .error .notFound)
  createObject s _ _ _ := (s, .error .notImplemented)
  createHardLink := none
  stat s h := if h = 0 then { FileStat.zero with modeFlags := Flags.ModeDir, blockSize := 2 }
    else let l := (if h = 1 then s.1 else s.2).length
      { FileStat.zero with size := l, blockSize := 2, numBlocks := (l / 2 : Nat), inodeNumber := h }
  name _ h := [UInt8.ofNat (96 + h)]
  sameAs _ a b := a = b
  resize s h n := let f := fun d : Bytes => d.take (n * 2) ++ List.replicate (n * 2 - d.length) 0
    (if h = 1 then (f s.1, s.2) else if h = 2 then (s.1, f s.2) else s, none)
  readBlocks s h i buf := (s, slice (if h = 1 then s.1 else s.2) (i * 2) buf.length, none)
  writeBlocks s h i buf := (if h = 1 then (splice s.1 (i * 2) buf, s.2) else if h = 2 then (s.1, splice s.2 (i * 2) buf) else s, none)
  unlink s _ := (s, none)
  close s _ := (s, none)
  listDir _ := none
  chmod _ := some fun s _ => (s, none)
  chown _ := some fun s _ _ => (s, none)
  chtimes _ := none

theorem two_apart : Apart two 1 (fun s t => s.1 = t.1) where
  refl _ := rfl
  symm _ _ h := h.symm
  trans _ _ _ h k := h.trans k
  readSame s t i buf h := by simp only [two, if_true, h]
  writeSame s t i buf h := by simp only [two, if_true, h, and_self]
  resizeSame s t n h := by simp only [two, if_true, h, and_self]
  read _ _ _ _ := rfl
  writeOther s h i buf hh := by simp only [two, if_neg hh]; split <;> rfl
  resizeOther s h n hh := by simp only [two, if_neg hh]; split <;> rfl
  getObject _ _ _ := rfl
  createObject _ _ _ _ := rfl
  createHardLink f hf := by cases hf
  close _ _ := rfl
  listDir h f hf := by cases hf
  chmod h f hf s m := by cases hf; rfl
  chown h f hf s u g := by cases hf; rfl
  chtimes h f hf := by cases hf

/-- The program of the example: file 0 is "a", file 1 is "b", both open for writing, file 2 is "a" again, for reading. -/
def twoOpen : List Op := [.openFile (str! "a") Flags.O_RDWR 0, .openFile (str! "b") Flags.O_RDWR 0, .open_ (str! "a")]
/-- What it does then. -/
def twoUse : List Op := [.file 0 (.write (str! "xy")), .file 1 (.write (str! "QRS")), .file 2 (.read 4), .file 1 .sync, .file 0 (.seek 0 0), .stat (str! "a"), .file 1 (.truncate 2),
  .file 0 (.read 3), .open_ (str! "b"), .file 3 (.read 4), .file 0 (.truncate 6), .file 0 (.writeAt (str! "vwxy") 1), .file 0 .sync, .file 2 (.chmod 0), .file 0 (.readAt 6 0), .file 0 .stat]

/-- The hypotheses are met after the three calls of OpenFile; the whole history succeeds, and the answers of file 0 alone are its answers in
the history.  The volume has got what C30 and C31 leave of the writes: the bytes in blocks
added. -/
example : Apart two 1 (fun s t => s.1 = t.1) ∧ (∀ op ∈ twoUse, NoPathWrites op) ∧
    (match runOps (new keeping two 3) 19 .start twoOpen (str! "abcd", str! "ABCD") with
    | .ret (s, .ok (w, _)) =>
      decide (w.files.map (fun f => (f.objectHandle.inner, Flags.write f.ioFlags, f.cache.dirty.contains true)) = [(some 1, true, false), (some 2, true, false), (some 1, false, false)]) &&
      (match runOps (new keeping two 3) 19 w twoUse s with
      | .ret (s', .ok (_, as)) => decide (s' = (str! "abcdy" ++ [0], str! "AB") ∧ as.length = 16 ∧
          ownAnswers 0 twoUse as = [.count 2 none, .count 0 none, .read 3 (str! "xyc") none, .count 0 none, .count 4 none, .count 0 none, .read 6 (str! "xvwxy" ++ [0]) none, ownAnswers 0 twoUse as |>.getLastD .done]) &&
          (match runOps (new keeping two 3) 19 w (twoUse.filter (own 0)) s with
          | .ret (t', .ok (_, bs)) => decide (bs = ownAnswers 0 twoUse as ∧ t'.1 = s'.1 ∧ t'.2 = str! "ABCD")
          | _ => false)
      | _ => false)
    | _ => false) = true := by
  refine ⟨two_apart, fun op hop => ?_, by decide +kernel⟩
  simp only [twoUse, List.mem_cons, List.mem_nil_iff, or_false] at hop
  rcases hop with rfl | rfl | rfl | rfl | rfl | rfl | rfl | rfl | rfl | rfl | rfl | rfl | rfl | rfl | rfl | rfl <;> trivial

end Disko.Driver

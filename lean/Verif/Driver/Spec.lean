import Verif.Driver.Model
import Verif.Driver.PathSpec
/-! Specification vocabulary for the driver: what is at a path, and what a call touches. -/
namespace Disko.Driver.Spec
open Disko Driver

variable {σ H α : Type}

/-- Looking an object up and closing a handle leave the file system as it is. -/
structure Quiet (impl : Impl σ H) : Prop where
  getObject : ∀ s n h, (impl.getObject s n h).1 = s
  close : ∀ s h, impl.close s h = (s, none)

/-- The object `h` is at location `l` of the file system: the root, or found by its name in the
directory at the location above.  No object on the way is a symbolic link. -/
inductive At (impl : Impl σ H) (s : σ) : Loc → H → Prop where
  | root (hn : (impl.stat s (impl.getRootDirectory s)).isSymlink = false) : At impl s [] (impl.getRootDirectory s)
  | down {l : Loc} {dir h : H} {n : Str} (hd : At impl s l dir) (hdir : (impl.stat s dir).isDir = true)
      (hg : (impl.getObject s n dir).2 = .ok h) (hn : (impl.stat s h).isSymlink = false) : At impl s (l ++ [n]) h

/-- The contract of ReadBlocks (api.go:231-239) for an object whose blocks, one after the other, are
`view s`: reading leaves the file system as it is, and unless it fails delivers the block.  (The
driver reads one block at a time.) -/
structure Readable (impl : Impl σ H) (h : H) (bpb : Nat) (view : σ → Bytes) : Prop where
  state : ∀ s i buf, (impl.readBlocks s h i buf).1 = s
  bytes : ∀ s i buf, i * bpb + bpb ≤ (view s).length → buf.length = bpb → (impl.readBlocks s h i buf).2.2 = none →
    (impl.readBlocks s h i buf).2.1 = slice (view s) (i * bpb) bpb

/-- What Stat says about the object fits: its blocks exist, its size lies within them, and blocks
and contents fit in memory. -/
structure StatFits (impl : Impl σ H) (s : σ) (h : H) (bpb total : Nat) (view : σ → Bytes) : Prop where
  bpb_pos : 0 < bpb
  bpb_le : bpb ≤ maxInt
  blockSize : (impl.stat s h).blockSize = bpb
  numBlocks : (impl.stat s h).numBlocks = total
  store : total * bpb ≤ (view s).length
  size_nn : 0 ≤ (impl.stat s h).size
  size_le : (impl.stat s h).size ≤ (total * bpb : Nat)
  fits : total * bpb + (impl.stat s h).size.toNat ≤ maxInt

/-- The contents of the object are `t`, and reading them does not fail. -/
def ContentsAre (impl : Impl σ H) (s : σ) (h : H) (t : Bytes) : Prop :=
  ∃ (bpb total : Nat) (view : σ → Bytes), Readable impl h bpb view ∧ StatFits impl s h bpb total view ∧
    (∀ s' i buf, (impl.readBlocks s' h i buf).2.2 = none) ∧ t = (view s).take (impl.stat s h).size.toNat

/-- The object with this name in the root directory. -/
def InRoot (impl : Impl σ H) (s : σ) (n : Str) (h : H) : Prop :=
  (impl.getObject s n (impl.getRootDirectory s)).2 = .ok h

/-- The root directory is a directory (and not a symbolic link). -/
def RootIsDir (impl : Impl σ H) (s : σ) : Prop :=
  (impl.stat s (impl.getRootDirectory s)).isDir = true ∧ (impl.stat s (impl.getRootDirectory s)).isSymlink = false

/-- In the root directory, `n` is a symbolic link whose text is an absolute path of `n'`. -/
def LinksTo (impl : Impl σ H) (s : σ) (n n' : Str) : Prop :=
  ∃ h t, InRoot impl s n h ∧ (impl.stat s h).isSymlink = true ∧ ContentsAre impl s h t ∧ Absolute t ∧ walk [] t = [n']

/-- Following `k` links from `n` leads to `m`. -/
inductive Follows (impl : Impl σ H) (s : σ) : Nat → Str → Str → Prop where
  | zero (n : Str) : Follows impl s 0 n n
  | succ {k : Nat} {n n' m : Str} (h : LinksTo impl s n n') (hr : Follows impl s k n' m) : Follows impl s (k + 1) n m

/-- The error is ErrNotFound, or wraps the error of a block that could not be read or written, or of an object that could not be resized, which is ErrNotFound
(error number 2 of an implementation). -/
inductive SaysNotFound : Err → Prop where
  | itself : SaysNotFound .notFound
  | reading (block : Nat) : SaysNotFound (.stream (.cache (.fetchFailed block (.other 2))))
  | writing (block : Nat) : SaysNotFound (.stream (.cache (.flushFailed block (.other 2))))
  | resizing : SaysNotFound (.stream (.cache (.resizeFailed (.other 2))))
  | wrappedReading (block : Nat) : SaysNotFound (.ioFailed (.cache (.fetchFailed block (.other 2))))
  | wrappedWriting (block : Nat) : SaysNotFound (.ioFailed (.cache (.flushFailed block (.other 2))))
  | wrappedResizing : SaysNotFound (.ioFailed (.cache (.resizeFailed (.other 2))))

end Disko.Driver.Spec

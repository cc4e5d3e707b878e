/-
Base vocabulary shared by all models: the parts of the Go language and of the
Go standard library that the modelled code relies on.  Nothing in this file
models a line of /repo; it models Go itself.
-/
namespace Disko

/-- A Go `[]byte` seen as a value (aliasing is modelled explicitly where a
property needs it). -/
abbrev Bytes := List UInt8

/-- Result of running a piece of Go code: it returns, it panics, or (only when
the model uses a step budget) the budget ran out before it returned. -/
inductive Outcome (α : Type) where
  | ret (a : α)
  | panic
  | timeout
deriving DecidableEq, Repr

deriving instance DecidableEq for Except

/-- Sequencing: a panic (or an exhausted budget) aborts the rest. -/
def Outcome.bind {α β : Type} (o : Outcome α) (f : α → Outcome β) : Outcome β :=
  match o with
  | .ret a => f a
  | .panic => .panic
  | .timeout => .timeout

instance : Monad Outcome where
  pure := .ret
  bind := Outcome.bind

@[simp] theorem Outcome.bind_ret {α β : Type} (a : α) (f : α → Outcome β) :
    (Outcome.ret a >>= f) = f a := rfl
@[simp] theorem Outcome.bind_panic {α β : Type} (f : α → Outcome β) :
    ((Outcome.panic : Outcome α) >>= f) = .panic := rfl
@[simp] theorem Outcome.bind_timeout {α β : Type} (f : α → Outcome β) :
    ((Outcome.timeout : Outcome α) >>= f) = .timeout := rfl
@[simp] theorem Outcome.pure_eq {α : Type} (a : α) : (pure a : Outcome α) = .ret a := rfl

/-- Go's builtin `copy(dst, src)`, as the new value of `dst`: the first
`min(len dst, len src)` bytes are replaced. -/
def goCopy (dst src : Bytes) : Bytes := src.take dst.length ++ dst.drop src.length

@[simp] theorem goCopy_length (dst src : Bytes) : (goCopy dst src).length = dst.length := by
  simp only [goCopy, List.length_append, List.length_take, List.length_drop]; omega

theorem goCopy_eq_of_length {dst src : Bytes} (h : dst.length = src.length) :
    goCopy dst src = src := by
  simp [goCopy, h]

/-- The part `[off, off+len)` of a byte slice. -/
def slice (d : Bytes) (off len : Nat) : Bytes := (d.drop off).take len

/-- Overwrite `d` from offset `off` with `v` (used with `off + v.length ≤ d.length`). -/
def splice (d : Bytes) (off : Nat) (v : Bytes) : Bytes :=
  d.take off ++ v ++ d.drop (off + v.length)

/-- Arithmetic on Go's 64-bit `uint` (the code uses `uint` for block counts and
sizes; 64-bit platforms only): results are reduced modulo 2^64. -/
def u64 (n : Nat) : Nat := n % 2 ^ 64

/-- Subtraction on Go's 64-bit `uint`. -/
def u64sub (a b : Nat) : Nat := (a + (2 ^ 64 - b % 2 ^ 64)) % 2 ^ 64

/-- Arithmetic on Go's `int64`/`int` (64-bit two's complement wrap-around). -/
def i64 (z : Int) : Int := Int.bmod z (2 ^ 64)

theorem u64_of_lt {n : Nat} (h : n < 2 ^ 64) : u64 n = n := Nat.mod_eq_of_lt h

theorem i64_of_range {z : Int} (h1 : -(2 ^ 63) ≤ z) (h2 : z < 2 ^ 63) : i64 z = z := by
  unfold i64; rw [Int.bmod_def]; omega

/-- `math.MaxInt` on a 64-bit platform. -/
def maxInt : Nat := 2 ^ 63 - 1

end Disko

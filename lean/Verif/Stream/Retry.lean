import Verif.Stream.Machine
/-! Calls on an open stream that are repeated because the storage failed (for C158). -/
namespace Disko.Stream.Reference
open Disko Disko.Stream Disko.Stream.Spec Disko.BlockCache

variable {S : Type}

/-- The error in an answer, if any. -/
def error? : Answer → Option SErr
  | .read r => r.err
  | .moved _ e | .did e | .wrote _ e | .copied _ _ e => e

/-- A call that does one thing, not one after the other as WriteTo and ReadFrom do. -/
def Single : Call → Prop
  | .writeTo _ _ _ | .readFrom _ _ _ _ => False
  | _ => True

/-- What a caller can see before it asks again: a Write returned 0, and (in append mode) Size returns what it did before. -/
def NothingSeen (x x' : Stm S) : Call → Answer → Prop
  | .write _, a => (∃ e, a = .wrote 0 e) ∧ (Flags.append x.flags = true → x'.size' = x.size')
  | _, _ => True

/-- A history in which each call that failed because of the storage is repeated, until it does not fail because of the storage, if `may` holds of the stream
before and after it, the call and the answer: the stream before, the calls, the stream after, and the last answers of the calls, each with Size and Tell. -/
inductive Retried (b : Backend S) (may : Stm S → Stm S → Call → Answer → Prop) : Stm S → List Call → Stm S → List (Answer × Int × Int) → Prop where
  | nil (x : Stm S) : Retried b may x [] x []
  | done {x x1 x2 : Stm S} {c : Call} {cs : List Call} {a : Answer} {as : List (Answer × Int × Int)} : Single c → Fits b x c →
      answerCall b x c = .ret (x1, a) → (∀ e, error? a = some e → ¬ CallbackFailed b e) → Retried b may x1 cs x2 as →
      Retried b may x (c :: cs) x2 ((a, x1.size', x1.tell) :: as)
  | again {x x1 x2 : Stm S} {c : Call} {cs : List Call} {a : Answer} {e : SErr} {as : List (Answer × Int × Int)} : Single c → Fits b x c →
      answerCall b x c = .ret (x1, a) → error? a = some e → CallbackFailed b e → may x x1 c a → Retried b may x1 (c :: cs) x2 as →
      Retried b may x (c :: cs) x2 as

/-- WriteTo, called again (with any writers) as long as it fails because of the storage: the stream before, what all the writers were given, the sum of the counts, and the
stream after. -/
inductive Resumed (b : Backend S) : Stm S → List Bytes → Int → Stm S → Prop where
  | done {W : Type} {k : Compression.Sink W} {fuel : Nat} {x x' : Stm S} {w w' : W} {ps : List Bytes} {n : Int} : FitsRead x x.st.c.bpb →
      writeTo b (recording k) fuel x (w, []) = .ret (x', (w', ps), n, none) → Resumed b x ps n x'
  | again {W : Type} {k : Compression.Sink W} {fuel : Nat} {x x1 x' : Stm S} {w w' : W} {ps qs : List Bytes} {n m : Int} {e : SErr} : FitsRead x x.st.c.bpb →
      writeTo b (recording k) fuel x (w, []) = .ret (x1, (w', ps), n, some e) → CallbackFailed b e → Resumed b x1 qs m x' → Resumed b x (ps ++ qs) (n + m) x'

end Disko.Stream.Reference

import Verif.BlockCache.Slices
/-
Specification of kept slices (C138): a flat array, the arrays it replaced, and views into them.
-/
namespace Disko.BlockCache.Spec
open Disko Disko.BlockCache

/-- A view: array number, first block, number of blocks. -/
structure View where
  arr : Nat
  start : Nat
  count : Nat
deriving DecidableEq, Repr

/-- The reference: the current array, the arrays it replaced (a resize makes a copy), the views
handed out, and the blocks written through a view and not marked since. -/
structure Ref where
  now : Bytes
  old : List Bytes
  views : List View
  unmarked : Nat → Bool

/-- The bytes a view shows. -/
def Ref.shows (R : Ref) (bpb : Nat) (h : View) : Bytes :=
  slice (if h.arr < R.old.length then R.old.getD h.arr [] else R.now) (h.start * bpb) (h.count * bpb)

/-- Writing `v` at index `at_` of a view, up to the end of the view. -/
def Ref.write (R : Ref) (bpb : Nat) (h : View) (at_ : Nat) (v : Bytes) : Ref :=
  let v' := v.take (h.count * bpb - at_)
  if h.arr < R.old.length then
    { R with old := R.old.set h.arr (splice (R.old.getD h.arr []) (h.start * bpb + at_) v') }
  else
    { R with
      now := splice R.now (h.start * bpb + at_) v'
      unmarked := fun j => R.unmarked j ||
        (decide (h.start * bpb + at_ < j * bpb + bpb) && decide (j * bpb < h.start * bpb + at_ + v'.length)) }

/-- The blocks an ordinary operation schedules for the next Flush: those of a successful write
or edit, and those a successful resize adds. -/
def scheduled (bpb total : Nat) : Op → Result → Nat → Bool
  | .write buf start, .write (.ok _), j =>
    decide (start * bpb < j * bpb + bpb) && decide (j * bpb < start * bpb + buf.length)
  | .edit start count _ _, .unit (.ok _), j => decide (start ≤ j) && decide (j < start + count)
  | .resize _, .unit (.ok _), j => decide (total ≤ j)
  | _, _, _ => false

/-- The answer `r` to operation `op` is correct in `R` and leaves `R'`.  Errors change nothing
and have a reason. -/
def SConforms {S : Type} (b : Backend S) (bpb : Nat) : SOp → SResult → Ref → Ref → Prop
  | .base op, .base r, R, R' =>
    Conforms bpb op r R.now R'.now ∧ (∀ e, r.err? = some e → Justified b bpb R.now.length op e) ∧
    R'.views = R.views ∧
    R'.old = (match op, r with | .resize _, .unit (.ok _) => R.old ++ [R.now] | _, _ => R.old) ∧
    R'.unmarked = fun j => R.unmarked j && !scheduled bpb (R.now.length / bpb) op r j
  | .keep start count, .kept (.ok _), R, R' =>
    start * bpb + count * bpb ≤ R.now.length ∧
    R' = { R with views := R.views ++ [⟨R.old.length, start, count⟩] }
  | .keep start count, .kept (.error e), R, R' => Justified b bpb R.now.length (.getSlice start count) e ∧ R' = R
  | .keepAll, .kept (.ok _), R, R' =>
    R' = { R with views := R.views ++ [⟨R.old.length, 0, R.now.length / bpb⟩] }
  | .keepAll, .kept (.error e), R, R' => Justified b bpb R.now.length .data e ∧ R' = R
  | .look k, .seen v, R, R' => (∃ h, R.views[k]? = some h ∧ v = R.shows bpb h) ∧ R' = R
  | .look k, .nothing, R, R' => R.views[k]? = none ∧ R' = R
  | .put k at_ v, .nothing, R, R' =>
    R' = match R.views[k]? with | none => R | some h => R.write bpb h at_ v
  | .mark k from_ n, .marked (.ok _), R, R' => ∃ h, R.views[k]? = some h ∧ from_ + n ≤ h.count ∧
    (h.start + from_ + n) * bpb ≤ R.now.length ∧
    R' = { R with unmarked := fun j => R.unmarked j &&
      !(decide (h.start + from_ ≤ j) && decide (j < h.start + from_ + n)) }
  | .mark k from_ n, .marked (.error e), R, R' => e = .argumentOutOfRange ∧ R' = R ∧
    ∃ h, R.views[k]? = some h ∧
      ¬ ((h.start + from_) * bpb < R.now.length ∧ (h.start + from_ + n) * bpb ≤ R.now.length)
  | .mark k from_ n, .nothing, R, R' => R' = R ∧ ∀ h, R.views[k]? = some h → h.count < from_ + n
  | _, _, _, _ => False

/-- `SConforms` along a session. -/
def SConformsAll {S : Type} (b : Backend S) (bpb : Nat) : List SOp → List SResult → Ref → Ref → Prop
  | [], [], R, R' => R' = R
  | op :: ops, r :: rs, R, R' => ∃ R1, SConforms b bpb op r R R1 ∧ SConformsAll b bpb ops rs R1 R'
  | _, _, _, _ => False

/-- Arguments without arithmetic overflow, as in `Valid`. -/
def SValid (bpb : Nat) : SOp → Prop
  | .base op => Valid bpb op
  | .keep _ count => count * bpb ≤ maxInt
  | _ => True

/-- `w` is the state after New and the session `ops`, with answers `rs`. -/
def SAfter {S : Type} (b : Backend S) (bpb total : Nat) (s0 : S) (ops : List SOp) (w : World S) (rs : List SResult) :
    Prop :=
  ∃ c, new bpb total = .ret c ∧ (∀ op ∈ ops, SValid bpb op) ∧ srun b ⟨⟨c, s0⟩, [], []⟩ ops = .ret (w, rs)

/-- Where the reference starts: the contents of the storage, no views. -/
def initial {S : Type} (view : S → Bytes) (bpb total : Nat) (s0 : S) : Ref :=
  ⟨(view s0).take (total * bpb), [], [], fun _ => false⟩

end Disko.BlockCache.Spec

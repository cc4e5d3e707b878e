import Verif.Driver.Props9
/-! An implementation with everything in its root directory, for examples: objects with a name, a mode and contents.  The block size
is a parameter. -/
namespace Disko.Driver
open Disko Spec

/-- An object. -/
structure Obj where
  name : Str
  mode : FileMode
  data : Bytes
deriving DecidableEq, Repr

/-- The contents filled up to whole blocks. -/
def Obj.blocks (b : Nat) (o : Obj) : Bytes := o.data ++ List.replicate ((o.data.length + (b - 1)) / b * b - o.data.length) 0

/-- The object with this name. -/
def Obj.find (s : List Obj) (n : Str) : Option Obj := s.find? (·.name = n)

/-- Change the object with this name. -/
def Obj.change (s : List Obj) (n : Str) (f : Obj → Obj) : List Obj := s.map fun o => if o.name = n then f o else o

/-- The handle of "/" is `none`, that of an object its name. -/
def flat (b : Nat) : Impl (List Obj) (Option Str) where
  features := ⟨true, true, true⟩
  getRootDirectory _ := none
  getObject s n h := (s, match h with
    | none => if (Obj.find s n).isSome then .ok (some n) else .error .notFound
    | some _ => .error .notFound)
  createObject s n h mode := match h with
    | none => if (Obj.find s n).isSome then (s, .error (.foreign 1)) else (s ++ [⟨n, mode, []⟩], .ok (some n))
    | some _ => (s, .error (.foreign 2))
  createHardLink := some fun s o p n => match o, p with
    | some o, none => match Obj.find s o with
      | some x => (s ++ [{ x with name := n }], .ok (some n))
      | none => (s, .error .notFound)
    | _, _ => (s, .error (.foreign 3))
  stat s h := match h with
    | none => { FileStat.zero with modeFlags := Flags.ModeDir, blockSize := b }
    | some n => match Obj.find s n with
      | some o => { FileStat.zero with modeFlags := o.mode, size := o.data.length, blockSize := b, numBlocks := ((o.data.length + (b - 1)) / b : Nat), inodeNumber := (n.headD 0).toNat }
      | none => FileStat.zero
  name _ h := h.getD (str! "/")
  sameAs _ x y := x = y
  resize s h n := match h with
    | some x => (Obj.change s x fun o => { o with data := o.data.take n ++ List.replicate (n - o.data.length) 0 }, none)
    | none => (s, some (.other 3))
  readBlocks s h i buf := match h with
    | some x => match Obj.find s x with
      | some o => (s, slice (o.blocks b) (i * b) buf.length, none)
      | none => (s, buf, none)
    | none => (s, buf, none)
  writeBlocks s h i buf := match h with
    | some x => (Obj.change s x fun o => { o with data := (splice (o.blocks b) (i * b) buf).take o.data.length }, none)
    | none => (s, some (.other 3))
  unlink s h := match h with
    | some x => (s.filter (·.name ≠ x), none)
    | none => (s, some (.foreign 4))
  close s _ := (s, none)
  listDir h := match h with
    | none => some fun s => (s, .ok (s.map (·.name)))
    | some _ => none
  chmod h := h.map fun x s m => (Obj.change s x fun o => { o with mode := m }, none)
  chown _ := some fun s _ _ => (s, none)
  chtimes _ := some fun s _ _ _ _ _ => (s, none)

theorem flat_still (b : Nat) : Still (flat b) where
  getObject s n h := rfl
  close s h := rfl
  read s h i buf := by
    simp only [flat]
    split
    · split <;> rfl
    · rfl
  list h f hf s := by
    simp only [flat] at hf
    split at hf
    · cases hf; rfl
    · cases hf

theorem flat_root (b : Nat) (s : List Obj) : RootIsDir (flat b) s := by
  constructor
  · show Flags.isDir Flags.ModeDir = true; decide
  · show Flags.isSymlink Flags.ModeDir = false; decide

/-- The laws of ReadBlocks for an object that is there. -/
theorem flat_contents (b : Nat) (hb : 0 < b) (s : List Obj) (n : Str) (o : Obj) (ho : Obj.find s n = some o)
    (hfit : (o.data.length + (b - 1)) / b * b + o.data.length ≤ maxInt) (hbm : b ≤ maxInt) :
    ContentsAre (flat b) s (some n) o.data := by
  have hlen : ∀ o : Obj, (o.blocks b).length = (o.data.length + (b - 1)) / b * b := by
    intro o
    unfold Obj.blocks
    rw [List.length_append, List.length_replicate]
    have h1 := Nat.div_add_mod (o.data.length + (b - 1)) b
    have h2 := Nat.mod_lt (o.data.length + (b - 1)) hb
    rw [Nat.mul_comm] at h1
    omega
  have hle : o.data.length ≤ (o.data.length + (b - 1)) / b * b := by
    have h1 := Nat.div_add_mod (o.data.length + (b - 1)) b
    have h2 := Nat.mod_lt (o.data.length + (b - 1)) hb
    rw [Nat.mul_comm] at h1
    omega
  have hst : (flat b).stat s (some n) = { FileStat.zero with modeFlags := o.mode, size := o.data.length, blockSize := b, numBlocks := ((o.data.length + (b - 1)) / b : Nat), inodeNumber := (n.headD 0).toNat } := by
    simp only [flat, ho]
  refine ⟨b, (o.data.length + (b - 1)) / b, fun s' => match Obj.find s' n with | some o => o.blocks b | none => [], ⟨?_, ?_⟩, ⟨hb, hbm, by rw [hst], by rw [hst], ?_, by rw [hst]; exact Int.natCast_nonneg _, ?_, ?_⟩, ?_, ?_⟩
  · intro s' i buf
    simp only [flat]
    rcases Obj.find s' n with _ | o' <;> rfl
  · intro s' i buf h1 h2 h3
    simp only [flat] at h3 ⊢
    rcases h4 : Obj.find s' n with _ | o'
    · rw [h4] at h1; simp only [List.length_nil] at h1; omega
    · simp only [h2]
  · rw [ho]; simp only; rw [hlen]; exact Nat.le_refl _
  · rw [hst]; exact Int.ofNat_le.mpr hle
  · rw [hst]; simpa using hfit
  · intro s' i buf
    simp only [flat]
    rcases Obj.find s' n with _ | o' <;> rfl
  · rw [hst]
    simp only [ho, Obj.blocks, Int.toNat_natCast]
    rw [List.take_left']
    rfl

end Disko.Driver

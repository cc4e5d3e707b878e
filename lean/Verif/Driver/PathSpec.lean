import Verif.Base.Path
/-!
What a path means, said without reference to the model: a path is read byte by byte; at every slash
and at its end the component read so far is applied to a location.
-/
namespace Disko.Driver.Spec
open Disko

/-- The byte '/'. -/
def sep : UInt8 := 0x2F

/-- A location in the tree: the names from the root down to it. -/
abbrev Loc := List Str

/-- A name of a file system object: not empty, not "." or "..", and without a slash. -/
structure IsName (n : Str) : Prop where
  nonempty : n ≠ []
  noSlash : sep ∉ n
  notDot : n ≠ str! "."
  notDotDot : n ≠ str! ".."

/-- Every component is a name. -/
def IsLoc (l : Loc) : Prop := ∀ n ∈ l, IsName n

/-- Apply one component: "" and "." stay, ".." goes up (at the root it stays), a name goes down. -/
def goTo (l : Loc) (c : Str) : Loc :=
  if c = str! "" ∨ c = str! "." then l else if c = str! ".." then l.dropLast else l ++ [c]

/-- Walk along a path from a location; `cur` is the part of the current component read so far. -/
def walkFrom (l : Loc) (cur : Str) : Str → Loc
  | [] => goTo l cur
  | b :: rest => if b = sep then walkFrom (goTo l cur) [] rest else walkFrom l (cur ++ [b]) rest

/-- Walk along a path from a location. -/
def walk (l : Loc) (p : Str) : Loc := walkFrom l [] p

/-- Does the path begin with a slash? -/
def Absolute (p : Str) : Prop := ∃ r, p = sep :: r

/-- The canonical path of a location: "/" for the root, "/a/b/c" otherwise. -/
def render (l : Loc) : Str := if l = [] then str! "/" else l.flatMap fun n => sep :: n

/-- A path is canonical if it is the canonical path of a location. -/
def Canonical (p : Str) : Prop := ∃ l, IsLoc l ∧ p = render l

end Disko.Driver.Spec

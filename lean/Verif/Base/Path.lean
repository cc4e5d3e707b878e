import Verif.Base.Go
/-!
Go's path handling on Unix (packages path and path/filepath, which agree there), as far as the
modelled code uses it.  Nothing here models a line of /repo.  A string is a list of bytes.
-/
namespace Disko

/-- Go's string. -/
abbrev Str := Bytes

/-- `str! "abc"`: the bytes of a string, as a list. -/
macro "str! " s:str : term => do
  let cs : Array (Lean.TSyntax `term) := s.getString.toUTF8.toList.toArray.map fun c => Lean.Syntax.mkNumLit (toString c.toNat)
  `(([$cs,*] : Disko.Str))

namespace Path

/-- '/' -/
def slash : UInt8 := 47
/-- "." -/
def dot : Str := [46]
/-- ".." -/
def dotdot : Str := [46, 46]

/-- strings.Split(s, sep) for a one-byte separator: the pieces between separators (at least one). -/
def split (sep : UInt8) : Str → List Str
  | [] => [[]]
  | c :: rest =>
    if c = sep then [] :: split sep rest
    else
      match split sep rest with
      | [] => [[c]]
      | p :: ps => (c :: p) :: ps

/-- The name components of a path, with "." and empty components dropped. -/
def comps (p : Str) : List Str := (split slash p).filter fun c => c ≠ [] ∧ c ≠ dot

/-- Resolve ".." components from left to right.  `acc` is what is kept so far, last component
first.  In a rooted path ".." at the root disappears; in a relative one it stays. -/
def resolveDots (rooted : Bool) (acc : List Str) : List Str → List Str
  | [] => acc.reverse
  | c :: rest =>
    if c = dotdot then
      match acc with
      | [] => if rooted then resolveDots rooted [] rest else resolveDots rooted [dotdot] rest
      | a :: acc' => if a = dotdot then resolveDots rooted (dotdot :: acc) rest else resolveDots rooted acc' rest
    else resolveDots rooted (c :: acc) rest

/-- strings.Join(parts, "/"). -/
def joinSlash : List Str → Str
  | [] => []
  | [p] => p
  | p :: ps => p ++ slash :: joinSlash ps

/-- Does the path begin with a slash? -/
def isAbs (p : Str) : Bool := p.head? == some slash

/-- path.Clean / filepath.Clean. -/
def clean (p : Str) : Str :=
  let cs := resolveDots (isAbs p) [] (comps p)
  if isAbs p then slash :: joinSlash cs
  else if cs = [] then dot else joinSlash cs

/-- path.Split: everything up to and including the last slash, and what follows it. -/
def splitLast (p : Str) : Str × Str :=
  let tail := (p.reverse.takeWhile (· ≠ slash)).reverse
  (p.take (p.length - tail.length), tail)

/-- path.Dir / filepath.Dir. -/
def dir (p : Str) : Str := clean (splitLast p).1

/-- path.Join of two strings: empty ones are ignored, the rest are joined and cleaned. -/
def join (a b : Str) : Str :=
  if a = [] then (if b = [] then [] else clean b)
  else if b = [] then clean a
  else clean (a ++ slash :: b)

/-- filepath.SplitList on Unix: the list separator is ':'; "" is the empty list. -/
def splitList (p : Str) : List Str := if p = [] then [] else split 58 p

end Path
end Disko

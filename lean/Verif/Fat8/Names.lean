import Verif.Fat8.Model
/-! File names of any bytes (file_systems/fat8/common.go): strings are UTF-8 to strings.ToUpper and to fmt's padding.
`Model.lean` has these functions for ASCII strings; `C117_ascii_partial` shows that both agree there. -/
namespace Disko.Fat8.Names
open Disko

/-- Go package unicode/utf8: DecodeRune of a non-empty string: the rune and the number of bytes it occupies.  What is not UTF-8 (among it
overlong forms, surrogates and numbers above 10FFFF) is U+FFFD, of one byte. -/
def decodeRune : Bytes → Char × Nat
  | [] => ('\uFFFD', 0)
  | b0 :: t =>
    let n := b0.toNat
    let lo := if n = 0xE0 then 0xA0 else if n = 0xF0 then 0x90 else 0x80
    let hi := if n = 0xED then 0x9F else if n = 0xF4 then 0x8F else 0xBF
    if n < 0x80 then (Char.ofNat n, 1)
    else if n < 0xC2 ∨ 0xF4 < n then ('\uFFFD', 1)
    else match t with
      | [] => ('\uFFFD', 1)
      | b1 :: t =>
        if b1.toNat < lo ∨ hi < b1.toNat then ('\uFFFD', 1)
        else if n < 0xE0 then (Char.ofNat (n % 0x20 * 64 + b1.toNat % 64), 2)
        else match t with
          | [] => ('\uFFFD', 1)
          | b2 :: t =>
            if b2.toNat < 0x80 ∨ 0xBF < b2.toNat then ('\uFFFD', 1)
            else if n < 0xF0 then (Char.ofNat (n % 0x10 * 4096 + b1.toNat % 64 * 64 + b2.toNat % 64), 3)
            else match t with
              | [] => ('\uFFFD', 1)
              | b3 :: _ =>
                if b3.toNat < 0x80 ∨ 0xBF < b3.toNat then ('\uFFFD', 1)
                else (Char.ofNat (n % 8 * 262144 + b1.toNat % 64 * 4096 + b2.toNat % 64 * 64 + b3.toNat % 64), 4)

/-- The runes of a string after its first `skip` bytes. -/
def runesFrom : (skip : Nat) → Bytes → List Char
  | _, [] => []
  | 0, b :: t => (decodeRune (b :: t)).1 :: runesFrom ((decodeRune (b :: t)).2 - 1) t
  | k + 1, _ :: t => runesFrom k t

/-- Go: the runes of `for _, r := range s`. -/
def runes (s : Bytes) : List Char := runesFrom 0 s

/-- Go package strings: ToUpper.  `up` is unicode.ToUpper.  (The library copies what does not change; that is the same.) -/
def toUpper (up : Char → Char) (s : Bytes) : Bytes := (runes s).flatMap fun r => String.utf8EncodeChar (up r)

/-- `fmt.Sprintf("%-<n>s", s)`: fmt counts runes. -/
def padRight (n : Nat) (s : Bytes) : Bytes := s ++ List.replicate (n - (runes s).length) 32

/-- common.go:87-127, FilenameToBytes. -/
def filenameToBytes (up : Char → Char) (name : Bytes) : Except Err Bytes :=
  if name = [] then .error .invalidArgument
  else
    let (stem, ext) := splitDot name
    if stem.length > 6 then .error .nameTooLong
    else match ext with
      | some ext =>
        if ext.length = 0 then .ok (toUpper up (padRight 6 stem ++ padRight 3 [46]))
        else if ext.length > 3 then .error .nameTooLong
        else .ok (toUpper up (padRight 6 stem ++ padRight 3 ext))
      | none => .ok (toUpper up (padRight 9 stem))

/-- common.go:129-143, BytesToFilename. -/
def bytesToFilename (up : Char → Char) (rawName : Bytes) : Outcome Bytes :=
  if rawName.length < 6 then .panic
  else
    let stem := trimRight (rawName.take 6)
    let extension := trimRight (rawName.drop 6)
    .ret (toUpper up (if extension.length > 0 then stem ++ [46] ++ extension else stem))

end Disko.Fat8.Names

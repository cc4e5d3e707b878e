import Verif.Compression.Model
import Verif.Base.Path
/-
Model of the commands /repo/cmd/zipimage/main.go and /repo/cmd/unzipimage/main.go, which are the same
but for the function they call.

The computer they run on is modelled as a table of names, each of which leads to a file (several names,
by hard or symbolic links, may lead to the same file), the contents of the files, and how much can still
be written.  Simplifications:
* Reading a file delivers its contents and then io.EOF, or the first part of them and then an error.
  When input and output are the same file, the file is empty when it is first read (os.Create has emptied
  it, and neither function writes before it has met the end of an empty input), so reading it delivers nothing.
* Writes append to the output file.  A write for which there is too little room writes what there is room
  for and fails.
* Errors of closing the files are ignored by the code; here closing does nothing.
* The messages are not modelled, but the number printed at the end and the exit status are.
* /repo/cmd/main.go only runs the cli library with an action that does nothing; it is not modelled.
-/
namespace Disko.Cmd
open Disko Compression

/-- The files of a computer: see above. -/
structure Host where
  /-- the file a name leads to -/
  names : Str → Option Nat
  /-- what is in a file -/
  content : Nat → Bytes
  /-- reading a file fails with the error after that many bytes -/
  bad : Nat → Option (Nat × Nat)
  /-- os.Open is allowed -/
  readable : Str → Bool
  /-- os.Create is allowed -/
  creatable : Str → Bool
  /-- a file no name leads to, used when one is created -/
  fresh : Nat
  /-- how many bytes can still be written (`none`: any number) -/
  room : Option Nat

/-- os.Open (Go library). -/
def Host.open_ (h : Host) (path : Str) : Option Nat := if h.readable path then h.names path else none

/-- os.Create (Go library): a file that exists is emptied, one that does not is made. -/
def Host.create (h : Host) (path : Str) : Option (Host × Nat) :=
  if h.creatable path then
    match h.names path with
    | some i => some ({ h with content := fun j => if j = i then [] else h.content j }, i)
    | none => some ({ h with names := fun q => if q = path then some h.fresh else h.names q,
                             content := fun j => if j = h.fresh then [] else h.content j, fresh := h.fresh + 1 }, h.fresh)
  else none

/-- What reading a file delivers. -/
def Host.reader (h : Host) (i : Nat) : Src :=
  match h.bad i with
  | none => ⟨h.content i, none⟩
  | some (n, e) => ⟨(h.content i).take n, some e⟩

/-- The file written to: what is in it, how much room there is, and the last error. -/
structure OutFile where
  content : Bytes
  room : Option Nat
  failed : Option Nat

/-- os.File.Write (Go library); 28 is ENOSPC. -/
def outSink : Sink OutFile where
  write w p :=
    match w.room with
    | none => (⟨w.content ++ p, none, w.failed⟩, p.length, none)
    | some r =>
      if p.length ≤ r then (⟨w.content ++ p, some (r - p.length), w.failed⟩, p.length, none)
      else (⟨w.content ++ p.take r, some 0, some 28⟩, r, some 28)
  accepted w := w.content
  failure w := w.failed
  law := by
    intro w p
    rcases w with ⟨c, _ | r, f⟩
    · simp
    · simp only
      split
      · simp
      · simp; omega
  failure_law := by
    intro w p
    rcases w with ⟨c, _ | r, f⟩
    · simp
    · simp only
      split <;> simp

/-- How a command ends: the computer afterwards, the exit status and the number it has printed. -/
structure Exit where
  host : Host
  status : Nat
  printed : Option Nat

/-- zipimage/main.go:10-45 and unzipimage/main.go:10-45, main; `image` is the function called on line 38.  Without even a program name,
os.Args[0] on line 15 panics. -/
def main (image : Src → OutFile → OutFile × Nat × Option ImgErr) (h : Host) (args : List Str) : Outcome Exit :=
  match args with
  | [] => .panic
  | [_, sourceFilePath, outputFilePath] =>
    match h.open_ sourceFilePath with
    | none => .ret ⟨h, 1, none⟩
    | some source =>
      match h.create outputFilePath with
      | none => .ret ⟨h, 1, none⟩
      | some (h1, out) =>
        let r := image (h1.reader source) ⟨h1.content out, h1.room, none⟩
        let h2 : Host := { h1 with content := fun j => if j = out then r.1.content else h1.content j, room := r.1.room }
        match r.2.2 with
        | some _ => .ret ⟨h2, 2, none⟩
        | none => .ret ⟨h2, 0, some r.2.1⟩
  | _ => .ret ⟨h, 1, none⟩

/-- zipimage/main.go:10-45. -/
def zipimage (z : Gzip) : Host → List Str → Outcome Exit := main (compressImage z outSink)

/-- unzipimage/main.go:10-45. -/
def unzipimage (z : Gzip) : Host → List Str → Outcome Exit := main (decompressImage z outSink)

end Disko.Cmd

import Verif.Model.State

/-!
# Contents of files written through a redirection

`std::fs::OpenOptions` and `write(2)` on a regular file.  A program is any sequence of `write`s to its
standard output; it does not seek or truncate.
-/

namespace Rsh

/-- Bytes. -/
abbrev Bytes := List UInt8

/-- The options a redirection opens its file with. -/
structure OpenFlags where
  write : Bool := false
  append : Bool := false
  truncate : Bool := false
  create : Bool := false
deriving DecidableEq, Repr

/-- src/eval.rs:397-400 (input), 406-410 (output) and 415-420 (append); `>|` opens nothing (424). -/
def openFlags : RedirectType → Option OpenFlags
  | .input => some {}
  | .output => some { write := true, create := true }
  | .append => some { write := true, append := true, create := true }
  | .clobber => none

/-- An open file: the position of the next write. -/
structure OpenFile where
  flags : OpenFlags
  pos : Nat
deriving DecidableEq, Repr

/-- `open(2)` on a file with this content (`none`: it does not exist): the content afterwards and the
open file. -/
def openFile (f : OpenFlags) : Option Bytes → Option (Bytes × OpenFile)
  | some old => some (if f.truncate then [] else old, ⟨f, 0⟩)
  | none => if f.create then some ([], ⟨f, 0⟩) else none

/-- `write(2)`: at the end of the file when it is opened for appending, else at the position; the gap
after the end of the file is filled with zero bytes. -/
def writeFile (content : Bytes) (o : OpenFile) (chunk : Bytes) : Bytes × OpenFile :=
  if !o.flags.write then (content, o)
  else
    let p := if o.flags.append then content.length else o.pos
    (content.take p ++ List.replicate (p - content.length) 0 ++ chunk ++ content.drop (p + chunk.length),
      { o with pos := p + chunk.length })

/-- A sequence of writes: the content at the end. -/
def writeChunks : Bytes → OpenFile → List Bytes → Bytes
  | content, _, [] => content
  | content, o, chunk :: chunks =>
    let (content', o') := writeFile content o chunk
    writeChunks content' o' chunks

end Rsh

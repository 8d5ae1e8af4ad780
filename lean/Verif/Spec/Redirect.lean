import Verif.Spec.Pipes
import Verif.Model.Files

/-!
# Commands with redirections and assignments before the name
-/

namespace Rsh.Spec

open Rsh

/-- A redirection: the operator, the word after it, and the number before it if there is one. -/
structure Redir where
  op : RedirectType
  word : Typed
  num : Option Int := none
deriving DecidableEq

/-- The word as it is typed, with its quotes. -/
abbrev Redir.file (r : Redir) : Str := r.word.text

/-- The descriptor its operator is about. -/
def Redir.fd (r : Redir) : Int := if r.op = .input then 0 else 1

/-- It is `<`, `>` or `>>`, with a number the shell can read. -/
structure Redir.Ok (r : Redir) : Prop where
  op : r.op ≠ .clobber
  word : r.word.Ok
  num : ∀ n, r.num = some n → -2147483648 ≤ n ∧ n ≤ 2147483647

/-- The descriptor it asks for: the number, if there is one. -/
def Redir.asked (r : Redir) : Int := r.num.getD r.fd

/-- An ordinary word for the name of the file, and no number that asks for another descriptor. -/
structure Redir.Usual (r : Redir) : Prop where
  word : r.word = .plain r.file
  num : r.asked = r.fd

/-- As it is typed. -/
def Redir.part (r : Redir) : Part := .redir r.num r.op r.word

/-- What comes before the name of a command. -/
inductive Front where
  | redir (r : Redir)
  | assign (x : Str) (v : Typed)

/-- As it is typed. -/
def Front.part : Front → Part
  | .redir r => r.part
  | .assign x v => .assign x v

/-- The redirections. -/
def frontRedirs : List Front → List Redir
  | [] => []
  | .redir r :: fs => r :: frontRedirs fs
  | .assign .. :: fs => frontRedirs fs

/-- The assignments. -/
def frontAssigns : List Front → List (Str × Typed)
  | [] => []
  | .redir _ :: fs => frontAssigns fs
  | .assign x v :: fs => (x, v) :: frontAssigns fs

/-- What comes after the name: an argument with the text it stands for, or a redirection. -/
inductive Back where
  | arg (t : Typed) (v : Str)
  | redir (r : Redir)

/-- As it is typed. -/
def Back.part : Back → Part
  | .arg t _ => .arg t
  | .redir r => r.part

/-- The redirections. -/
def backRedirs : List Back → List Redir
  | [] => []
  | .redir r :: fs => r :: backRedirs fs
  | .arg .. :: fs => backRedirs fs

/-- The arguments. -/
def backArgs : List Back → List (Typed × Str)
  | [] => []
  | .redir _ :: fs => backArgs fs
  | .arg t v :: fs => (t, v) :: backArgs fs

/-- An external command. -/
structure RCmd where
  front : List Front := []
  name : Str
  back : List Back := []

/-- As it is typed. -/
def RCmd.tcmd (c : RCmd) : TCmd :=
  { before := c.front.map Front.part, name := some (.plain c.name), after := c.back.map Back.part }

/-- Its line. -/
def RCmd.text (c : RCmd) : Str := c.tcmd.line.text

/-- Its arguments, the name first. -/
def RCmd.argv (c : RCmd) : List Str := c.name :: (backArgs c.back).map Prod.snd

/-- Its redirections, in order. -/
def RCmd.redirs (c : RCmd) : List Redir := frontRedirs c.front ++ backRedirs c.back

/-- It is typed properly, and is an external command whose arguments stand for the given texts; the
values assigned have no variables in them. -/
structure RCmd.Ok (c : RCmd) (s : Sh) : Prop where
  redirs : ∀ r ∈ c.redirs, r.Ok
  assigns : ∀ a ∈ frontAssigns c.front, PlainWord a.1 ∧ a.2.Ok ∧ '$' ∉ a.2.text ∧ '\x00' ∉ a.1 ∧ '\x00' ∉ a.2.text
  name : PlainWord c.name
  external : c.name ∉ builtins
  alias : s.aliases.get c.name = none
  function : s.ctx.isFunction c.name = false
  typed : ∀ a ∈ backArgs c.back, a.1.Ok
  means : ∀ a ∈ backArgs c.back, a.1.Means (valueOf s) a.2
  nul : ∀ v ∈ c.argv, '\x00' ∉ v

/-- The last redirection that asks for a descriptor. -/
def askedOn (fd : Int) (rs : List Redir) : Option Redir := (rs.filter fun r => r.asked = fd).getLast?

/-- The last redirection with an operator for a descriptor. -/
def lastOn (fd : Int) (rs : List Redir) : Option Redir := (rs.filter fun r => r.fd = fd).getLast?

/-- What a descriptor of the shell itself leads to. -/
def ownChan (fd : Int) : Option Chan := if fd = 0 ∨ fd = 1 ∨ fd = 2 then some (.orig fd.toNat) else none

/-- An assignment as a name and the text typed after the `=`. -/
def typedValue (a : Str × Typed) : Str × Str := (a.1, a.2.text)

/-- The same with the text up to the next `=` only. -/
def cutValue (a : Str × Typed) : Str × Str := (a.1, a.2.text.takeWhile (· ≠ '='))

/-- The last value assigned to a name. -/
def lastAssigned (y : Str) (as : List (Str × Str)) : Option Str := as.reverse.lookup y

/-- The content of a file after a program whose standard output a redirection opened has made some
writes; `none` for a file that does not exist, or when the redirection opens nothing. -/
def contentAfter (op : RedirectType) (old : Option Bytes) (writes : List Bytes) : Option Bytes :=
  (openFlags op).bind fun f => (openFile f old).map fun p => writeChunks p.1 p.2 writes

/-- No redirection of the command is written after a name without arguments. -/
def RCmd.Kept (c : RCmd) : Prop := backArgs c.back ≠ [] ∨ backRedirs c.back = []

end Rsh.Spec

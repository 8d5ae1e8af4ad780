import Verif.Spec.External
import Verif.Spec.Line

/-!
# Pipelines of external commands
-/

namespace Rsh.Spec

open Rsh

/-- An external command without assignments and redirections, as it is typed. -/
def Ext.tcmd (e : Ext) : TCmd :=
  { name := some (.plain e.typed)
    after := e.args.map fun a => .arg a.1 }

/-- It is typed properly, and is an external command. -/
structure Ext.Simple (e : Ext) (s : Sh) : Prop where
  ok : e.Ok s
  typed : PlainWord e.typed
  args : ∀ a ∈ e.args, a.1.Ok
  pre : e.pre = none
  redirs : e.redirs = []

/-- A pipeline of external commands. -/
structure ExtPipe where
  first : Ext
  rest : List Ext := []
  background : Bool := false

/-- Its commands. -/
def ExtPipe.stages (p : ExtPipe) : List Ext := p.first :: p.rest

/-- The line it is typed as. -/
def ExtPipe.line (p : ExtPipe) : TLine :=
  { first := { first := { first := p.first.tcmd, rest := p.rest.map Ext.tcmd, background := p.background } } }

/-- The text of that line. -/
def ExtPipe.text (p : ExtPipe) : Str := p.line.text

/-- Where a descriptor of a process leads to. -/
def chanOf (img : ExecImage) (fd : Int) : Option Chan := (img.fds.get fd).map FdE.chan

/-- The programs are connected by pipes as the commands of a pipeline should be: the standard output of
each is the standard input of the next, by a pipe of their own; the first reads and the last writes what
the shell reads and writes; all have the shell's standard error, and no other descriptor. -/
structure Plumbed (imgs : List ExecImage) : Prop where
  firstIn : ∀ img, imgs.head? = some img → chanOf img 0 = some (.orig 0)
  lastOut : ∀ img, imgs.getLast? = some img → chanOf img 1 = some (.orig 1)
  joined : ∃ pipe : Nat → Nat, (∀ i j, pipe i = pipe j → i = j) ∧
    ∀ i img img', imgs[i]? = some img → imgs[i + 1]? = some img' →
      chanOf img 1 = some (.pipeW (pipe i)) ∧ chanOf img' 0 = some (.pipeR (pipe i))
  err : ∀ img ∈ imgs, chanOf img 2 = some (.orig 2)
  only : ∀ img ∈ imgs, ∀ fd, fd ≠ 0 → fd ≠ 1 → fd ≠ 2 → chanOf img fd = none

/-- How the processes of a foreground pipeline may end: the process `pid` exits with `code` after some
interrupted waits, and then the other processes have exited, too. -/
def AllExit (waits : List WRes) (pid : Nat) (pids : List Nat) (code : Int) : Prop :=
  ∃ (k : Nat) (sts : List (Int × Int)) (rest : List WRes),
    waits = List.replicate k .eintr ++ .st (.exited pid code) :: (sts.map (fun p => .st (.exited p.1 p.2)) ++ rest) ∧
    .eintr ∉ rest ∧ (pid : Int) ∉ sts.map Prod.fst ∧ ∀ q ∈ pids, q ≠ pid → (q : Int) ∈ sts.map Prod.fst

end Rsh.Spec

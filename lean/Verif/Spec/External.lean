import Verif.Spec.Words
import Verif.Spec.Blanks
import Verif.Spec.Demo

/-!
# External commands
-/

namespace Rsh.Spec

open Rsh

/-- Events by which a process neither starts, continues nor inspects anything: waiting and writing. -/
def Quiet : Event → Prop
  | .waited _ => True
  | .print .. => True
  | .eprint .. => True
  | _ => False

/-- From `s` to `s'` exactly the given events happened, in that order, followed only by waiting and
writing. -/
def Happened (s s' : Sh) (evs : List Event) : Prop :=
  ∃ l, (∀ e ∈ l, Quiet e) ∧ s'.trace = l ++ (evs.reverse ++ s.trace)

/-- The operating system has pipes and processes to give. -/
structure Resources (w : World) : Prop where
  pipe : ∀ tr, w.pipeOk tr = true
  fork : ∀ tr, w.fork tr ≠ none

/-- None of SIGINT, SIGKILL, SIGSTOP and SIGTSTP reaches the shell while it waits for a command substitution. -/
def Uninterrupted (w : World) : Prop := ∀ tr g, w.substSig tr = some g → g ∉ [2, 9, 19, 20]

/-- The descriptors every process starts with are open, and there is no descriptor -1. -/
structure StdFds (t : FdTable) : Prop where
  std : ∀ i : Nat, i < 3 → t.has i = true
  neg : t.has (-1) = false

/-- `path` is the list of directories `ds`, separated by colons. -/
def Lists (path : Str) (ds : List Str) : Prop :=
  ds ≠ [] ∧ (∀ d ∈ ds, ':' ∉ d) ∧ path = List.intercalate [':'] ds

/-- `file` is the file of that name in the first directory of `path` that has one. -/
def FirstOnPath (isFile : Str → Bool) (path name file : Str) : Prop :=
  ∃ before dir after, Lists path (before ++ dir :: after) ∧ file = dir ++ '/' :: name ∧
    isFile file = true ∧ ∀ d ∈ before, isFile (d ++ '/' :: name) = false

/-- The value of `PATH` in the outermost context. -/
def pathOf (s : Sh) : Option Str :=
  s.ctx.stack.getLast?.bind fun id => ((s.ctx.heap id).getVar (cs!"PATH")).map Var.value

/-- The command name leads to an executable file. -/
structure Runnable (w : World) (s : Sh) (tr : List Event) (name file : Str) : Prop where
  path : ∃ path, pathOf s = some path ∧ FirstOnPath (w.isFile tr) path name file
  exec : w.execOk tr file = true
  nul : '\x00' ∉ file

/-- A simple command as it is written, each argument with the text it stands for.  If the word typed
is an alias, `name` and `extra` are the words it stands for. -/
structure Ext where
  pre : Option Prefix := none
  name : Str
  typed : Str := name
  args : List (Typed × Str)
  extra : List (Typed × Str) := []
  redirs : List IoRedirect := []

/-- The command. -/
def Ext.command (e : Ext) : Command :=
  .simple ⟨e.pre, e.typed,
    if e.args = [] ∧ e.redirs = [] then none else some ⟨e.redirs, e.args.map fun a => a.1.text⟩⟩

/-- Its words after the name. -/
def Ext.words (e : Ext) : List (Typed × Str) := e.args ++ e.extra

/-- Its arguments, the name first. -/
def Ext.argv (e : Ext) : List Str := e.name :: e.words.map Prod.snd

/-- The command is external, and its words stand for the given texts. -/
structure Ext.Ok (e : Ext) (s : Sh) : Prop where
  plain : PlainWord e.name
  external : e.typed ∉ builtins
  alias : (s.aliases.get e.typed = none ∧ e.typed = e.name ∧ e.extra = []) ∨
    ∃ v, s.aliases.get e.typed = some v ∧ WordsOf v (e.name :: e.extra.map fun a => a.1.text)
  function : s.ctx.isFunction e.name = false
  args : ∀ a ∈ e.words, a.1.Means (valueOf s) a.2
  nul : ∀ v ∈ e.argv, '\x00' ∉ v
  assign : ∀ p, e.pre = some p → ∀ a ∈ p.assignment, '$' ∉ a

/-- A command line: blanks, a first word, arguments each after blanks and each with the text it
stands for, blanks.  If the first word is an alias, `name` and `extra` are the words it stands for. -/
structure CmdLine where
  lead : Str := []
  word : Str
  args : List (Str × Typed × Str)
  trail : Str := []
  name : Str := word
  extra : List (Typed × Str) := []

/-- Its text. -/
def CmdLine.text (c : CmdLine) : Str :=
  line ((c.lead, c.word) :: c.args.map fun a => (a.1, a.2.1.text)) c.trail

/-- The command. -/
def CmdLine.ext (c : CmdLine) : Ext :=
  { name := c.name
    typed := c.word
    args := c.args.map Prod.snd
    extra := c.extra }

/-- The words of the line, and what they stand for. -/
def CmdLine.argv (c : CmdLine) : List Str := c.name :: (c.args.map (·.2.2) ++ c.extra.map Prod.snd)

/-- The line is typed properly, and its command is external. -/
structure CmdLine.Ok (c : CmdLine) (s : Sh) : Prop where
  lead : ∀ b ∈ c.lead, Blank b
  trail : ∀ b ∈ c.trail, Blank b
  blanks : (∀ a ∈ c.args, ∀ b ∈ a.1, Blank b) ∧ Apart (.plain c.word) (c.args.map fun a => (a.1, a.2.1))
  word : PlainWord c.word
  args : ∀ a ∈ c.args, a.2.1.Ok
  ext : c.ext.Ok s

/-- The program `img` is started by a shell in the state `s` as it should be: in the working directory of the
shell, with no signal blocked, and with the default reaction to every signal but those the shell ignores
(and does not set: SIGINT, SIGQUIT, SIGTERM, SIGCHLD, SIGTSTP, SIGTTIN, SIGTTOU have the default one in any
case). -/
structure Launched (s : Sh) (img : ExecImage) : Prop where
  unmasked : img.masked = false
  cwd : img.cwd = s.cwd
  disp : ∀ g, img.disp g = if s.disp g = .ign ∧ g ∉ [2, 3, 15, 17, 20, 21, 22] then .ign else .dfl

end Rsh.Spec

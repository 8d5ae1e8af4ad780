import Verif.Spec.Printing
import Verif.Spec.Lists

/-!
# Parts of programs as programs
-/

namespace Rsh.Spec

open Rsh

/-- A chain as a program. -/
def chain (a : AndOr) : List AndOr := [a]

/-- A pipeline as a program. -/
def pipeProgram (bang : Bool) (cs : List Command) (bg : Bool) : List AndOr := [.mk none none (.mk bang cs bg)]

/-- `f() { … }` as a program. -/
def definition (f : Str) (l : List AndOr) : List AndOr := pipeProgram false [.funcDef f (.mk (.braceGroup l) none)] false

/-- `{ … }` as a command. -/
def group (l : List AndOr) : Command := .compound (.braceGroup l) none

/-- A command that is not started as a process of its own: a builtin, by its name, or a definition. -/
inductive InShell : Command → Prop
  | builtin {c} : c.name ∈ builtins → InShell (.simple c)
  | define {f b} : InShell (.funcDef f b)

/-- The end of an evaluation that goes on after it. -/
def Continues (o : Out Int) : Prop := (∃ st, o = .ok st) ∨ ∃ e, o = .err e

end Rsh.Spec

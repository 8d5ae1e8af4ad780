import Verif.Model.Main

/-!
# A concrete world and shell

Used only for the examples and counterexamples beside the theorems.
-/

namespace Rsh.Spec

open Rsh

/-- The number of children started so far. -/
def forks : List Event → Nat
  | [] => 0
  | .spawn .. :: t => forks t + 1
  | .subst .. :: t => forks t + 1
  | .born :: t => forks t + 1
  | _ :: t => forks t

/-- A world with the given text files, in which `/bin` holds every program but `nope`; programs write
their arguments to standard output; the first child has pid 100, the next 101, …; the first process a
child starts exits with status 0. -/
def demoWorld (files : AMap Str) : World where
  isFile _ p := startsWith (cs!"/bin/") p && !endsWith (cs!"nope") p
  readFile _ p := match files.get p with
    | some t => .text t
    | none => .missing
  chdir _ _ p := if p = cs!"/nope" then none else some p
  fork tr := some (100 + forks tr)
  pipeOk _ := true
  openOk _ _ p := p ≠ cs!"/nope"
  execOk _ _ := true
  killOk _ _ := true
  childWaits tr := [.st (.exited (100 + forks tr) 0)]
  progOut img ch := if (img.fds.get 1).map FdE.chan = some ch then joinSp img.argv.tail else []
  panicMsg := cs!"panicked"
  pipeCap := 65536
  writeOk _ _ := true
  saveOk _ _ := true
  osMsg := cs!"os error"
  parseMsg _ := cs!"parse error"
  argsMsg _ := cs!"[…]"
  sigName _ := cs!"SIG"

/-- A shell as it is after start-up, with some environment variables; `waits` are the results of the
coming `waitpid` calls. -/
def demoShell (waits : List WRes) : Sh :=
  ((do pushContextNew; setArg0 : M Unit)
    (initSh false 1 2 (cs!"/") [(cs!"PATH", cs!"/bin"), (cs!"HOME", cs!"/home")] waits)).2

/-- Type some lines. -/
def typeLines (w : World) : List Str → M Unit
  | [] => pure ()
  | l :: ls => do
    interactiveLine w 20 l
    typeLines w ls

/-- The shell after typing some lines. -/
def demo (lines : List Str) (waits : List WRes := []) (files : AMap Str := []) : Sh :=
  (typeLines (demoWorld files) lines (demoShell waits)).2

/-- How typing some lines ends. -/
def demoOut (lines : List Str) (waits : List WRes := []) (files : AMap Str := []) : Out Unit :=
  (typeLines (demoWorld files) lines (demoShell waits)).1

/-- Name of an outcome. -/
inductive Outcome where
  | ok | err | panic (k : PanicKind) | exit (code : Int) | execed (path : Str) (argv : List Str)
  | hang | deep
deriving DecidableEq, Repr

/-- The outcome without its value. -/
def outcome : Out α → Outcome
  | .ok _ => .ok
  | .err _ => .err
  | .panic k => .panic k
  | .exit c => .exit c
  | .execed i => .execed i.path i.argv
  | .hang => .hang
  | .deep => .deep

/-- The value of a variable, looked up by name. -/
def valueOf (s : Sh) (x : Str) : Option Str := (s.ctx.getVar x).map Var.value

/-- The arguments of the programs started, in order. -/
def started : List Event → List (List Str)
  | [] => []
  | .spawn _ (.exec img) _ :: t => started t ++ [img.argv]
  | .subst (.exec img) _ :: t => started t ++ [img.argv]
  | _ :: t => started t

end Rsh.Spec

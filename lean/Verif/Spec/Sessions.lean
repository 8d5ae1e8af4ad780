import Verif.Spec.Session
import Verif.Spec.Builtin
import Verif.Spec.Prompt
import Verif.Spec.Pipes
import Verif.Spec.Context

/-!
# Whole sessions
-/

namespace Rsh.Spec

open Rsh

/-- What happens at the prompt on one input; the session goes on after these. -/
def handle (w : World) (n : Nat) : SessionIn → M Unit
  | .line l => do prompt; interactiveLine w n l
  | .interrupted => prompt
  | .sig g => deliver w g
  | .eof => pure ()
  | .rlError => pure ()

/-- Inputs after which there is another prompt. -/
def GoesOnAfter : SessionIn → Prop
  | .eof | .rlError => False
  | _ => True

/-- Inputs taken one after the other, each of which leads back to the prompt. -/
inductive Visits (w : World) (n : Nat) : Sh → List SessionIn → Sh → Prop where
  | nil {s} : Visits w n s [] s
  | cons {s i s1 is s2} : handle w n i s = (.ok (), s1) → Visits w n s1 is s2 → Visits w n s (i :: is) s2

/-- The shell is gone or does not answer any more: it neither goes on nor was there an error it could
report. -/
def Ended (o : Out Unit) : Prop := o ≠ .ok () ∧ ∀ e, o ≠ .err e

/-- The pipelines of a line. -/
def TLine.pipes (l : TLine) : List TPipe :=
  (l.first :: l.rest).flatMap fun c => c.first :: c.rest.map Prod.snd

/-- A line the shell copes with in the state `s`: nothing, a line that does not parse, a builtin with
suitable arguments, the assignment of a plain word to a variable that is not read-only, or external commands in
the background. -/
inductive Tame (s : Sh) : Str → Prop where
  | empty : Tame s []
  | syntaxError {l} : parse l = none → Tame s l
  | builtin {c : Call} : c.Ok s → Copes s c.name c.values → c.name ≠ cs!"exit" → c.name ≠ cs!"exec" → Tame s c.text
  | assign {x v} : PlainWord x → Name x → PlainWord v → s.aliases.get [] = none →
      (∀ b, s.ctx.getVar x = some b → b.readonly = false) → Tame s (assignment x (.plain v)).line.text
  | background {p : ExtPipe} : (∀ e ∈ p.stages, e.Simple s) → p.background = true → Tame s p.text

/-- The state `s` with one more thing done. -/
def did (s : Sh) (e : Event) : Sh := { s with trace := e :: s.trace }

/-- What the shell does last: it writes its history, or says that it cannot. -/
def lastAct (w : World) (s : Sh) : Event :=
  if w.saveOk s.trace (cs!"history.txt") then .saveHistory (cs!"history.txt")
  else .eprint (some (.orig 2)) (cs!"Could not save history.\n")

/-- What is shown before an input. -/
def shown (ps1 : Str) : Event := .print (some (.orig 1)) ps1

end Rsh.Spec

import Verif.Model.CtrlC

/-!
# What should become of a command that the interrupt key ends
-/

namespace Rsh.Spec

/-- The report says that the process `pid` has ended. -/
def EndOf (pid : Int) (st : WStatus) : Prop := (∃ c, st = .exited pid c) ∨ ∃ sg co, st = .signaled pid sg co

/-- The shell is back at the prompt: signals are let in, the command is no job any more, the other jobs have the
processes and the state they had, and the variables and descriptors are as before. -/
structure PromptBack (s s' : Sh) : Prop where
  signals : s'.masked = false
  gone : s'.jc.getJob s.jc.nextId = none
  others : ∀ k, k ≠ s.jc.nextId →
    (s'.jc.getJob k).map (fun j => (j.processes, j.state, j.background)) =
      (s.jc.getJob k).map (fun j => (j.processes, j.state, j.background))
  ctx : s'.ctx = s.ctx
  files : s'.fds = s.fds

/-- The newline that the shell writes when the key is pressed. -/
def keyLine : Event := .print (some (.orig 0)) ['\n']

end Rsh.Spec

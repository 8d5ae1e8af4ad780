import Verif.Spec.Redirect

/-!
# Pipelines with redirections
-/

namespace Rsh.Spec

open Rsh

/-- Where a descriptor of the `i`-th of `n` programs of a pipeline leads to without redirections, if `pipe j` is the pipe
from the `j`-th program to the next one. -/
def stageChan (pipe : Nat → Nat) (n i : Nat) (fd : Int) : Option Chan :=
  if fd = 0 then some (if i = 0 then .orig 0 else .pipeR (pipe (i - 1)))
  else if fd = 1 then some (if i + 1 < n then .pipeW (pipe i) else .orig 1)
  else if fd = 2 then some (.orig 2)
  else none

/-- The programs are connected as those of a pipeline whose `i`-th command has the redirections `redirs i`: what is
redirected leads to the file of the last redirection, all else is as without redirections. -/
def Wired (redirs : Nat → List Redir) (imgs : List ExecImage) : Prop :=
  ∃ pipe : Nat → Nat, (∀ i j, pipe i = pipe j → i = j) ∧
    ∀ i img, imgs[i]? = some img → ∀ fd, chanOf img fd = match lastOn fd (redirs i) with
      | some r => some (.file r.op r.file)
      | none => stageChan pipe imgs.length i fd

end Rsh.Spec

import Verif.Spec.Demo
import Verif.Spec.Session
import Verif.Spec.External

/-!
# A concrete session

Used only for the examples beside the theorems.
-/

namespace Rsh.Spec

open Rsh

/-- Type lines, each at its prompt. -/
def session (w : World) : List Str → M Unit
  | [] => pure ()
  | l :: ls => do
    (do prompt; interactiveLine w 20 l : M Unit)
    session w ls

/-- An interactive shell after typing some lines. -/
def atPrompt (lines : List Str) (waits : List WRes := []) (files : AMap Str := []) : Sh :=
  ((do startUp (demoWorld files) 5 []; session (demoWorld files) lines : M Unit)
    (initSh false 1 2 (cs!"/") [(cs!"PATH", cs!"/bin"), (cs!"HOME", cs!"/home")] waits)).2

/-- Whether typing the lines led to a prompt again. -/
def promptOk (lines : List Str) (waits : List WRes := []) (files : AMap Str := []) : Bool :=
  outcome ((do startUp (demoWorld files) 5 []; session (demoWorld files) lines : M Unit)
    (initSh false 1 2 (cs!"/") [(cs!"PATH", cs!"/bin"), (cs!"HOME", cs!"/home")] waits)).1 = .ok

end Rsh.Spec

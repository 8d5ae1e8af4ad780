import Verif.Spec.Session
import Verif.Spec.Sessions
import Verif.Spec.Pipes

/-!
# Signals at the prompt and the processes of a job
-/

namespace Rsh.Spec

open Rsh

/-- How a shell treats signals that has set up its handlers: INT (2), CHLD (17) and TSTP (20) are caught.
The Rust runtime ignores PIPE (13) in every process it starts. -/
def atWork (g : Nat) : Disp := if g ∈ [2, 17, 20] then .catch else if g = 13 then .ign else .dfl

/-- How signals are treated without handlers. -/
def untouched (g : Nat) : Disp := if g = 13 then .ign else .dfl

/-- Signals that do not end a process that has no handler for them: CHLD, CONT, URG and WINCH, and STOP, TSTP,
TTIN and TTOU, which stop it until it is continued. -/
def Survivable (g : Nat) : Prop := g ∈ [17, 18, 19, 20, 21, 22, 23, 28]

instance (g : Nat) : Decidable (Survivable g) := by unfold Survivable; infer_instance

/-- The process group of the program `img`, running as process `pid`, if the shell is in the group `shell`. -/
def groupOf (shell pid : Nat) (img : ExecImage) : Nat := if img.ownGroup then pid else shell

/-- A command of the line is started as process `pid` with the program `img`. -/
def Starts (w : World) (n : Nat) (s : Sh) (l : Str) (pid : Nat) (img : ExecImage) : Prop :=
  .spawn pid (.exec img) [] ∈ (interactiveLine w n l s).2.trace ∧ .spawn pid (.exec img) [] ∉ s.trace

end Rsh.Spec

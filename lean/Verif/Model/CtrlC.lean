import Verif.Model.Main

/-!
# The interrupt key while a foreground command runs

`interrupts_off` does not block SIGINT (src/trap.rs:136-145), so its handler runs while the shell waits for a foreground
command (src/eval.rs:279-281). The handler clears the signal mask (src/trap.rs:281-299); if the command has ended by then,
the pending SIGCHLD is delivered and its handler collects the command's status. When the handlers have returned the mask
is what it was, and `waitpid` is called again (src/jobs.rs:629-642).

Simplification: the key is pressed once, after all processes have been started and before the first `waitpid` has
returned. That the call is entered before or after the handlers makes no difference: what precedes it
(src/jobs.rs:571-600 and 620-628) reads only the state of the job, which the handlers do not change for a foreground
job, and resets the flag that the SIGCHLD handler sets, which is not read again.
-/

namespace Rsh

/-- src/trap.rs:180-218 and 281-299: the interrupt key. `ended`: a child has changed state before the handler of SIGINT
returns, so the handler of SIGCHLD runs. The mask is restored when the handlers return. -/
def pressKey (w : World) (ended : Bool) : M Unit := do
  let s ← getS
  onSigOther w SIGINT
  if ended then onSigchld w else pure ()
  modS fun s' => { s' with masked := s.masked }

/-- src/eval.rs:114-301 `eval_pipeline` (see `evalPipeline`), with the interrupt key pressed while a foreground pipeline
is waited for. -/
def evalPipelineKey (w : World) (ended : Bool) (rec : List AndOr → M Int) (pl : Pipeline) : M Int := do
  interruptsOff
  let procs ← evalCommands w rec pl.seq
  if procs.isEmpty then pure 0
  else do
    let procs ← if pl.background then pure procs else runFunctions rec procs
    let jobId ← createJobM (procs.map Prod.fst) pl.background
    forkLoop w rec pl.background jobId procs.length procs 0 (-1, -1) (-1)
    pressKey w ended
    afterFork w pl.background jobId procs.length
    interruptsOn
    let s ← getS
    pure s.exitStatus

/-- src/main.rs:210-237: one line of an interactive session (see `interactiveLine`) that is a single pipeline, with the
interrupt key pressed while it is waited for. Other lines are not followed: they run as without the key. -/
def interruptedLine (w : World) (ended : Bool) (n : Nat) (input : Str) : M Unit :=
  match input, parse input with
  | _ :: _, some (some [.mk none none pl]) => do
    match ← tryE (evalPipelineKey w ended (evalFuel w n) pl) with
    | .ok _ => pure ()
    | .error e => printlnM e
  | _, _ => interactiveLine w (n + 1) input

end Rsh

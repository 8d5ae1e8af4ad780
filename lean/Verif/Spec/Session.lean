import Verif.Model.Main

/-!
# Interactive sessions
-/

namespace Rsh.Spec

open Rsh

/-- Print the prompt. -/
def prompt : M Unit := do
  let p ← (do unwrapM .unwrap (← expandVar .none (cs!"PS1")))
  printM p

/-- Everything `main` does before the first prompt of an interactive session. -/
def startUp (w : World) (n : Nat) (args : List Str) : M Unit := do
  let _ ← parseArgs w args
  pushContextNew
  setArg0
  readStartup w n (cs!"~/.rshrc")
  readStartup w n (cs!"~/.profile")
  setSignal SIGCHLD
  setSignal SIGTSTP
  setSignal SIGINT
  modS fun s => { s with historyLoc := cs!"history.txt" }

/-- The states of an interactive shell between two inputs. -/
inductive AtPrompt (w : World) : Sh → Prop where
  | start {root ppid pid cwd env waits n args s} :
    startUp w n args (initSh root ppid pid cwd env waits) = (.ok (), s) → AtPrompt w s
  | line {s s' n l} : AtPrompt w s → (do prompt; interactiveLine w n l : M Unit) s = (.ok (), s') →
    AtPrompt w s'
  | interrupted {s s'} : AtPrompt w s → prompt s = (.ok (), s') → AtPrompt w s'
  | sig {s s' g} : AtPrompt w s → deliver w g s = (.ok (), s') → AtPrompt w s'
  /-- The outside world may decide anew how coming `waitpid` calls end. -/
  | waits {s ws} : AtPrompt w s → AtPrompt w { s with waits := ws }

/-- `s'` is a later prompt of the session that is at the prompt `s`. -/
inductive Later (w : World) (s : Sh) : Sh → Prop where
  | here : Later w s s
  | line {s1 s2 n l} : Later w s s1 → (do prompt; interactiveLine w n l : M Unit) s1 = (.ok (), s2) → Later w s s2
  | interrupted {s1 s2} : Later w s s1 → prompt s1 = (.ok (), s2) → Later w s s2
  | sig {s1 s2 g} : Later w s s1 → deliver w g s1 = (.ok (), s2) → Later w s s2
  | waits {s1 ws} : Later w s s1 → Later w s { s1 with waits := ws }

end Rsh.Spec

import Verif.Spec.Startup
import Verif.Spec.Sessions

/-!
# Start-up files and the history
-/

namespace Rsh.Spec

open Rsh

/-- The files a process has tried to read, in order (its events come with the latest first). -/
def readsOf (tr : List Event) : List Str := tr.reverse.filterMap fun
  | .readFile p => some p
  | _ => none

/-- The files a process has written its history to, in order. -/
def savesOf (tr : List Event) : List Str := tr.reverse.filterMap fun
  | .saveHistory p => some p
  | _ => none

/-- What a start-up file says is done: it is missing, or cannot be read or parsed, which is said on standard output, or
it is evaluated without an error. -/
inductive StartsWell (w : World) (n : Nat) (p : Str) (s : Sh) : Sh → Prop where
  | missing : w.readFile s.trace p = .missing → StartsWell w n p s (did s (.readFile p))
  | unreadable : w.readFile s.trace p = .notUtf8 → StartsWell w n p s (did (did s (.readFile p))
      (.print ((s.fds.get 1).map FdE.chan) (cs!"Error reading " ++ p ++ cs!": " ++ w.osMsg ++ ['\n'])))
  | syntaxError {t} : w.readFile s.trace p = .text t → parse t = none → StartsWell w n p s (did (did s (.readFile p))
      (.print ((s.fds.get 1).map FdE.chan) (cs!"Error: " ++ w.parseMsg t ++ ['\n'])))
  | evaluated {t st s'} : w.readFile s.trace p = .text t →
      evalText w n t (did s (.readFile p)) = (.ok st, s') → StartsWell w n p s s'

end Rsh.Spec

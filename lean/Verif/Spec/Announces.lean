import Verif.Spec.Startup

/-!
# What the shell says about its own arguments
-/

namespace Rsh.Spec

open Rsh

/-- The arguments (after the name of the shell) that are read before the program, or with the script. -/
def readArgs : List Str → List Str
  | [] => []
  | a :: as =>
    if IsOption a then
      if 'c' ∈ a then [a] else a :: readArgs as
    else a :: as

/-- The words of the program, if there is one. -/
def programWords : List Str → Option (List Str)
  | [] => none
  | a :: as =>
    if IsOption a then
      if 'c' ∈ a then some as else programWords as
    else none

/-- A line on standard output. -/
def outLine (s : Sh) (t : Str) : Event := .print ((s.fds.get 1).map FdE.chan) (t ++ ['\n'])

end Rsh.Spec

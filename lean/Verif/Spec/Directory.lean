import Verif.Model.Main

/-!
# The working directory
-/

namespace Rsh.Spec

open Rsh

/-- `Walks w start evs d`: a process that began in the directory `start` and did `evs` (the latest first) is in
`d`. Only changes of directory of the process itself count, and each of them succeeded. -/
inductive Walks (w : World) (start : Str) : List Event → Str → Prop where
  | start : Walks w start [] start
  | cd {evs d p d'} : Walks w start evs d → w.chdir evs d p = some d' → Walks w start (.chdir p :: evs) d'
  | other {evs d e} : Walks w start evs d → (∀ p, e ≠ .chdir p) → Walks w start (e :: evs) d

end Rsh.Spec

import Verif.Model.Main

/-!
# Signals sent by the shell
-/

namespace Rsh.Spec

mutual
/-- In the events `evs` (oldest first) of a process that knows of the processes `known`, each signal goes to one of
those or to one that the process has started before; the same for its children, which know what it knows. -/
def onlyKnown (known : List Int) : List Event → Prop
  | [] => True
  | e :: es => onlyKnown1 known e ∧
    onlyKnown (match e with
      | .spawn pid _ _ => (pid : Int) :: known
      | _ => known) es
/-- The same of one event. -/
def onlyKnown1 (known : List Int) : Event → Prop
  | .kill p => p ∈ known
  | .spawn _ _ evs => onlyKnown known evs
  | .subst _ evs => onlyKnown known evs
  | _ => True
end

end Rsh.Spec

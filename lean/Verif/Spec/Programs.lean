import Verif.Model.Main

/-!
# The programs a shell starts
-/

namespace Rsh.Spec

mutual
/-- The programs started in one event of a shell: the child itself, and what the child has started before. -/
def programs1 : Event → List ExecImage
  | .spawn _ e evs => (match e with
      | .exec img => [img]
      | _ => []) ++ programs evs
  | .subst e evs => (match e with
      | .exec img => [img]
      | _ => []) ++ programs evs
  | _ => []
/-- The programs started in a sequence of events. -/
def programs : List Event → List ExecImage
  | [] => []
  | e :: es => programs1 e ++ programs es
end

mutual
/-- The ends of the processes forked in one event of a shell: the child's own, and those of the children it had. -/
def ends1 : Event → List ChildEnd
  | .spawn _ e evs => e :: ends evs
  | .subst e evs => e :: ends evs
  | _ => []
/-- The ends of all processes forked in a sequence of events, down to every child of every child. -/
def ends : List Event → List ChildEnd
  | [] => []
  | e :: es => ends1 e ++ ends es
end

/-- The programs a run has started, down to every child of every child, and the one the shell itself has turned
into. -/
def Runs (r : Out α × Sh) (img : ExecImage) : Prop :=
  img ∈ programs r.2.trace ∨ r.1 = .execed img

/-- What the kernel accepts as the environment of a process. -/
def WellFormedEnv (env : List (Str × Str)) : Prop :=
  ∀ p ∈ env, p.1 ≠ [] ∧ '=' ∉ p.1 ∧ '\x00' ∉ p.1 ∧ '\x00' ∉ p.2

instance (env : List (Str × Str)) : Decidable (WellFormedEnv env) := by
  unfold WellFormedEnv; infer_instance

end Rsh.Spec

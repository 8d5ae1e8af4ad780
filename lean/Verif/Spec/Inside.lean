import Verif.Spec.Named

/-!
# Lines the shell runs all by itself
-/

namespace Rsh.Spec

/-- Not the start of a process, nor an attempt at one. -/
def startsNothing : Event → Prop
  | .spawn .. => False
  | .subst .. => False
  | .forkFailed => False
  | _ => True

/-- The builtins that evaluate no other text, the empty name being that of an assignment; and definitions. -/
def innerNames : List Str :=
  [[], cs!"cd", cs!"exit", cs!"return", cs!"jobs", cs!"fg", cs!"bg", cs!"unalias", cs!"unset", cs!"pwd", cs!"readonly",
    cs!"exec", defMark]

/-- The commands of pipelines joined by `&&` and `||`. -/
def chainCommands : AndOr → List Command
  | .mk none _ p => p.seq
  | .mk (some l) _ p => chainCommands l ++ p.seq

/-- The words after the name of a command have no variables and no substitutions. -/
def Literal : Command → Prop
  | .simple c => c.name ≠ defMark ∧ ∀ x ∈ c.words, '$' ∉ x ∧ '`' ∉ x
  | _ => True

instance : DecidablePred Literal := fun c => by
  cases c <;> unfold Literal <;> infer_instance

/-- A text whose commands are builtins that evaluate no other text, with literal arguments. -/
def Inside (t : Str) : Prop :=
  (∀ x ∈ commandNames t, x ∈ innerNames) ∧
  match parse t with
  | some (some l) => ∀ a ∈ l, ∀ c ∈ chainCommands a, Literal c
  | _ => True

instance (t : Str) : Decidable (Inside t) := by
  unfold Inside
  cases parse t with
  | none => infer_instance
  | some o => cases o <;> infer_instance

end Rsh.Spec

import Verif.Spec.Named
import Verif.Spec.Words

/-!
# Functions that do not call each other in circles

Every command gets a rank: programs the rank 0, a function a larger one than those of all the commands it runs.
-/

namespace Rsh.Spec

/-- A name as it stands in the text: a plain word that names no context. -/
def simpleName (x : Str) : Bool := decide (PlainWord x) && !x.contains ':'

/-- A command that evaluates no text but its own: a builtin other than `indirect`, or a program or function of rank at
most `k`, with literal arguments. -/
def callLevel (rank : Str → Nat) (k : Nat) (c : SimpleCommand) : Bool :=
  !indirect.contains c.name && c.words.all (fun x => !x.contains '$' && !x.contains '`') &&
    (builtins.contains c.name || (simpleName c.name && decide (rank c.name ≤ k)))

mutual
/-- All commands of pipelines joined by `&&` and `||` have at most the rank `k`; functions are defined with a rank above
those of the commands in them. -/
def chainLevel (rank : Str → Nat) (k : Nat) : AndOr → Bool
  | .mk none _ p => pipeLevel rank k p
  | .mk (some l) _ p => chainLevel rank k l && pipeLevel rank k p
/-- The same for a pipeline. -/
def pipeLevel (rank : Str → Nat) (k : Nat) : Pipeline → Bool
  | .mk _ cs _ => cmdsLevel rank k cs
/-- The same for its commands. -/
def cmdsLevel (rank : Str → Nat) (k : Nat) : List Command → Bool
  | [] => true
  | c :: cs => cmdLevel rank k c && cmdsLevel rank k cs
/-- The same for one command; a group is not run by the shell. -/
def cmdLevel (rank : Str → Nat) (k : Nat) : Command → Bool
  | .simple c => callLevel rank k c
  | .compound _ _ => true
  | .funcDef f b => decide (0 < rank f) && bodyLevel rank (rank f - 1) b
/-- The same for a group. -/
def groupLevel (rank : Str → Nat) (k : Nat) : CompoundCommand → Bool
  | .braceGroup l => listLevel rank k l
  | .unsupported => true
/-- The same for the body of a function. -/
def bodyLevel (rank : Str → Nat) (k : Nat) : FunctionBody → Bool
  | .mk c _ => groupLevel rank k c
/-- The same for a list. -/
def listLevel (rank : Str → Nat) (k : Nat) : List AndOr → Bool
  | [] => true
  | a :: as => chainLevel rank k a && listLevel rank k as
end

/-- The same for a text. -/
def Level (rank : Str → Nat) (k : Nat) (t : Str) : Prop :=
  match parse t with
  | some (some l) => listLevel rank k l = true
  | _ => True

instance (rank : Str → Nat) (k : Nat) (t : Str) : Decidable (Level rank k t) := by
  unfold Level
  cases parse t with
  | none => infer_instance
  | some o => cases o <;> infer_instance

/-- No function of the shell calls itself, directly or through others, and there are no aliases. -/
structure Ranked (rank : Str → Nat) (s : Sh) : Prop where
  functions : ∀ id f b, (s.ctx.heap id).getFunction f = some b → 0 < rank f ∧ bodyLevel rank (rank f - 1) b = true
  aliases : s.aliases = []

end Rsh.Spec

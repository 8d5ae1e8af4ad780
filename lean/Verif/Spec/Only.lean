import Verif.Spec.Programs
import Verif.Spec.Rank

/-!
# Texts that name the programs they run
-/

namespace Rsh.Spec

/-- A builtin that evaluates no other text and starts no program, or a command named in `P`, with literal arguments. -/
def callOnly (P : List Str) (c : SimpleCommand) : Bool :=
  !indirect.contains c.name && c.name != cs!"exec" && c.words.all (fun x => !x.contains '$' && !x.contains '`') &&
    (builtins.contains c.name || (simpleName c.name && P.contains c.name))

mutual
/-- All commands of pipelines joined by `&&` and `||`, and of the functions defined in them, are such commands. -/
def chainOnly (P : List Str) : AndOr → Bool
  | .mk none _ p => pipeOnly P p
  | .mk (some l) _ p => chainOnly P l && pipeOnly P p
/-- The same for a pipeline. -/
def pipeOnly (P : List Str) : Pipeline → Bool
  | .mk _ cs _ => cmdsOnly P cs
/-- The same for its commands. -/
def cmdsOnly (P : List Str) : List Command → Bool
  | [] => true
  | c :: cs => cmdOnly P c && cmdsOnly P cs
/-- The same for one command; a group is not run by the shell. -/
def cmdOnly (P : List Str) : Command → Bool
  | .simple c => callOnly P c
  | .compound _ _ => true
  | .funcDef _ b => bodyOnly P b
/-- The same for a group. -/
def groupOnly (P : List Str) : CompoundCommand → Bool
  | .braceGroup l => listOnly P l
  | .unsupported => true
/-- The same for the body of a function. -/
def bodyOnly (P : List Str) : FunctionBody → Bool
  | .mk c _ => groupOnly P c
/-- The same for a list. -/
def listOnly (P : List Str) : List AndOr → Bool
  | [] => true
  | a :: as => chainOnly P a && listOnly P as
end

/-- The same for a text. -/
def RunsOnly (P : List Str) (t : Str) : Prop :=
  match parse t with
  | some (some l) => listOnly P l = true
  | _ => True

instance (P : List Str) (t : Str) : Decidable (RunsOnly P t) := by
  unfold RunsOnly
  cases parse t with
  | none => infer_instance
  | some o => cases o <;> infer_instance

/-- The functions of the shell run such commands only, and there are no aliases. -/
structure KnownFuns (P : List Str) (s : Sh) : Prop where
  functions : ∀ id f b, (s.ctx.heap id).getFunction f = some b → bodyOnly P b = true
  aliases : s.aliases = []

/-- A program with a name in `P`: the file of that name in some directory, started under that name. -/
def NamedIn (P : List Str) (img : ExecImage) : Prop :=
  ∃ x ∈ P, img.argv.head? = some x ∧ ∃ d, img.path = d ++ '/' :: x

end Rsh.Spec

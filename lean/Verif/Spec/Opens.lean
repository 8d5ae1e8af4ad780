import Verif.Spec.Programs
import Verif.Spec.Rank

/-!
# Texts that name the files they open
-/

namespace Rsh.Spec

/-- A file that is touched: opened for a redirection, or read as a text to evaluate. -/
inductive Touch where
  | opened (ty : RedirectType) (path : Str)
  | read (path : Str)
deriving DecidableEq

mutual
/-- The files touched in one event of a shell, down to every child of every child. -/
def touched1 : Event → List Touch
  | .opened ty p => [.opened ty p]
  | .readFile p => [.read p]
  | .spawn _ _ evs => touched evs
  | .subst _ evs => touched evs
  | _ => []
/-- The same for a sequence of events. -/
def touched : List Event → List Touch
  | [] => []
  | e :: es => touched1 e ++ touched es
end

/-- The redirections written with a command: the way of opening and the name of the file. -/
def redirFiles (c : SimpleCommand) : List (RedirectType × Str) :=
  (((c.pre.map Prefix.ioRedirect).getD [] ++ (c.suffix.map Suffix.ioRedirect).getD []).filterMap IoRedirect.ioFile).map
    fun f => (f.ty, f.filename)

/-- A builtin that evaluates no other text, or another command, with literal name and arguments
and redirections out of `F`. -/
def callOpens (F : List (RedirectType × Str)) (c : SimpleCommand) : Bool :=
  !indirect.contains c.name && c.words.all (fun x => !x.contains '$' && !x.contains '`') &&
    (builtins.contains c.name || (simpleName c.name && (redirFiles c).all fun f => F.contains f))

mutual
/-- All commands of pipelines joined by `&&` and `||`, and of the functions defined in them, are such commands. -/
def chainOpens (F : List (RedirectType × Str)) : AndOr → Bool
  | .mk none _ p => pipeOpens F p
  | .mk (some l) _ p => chainOpens F l && pipeOpens F p
/-- The same for a pipeline. -/
def pipeOpens (F : List (RedirectType × Str)) : Pipeline → Bool
  | .mk _ cs _ => cmdsOpens F cs
/-- The same for its commands. -/
def cmdsOpens (F : List (RedirectType × Str)) : List Command → Bool
  | [] => true
  | c :: cs => cmdOpens F c && cmdsOpens F cs
/-- The same for one command; a group is not run by the shell. -/
def cmdOpens (F : List (RedirectType × Str)) : Command → Bool
  | .simple c => callOpens F c
  | .compound _ _ => true
  | .funcDef _ b => bodyOpens F b
/-- The same for a group. -/
def groupOpens (F : List (RedirectType × Str)) : CompoundCommand → Bool
  | .braceGroup l => listOpens F l
  | .unsupported => true
/-- The same for the body of a function. -/
def bodyOpens (F : List (RedirectType × Str)) : FunctionBody → Bool
  | .mk c _ => groupOpens F c
/-- The same for a list. -/
def listOpens (F : List (RedirectType × Str)) : List AndOr → Bool
  | [] => true
  | a :: as => chainOpens F a && listOpens F as
end

/-- The same for a text. -/
def OpensOnly (F : List (RedirectType × Str)) (t : Str) : Prop :=
  match parse t with
  | some (some l) => listOpens F l = true
  | _ => True

instance (F : List (RedirectType × Str)) (t : Str) : Decidable (OpensOnly F t) := by
  unfold OpensOnly
  cases parse t with
  | none => infer_instance
  | some o => cases o <;> infer_instance

/-- The functions of the shell run such commands only, and there are no aliases. -/
structure OpeningFuns (F : List (RedirectType × Str)) (s : Sh) : Prop where
  functions : ∀ id f b, (s.ctx.heap id).getFunction f = some b → bodyOpens F b = true
  aliases : s.aliases = []

/-- A file opened for a redirection out of `F`, or, if texts may be read, any file read as a text. -/
def Touch.Within (F : List (RedirectType × Str)) (texts : Bool) : Touch → Prop
  | .opened ty p => (ty, p) ∈ F
  | .read _ => texts = true

end Rsh.Spec

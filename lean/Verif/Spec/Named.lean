import Verif.Model.Main

/-!
# The names of the commands of a program

Which commands a program can run by itself can be read off its text: the names of its commands, also of those in
the bodies of the functions it defines.
-/

namespace Rsh.Spec

/-- What stands for the definition of a function among the names of commands; no word can be written like this. -/
def defMark : Str := cs!"()"

mutual
/-- The names of the commands of pipelines joined by `&&` and `||`. -/
def chainNames : AndOr → List Str
  | .mk none _ p => pipeNames p
  | .mk (some l) _ p => chainNames l ++ pipeNames p
/-- Those of a pipeline. -/
def pipeNames : Pipeline → List Str
  | .mk _ cs _ => cmdsNames cs
/-- Those of its commands. -/
def cmdsNames : List Command → List Str
  | [] => []
  | c :: cs => cmdNames c ++ cmdsNames cs
/-- That of a command (empty for an assignment), those of a group, those of the body of a function that is defined. -/
def cmdNames : Command → List Str
  | .simple c => [c.name]
  | .compound c _ => groupNames c
  | .funcDef _ b => defMark :: bodyNames b
/-- Those of a group. -/
def groupNames : CompoundCommand → List Str
  | .braceGroup l => listNames l
  | .unsupported => []
/-- Those of the body of a function. -/
def bodyNames : FunctionBody → List Str
  | .mk c _ => groupNames c
/-- Those of a list. -/
def listNames : List AndOr → List Str
  | [] => []
  | a :: as => chainNames a ++ listNames as
end

/-- The names of the commands of a text; none if it is no program. -/
def commandNames (t : Str) : List Str :=
  match parse t with
  | some (some l) => listNames l
  | _ => []

/-- The builtins that evaluate texts which are not part of the line, or give other names to commands, or change the
environment. -/
def indirect : List Str := [cs!"eval", cs!"source", cs!".", cs!"export", cs!"alias"]

/-- No function of the shell runs a command named in `D`, and no builtin has been renamed by an alias. -/
structure Confined (D : List Str) (s : Sh) : Prop where
  functions : ∀ id f b, (s.ctx.heap id).getFunction f = some b → ∀ x ∈ bodyNames b, x ∉ D
  aliases : ∀ k, isBuiltin k = true → s.aliases.get k = none

/-- A text all of whose commands have other names than those in `D`. -/
def Without (D : List Str) (t : Str) : Prop := ∀ x ∈ commandNames t, x ∉ D

instance (D : List Str) (t : Str) : Decidable (Without D t) := by unfold Without; infer_instance

/-- A session and start-up files without commands named in `D`. -/
structure SessionWithout (D : List Str) (w : World) (ins : List SessionIn) : Prop where
  lines : ∀ t, .line t ∈ ins → Without D t
  rc : ∀ tr t, w.readFile tr (cs!"~/.rshrc") = .text t → Without D t
  profile : ∀ tr t, w.readFile tr (cs!"~/.profile") = .text t → Without D t

/-- `s'` is reached from `s` by events that satisfy `P`. -/
def Through (P : Event → Prop) (s s' : Sh) : Prop := ∃ l, s'.trace = l ++ s.trace ∧ ∀ e ∈ l, P e

/-- Not the opening or reading of a file. -/
def touchesNoFile : Event → Prop
  | .readFile _ => False
  | .opened _ _ => False
  | _ => True

/-- Not the sending of a signal. -/
def sendsNoSignal : Event → Prop
  | .kill _ => False
  | _ => True

/-- Not the writing of the history. -/
def savesNoHistory : Event → Prop
  | .saveHistory _ => False
  | _ => True

/-- The process neither ends itself nor becomes another program. -/
def Lasts : Out α → Prop
  | .exit _ => False
  | .execed _ => False
  | _ => True

end Rsh.Spec

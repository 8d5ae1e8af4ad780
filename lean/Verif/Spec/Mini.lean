import Verif.Spec.Reference
import Verif.Spec.Context

/-!
# A reference interpreter for a small language

Assignments, changes of the working directory and pipelines of external commands, joined by `&&`, `||` and `;`.
The state of the interpreter has the variables, the working directory, the last status and what has been run.
-/

namespace Rsh.Spec

open Rsh

/-- An argument. -/
inductive MiniWord where
  | plain (w : Str)
  | quoted (t : Str)
  | double (t : Str)
  | mixed (w : Str)
  | var (x : Str)

/-- How it is typed: `w`, `'t'`, `"t"`, a word with quotes in the middle such as `a"b"`, or `$x`. -/
def MiniWord.typed : MiniWord → Typed
  | .plain w => .plain w
  | .quoted t => .single t
  | .double t => .double t
  | .mixed w => .mixed w
  | .var x => .var x

/-- What it stands for.  A variable that is not set stands for its name with the dollar sign.  Variables in double quotes
are not looked up; each dollar sign there takes away the character after it.  Quotes in the middle of a word stay. -/
def MiniWord.value (vars : Str → Option Str) : MiniWord → Str
  | .plain w => w
  | .quoted t => t
  | .double t => (afterDollars t).getD []
  | .mixed w => w
  | .var x => (vars x).getD ('$' :: x)

/-- An external command. -/
structure MiniCmd where
  name : Str
  args : List MiniWord

/-- The name and the arguments it is called with. -/
def MiniCmd.argv (vars : Str → Option Str) (c : MiniCmd) : List Str := c.name :: c.args.map (MiniWord.value vars)

/-- How it is typed. -/
def MiniCmd.typed (c : MiniCmd) : TCmd :=
  { name := some (.plain c.name)
    after := c.args.map fun a => .arg a.typed }

/-- An external command with assignments before its name (`x=v`) and redirections after its arguments. -/
structure FullCmd extends MiniCmd where
  assigns : List (Str × Str) := []
  redirs : List (RedirectType × Str) := []

/-- How it is typed. -/
def FullCmd.typed (c : FullCmd) : TCmd :=
  { before := c.assigns.map fun a => .assign a.1 (.plain a.2)
    name := some (.plain c.name)
    after := (c.args.map fun a => .arg a.typed) ++ c.redirs.map fun r => .redir none r.1 (.plain r.2) }

/-- Other builtins: `jobs`, `return`, `unset`, `readonly`, `exec`, `source` and `.` without arguments, and `fg %n` or
`bg %n`. -/
inductive OtherCmd where
  | jobs
  | «return»
  | unset
  | readonly
  | exec
  | source (dot : Bool)
  | resume (bg : Bool) (n : Nat)

/-- The two names of `source`. -/
def sourceName (dot : Bool) : Str := if dot then cs!"." else cs!"source"

/-- The name of the builtin. -/
def OtherCmd.name : OtherCmd → Str
  | .jobs => cs!"jobs"
  | .return => cs!"return"
  | .unset => cs!"unset"
  | .readonly => cs!"readonly"
  | .exec => cs!"exec"
  | .source dot => sourceName dot
  | .resume bg _ => if bg then cs!"bg" else cs!"fg"

/-- Its arguments. -/
def OtherCmd.args : OtherCmd → List Str
  | .resume _ n => ['%' :: natStr n]
  | _ => []

/-- What is joined by `&&`, `||` and `;`: `x=v` or `x='v'`, `cd d`, a pipeline.  `export x=v` or `export x='v'`, `unset x`
or `unset -v x`, `exit`, `exit code`, `return code`, `pwd`, `source p` or `. p` with arguments, `eval a` with further
arguments, a few other builtins and pipelines with assignments and redirections are for the interpreter with scopes (`Verif.Spec.Fns`) only. -/
inductive MiniStep where
  | assign (x : Str) (quoted : Bool) (v : Str)
  | cd (d : MiniWord)
  | run (c : MiniCmd) (cs : List MiniCmd)
  | export (x : Str) (quoted : Bool) (v : Str)
  | unset (x : Str) (flag : Bool := false)
  | exit (code : Option Int)
  | source (dot : Bool) (p : Str) (args : List MiniWord)
  | eval (a : MiniWord) (more : List MiniWord := [])
  | «return» (code : Int)
  | pwd
  | other (b : OtherCmd)
  | full (c : FullCmd) (cs : List FullCmd)

/-- How the value of an assignment is typed. -/
def miniTyped (quoted : Bool) (v : Str) : Typed := if quoted then .single v else .plain v

/-- How it is typed. -/
def MiniStep.typed : MiniStep → TPipe
  | .assign x q v => { first := assignment x (miniTyped q v) }
  | .cd d => { first := { name := some (.plain (cs!"cd")), after := [.arg d.typed] } }
  | .run c cs => { first := c.typed, rest := cs.map MiniCmd.typed }
  | .export x q v => { first := { name := some (.plain (cs!"export")), after := [.assign x (miniTyped q v)] } }
  | .unset x flag =>
    { first := {
        name := some (.plain (cs!"unset"))
        after := if flag then [.arg (.plain (cs!"-v")), .arg (.plain x)] else [.arg (.plain x)] } }
  | .exit code =>
    { first := { name := some (.plain (cs!"exit")), after := code.toList.map fun c => .arg (.plain (intStr c)) } }
  | .source dot p args =>
    { first := { name := some (.plain (sourceName dot)), after := .arg (.plain p) :: args.map fun a => .arg a.typed } }
  | .eval a more =>
    { first := { name := some (.plain (cs!"eval")), after := .arg a.typed :: more.map fun a => .arg a.typed } }
  | .return code => { first := { name := some (.plain (cs!"return")), after := [.arg (.plain (intStr code))] } }
  | .pwd => { first := { name := some (.plain (cs!"pwd")) } }
  | .other b => { first := { name := some (.plain b.name), after := b.args.map fun a => .arg (.plain a) } }
  | .full c cs => { first := c.typed, rest := cs.map FullCmd.typed }

/-- Steps joined by `&&` and `||`. -/
structure MiniChain where
  first : MiniStep
  rest : List (CondExec × MiniStep) := []

/-- Its steps. -/
def MiniChain.steps (c : MiniChain) : List MiniStep := c.first :: c.rest.map Prod.snd

/-- How it is typed. -/
def MiniChain.typed (c : MiniChain) : TChain := { first := c.first.typed, rest := c.rest.map fun l => (l.1, l.2.typed) }

/-- Chains separated by `;`. -/
structure MiniLine where
  first : MiniChain
  rest : List MiniChain := []

/-- Its chains. -/
def MiniLine.chains (l : MiniLine) : List MiniChain := l.first :: l.rest

/-- Its text. -/
def MiniLine.text (l : MiniLine) : Str := TLine.text { first := l.first.typed, rest := l.rest.map MiniChain.typed }

/-- The state of the interpreter: the variables, the working directory, the status of the last step and that of the last
pipeline, the number of processes started, the pipelines run (with the directory, each program with its arguments),
what the operating system has reported, and whether the rest of the line is given up. -/
structure MiniState where
  vars : Str → Option Str
  cwd : Str
  status : Int
  recorded : Int
  started : Nat
  ran : List (Str × List (List Str)) := []
  reported : List WRes := []
  stopped : Bool := false

/-- The outside world: which process gets which number, how it ends, and where a change of directory leads. -/
structure MiniWorld where
  pid : Nat → Nat
  code : Nat → Int
  dirs : Str → Str → Option Str

/-- A step.  An assignment and a change of directory have the status 0; if there is no such directory, the rest of the
line is given up.  The status of a pipeline is that of its first program.  Nothing is said about the other builtins and
pipelines with assignments and redirections. -/
def MiniWorld.step (u : MiniWorld) (σ : MiniState) (t : MiniStep) : MiniState :=
  if σ.stopped then σ
  else match t with
  | .assign x _ v => { σ with vars := fun y => if y = x then some v else σ.vars y, status := 0 }
  | .cd d =>
    match u.dirs σ.cwd (d.value σ.vars) with
    | some d' => { σ with cwd := d', status := 0 }
    | none => { σ with stopped := true }
  | .run c cs => { σ with
      status := u.code σ.started
      recorded := u.code σ.started
      started := σ.started + (c :: cs).length
      ran := σ.ran ++ [(σ.cwd, (c :: cs).map (MiniCmd.argv σ.vars))]
      reported := σ.reported ++ exits u.pid u.code σ.started (c :: cs).length }
  | .export .. | .unset .. | .exit _ | .source .. | .eval .. | .return _ | .full .. | .pwd | .other _ => σ

/-- A step after `&&` or `||`. -/
def MiniWorld.link (u : MiniWorld) (σ : MiniState) (l : CondExec × MiniStep) : MiniState :=
  match l.1 with
  | .and => if σ.status = 0 then u.step σ l.2 else σ
  | .or => if σ.status = 0 then σ else u.step σ l.2

/-- A chain. -/
def MiniWorld.chain (u : MiniWorld) (σ : MiniState) (c : MiniChain) : MiniState := c.rest.foldl u.link (u.step σ c.first)

/-- A line. -/
def MiniWorld.line (u : MiniWorld) (σ : MiniState) (l : MiniLine) : MiniState :=
  l.chains.foldl u.chain { σ with stopped := false }

/-- A session. -/
def MiniWorld.session (u : MiniWorld) (σ : MiniState) (ls : List MiniLine) : MiniState := ls.foldl u.line σ

/-- A text that is itself when it is the value of a variable: no quotation mark at its beginning, and not the character that
ends a text for the operating system. -/
def CleanValue (v : Str) : Prop := (∀ q ∈ quotes, v.head? ≠ some q) ∧ '\x00' ∉ v

instance (v : Str) : Decidable (CleanValue v) := inferInstanceAs (Decidable (_ ∧ _))

/-- Variables are not in namespaces, and in double quotes there are no command substitutions and no dollar sign at the end
of the text. -/
def MiniWord.Fair : MiniWord → Prop
  | .var x => Unqualified x
  | .double t => '`' ∉ t ∧ (∀ a b, t ≠ a ++ '$' :: '(' :: b) ∧ afterDollars t ≠ none
  | _ => True

/-- The word is typed properly. -/
def MiniWord.Ok (a : MiniWord) : Prop := a.typed.Ok ∧ '\x00' ∉ a.typed.text ∧ a.Fair

/-- The command is an external one for a shell in the state `s`, and typed properly. -/
structure MiniCmd.Ok (w : World) (file : Str → Str) (s : Sh) (c : MiniCmd) : Prop where
  plain : PlainWord c.name
  external : c.name ∉ builtins
  alias : s.aliases.get c.name = none
  function : s.ctx.isFunction c.name = false
  nul : '\x00' ∉ c.name
  args : ∀ a ∈ c.args, a.Ok
  runs : ∀ tr, Runnable w s tr c.name (file c.name)

/-- The step is typed properly; it does not assign to `PATH` or a readonly variable. -/
def MiniStep.Ok (w : World) (file : Str → Str) (s : Sh) : MiniStep → Prop
  | .assign x q v => PlainWord x ∧ Name x ∧ x ≠ cs!"PATH" ∧ (miniTyped q v).Ok ∧ '=' ∉ v ∧ '$' ∉ v ∧ CleanValue v ∧
      ∀ b, s.ctx.getVar x = some b → b.readonly = false
  | .cd d => d.Ok
  | .run c cs => ∀ e ∈ c :: cs, e.Ok w file s
  | .export .. | .unset .. | .exit _ | .source .. | .eval .. | .return _ | .full .. | .pwd | .other _ => False

/-- The programs are those of a pipeline, started in its directory as they should be by the shell `s`. -/
structure MiniRuns (file : Str → Str) (s : Sh) (r : Str × List (List Str)) (imgs : List ExecImage) : Prop where
  argvs : imgs.map ExecImage.argv = r.2
  paths : ∀ img ∈ imgs, ∃ x l, img.argv = x :: l ∧ img.path = file x
  plumbed : Plumbed imgs
  launched : ∀ img ∈ imgs, img.env = s.env ∧ img.ownGroup = false ∧ Launched { s with cwd := r.1 } img

/-- The same for several pipelines. -/
inductive MiniRan (file : Str → Str) (s : Sh) : List (Str × List (List Str)) → List (List ExecImage) → Prop where
  | nil : MiniRan file s [] []
  | snoc {rs gs r g} : MiniRan file s rs gs → MiniRuns file s r g → MiniRan file s (rs ++ [r]) (gs ++ [g])

end Rsh.Spec

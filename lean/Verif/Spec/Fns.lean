import Verif.Spec.Mini
import Verif.Spec.Wiring
import Verif.Spec.Wholes
import Verif.Spec.CtxOps
import Verif.Spec.Alias
import Verif.Spec.Builtin

/-!
# The small language with functions

The reference interpreter of `Verif.Spec.Mini` with definitions and calls of functions.  Variables are in scopes: one
more while a function runs.  An assignment goes to the innermost scope that has the variable, or to the innermost one
if none has it; the parameters of a call are assigned in the same way.  `export` goes to the outermost scope, and `unset`
to the innermost one that has the variable.  `exit` ends everything, also within a function.  `return`
does not: it only records the status.  `source`, or `.`, runs what is in a file, in the same scope, and `eval` runs the text that is its first argument.
The programs of a pipeline may have variables of their own in the environment, and redirections.
-/

namespace Rsh.Spec

open Rsh

/-- The variables of one scope. -/
abbrev Scope := Str → Option Str

/-- The value of a variable: that in the innermost scope that has it.  The innermost scope is the first. -/
def seen (scopes : List Scope) (x : Str) : Option Str := scopes.findSome? (· x)

/-- A scope in which `x` has the value `v`. -/
def Scope.put (x v : Str) (sc : Scope) : Scope := fun y => if y = x then some v else sc y

/-- An assignment. -/
def assignIn (x v : Str) : List Scope → List Scope
  | [] => []
  | sc :: rest =>
    if (sc x).isSome ∨ (seen rest x).isNone then sc.put x v :: rest else sc :: assignIn x v rest

/-- `export`. -/
def exportIn (x v : Str) : List Scope → List Scope
  | [] => []
  | [sc] => [sc.put x v]
  | sc :: rest => sc :: exportIn x v rest

/-- A scope in which `x` has no value. -/
def Scope.drop (x : Str) (sc : Scope) : Scope := fun y => if y = x then none else sc y

/-- `unset`. -/
def unsetIn (x : Str) : List Scope → List Scope
  | [] => []
  | sc :: rest => if (sc x).isSome then sc.drop x :: rest else sc :: unsetIn x rest

/-- A pipeline that was run: its directory, what had been exported (the latest first), the programs with their
arguments, the assignments and redirections of each program (none, if the lists are too short), and which of the
programs do not exist. -/
structure FnRun where
  dir : Str
  exports : List (Str × Str) := []
  argvs : List (List Str)
  assigns : List (List (Str × Str)) := []
  redirs : List (List (RedirectType × Str)) := []
  gone : List Bool := []
deriving DecidableEq

/-- The parameters `$i`, `$(i+1)`, … -/
def bindIn : Nat → List Str → List Scope → List Scope
  | _, [], scopes => scopes
  | i, a :: as, scopes => bindIn (i + 1) as (assignIn (natStr i) a scopes)

/-- Why the rest of a line is given up: a failure, with a message, or `exit`. -/
inductive Stop where
  | failed (message : Str)
  | exited (code : Int)
deriving DecidableEq

/-- The state of the interpreter: as in `MiniState`, with scopes and functions, what has been exported, and what the
shell itself has written since the beginning of the line. -/
structure FnState where
  scopes : List Scope
  defs : Str → Option (List MiniChain)
  cwd : Str
  status : Int
  recorded : Int
  started : Nat
  exports : List (Str × Str) := []
  ran : List FnRun := []
  reported : List WRes := []
  stop : Option Stop := none
  said : List Str := []

/-- The rest of the line is given up. -/
def FnState.stopped (σ : FnState) : Bool := σ.stop.isSome

/-- The status with which `exit` ended everything. -/
def FnState.ended (σ : FnState) : Option Int :=
  match σ.stop with
  | some (.exited c) => some c
  | _ => none

/-- The state without scopes, functions and exports; what has been run is left out. -/
def FnState.flat (σ : FnState) : MiniState :=
  { vars := seen σ.scopes, cwd := σ.cwd, status := σ.status, recorded := σ.recorded, started := σ.started,
    reported := σ.reported, stopped := σ.stopped }

/-- The state after a step that is not a call, `m` being what the interpreter without functions makes of it; the message
is for the case that it fails. -/
def FnState.next (σ : FnState) (message : Str) (m : MiniState) (scopes : List Scope) : FnState :=
  { σ with scopes := scopes, cwd := m.cwd, status := m.status, recorded := m.recorded, started := m.started,
           ran := σ.ran ++ m.ran.map fun r => { dir := r.1, exports := σ.exports, argvs := r.2 }, reported := m.reported,
           stop := if m.stopped then some (.failed message) else none }

/-- A value that can be the `i`-th argument: no `=`, no quotation mark at its beginning, not `&`, and not too many
digits. -/
def Passable (i : Nat) (a : Str) : Prop :=
  '=' ∉ a ∧ a ≠ ['&'] ∧ CleanValue a ∧ (natStr i).length + (a.filter isDigit10).length ≤ 19

instance (i : Nat) (a : Str) : Decidable (Passable i a) := inferInstanceAs (Decidable (_ ∧ _))

/-- The values can be passed as the arguments `i`, `i + 1`, … -/
def AllPassable : Nat → List Str → Prop
  | _, [] => True
  | i, a :: as => Passable i a ∧ AllPassable (i + 1) as

instance decAllPassable : ∀ (i : Nat) (l : List Str), Decidable (AllPassable i l)
  | _, [] => .isTrue trivial
  | i, _ :: as => @instDecidableAnd _ _ inferInstance (decAllPassable (i + 1) as)

/-- The outside world: as in `MiniWorld`, the files of the programs, the programs that do not exist, the files that can
be read, and what texts mean.  Of those, `text p` is `none` if nothing is said about the file, and `some none` if it does not exist; `means t` is
`none` if nothing is said about the text, and `some none` if it is not a program.  The last two are messages: that of the
operating system when the directory cannot be changed, and those of the parser. -/
structure FnWorld extends MiniWorld where
  file : Str → Option Str
  missing : Str → Bool := fun _ => false
  text : Str → Option (Option (List MiniChain)) := fun _ => none
  means : Str → Option (Option (List MiniChain)) := fun _ => none
  osMsg : Str := cs!"os error"
  parseMsg : Str → Str := fun _ => cs!"parse error"

/-- The calls of functions in a pipeline: bodies and arguments. -/
def FnState.calls (σ : FnState) (es : List MiniCmd) : List (List MiniChain × List Str) :=
  es.filterMap fun e => (σ.defs e.name).map fun b => (b, e.argv (seen σ.scopes))

/-- The programs in a pipeline. -/
def FnState.programs (σ : FnState) (es : List MiniCmd) : List MiniCmd := es.filter fun e => (σ.defs e.name).isNone

/-- The programs in a pipeline, with their assignments and redirections. -/
def FnState.others (σ : FnState) (es : List FullCmd) : List FullCmd := es.filter fun e => (σ.defs e.name).isNone

/-- Calls one after the other, with their arguments.  `exit` ends it. -/
def runCalls (body : List MiniChain → FnState → Option FnState) :
    List (List MiniChain × List Str) → FnState → Option FnState
  | [], σ => some σ
  | (b, argv) :: rest, σ =>
    if AllPassable 0 argv then
      (body b { σ with scopes := bindIn 0 argv ((fun _ => none) :: σ.scopes) }).bind fun τ =>
        if τ.ended.isSome then some τ
        else runCalls body rest { τ with scopes := τ.scopes.tail, status := 0, recorded := 0, stop := none }
    else none

/-- The statuses with which children exit, if those from the `n`-th on are for commands of these names: a child for a
command that does not exist exits with status 1. -/
def FnWorld.codes (u : FnWorld) (names : List Str) (n k : Nat) : Int :=
  if (names[k - n]?).any fun x => (u.file x).isNone then 1 else u.code k

/-- A pipeline of programs: the status is that of the first.  A child is started for each, also if it does not exist. -/
def FnWorld.start (u : FnWorld) (es : List MiniCmd) (vars : Str → Option Str) (σ : FnState) : FnState :=
  { σ with
    status := u.codes (es.map MiniCmd.name) σ.started σ.started
    recorded := u.codes (es.map MiniCmd.name) σ.started σ.started
    started := σ.started + es.length
    ran := σ.ran ++ [{
      dir := σ.cwd
      exports := σ.exports
      argvs := es.map (MiniCmd.argv vars)
      gone := es.map fun e => (u.file e.name).isNone }]
    reported := σ.reported ++ exits u.pid (u.codes (es.map MiniCmd.name) σ.started) σ.started es.length }

/-- A pipeline of programs with assignments and redirections. -/
def FnWorld.startFull (u : FnWorld) (es : List FullCmd) (vars : Str → Option Str) (σ : FnState) : FnState :=
  { σ with
    status := u.codes (es.map fun e => e.name) σ.started σ.started
    recorded := u.codes (es.map fun e => e.name) σ.started σ.started
    started := σ.started + es.length
    ran := σ.ran ++ [{
      dir := σ.cwd
      exports := σ.exports
      argvs := es.map fun e => e.toMiniCmd.argv vars
      assigns := es.map FullCmd.assigns
      redirs := es.map FullCmd.redirs
      gone := es.map fun e => (u.file e.name).isNone }]
    reported := σ.reported ++ exits u.pid (u.codes (es.map fun e => e.name) σ.started) σ.started es.length }

/-- What `source` and `eval` make of an error in what they run. -/
def FnState.within (τ : FnState) : FnState :=
  match τ.stop with
  | none => { τ with status := 0 }
  | some (.failed m) => { τ with stop := some (.failed (cs!"Error evaluating string: " ++ m)) }
  | some (.exited _) => τ

/-- A step.  `body` is how the body of a function is run, or what is in a file.  If there are functions in a pipeline
they are called first, one after the other; then the programs are started, in the state the functions leave, but with the
arguments as they were before; the assignments and redirections of functions are not heeded.  Nothing is said about
arguments that cannot be passed, and about programs of which it is not known whether they exist.  After `source` and `eval` the status is 0, unless they fail. -/
def FnWorld.step (u : FnWorld) (body : List MiniChain → FnState → Option FnState) (σ : FnState) (t : MiniStep) :
    Option FnState :=
  if σ.stopped then some σ
  else match t with
  | .assign x q v => some (σ.next u.osMsg (u.toMiniWorld.step σ.flat (.assign x q v)) (assignIn x v σ.scopes))
  | .cd d => some (σ.next u.osMsg (u.toMiniWorld.step σ.flat (.cd d)) σ.scopes)
  | .run c cs =>
    if ∀ e ∈ σ.programs (c :: cs), (u.file e.name).isSome ∨ u.missing e.name then
      (runCalls body (σ.calls (c :: cs)) σ).map fun τ =>
        if τ.ended.isSome ∨ σ.programs (c :: cs) = [] then τ
        else u.start (σ.programs (c :: cs)) (seen σ.scopes) τ
    else none
  | .export x _ v => some { σ with scopes := exportIn x v σ.scopes, exports := (x, v) :: σ.exports, status := 0 }
  | .unset x _ => some { σ with scopes := unsetIn x σ.scopes, status := 0 }
  | .exit code => some { σ with stop := some (.exited (code.getD σ.recorded)) }
  | .source dot p args =>
    if AllPassable 1 (args.map (MiniWord.value (seen σ.scopes))) then
      match u.text p with
      | none => none
      | some none => some { σ with
          scopes := bindIn 1 (args.map (MiniWord.value (seen σ.scopes))) σ.scopes
          stop := some (.failed (sourceName dot ++ ' ' :: p ++ cs!": No such file or directory")) }
      | some (some b) =>
        (body b { σ with scopes := bindIn 1 (args.map (MiniWord.value (seen σ.scopes))) σ.scopes }).map
          FnState.within
    else none
  | .eval a _ =>
    match u.means (a.value (seen σ.scopes)) with
    | none => none
    | some none => some { σ with
        stop := some (.failed (cs!"Error parsing file: " ++ u.parseMsg (a.value (seen σ.scopes) ++ ['\n']))) }
    | some (some b) => (body b σ).map FnState.within
  | .return code => some { σ with status := 0, recorded := code }
  | .pwd => some { σ with status := 0, said := σ.said ++ [σ.cwd ++ ['\n']] }
  | .other b =>
    match b with
    | .jobs => some { σ with status := 0, said := σ.said ++ [[]] }
    | .return => some { σ with status := 0 }
    | .unset => some { σ with stop := some (.failed (cs!"unset needs an argument")) }
    | .readonly => some { σ with stop := some (.failed (cs!"readonly needs an argument")) }
    | .exec => some { σ with stop := some (.failed (cs!"exec needs an argument")) }
    | .source _ => some { σ with stop := some (.failed (cs!"source needs an argument")) }
    | .resume .. => some { σ with stop := some (.failed (cs!"No job with that jid")) }
  | .full c cs =>
    if ∀ e ∈ σ.others (c :: cs), (u.file e.name).isSome ∨ u.missing e.name then
      (runCalls body (σ.calls ((c :: cs).map FullCmd.toMiniCmd)) σ).map fun τ =>
        if τ.ended.isSome ∨ σ.others (c :: cs) = [] then τ
        else u.startFull (σ.others (c :: cs)) (seen σ.scopes) τ
    else none

/-- A step after `&&` or `||`. -/
def FnWorld.link (u : FnWorld) (body : List MiniChain → FnState → Option FnState) (σ : FnState)
    (l : CondExec × MiniStep) : Option FnState :=
  match l.1 with
  | .and => if σ.status = 0 then u.step body σ l.2 else some σ
  | .or => if σ.status = 0 then some σ else u.step body σ l.2

/-- The rest of a chain. -/
def FnWorld.links (u : FnWorld) (body : List MiniChain → FnState → Option FnState) :
    List (CondExec × MiniStep) → FnState → Option FnState
  | [], σ => some σ
  | l :: ls, σ => (u.link body σ l).bind (u.links body ls)

/-- A chain. -/
def FnWorld.chain (u : FnWorld) (body : List MiniChain → FnState → Option FnState) (σ : FnState) (c : MiniChain) :
    Option FnState := (u.step body σ c.first).bind (u.links body c.rest)

/-- Chains one after the other. -/
def FnWorld.chains (u : FnWorld) (body : List MiniChain → FnState → Option FnState) :
    List MiniChain → FnState → Option FnState
  | [], σ => some σ
  | c :: cs, σ => (u.chain body σ c).bind (u.chains body cs)

/-- The body of a function, in which calls are nested at most `d - 1` deep. -/
def FnWorld.body (u : FnWorld) : Nat → List MiniChain → FnState → Option FnState
  | 0 => fun _ _ => none
  | d + 1 => u.chains (u.body d)

/-- A part of a line: a chain, or a definition with one chain or more. -/
inductive FnItem where
  | chain (c : MiniChain)
  | define (f : Str) (c : MiniChain) (cs : List MiniChain)

/-- A line: one such part or more. -/
structure FnLine where
  first : FnItem
  rest : List FnItem := []

/-- Its parts. -/
def FnLine.items (l : FnLine) : List FnItem := l.first :: l.rest

/-- A part of a line, in which calls are nested at most `d` deep. -/
def FnWorld.item (u : FnWorld) (d : Nat) (σ : FnState) : FnItem → Option FnState
  | .chain c => u.chain (u.body d) σ c
  | .define f c cs =>
    some (if σ.stopped then σ else { σ with defs := fun g => if g = f then some (c :: cs) else σ.defs g })

/-- Parts of a line, one after the other. -/
def FnWorld.items (u : FnWorld) (d : Nat) : List FnItem → FnState → Option FnState
  | [], σ => some σ
  | i :: is, σ => (u.item d σ i).bind (u.items d is)

/-- A line. -/
def FnWorld.line (u : FnWorld) (d : Nat) (σ : FnState) (l : FnLine) : Option FnState :=
  u.items d l.items { σ with stop := none, said := [] }

/-- A session.  After `exit` nothing more is done. -/
def FnWorld.session (u : FnWorld) (d : Nat) : FnState → List FnLine → Option FnState
  | σ, [] => some σ
  | σ, l :: ls => if σ.ended.isSome then some σ else (u.line d σ l).bind fun τ => u.session d τ ls

/-- The syntax tree of chains. -/
def treeOf (cs : List MiniChain) : List AndOr := cs.map fun c => c.typed.tree

/-- The syntax tree of a part of a line. -/
def FnItem.tree : FnItem → AndOr
  | .chain c => c.typed.tree
  | .define f c cs => .mk none none (.mk false [.funcDef f (.mk (.braceGroup (treeOf (c :: cs))) none)] false)

/-- The text of a line. -/
def FnLine.text (l : FnLine) : Str := programText (l.items.map FnItem.tree)

/-- The command is neither a builtin nor an alias, and typed properly; it leads to the file given if there is one. -/
structure FnCmdOk (w : World) (u : FnWorld) (s : Sh) (c : MiniCmd) : Prop where
  plain : PlainWord c.name
  external : c.name ∉ builtins
  alias : s.aliases.get c.name = none
  nul : '\x00' ∉ c.name
  unqualified : Unqualified c.name
  args : ∀ a ∈ c.args, a.Ok
  runs : ∀ p, u.file c.name = some p → ∀ tr, Runnable w s tr c.name p

/-- No directory of `PATH` has the file. -/
def Absent (w : World) (s : Sh) (x : Str) : Prop :=
  ∃ path, pathOf s = some path ∧ ∀ tr ds, Lists path ds → ∀ d ∈ ds, w.isFile tr (d ++ '/' :: x) = false

/-- The assignments and redirections are typed properly, and the files can be opened if the command is not a function;
redirections come after an argument. -/
structure FullCmd.Ok (w : World) (u : FnWorld) (c : FullCmd) : Prop where
  assigns : ∀ a ∈ c.assigns, PlainWord a.1 ∧ PlainWord a.2 ∧ '=' ∉ a.2 ∧ '\x00' ∉ a.1 ∧ '\x00' ∉ a.2
  redirs : ∀ r ∈ c.redirs, r.1 ≠ .clobber ∧ PlainWord r.2 ∧ ((u.file c.name).isSome ∨ u.missing c.name → ∀ tr, w.openOk tr r.1 r.2 = true)
  args : c.redirs = [] ∨ c.args ≠ []

/-- No scope has a readonly variable of this name. -/
def Writable (m : CtxMgr) (x : Str) : Prop := ∀ i ∈ m.stack, ∀ b, varIn m x i = some b → b.readonly = false

/-- The step is typed properly; it does not assign to `PATH` or a readonly variable, and does not unset `PATH` or `PS1`. -/
def FnStepOk (w : World) (u : FnWorld) (s : Sh) : MiniStep → Prop
  | .assign x q v => PlainWord x ∧ Name x ∧ x ≠ cs!"PATH" ∧ (miniTyped q v).Ok ∧ '=' ∉ v ∧ '$' ∉ v ∧ CleanValue v ∧
      Writable s.ctx x
  | .cd d => d.Ok
  | .run c cs => ∀ e ∈ c :: cs, FnCmdOk w u s e
  | .export x q v => PlainWord x ∧ Name x ∧ x ≠ cs!"PATH" ∧ (miniTyped q v).Ok ∧ '=' ∉ v ∧ CleanValue v ∧ '\x00' ∉ x ∧
      ¬ Occurs (cs!"-p") (x ++ '=' :: (miniTyped q v).text)
  | .unset x flag => PlainWord x ∧ Unqualified x ∧ (flag = false → '-' ∉ x) ∧ x ≠ cs!"PATH" ∧ x ≠ cs!"PS1"
  | .exit code => ∀ c, code = some c → Code c
  | .source _ p args => PlainWord p ∧ '/' ∈ p ∧ ∀ a ∈ args, a.Ok
  | .eval a more => ∀ b ∈ a :: more, b.Ok
  | .return code => Code code
  | .pwd => True
  | .other b => s.aliases.get b.name = none ∧ (∀ a ∈ b.args, PlainWord a) ∧
      ∀ bg n, b = .resume bg n → n ≤ 4294967295
  | .full c cs => ∀ e ∈ c :: cs, FnCmdOk w u s e.toMiniCmd ∧ e.Ok w u

/-- All steps are typed properly. -/
def FnChainsOk (w : World) (u : FnWorld) (s : Sh) (cs : List MiniChain) : Prop :=
  ∀ c ∈ cs, ∀ t ∈ c.steps, FnStepOk w u s t

/-- What is in a file that is read: it does not exist, or holds these chains (in any layout). -/
def FileIs (w : World) (u : FnWorld) (s : Sh) (p : Str) : Option (List MiniChain) → Prop
  | none => ∀ tr, w.readFile tr p = .missing
  | some b => FnChainsOk w u s b ∧ ∃ t, (∀ tr, w.readFile tr p = .text t) ∧ parse t = some (some (treeOf b))

/-- What a text means: it is not a program, or it is these chains (in any layout). -/
def TextIs (w : World) (u : FnWorld) (s : Sh) (t : Str) : Option (List MiniChain) → Prop
  | none => parse (t ++ ['\n']) = none
  | some b => FnChainsOk w u s b ∧ parse (t ++ ['\n']) = some (some (treeOf b))

/-- The part of a line is typed properly. -/
def FnItemOk (w : World) (u : FnWorld) (s : Sh) : FnItem → Prop
  | .chain c => FnChainsOk w u s [c]
  | .define f c cs => FnChainsOk w u s (c :: cs) ∧ PlainWord f ∧ Unqualified f

/-- The line is typed properly. -/
def FnLineOk (w : World) (u : FnWorld) (s : Sh) (l : FnLine) : Prop := ∀ i ∈ l.items, FnItemOk w u s i

/-- The state of the reference for a shell with the functions `defs`. -/
def FnState.of (s : Sh) (defs : Str → Option (List MiniChain)) : FnState :=
  { scopes := s.ctx.stack.map fun i x => (varIn s.ctx x i).map Var.value
    defs := defs, cwd := s.cwd, status := s.exitStatus, recorded := s.exitStatus, started := forks s.trace }

/-- The redirections of the `i`-th program. -/
def FnRun.redirsOf (r : FnRun) (i : Nat) : List Redir := ((r.redirs[i]?).getD []).map fun d => ⟨d.1, .plain d.2, none⟩

/-- The programs are those of a pipeline, started by the shell `s` with its environment, what had been exported and what
is assigned for the program, and connected as the redirections say. -/
structure FnRuns (file : Str → Str) (s : Sh) (r : FnRun) (imgs : List ExecImage) : Prop where
  argvs : imgs.map ExecImage.argv = r.argvs
  paths : ∀ img ∈ imgs, ∃ x l, img.argv = x :: l ∧ img.path = file x
  wired : Wired r.redirsOf imgs
  env : ∀ (i : Nat) img, imgs[i]? = some img → ∀ x, img.env.get x =
    (lastAssigned x ((r.assigns[i]?).getD [])).or ((r.exports.lookup x).or (s.env.get x))
  launched : ∀ img ∈ imgs, img.ownGroup = false ∧ Launched { s with cwd := r.dir } img

/-- Those of the programs that exist. -/
def existing {α : Type} : List Bool → List α → List α
  | true :: gone, _ :: l => existing gone l
  | false :: gone, a :: l => a :: existing gone l
  | _, l => l

/-- The same for several pipelines.  Programs that do not exist are not run; the others are connected as if they were. -/
inductive FnRan (file : Str → Str) (s : Sh) : List FnRun → List (List ExecImage) → Prop where
  | nil : FnRan file s [] []
  | snoc {rs gs r g} : FnRan file s rs gs → FnRuns file s r g → FnRan file s (rs ++ [r]) (gs ++ [existing r.gone g])

/-- The function `f` of the shell is the one of the reference. -/
def Defined (defs : Str → Option (List MiniChain)) (s : Sh) (f : Str) : Prop :=
  s.ctx.getFunction f = (defs f).map fun b => ⟨.braceGroup (treeOf b), none⟩

end Rsh.Spec

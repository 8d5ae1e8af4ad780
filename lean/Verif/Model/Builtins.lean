import Verif.Model.Expand

/-!
# Model of src/builtins.rs

Every builtin receives the expanded `SimpleCommand`; an `Err` is `throwE` with its message.
`rec` evaluates a parsed list (for `eval`, `source` and `export context`).
-/

namespace Rsh

/-- The words of the suffix (`command.suffix.as_ref().unwrap().word`), `[]` when absent. -/
def SimpleCommand.words (c : SimpleCommand) : List Str :=
  match c.suffix with
  | some sf => sf.word
  | none => []

/-- `words[i]`. -/
def wordAt (ws : List Str) (i : Nat) : M Str := unwrapM .index ws[i]?

/-- src/builtins.rs:50-62. -/
def bCd (w : World) (c : SimpleCommand) : M Unit := do
  interruptsOff
  let s ← getS
  let path ← match c.suffix with
    | none => unwrapM .unwrap (s.env.get (cs!"HOME"))
    | some sf => wordAt sf.word 0
  match w.chdir s.trace s.cwd path with
  | none => throwE w.osMsg
  | some d =>
    modS fun s => { s with cwd := d, trace := .chdir path :: s.trace }
    interruptsOn

/-- src/shell.rs:446-449 with 159-163 `save_history`. -/
def saveHistory (w : World) : M Unit := do
  let s ← getS
  if w.saveOk s.trace s.historyLoc then emit (.saveHistory s.historyLoc)
  else eprintlnM (cs!"Could not save history.")

/-- src/builtins.rs:68-79. -/
def bExit (w : World) (c : SimpleCommand) : M Unit := do
  saveHistory w
  match c.words with
  | [] => do
    let s ← getS
    exitM s.exitStatus
  | x :: _ => do
    let code ← unwrapM .unwrap (parseI32 x)
    exitM code

/-- src/builtins.rs:85-95. -/
def bReturn (c : SimpleCommand) : M Unit :=
  match c.words with
  | [] => pure ()
  | x :: _ => do
    let code ← unwrapM .unwrap (parseI32 x)
    modS fun s => { s with exitStatus := code }

/-- src/builtins.rs:99-103. -/
def bJobs : M Unit := do
  let t ← displayJobs
  printM t

/-- src/builtins.rs:29-32. -/
inductive IdType where
  | pid | jid
deriving DecidableEq

/-- src/builtins.rs:112-123: the id given to `fg`/`bg`. -/
def fgbgId (c : SimpleCommand) : M (Nat × IdType) :=
  match c.suffix with
  | none => throwE (cs!"fgbg needs an argument")
  | some sf => do
    let x ← wordAt sf.word 0
    match x with
    | [] => panicM .unwrap
    | '%' :: ds => do
      let n ← unwrapM .unwrap (parseU32 ds)
      pure (n, .jid)
    | x => do
      let n ← unwrapM .unwrap (parseU32 x)
      pure (n, .pid)

/-- `id as i32`. -/
def asI32 (n : Nat) : Int :=
  let m := n % 4294967296
  if m < 2147483648 then (m : Int) else (m : Int) - 4294967296

/-- src/builtins.rs:140-155 and 175-190: the job designated by the id. -/
def findJob (id : Nat) : IdType → M Job
  | .pid => do
    let s ← getS
    match s.jc.getJobPid (asI32 id) with
    | some j => pure j
    | none => throwE (cs!"No job with that pid")
  | .jid => do
    let s ← getS
    match s.jc.getJob id with
    | some j => pure j
    | none => throwE (cs!"No job with that jid")

/-- src/builtins.rs:161-163: continue every process of the job. -/
def contAll (w : World) : List Process → M Unit
  | [] => pure ()
  | p :: ps => do
    let s ← getS
    if w.killOk s.trace p.pid then
      emit (.kill p.pid)
      contAll w ps
    else panicM .unwrap

/-- src/builtins.rs:157-164 (`background := false`) and 191-198 (`background := true`): mark the
job running, continue it, announce it.  `borrow_mut()` on a cell borrowed by an enclosing frame
panics. -/
def resume (w : World) (j : Job) (background : Bool) : M Unit := do
  let s ← getS
  if s.held.contains j.jobId then panicM .borrow else
  modJc fun jc => jc.modJob j.jobId fun j => { j with state := .running, background }
  contAll w j.processes
  printlnM (cs!"[" ++ natStr j.jobId ++ cs!"] " ++
    Job.show { j with state := .running, background })

/-- src/builtins.rs:108-201 `fgbg`, `fg`, `bg`. -/
def bFgBg (w : World) (c : SimpleCommand) : M Unit := do
  interruptsOff
  let (id, ty) ← fgbgId c
  let j ← findJob id ty
  if c.name = cs!"fg" then
    resume w j false
    let _ ← waitForJob w j.jobId
  else
    resume w j true
  interruptsOn

/-- src/shell.rs:191-195. -/
def displayAliases : AMap Str → M Unit
  | [] => pure ()
  | (k, v) :: t => do
    printlnM (cs!"alias " ++ k ++ cs!"='" ++ v ++ cs!"'")
    displayAliases t

/-- src/shell.rs:385-392 `add_alias`. -/
def addAlias (input : Str) : M Unit :=
  match splitOn '=' input with
  | [n, v] => modS fun s => { s with aliases := s.aliases.insert n (trimQuotes v) }
  | _ => eprintlnM (cs!"Invalid alias")

/-- src/builtins.rs:218-223. -/
def addAliases : List Str → M Unit
  | [] => pure ()
  | x :: xs => do
    if hasChar '=' x then addAlias x else pure ()
    addAliases xs

/-- src/builtins.rs:208-226. -/
def bAlias (c : SimpleCommand) : M Unit := do
  let s ← getS
  match c.suffix with
  | none => displayAliases s.aliases
  | some sf => do
    let x ← wordAt sf.word 0
    if hasSub (cs!"-p") x then displayAliases s.aliases
    else addAliases sf.word

/-- src/builtins.rs:232-245. -/
def bUnalias (c : SimpleCommand) : M Unit :=
  match c.suffix with
  | none => throwE (cs!"unalias needs an argument")
  | some sf =>
    if 1 < sf.word.length then throwE (cs!"unalias only takes one argument")
    else do
      let x ← wordAt sf.word 0
      if hasSub (cs!"-a") x then modS fun s => { s with aliases := [] }
      else modS fun s => { s with aliases := s.aliases.erase x }

/-- `File::open` followed by `read_to_string`. -/
def readFileM (w : World) (path : Str) : M FileRead := do
  let s ← getS
  let r := w.readFile s.trace path
  emit (.readFile path)
  pure r

/-- src/builtins.rs:255-278 `create_context_from_file`: the id of the new context. -/
def createContextFromFile (w : World) (rec : List AndOr → M Int) (file : Str) : M Nat := do
  match ← readFileM w file with
  | .missing => throwE w.osMsg
  | .notUtf8 => throwE w.osMsg
  | .text t =>
    match parse t with
    | none => throwE (cs!"Error parsing file: " ++ w.parseMsg t)
    | some cc => do
      pushContextNew
      match ← tryE (evalCC rec cc) with
      | .ok _ => popContext
      | .error e => throwE (cs!"Error evaluating file: " ++ e)

/-- src/builtins.rs:292-294: print the process environment. -/
def printEnv : AMap Str → M Unit
  | [] => pure ()
  | (k, v) :: t => do
    printlnM (k ++ '=' :: v)
    printEnv t

/-- src/builtins.rs:339-349: `export NAME`. -/
def exportName (name : Str) : M Unit := do
  let v ← expandVar .none name
  let s ← getS
  let env ← unwrapM .unwrap s.ctx.envCtx
  match v with
  | some v => do
    let c ← unwrapM .unwrap ((s.ctx.heap env).addSet (name ++ '=' :: v))
    setCtxMgr (s.ctx.setCtx env c)
  | none =>
    match s.ctx.getFunction name with
    | some f => do
      let (c, ro) := (s.ctx.heap env).addFunction name f
      setCtxMgr (s.ctx.setCtx env c)
      if ro then eprintlnM (cs!"Can't override readonly function " ++ name) else pure ()
    | none => pure ()

/-- src/builtins.rs:352-356: `export NAME=value`. -/
def exportSet (word : Str) : M Unit := do
  let (k, v) := splitSet word
  addVarAt word 0
  setEnv k (trimQuotes v)

/-- The loop of src/builtins.rs:337-357. -/
def exportAll : List Str → M Unit
  | [] => pure ()
  | x :: xs => do
    if hasChar '=' x then exportSet x else exportName x
    exportAll xs

/-- Add the context with the given id under a namespace (src/shell.rs:600-603). -/
def addContextM (ns : Str) (id : Nat) : M Unit := do
  let s ← getS
  setCtxMgr (s.ctx.addContext ns id)

/-- src/builtins.rs:300-335: `export context …`; `a` is the second word. -/
def exportContext (w : World) (rec : List AndOr → M Int) (a : Str) : M Unit := do
  let s ← getS
  let cur ← unwrapM .unwrap s.ctx.current
  if hasChar '=' a then
    let (ns, file) := splitSet a
    if file = cs!"self" then addContextM ns cur
    else
      let id ← createContextFromFile w rec file
      addContextM ns id
  else if a = cs!"self" then
    let v ← unwrapM .unwrap ((s.ctx.heap cur).getVar (cs!"0"))
    addContextM v.value cur
  else
    let id ← createContextFromFile w rec (cs!"context")
    addContextM (cs!"context") id

/-- src/builtins.rs:290-360. -/
def bExport (w : World) (rec : List AndOr → M Int) (c : SimpleCommand) : M Unit :=
  match c.words with
  | [] => do
    let s ← getS
    printEnv s.env
  | x :: xs =>
    if hasSub (cs!"-p") x then do
      let s ← getS
      printEnv s.env
    else if x = cs!"context" then
      match xs with
      | [] => throwE (cs!"export context needs an argument")
      | a :: _ => exportContext w rec a
    else exportAll (x :: xs)

/-- src/builtins.rs:363-369: only the first assignment is performed. -/
def bAssign (c : SimpleCommand) : M Unit :=
  match c.pre with
  | none => panicM .unwrap
  | some p => do
    let a ← unwrapM .index p.assignment.head?
    addVarContext a

/-- src/builtins.rs:375-401. -/
def bEval (w : World) (rec : List AndOr → M Int) (c : SimpleCommand) : M Unit :=
  match c.suffix with
  | none => throwE (cs!"eval needs an argument")
  | some sf => do
    let x ← wordAt sf.word 0
    let text := x ++ ['\n']
    match parse text with
    | none => throwE (cs!"Error parsing file: " ++ w.parseMsg text)
    | some cc =>
      match ← tryE (evalCC rec cc) with
      | .ok _ => pure ()
      | .error e => throwE (cs!"Error evaluating string: " ++ e)

/-- src/builtins.rs:405-409. -/
def bPwd : M Unit := do
  let s ← getS
  printlnM s.cwd

/-- src/builtins.rs:411-415. -/
inductive Flags where
  | variable | function | context
deriving DecidableEq

/-- src/builtins.rs:422-440: flags and position of the operand. -/
def unsetFlags (x : Str) : M (Flags × Nat) :=
  if hasChar '-' x then
    if hasChar 'f' x then pure (.function, 1)
    else if hasChar 'c' x then pure (.context, 1)
    else if hasChar 'v' x then pure (.variable, 1)
    else throwE (cs!"unset: invalid option")
  else pure (.variable, 0)

/-- src/builtins.rs:417-457. -/
def bUnset (c : SimpleCommand) : M Unit :=
  match c.words with
  | [] => throwE (cs!"unset needs an argument")
  | x :: xs => do
    let (fl, pos) ← unsetFlags x
    let a ← wordAt (x :: xs) pos
    match fl with
    | .variable => modS fun s => { s with ctx := s.ctx.removeVar a }
    | .function => modS fun s => { s with ctx := s.ctx.removeFunction a }
    | .context => modS fun s => { s with ctx := s.ctx.removeContext a }

/-- `Display for Var` (src/context.rs:48-52): `to_string()` is the blanket implementation that
calls `fmt` again, so formatting recurses for ever; `n` counts the stack frames available. -/
def fmtVar : Nat → Option Str
  | 0 => none
  | n + 1 => fmtVar n

/-- Simplified: the number of frames that fit on the stack; `fmtVar` gives the same for any. -/
@[irreducible] def stackFrames : Nat := 1000

/-- src/shell.rs:646-657: print each readonly variable with `Display for Var`. -/
def printReadonly : List Str → M Unit
  | [] => pure ()
  | _ :: t =>
    match fmtVar stackFrames with
    | none => panicM .stackOverflow
    | some txt => do
      printlnM txt
      printReadonly t

/-- src/shell.rs:687-692 (the order of a `HashSet` is unspecified). -/
def printNames : List Str → M Unit
  | [] => pure ()
  | x :: xs => do
    printlnM x
    printNames xs

/-- src/builtins.rs:464-487: flags, position and print flag from the first word. -/
def readonlyFlags (x : Str) : M (Flags × Nat × Bool) :=
  if hasChar '-' x then
    if hasChar 'f' x then pure (.function, 1, false)
    else if hasChar 'c' x then pure (.context, 1, false)
    else if hasChar 'v' x then pure (.variable, 1, false)
    else if hasChar 'p' x then pure (.variable, 1, true)
    else throwE (cs!"readonly: invalid option")
  else pure (.variable, 0, false)

/-- src/builtins.rs:488-496: the second option word. -/
def readonlyFlags2 (x : Str) (pos : Nat) (print : Bool) : M (Nat × Bool) :=
  if hasChar '-' x then
    if hasChar 'p' x then pure (pos + 1, true)
    else throwE (cs!"readonly: invalid option")
  else pure (pos, print)

/-- src/builtins.rs:499-521. -/
def readonlyPrint (fl : Flags) (ws : List Str) (pos : Nat) : M Unit := do
  let s ← getS
  match fl with
  | .function => printNames s.ctx.allReadonlyFuncs
  | .variable => do
    printReadonly s.ctx.allReadonlyVars
    printReadonly s.ctx.allReadonlyVars
  | .context =>
    match ws[pos]? with
    | none => throwE (cs!"readonly needs an argument")
    | some a => do
      printReadonly (s.ctx.allReadonlyVarsOf a)
      printReadonly s.ctx.allReadonlyVars

/-- src/builtins.rs:459-544. -/
def bReadonly (c : SimpleCommand) : M Unit :=
  match c.words with
  | [] => throwE (cs!"readonly needs an argument")
  | x :: xs => do
    let (fl, pos, print) ← readonlyFlags x
    let y ← wordAt (x :: xs) pos
    let (pos, print) ← readonlyFlags2 y pos print
    if print then readonlyPrint fl (x :: xs) pos
    else do
      let s ← getS
      match fl with
      | .function => printNames s.ctx.allReadonlyFuncs
      | _ =>
        match (x :: xs)[pos]? with
        | none => throwE (cs!"readonly needs an argument")
        | some a =>
          if hasChar '=' a then do
            let m ← unwrapM .unwrap (s.ctx.addVarReadonly a)
            setCtxMgr m
          else do
            let m ← unwrapM .unwrap (s.ctx.setVarReadonly a)
            setCtxMgr m

/-- The option state of `exec`. -/
structure ExecOpts where
  emptyEnv : Bool := false
  dash : Bool := false
  rename : Bool := false
  pos : Nat := 0
deriving DecidableEq, Repr

/-- src/builtins.rs:559-575: the first option word. -/
def execOpts1 (ws : List Str) : M ExecOpts := do
  let x ← wordAt ws 0
  if hasChar '-' x then
    let o : ExecOpts := {}
    let o := if hasChar 'c' x then { o with emptyEnv := true, pos := 1 } else o
    let o := if hasChar 'l' x then { o with dash := true, pos := 1 } else o
    if hasChar 'a' x then
      let o := { o with rename := true, pos := 2 }
      if ws.length ≤ o.pos then throwE (cs!"exec -a needs an argument") else pure o
    else pure o
  else pure {}

/-- src/builtins.rs:576-592: the word at `pos`, re-read after each option letter. -/
def execOpts2 (ws : List Str) (o : ExecOpts) : M ExecOpts := do
  let x ← wordAt ws o.pos
  if hasChar '-' x then
    let o := if hasChar 'c' x then { o with emptyEnv := true, pos := o.pos + 1 } else o
    let y ← wordAt ws o.pos
    let o := if hasChar 'l' y then { o with dash := true, pos := o.pos + 1 } else o
    let z ← wordAt ws o.pos
    if hasChar 'a' z then
      let o := { o with rename := true, pos := o.pos + 2 }
      if ws.length ≤ o.pos then throwE (cs!"exec -a needs an argument") else pure o
    else pure o
  else pure o

/-- src/builtins.rs:598-624: the arguments of the new image; only the first depends on the
options.  `rename` implies `1 ≤ pos`. -/
def execArgv (ws : List Str) (o : ExecOpts) : List Str :=
  match ws.drop o.pos with
  | [] => []
  | x :: rest =>
    let prev := ws.getD (o.pos - 1) []
    (if o.dash && o.rename then '-' :: prev
     else if o.dash then '-' :: x
     else if o.rename then prev
     else x) :: rest

/-- src/eval.rs:651-678 `temp_execve` (and 621-648 `temp_exec`, with the process environment). -/
def tempExecve (w : World) (argv0 : Str) (argv : List Str) (env : AMap Str) : M Unit := do
  removeHandlers
  match ← lookupCommandM w argv0 with
  | none => throwE (argv0 ++ cs!": Command not found")
  | some path => do
    if hasChar '\x00' path then panicM .unwrap else
    let s ← getS
    if w.execOk s.trace path then execM (execImage s path argv env)
    else throwE (cs!"Failed to execute: " ++ w.osMsg)

/-- src/builtins.rs:546-646. -/
def bExec (w : World) (c : SimpleCommand) : M Unit :=
  match c.words with
  | [] => throwE (cs!"exec needs an argument")
  | ws => do
    let o ← execOpts1 ws
    let o ← execOpts2 ws o
    let args := execArgv ws o
    if args.any (hasChar '\x00') then panicM .unwrap else
    let argv0 ← wordAt ws o.pos
    let s ← getS
    tempExecve w argv0 args (if o.emptyEnv then [] else s.env)

/-- src/builtins.rs:669-671: the arguments of `source` become `$1`, `$2`, …. -/
def sourceArgs : Nat → List Str → M Unit
  | _, [] => pure ()
  | i, a :: as => do
    addVarContext (natStr i ++ '=' :: a)
    sourceArgs (i + 1) as

/-- src/builtins.rs:648-710. -/
def bSource (w : World) (rec : List AndOr → M Int) (c : SimpleCommand) : M Unit :=
  match c.words with
  | [] => throwE (cs!"source needs an argument")
  | filename :: args => do
    sourceArgs 1 args
    let path ← if hasChar '/' filename then pure filename
      else do
        match ← lookupCommandM w filename with
        | some p => pure p
        | none => pure filename
    match ← readFileM w path with
    | .missing => throwE (c.name ++ ' ' :: filename ++ cs!": No such file or directory")
    | .notUtf8 => panicM .unwrap
    | .text t =>
      match parse t with
      | none => throwE (cs!"Error parsing file: " ++ w.parseMsg t)
      | some cc =>
        match ← tryE (evalCC rec cc) with
        | .ok _ => pure ()
        | .error e => throwE (cs!"Error evaluating string: " ++ e)

/-- src/eval.rs:431-449. -/
def isBuiltin (name : Str) : Bool :=
  name ∈ [cs!"cd", cs!"exit", cs!"return", cs!"jobs", cs!"fg", cs!"bg", cs!"alias", cs!"unalias",
    cs!"export", cs!"eval", cs!"unset", cs!"pwd", cs!"readonly", cs!"exec", cs!".", cs!"source",
    []]

/-- src/eval.rs:484-551 `call_builtin`. -/
def callBuiltin (w : World) (rec : List AndOr → M Int) (c : SimpleCommand) : M Unit :=
  if c.name = cs!"cd" then bCd w c
  else if c.name = cs!"exit" then bExit w c
  else if c.name = cs!"return" then bReturn c
  else if c.name = cs!"jobs" then bJobs
  else if c.name = cs!"fg" ∨ c.name = cs!"bg" then bFgBg w c
  else if c.name = cs!"alias" then bAlias c
  else if c.name = cs!"unalias" then bUnalias c
  else if c.name = cs!"export" then bExport w rec c
  else if c.name = cs!"eval" then bEval w rec c
  else if c.name = cs!"unset" then bUnset c
  else if c.name = cs!"pwd" then bPwd
  else if c.name = cs!"readonly" then bReadonly c
  else if c.name = cs!"exec" then bExec w c
  else if c.name = cs!"." ∨ c.name = cs!"source" then bSource w rec c
  else if c.name = [] then bAssign c
  else throwE (cs!"Not a builtin")

end Rsh

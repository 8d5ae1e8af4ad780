import Verif.Model.Builtins

/-!
# Model of src/eval.rs

`rec` evaluates the nested lists (function bodies, `eval`, `source`, command substitution); the
knot is tied by `evalFuel`, whose argument bounds the nesting depth only.
-/

namespace Rsh

/-- src/eval.rs:383-388 `eval_assignment`. -/
def evalAssignments : List Str → M Unit
  | [] => pure ()
  | a :: as => do
    match splitOn '=' a with
    | n :: v :: _ => setEnv n v
    | _ => panicM .index
    evalAssignments as

/-- The descriptor a redirection is applied to (src/eval.rs:402, 411, 421): the number written
before the operator is not used. -/
def redirFd : RedirectType → Option Int
  | .input => some 0
  | .output => some 1
  | .append => some 1
  | .clobber => none

/-- One iteration of src/eval.rs:392-427. -/
def evalRedirect1 (w : World) (r : IoRedirect) : M Unit :=
  match r.ioFile with
  | none => pure ()
  | some f =>
    match redirFd f.ty with
    | none => pure ()
    | some target => do
      let fd ← openU w f.ty f.filename
      dup2U fd target

/-- src/eval.rs:391-428 `eval_redirect`. -/
def evalRedirects (w : World) : List IoRedirect → M Unit
  | [] => pure ()
  | r :: rs => do
    evalRedirect1 w r
    evalRedirects w rs

/-- src/eval.rs:371-380 `eval_prefix_suffix`. -/
def evalPrefixSuffix (w : World) (c : SimpleCommand) : M Unit := do
  match c.pre with
  | some p => do
    evalRedirects w p.ioRedirect
    evalAssignments p.assignment
  | none => pure ()
  match c.suffix with
  | some sf => evalRedirects w sf.ioRedirect
  | none => pure ()

/-- src/eval.rs:571-577: the positional parameters of a call; a word `&` ends them. -/
def setParams : Nat → List Str → M Unit
  | _, [] => pure ()
  | i, a :: as =>
    if a = ['&'] then pure ()
    else do
      addVarContext (natStr i ++ '=' :: a)
      setParams (i + 1) as

/-- src/eval.rs:589-601: the result of the body (also an `Err`) is dropped. -/
def evalCompound (rec : List AndOr → M Int) : CompoundCommand → M Unit
  | .braceGroup l => do
    let _ ← tryE (rec l)
    pure ()
  | .unsupported => panicM .explicit

/-- src/eval.rs:559-586 `eval_function`. -/
def evalFunction (rec : List AndOr → M Int) (c : SimpleCommand) : M Unit := do
  let s ← getS
  match s.ctx.getFunction c.name with
  | none => throwE (cs!"Function not found")
  | some body => do
    pushContextNew
    addVarContext (cs!"0=" ++ c.name)
    setParams 1 c.words
    evalCompound rec body.cc
    let _ ← popContext
    pure ()

/-- src/eval.rs:452-482 `eval_builtin` (its `Ok` value is always `None`). -/
def evalBuiltin (w : World) (rec : List AndOr → M Int) (c : SimpleCommand) : M Unit := do
  let c ← expandCommand w rec c
  callBuiltin w rec c

/-- src/eval.rs:333-368 `eval_simple_command`. -/
def evalSimple (w : World) (rec : List AndOr → M Int) (c : SimpleCommand) :
    M (Option (Process × SimpleCommand)) :=
  if isBuiltin c.name then do
    evalBuiltin w rec c
    pure none
  else do
    let c ← expandCommand w rec c
    let argv ← unwrapM .unwrap (argvOf c)
    pure (some ({ pid := -1, argv, argv0 := c.name, cmd := c.name, status := none }, c))

/-- src/eval.rs:306-329 `eval_command`, `eval_function_definition`. -/
def evalCommand (w : World) (rec : List AndOr → M Int) : Command →
    M (Option (Process × SimpleCommand))
  | .simple c => evalSimple w rec c
  | .funcDef name body => do
    addFunctionM name body
    pure none
  | .compound _ _ => throwE (cs!"Not implemented")

/-- src/eval.rs:124-134: evaluate the commands of a pipeline up to the first that yields no
process. -/
def evalCommands (w : World) (rec : List AndOr → M Int) : List Command →
    M (List (Process × SimpleCommand))
  | [] => pure []
  | c :: cs => do
    match ← evalCommand w rec c with
    | none => pure []
    | some pc => do
      let rest ← evalCommands w rec cs
      pure (pc :: rest)

/-- src/eval.rs:147-155 and 228-236: call a function; a missing one ends the process. -/
def callFunction (rec : List AndOr → M Int) (c : SimpleCommand) : M Unit := do
  match ← tryE (evalFunction rec c) with
  | .ok _ => pure ()
  | .error _ => do
    eprintlnM (c.name ++ cs!": Command not found\n")
    exitM 1

/-- src/eval.rs:143-168: run the functions of a foreground pipeline in the shell itself; what
remains are the other processes. -/
def runFunctions (rec : List AndOr → M Int) : List (Process × SimpleCommand) →
    M (List (Process × SimpleCommand))
  | [] => pure []
  | (p, c) :: rest => do
    let s ← getS
    if s.ctx.isFunction c.name then do
      callFunction rec c
      let s ← getS
      if s.forked then exitM 0 else
      modS fun s => { s with exitStatus := 0 }
      runFunctions rec rest
    else do
      let r ← runFunctions rec rest
      pure ((p, c) :: r)

/-- src/eval.rs:201-248: what a forked pipeline member does.  `setpgid` (207) of a fresh child to
its own group succeeds. -/
def pipelineChild (w : World) (rec : List AndOr → M Int) (background : Bool) (jobId : Nat)
    (pip : Int × Int) (prev : Int) (p : Process) (c : SimpleCommand) : M Unit := do
  modS fun s => { s with forked := true, held := jobId :: s.held }
  if background then modS fun s => { s with ownGroup := true } else pure ()
  if 0 ≤ pip.2 then closeU pip.1 else pure ()
  if 0 < prev then do
    dup2U prev 0
    closeU prev
  else pure ()
  if 1 < pip.2 then do
    dup2U pip.2 1
    closeU pip.2
  else pure ()
  evalPrefixSuffix w c
  let s ← getS
  if s.ctx.isFunction c.name then do
    callFunction rec c
    exitM 0
  else do
    match ← tryE (do
        let s ← getS
        tempExecve w p.argv0 p.argv s.env) with
    | .ok _ => panicM .explicit
    | .error _ => do
      eprintlnM (p.cmd ++ cs!": Command not found\n")
      exitM 1

/-- Set the pid of process number `i` of a job (`Process::set_pid` through `procs.iter_mut()`). -/
def setPidAt (i : Nat) (pid : Int) (j : Job) : Job :=
  { j with processes := j.processes.modify i fun p => { p with pid } }

/-- src/eval.rs:188-263: the fork loop over the remaining processes; `count` is the index of the
first of them, `total` is `proc_count`. -/
def forkLoop (w : World) (rec : List AndOr → M Int) (background : Bool) (jobId total : Nat) :
    List (Process × SimpleCommand) → (count : Nat) → (pip : Int × Int) → (prev : Int) → M Unit
  | [], _, _, _ => pure ()
  | (p, c) :: rest, count, pip, prev => do
    let pip ← if count < total - 1 then do
        match ← pipeM w with
        | none => throwE (cs!"Failed to create pipe")
        | some pr => pure pr
      else pure (pip.1, -1)
    let s ← getS
    match w.fork s.trace with
    | none => emit .forkFailed
    | some pid => do
      let (e, evs) ← runChild w (pipelineChild w rec background jobId pip prev p c)
      emit (.spawn pid e evs)
      modJc fun jc => (jc.modJob jobId (setPidAt count pid)).updatePid jobId pid
    if 0 ≤ prev then closeU prev else pure ()
    let _ ← closeM pip.2
    forkLoop w rec background jobId total rest (count + 1) pip pip.1

/-- src/eval.rs:266-292: after the fork loop. -/
def afterFork (w : World) (background : Bool) (jobId count : Nat) : M Unit :=
  if count = 0 then deleteJobM jobId
  else if background then do
    let s ← getS
    let j ← unwrapM .explicit (s.jc.getJob jobId)
    let p ← unwrapM .index j.processes.head?
    printlnM (cs!"[" ++ natStr jobId ++ cs!"] (" ++ intStr p.pid ++ cs!") " ++ j.show)
  else do
    let st ← waitForJob w jobId
    deleteJobM jobId
    match st with
    | .exited _ code => modS fun s => { s with exitStatus := code }
    | _ => pure ()

/-- src/eval.rs:114-301 `eval_pipeline`; the `!` flag is not used. -/
def evalPipeline (w : World) (rec : List AndOr → M Int) (pl : Pipeline) : M Int := do
  interruptsOff
  let procs ← evalCommands w rec pl.seq
  if procs.isEmpty then pure 0
  else do
    let procs ← if pl.background then pure procs else runFunctions rec procs
    let jobId ← createJobM (procs.map Prod.fst) pl.background
    forkLoop w rec pl.background jobId procs.length procs 0 (-1, -1) (-1)
    afterFork w pl.background jobId procs.length
    interruptsOn
    let s ← getS
    pure s.exitStatus

/-- src/eval.rs:76-102 `eval_and_or`. -/
def evalAndOr (w : World) (rec : List AndOr → M Int) : AndOr → M Int
  | .mk none _ p => evalPipeline w rec p
  | .mk (some l) cond p => do
    let st ← evalAndOr w rec l
    match cond with
    | some .and => if st ≠ 0 then pure st else evalPipeline w rec p
    | some .or => if st = 0 then pure st else evalPipeline w rec p
    | none => throwE (cs!"Error: Conditional Execution requires an operator")

/-- src/eval.rs:60-69 `parse_tree`; `st` is the status so far. -/
def evalListFrom (w : World) (rec : List AndOr → M Int) (st : Int) : List AndOr → M Int
  | [] => pure st
  | a :: as => do
    let st ← evalAndOr w rec a
    evalListFrom w rec st as

/-- src/eval.rs:60-69 `parse_tree`. -/
def evalListWith (w : World) (rec : List AndOr → M Int) (l : List AndOr) : M Int :=
  evalListFrom w rec (-1) l

/-- `parse_tree` with at most `n` levels of nested evaluation. -/
def evalFuel (w : World) : Nat → List AndOr → M Int
  | 0, _ => deepM
  | n + 1, l => evalListWith w (evalFuel w n) l

/-- src/eval.rs:45-55 `eval`. -/
def evalTop (w : World) (n : Nat) (cc : CompleteCommand) : M Int := evalCC (evalFuel w n) cc

end Rsh

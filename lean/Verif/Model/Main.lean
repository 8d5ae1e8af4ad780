import Verif.Model.Eval

/-!
# Model of src/main.rs and of the SIGCHLD handler of src/trap.rs
-/

namespace Rsh

/-! ## The SIGCHLD handler -/

/-- src/jobs.rs:377-384 `set_process_status`: only the first process with that pid. -/
def setStatusFirst (pid : Int) (st : WStatus) : List Process → List Process
  | [] => []
  | p :: ps =>
    if p.pid = pid then { p with status := some st } :: ps else p :: setStatusFirst pid st ps

/-- src/trap.rs:224-278 `sig_chld`, for the `waitpid` result `r`. -/
def sigChldWith (w : World) (r : WRes) : M Unit :=
  match r with
  | .st (.exited pid c) => go pid (.exited pid c) none
  | .st (.signaled pid sg co) => go pid (.signaled pid sg co) (some (cs!") terminated by signal"))
  | .st (.stopped pid sg) => go pid (.stopped pid sg) (some (cs!") stopped by signal"))
  | _ => pure ()
where
  /-- src/trap.rs:255-277. -/
  go (pid : Int) (st : WStatus) (msg : Option Str) : M Unit := do
    let s ← getS
    match s.jc.getJobPid pid with
    | none => pure ()
    | some j => do
      modJc fun jc => jc.modJob j.jobId fun j =>
        { j with processes := setStatusFirst pid st j.processes }
      if j.background then do
        match msg with
        | some m => printM (cs!"Job [" ++ natStr j.jobId ++ cs!"] (" ++ intStr pid ++ m)
        | none => pure ()
        let _ ← waitForJobSigchld w j.jobId st
        pure ()
      else pure ()

/-- src/trap.rs:180-218 `on_sig(SIGCHLD)`: nothing in a forked child. The handler's `waitpid` does
not block; with nothing to report it returns `StillAlive`. -/
def onSigchld (w : World) : M Unit := do
  let s ← getS
  if s.forked then pure ()
  else do
    modS fun s => { s with gotSigchld := true }
    match s.waits with
    | [] => pure ()
    | _ :: _ => do
      let r ← waitpidM
      sigChldWith w r

/-- A signal is sent to the shell. `interrupts_off` (src/trap.rs:136-145) blocks all but SIGINT and SIGTSTP (and
SIGKILL and SIGSTOP, which cannot be blocked); a blocked signal stays pending. A process killed by a signal is seen by its parent as one with the exit
status `128 + sig`. -/
def deliver (w : World) (sig : Nat) : M Unit := do
  let s ← getS
  if s.masked = true ∧ ¬ unblockedSignals.contains sig then pure ()
  else match s.disp sig with
    | .ign => pure ()
    | .catch => if sig = SIGCHLD then onSigchld w else onSigOther w sig
    | .dfl => if harmlessSignals.contains sig then pure () else exitM (128 + (sig : Int))

/-! ## src/main.rs -/

/-- src/main.rs:151-176 `parse_dash_arg` (the `l` flag only switches on debug logging). -/
def parseDashArg : Str → Bool
  | '-' :: cs => cs.any (· = 'c')
  | _ => false

/-- The mutable variables of the loop at src/main.rs:107-129. -/
structure ArgState where
  nonInteractive : Bool := false
  readFromArgs : Bool := false
  loadArgs : Bool := false
  index : Nat := 1
  pos : Nat := 0
deriving DecidableEq, Repr

/-- src/shell.rs:553-557 `set_script_name`. -/
def setScriptName (a : Str) : M Unit :=
  modS fun s => { s with scriptName := a, interactive := false }

/-- src/main.rs:107-129. -/
def argLoop : List Str → ArgState → M ArgState
  | [], st => pure st
  | a :: as, st => do
    printlnM (cs!"arg: " ++ a)
    match a with
    | [] => panicM .unwrap
    | ch :: _ =>
      if ch = '-' ∧ st.nonInteractive = false then
        if parseDashArg a then pure { st with readFromArgs := true }
        else argLoop as { st with readFromArgs := false, pos := st.pos + 1 }
      else if st.nonInteractive ∧ st.loadArgs = false then do
        setScriptName a
        argLoop as { st with loadArgs := true, pos := st.pos + 1 }
      else if st.loadArgs then do
        setInputArgs a st.index
        argLoop as { st with index := st.index + 1, pos := st.pos + 1 }
      else if st.pos ≠ 0 then do
        setScriptName a
        argLoop as { st with nonInteractive := true, loadArgs := true, pos := st.pos + 1 }
      else argLoop as { st with pos := st.pos + 1 }

/-- src/main.rs:93-145 `parse_args`. -/
def parseArgs (w : World) (args : List Str) : M (Option Str) :=
  if args.length = 1 then pure none
  else do
    let st ← argLoop args {}
    if st.readFromArgs then do
      modS fun s => { s with interactive := false }
      printlnM (w.argsMsg (args.drop (st.pos + 1)))
      pure (some (joinSp (args.drop (st.pos + 1))))
    else pure none

/-- src/main.rs:322-349 and 356-383 (and 287-315 for `/etc/profile`, which is not called): evaluate a start-up file.
The name is the literal `~/…`. A read
error leaves the text empty (`notUtf8`), which evaluates to nothing. -/
def readStartup (w : World) (n : Nat) (path : Str) : M Unit := do
  match ← readFileM w path with
  | .missing => pure ()
  | .notUtf8 => printlnM (cs!"Error reading " ++ path ++ cs!": " ++ w.osMsg)
  | .text t =>
    match parse t with
    | none => printlnM (cs!"Error: " ++ w.parseMsg t)
    | some cc => do
      match ← tryE (evalTop w n cc) with
      | .ok _ => pure ()
      | .error _ => panicM .unwrap

/-- What the line editor can deliver; `sig n` is signal number `n` arriving while waiting for input. -/
inductive SessionIn where
  | line (s : Str)
  | interrupted
  | eof
  | rlError
  | sig (n : Nat)
deriving DecidableEq, Repr

/-- src/main.rs:210-237: one line of an interactive session. -/
def interactiveLine (w : World) (n : Nat) (input : Str) : M Unit :=
  if input = [] then pure ()
  else
    match parse input with
    | none => printlnM (cs!"Error: " ++ w.parseMsg input)
    | some cc => do
      match ← tryE (evalTop w n cc) with
      | .ok _ => pure ()
      | .error e => printlnM e

/-- src/main.rs:180-246 `interactive_loop`, for a finite sequence of inputs (then end of file). -/
def interactiveLoop (w : World) (n : Nat) : List SessionIn → M Unit
  | [] => saveHistory w
  | .sig g :: ins => do
    deliver w g
    interactiveLoop w n ins
  | .line l :: ins => do
    let p ← (do unwrapM .unwrap (← expandVar .none (cs!"PS1")))
    printM p
    interactiveLine w n l
    interactiveLoop w n ins
  | .interrupted :: ins => do
    let p ← (do unwrapM .unwrap (← expandVar .none (cs!"PS1")))
    printM p
    interactiveLoop w n ins
  | .eof :: _ => do
    let p ← (do unwrapM .unwrap (← expandVar .none (cs!"PS1")))
    printM p
    saveHistory w
  | .rlError :: _ => do
    let p ← (do unwrapM .unwrap (← expandVar .none (cs!"PS1")))
    printM p
    printlnM (cs!"Readline Error: " ++ w.osMsg)
    saveHistory w

/-- The lines of a text as `read_line` delivers them, each with its newline. -/
def linesIncl : Str → List Str
  | [] => []
  | c :: cs =>
    if c = '\n' then [c] :: linesIncl cs
    else match linesIncl cs with
      | [] => [[c]]
      | l :: ls => (c :: l) :: ls

/-- src/main.rs:261-266: one iteration of the script loop. -/
def scriptLine (w : World) (n : Nat) (input : Str) : M Unit := do
  let cc ← unwrapM .unwrap (parse input)
  let _ ← tryE (evalTop w n cc)
  pure ()

/-- src/main.rs:255-268 after the end of the file: `read_line` keeps delivering the empty string
and nothing leaves the loop; `k` iterations are followed by `hang`. -/
def scriptEof (w : World) (n : Nat) : Nat → M Unit
  | 0 => hangM
  | k + 1 => do
    scriptLine w n []
    scriptEof w n k

/-- src/main.rs:255-268. -/
def scriptLines (w : World) (n k : Nat) : List Str → M Unit
  | [] => scriptEof w n k
  | l :: ls => do
    scriptLine w n l
    scriptLines w n k ls

/-- src/main.rs:252-269 `script_loop` (a read error after some good lines is reported as an error
of the whole file). -/
def scriptLoop (w : World) (n k : Nat) (name : Str) : M Unit := do
  match ← readFileM w name with
  | .missing => panicM .unwrap
  | .notUtf8 => panicM .unwrap
  | .text t => scriptLines w n k (linesIncl t)

/-- src/main.rs:272-279. -/
def readFromArgs (w : World) (n : Nat) (input : Str) : M Unit := do
  let cc ← unwrapM .unwrap (parse input)
  let _ ← tryE (evalTop w n cc)
  pure ()

/-- src/main.rs:35-86 `main`; returning is exit code 0. -/
def mainM (w : World) (n k : Nat) (args : List Str) (ins : List SessionIn) : M Unit := do
  let input ← parseArgs w args
  pushContextNew
  setArg0
  readStartup w n (cs!"~/.rshrc")
  readStartup w n (cs!"~/.profile")
  let s ← getS
  match input with
  | some i => readFromArgs w n i
  | none =>
    if s.interactive then do
      setSignal SIGCHLD
      setSignal SIGTSTP
      setSignal SIGINT
      modS fun s => { s with historyLoc := cs!"history.txt" }
      interactiveLoop w n ins
    else scriptLoop w n k s.scriptName

/-- A freshly started process: src/shell.rs:103-141 (`Shell::new`) and the statics' initial
values; descriptors 0, 1 and 2 are open. Rust's runtime ignores SIGPIPE; the other signals are taken to have
their default disposition. -/
def initSh (root : Bool) (ppid pid : Nat) (cwd : Str) (env : AMap Str) (waits : List WRes) : Sh :=
  { ctx := CtxMgr.init root ppid pid cwd env
    env, cwd, waits
    disp := fun n => if n = SIGPIPE then .ign else .dfl
    fds := [(0, ⟨.orig 0, false⟩), (1, ⟨.orig 1, false⟩), (2, ⟨.orig 2, false⟩)] }

end Rsh

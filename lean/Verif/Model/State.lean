import Verif.Model.Parser

/-!
# Shell state, outcomes and the outside world

The process-global data of src/shell.rs (`SHELL`), src/eval.rs (`EXIT_STATUS`) and src/trap.rs,
together with the parts of the operating system the shell can observe.
-/

namespace Rsh

/-! ## String-keyed maps (`HashMap<String, _>`) -/

/-- A `HashMap<String, α>`; iteration order is unspecified in Rust, here it is list order. -/
abbrev AMap (α : Type) := List (Str × α)

namespace AMap
/-- `HashMap::get`. -/
def get (m : AMap α) (k : Str) : Option α := m.lookup k
/-- `HashMap::remove`. -/
def erase (m : AMap α) (k : Str) : AMap α := m.filter (fun p => p.1 ≠ k)
/-- `HashMap::insert`. -/
def insert (m : AMap α) (k : Str) (v : α) : AMap α := (k, v) :: m.erase k
end AMap

/-! ## Variables, functions, contexts (src/context.rs) -/

/-- src/context.rs:19-23 `Var`; `name` is always the key it is stored under. -/
structure Var where
  value : Str
  readonly : Bool := false
deriving DecidableEq, Repr

/-- src/context.rs:430-436 `Context`.  `Rc<RefCell<Var>>` and `Rc<RefCell<FunctionBody>>` have
value semantics here: a `Var` cell is never shared between two maps, and function bodies are
never mutated (src/eval.rs:580 clones before evaluating). -/
structure Ctx where
  vars : AMap Var := []
  funcs : AMap FunctionBody := []
  roFuncs : List Str := []

/-- src/context.rs:56-64 `ContextManager`.  Contexts are shared (`Rc<RefCell<Context>>`), so they
live in a heap and are referred to by number; `stack` has the current context first. -/
structure CtxMgr where
  heap : Nat → Ctx
  next : Nat
  stack : List Nat
  exported : AMap Nat

/-! ## Jobs (src/jobs.rs) -/

/-- `nix::sys::wait::WaitStatus`; `other` stands for the ptrace/continued variants. -/
inductive WStatus where
  | exited (pid code : Int)
  | signaled (pid : Int) (sig : Nat) (core : Bool)
  | stopped (pid : Int) (sig : Nat)
  | other (pid : Int)
  | stillAlive
deriving DecidableEq, Repr

/-- `WaitStatus::pid`. -/
def WStatus.pid? : WStatus → Option Int
  | .exited p _ => some p
  | .signaled p _ _ => some p
  | .stopped p _ => some p
  | .other p => some p
  | .stillAlive => none

/-- `matches!(_, WaitStatus::Stopped(_, _))`. -/
def WStatus.isStopped : WStatus → Bool
  | .stopped .. => true
  | _ => false

/-- `matches!(_, WaitStatus::Exited(_, _))`. -/
def WStatus.isExited : WStatus → Bool
  | .exited .. => true
  | _ => false

/-- What one `waitpid(-1, …)` call can return. -/
inductive WRes where
  | eintr
  | err
  | st (s : WStatus)
deriving DecidableEq, Repr

/-- src/jobs.rs:263-268. -/
inductive JobState where
  | waiting | running | finished | stopped
deriving DecidableEq, Repr

/-- src/jobs.rs:286-297.  `argv` holds the `CString`s as text. -/
structure Process where
  pid : Int
  argv : List Str
  argv0 : Str
  cmd : Str
  status : Option WStatus
deriving DecidableEq, Repr

/-- src/jobs.rs:322-341, without the never-read flags `sigint`, `waited`, `used`, `changed`. -/
structure Job where
  processes : List Process
  jobId : Nat
  stopStatus : WStatus
  state : JobState
  background : Bool
deriving DecidableEq, Repr

/-- src/jobs.rs:35-48, without `jobctl`.  The job table (a `BTreeMap`) is an association list
sorted by id; job cells are owned by the table (see `Verif/Model/Jobs.lean`). -/
structure JobControl where
  table : List (Nat × Job) := []
  bg : List Nat := []
  pids : List (Int × Nat) := []
  current : Option Nat := none
  nextId : Nat := 1
deriving DecidableEq, Repr

/-! ## File descriptors -/

/-- What a descriptor refers to. -/
inductive Chan where
  | orig (n : Nat)
  | pipeR (id : Nat)
  | pipeW (id : Nat)
  | file (ty : RedirectType) (path : Str)
deriving DecidableEq, Repr

/-- An open descriptor with its close-on-exec flag. -/
structure FdE where
  chan : Chan
  cloexec : Bool := false
deriving DecidableEq, Repr

/-- Open descriptors of a process. -/
abbrev FdTable := List (Int × FdE)

namespace FdTable
/-- Lookup. -/
def get (t : FdTable) (fd : Int) : Option FdE := t.lookup fd
/-- Remove a descriptor. -/
def erase (t : FdTable) (fd : Int) : FdTable := t.filter (fun p => p.1 ≠ fd)
/-- Install a descriptor. -/
def set (t : FdTable) (fd : Int) (e : FdE) : FdTable := (fd, e) :: t.erase fd
/-- Does the table contain `fd`? -/
def has (t : FdTable) (fd : Int) : Bool := (t.get fd).isSome
/-- Search for a free descriptor from `n` on. -/
def freeFrom (t : FdTable) : Nat → Nat → Int
  | n, 0 => n
  | n, k + 1 => if t.has n then freeFrom t (n + 1) k else n
/-- The lowest-numbered free descriptor (POSIX allocation rule). -/
def lowestFree (t : FdTable) : Int := t.freeFrom 0 t.length
end FdTable

/-! ## Signals (src/trap.rs) -/

/-- Signal disposition as seen by the kernel. -/
inductive Disp where
  | dfl | ign | catch
deriving DecidableEq, Repr

/-- The recorded mode of a signal (src/trap.rs:21-29; `S_RESET` is never used). -/
inductive SigMode where
  | act (d : Disp)
  | hardIgn
deriving DecidableEq, Repr

/-! ## Events and outcomes -/

/-- The image a successful `execv`/`execve` installs. -/
structure ExecImage where
  path : Str
  argv : List Str
  env : AMap Str
  fds : FdTable
  masked : Bool
  ownGroup : Bool
  /-- Working directory. -/
  cwd : Str
  /-- Signal dispositions the program starts with. -/
  disp : Nat → Disp

/-- How a forked child of the shell ends (or what it turns into). -/
inductive ChildEnd where
  | exec (img : ExecImage)
  | exit (code : Int)
  /-- A Rust panic (exit code 101); its message goes to the channel of descriptor 2. -/
  | panic (err : Option Chan)
  | hang
  /-- The code of the child came to its end without leaving the process: the child went on in the shell's own loop. -/
  | returned

/-- Why a Rust panic (or abort) happened. -/
inductive PanicKind where
  | index | unwrap | utf8 | borrow | explicit | stackOverflow
deriving DecidableEq, Repr

/-- Observable effects, in the order they happen (the trace stores the most recent first). -/
inductive Event where
  /-- Text written to descriptor 1; `to` is what that descriptor refers to at that moment. -/
  | print (to : Option Chan) (s : Str)
  /-- Text written to descriptor 2. -/
  | eprint (to : Option Chan) (s : Str)
  | chdir (path : Str)
  | opened (ty : RedirectType) (path : Str)
  | readFile (path : Str)
  | spawn (pid : Nat) (ending : ChildEnd) (evs : List Event)
  | forkFailed
  | waited (r : WRes)
  | kill (pid : Int)
  | saveHistory (loc : Str)
  | subst (ending : ChildEnd) (evs : List Event)
  /-- This process is a forked copy; what came before are the events of its parent. -/
  | born

/-- Result of running a piece of the shell.  `err` is a Rust `Err`; the others end the process
(or, for `hang`, never return) and cannot be caught.  `deep` is not a behaviour of the shell: it
says that the nesting budget given to the evaluator was too small (`Rsh.evalFuel`). -/
inductive Out (α : Type) where
  | ok (a : α)
  | err (msg : Str)
  | panic (k : PanicKind)
  | exit (code : Int)
  | execed (img : ExecImage)
  | hang
  | deep

/-- Everything the shell process holds. -/
structure Sh where
  ctx : CtxMgr
  aliases : AMap Str := []
  env : AMap Str := []
  jc : JobControl := {}
  exitStatus : Int := 0
  /-- `true` between `interrupts_off` and `interrupts_on`. -/
  masked : Bool := false
  gotSigchld : Bool := false
  forked : Bool := false
  interactive : Bool := true
  scriptName : Str := cs!"rsh"
  historyLoc : Str := []
  cwd : Str := []
  /-- Did the process `setpgid` itself into its own group? -/
  ownGroup : Bool := false
  fds : FdTable := []
  nextPipe : Nat := 0
  /-- Job cells mutably borrowed by an enclosing frame (only in a forked child, which inherits the
  `job.borrow_mut()` of src/eval.rs:177). -/
  held : List Nat := []
  /-- Kernel signal dispositions by signal number. -/
  disp : Nat → Disp := fun _ => .dfl
  /-- `TrapData::signal_mode` (src/trap.rs:80). -/
  sigMode : Nat → Option SigMode := fun _ => none
  /-- Results the coming `waitpid` calls will return. -/
  waits : List WRes := []
  trace : List Event := []

/-- What opening and reading a file as text can yield. -/
inductive FileRead where
  | missing
  | notUtf8
  | text (s : Str)
deriving DecidableEq, Repr

/-- The outside world.  Every answer may depend on everything that happened before. -/
structure World where
  /-- `std::fs::metadata(path)` succeeds and is a regular file. -/
  isFile : List Event → Str → Bool
  /-- `File::open` + `read_to_string`. -/
  readFile : List Event → Str → FileRead
  /-- `set_current_dir`: the new working directory, or `none` on error. -/
  chdir : List Event → Str → Str → Option Str
  /-- `fork`: the child's pid, or `none` on error. -/
  fork : List Event → Option Nat
  /-- Does `pipe` succeed? -/
  pipeOk : List Event → Bool
  /-- Does opening a redirection target succeed? -/
  openOk : List Event → RedirectType → Str → Bool
  /-- Does `execv` of an existing file succeed? -/
  execOk : List Event → Str → Bool
  /-- Does `kill(pid, SIGCONT)` succeed? -/
  killOk : List Event → Int → Bool
  /-- Wait results a forked child will see. -/
  childWaits : List Event → List WRes
  /-- Text an executed program writes to a given channel. -/
  progOut : ExecImage → Chan → Str
  /-- Text a panicking child writes to standard error. -/
  panicMsg : Str
  /-- Capacity of a pipe. -/
  pipeCap : Nat
  /-- Does writing to what a descriptor refers to succeed? (Asked for descriptor 0 only.) -/
  writeOk : List Event → Chan → Bool
  /-- A signal that reaches the shell while it waits for the process of a command substitution. -/
  substSig : List Event → Option Nat := fun _ => none
  /-- Does saving the history file succeed? -/
  saveOk : List Event → Str → Bool
  /-- Text of an operating system error. -/
  osMsg : Str
  /-- Text of the parser's error for an input. -/
  parseMsg : Str → Str
  /-- The `{:?}` text of a list of strings. -/
  argsMsg : List Str → Str
  /-- `Signal`'s display name. -/
  sigName : Nat → Str

/-! ## The monad -/

/-- A computation of the shell. -/
def M (α : Type) := Sh → Out α × Sh

namespace M

/-- Sequencing: anything but `ok` stops. -/
@[inline] def bind (m : M α) (f : α → M β) : M β := fun s =>
  match m s with
  | (.ok a, s') => f a s'
  | (.err e, s') => (.err e, s')
  | (.panic k, s') => (.panic k, s')
  | (.exit c, s') => (.exit c, s')
  | (.execed i, s') => (.execed i, s')
  | (.hang, s') => (.hang, s')
  | (.deep, s') => (.deep, s')

instance : Monad M where
  pure a := fun s => (.ok a, s)
  bind := M.bind

end M

/-- Read the state. -/
def getS : M Sh := fun s => (.ok s, s)
/-- Change the state. -/
def modS (f : Sh → Sh) : M Unit := fun s => (.ok (), f s)
/-- `return Err(msg)`. -/
def throwE (msg : Str) : M α := fun s => (.err msg, s)
/-- A Rust panic. -/
def panicM (k : PanicKind) : M α := fun s => (.panic k, s)
/-- `std::process::exit(code)`. -/
def exitM (code : Int) : M α := fun s => (.exit code, s)
/-- The process image is replaced. -/
def execM (img : ExecImage) : M α := fun s => (.execed img, s)
/-- Never returns. -/
def hangM : M α := fun s => (.hang, s)
/-- The nesting budget is exhausted. -/
def deepM : M α := fun s => (.deep, s)
/-- Record an event. -/
def emit (e : Event) : M Unit := modS fun s => { s with trace := e :: s.trace }
/-- `print!`. -/
def printM (t : Str) : M Unit :=
  modS fun s => { s with trace := .print ((s.fds.get 1).map FdE.chan) t :: s.trace }
/-- `eprint!`. -/
def eprintM (t : Str) : M Unit :=
  modS fun s => { s with trace := .eprint ((s.fds.get 2).map FdE.chan) t :: s.trace }
/-- `println!`. -/
def printlnM (t : Str) : M Unit := printM (t ++ ['\n'])
/-- `eprintln!`. -/
def eprintlnM (t : Str) : M Unit := eprintM (t ++ ['\n'])

/-- `match m { Ok(a) => …, Err(e) => … }`: a Rust `Err` becomes a value. -/
def tryE (m : M α) : M (Except Str α) := fun s =>
  match m s with
  | (.ok a, s') => (.ok (.ok a), s')
  | (.err e, s') => (.ok (.error e), s')
  | (.panic k, s') => (.panic k, s')
  | (.exit c, s') => (.exit c, s')
  | (.execed i, s') => (.execed i, s')
  | (.hang, s') => (.hang, s')
  | (.deep, s') => (.deep, s')

/-- `Option::unwrap` / slice indexing: `none` is a panic of the given kind. -/
def unwrapM (k : PanicKind) : Option α → M α
  | some a => pure a
  | none => panicM k

end Rsh

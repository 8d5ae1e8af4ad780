import Verif.Model.Main

/-!
# Signals arriving in the middle of an access to the shell's data

The rest of the model runs the shell between signals.  Here the functions of src/shell.rs that
access the global `SHELL` cell are cut into the steps between which the kernel may run the `SIGCHLD`
handler.  A configuration is a stack of calls, innermost first; the handler interrupts whatever is on
top of it and may itself call `delete_job`, which lets signals in again.

Simplifications: a step is atomic (the body of an access and the part of the handler between two
steps contain no further step); the environment of the jobs (output, exit status, variables) is left
out; the handler that goes on waiting for the rest of a multi-process background job
(src/jobs.rs:429-432) is not followed beyond that call.
-/

namespace Rsh

/-- State of the `RefCell` in `SHELL` (src/shell.rs:47): not borrowed, `borrow()`, `borrow_mut()`. -/
inductive Loan where
  | free | shared | excl
deriving DecidableEq, Repr

/-- What the interrupted program does next. -/
inductive Op where
  /-- `trap::interrupts_off()` (src/eval.rs:123, src/builtins.rs:52, 109). -/
  | off
  /-- `trap::interrupts_on()` (src/eval.rs:298, src/builtins.rs:60, 130). -/
  | on
  /-- A wrapper with `SHELL.get().borrow()`, such as `lookup_alias` (src/shell.rs:421-424). -/
  | read
  /-- A wrapper with `SHELL.get().borrow_mut()`, such as `add_alias` (src/shell.rs:412-418). -/
  | write
  /-- `shell::delete_job(id)` (src/shell.rs:488-496). -/
  | delete (id : Nat)
deriving DecidableEq, Repr

/-- Where `shell::delete_job` is (src/shell.rs:492-496): before line 492, 493, 494, 495, 496. -/
inductive DelPc where
  | start | masked | borrowed | deleted | unmasked
deriving DecidableEq, Repr

/-- A call in progress. -/
inductive Call1 where
  /-- The program, with what it still has to do. -/
  | main (todo : List Op)
  /-- `shell::delete_job`. -/
  | del (id : Nat) (pc : DelPc)
  /-- Another wrapper of src/shell.rs, after its `borrow()` or `borrow_mut()`. -/
  | access
  /-- `sig_chld` before its `waitpid` (src/trap.rs:228); the mask to restore. -/
  | handler (saved : Bool)
  /-- `sig_chld` about to return; the mask to restore. -/
  | leaving (saved : Bool)
  /-- `sig_chld` in `wait_for_job` (src/jobs.rs:430). -/
  | waiting
deriving DecidableEq, Repr

/-- The process between two steps. -/
structure Conf where
  jc : JobControl
  loan : Loan
  masked : Bool
  /-- A `SIGCHLD` is pending (they do not queue). -/
  pending : Bool
  /-- The calls in progress, innermost first. -/
  calls : List Call1
deriving DecidableEq, Repr

/-- What happens next: a child changes state, or the process goes on; `r` is what `waitpid` returns
if that is what the process does next. -/
inductive Choice where
  | child
  | go (r : WRes)
deriving DecidableEq, Repr

/-- What a step does, as seen from outside. -/
inductive Did where
  | signal | handler | reaped (pid : Int) | nothing | mask | unmask | borrow (excl : Bool) | release | other
deriving DecidableEq, Repr

/-- `sig_chld` with the status `st` of child `pid` (src/trap.rs:255-277); `none` is the panic of
`SHELL.get().borrow()` in `shell::get_job` (src/shell.rs:482). -/
def reapStep (pid : Int) (st : WStatus) (c : Conf) (saved : Bool) (rest : List Call1) : Option Conf :=
  if c.loan = .excl then none
  else
    match c.jc.getJobPid pid with
    | none => some { c with calls := .leaving saved :: rest }
    | some j =>
      let jc := c.jc.modJob j.jobId fun j => { j with processes := setStatusFirst pid st j.processes }
      if j.background = false then some { c with jc, calls := .leaving saved :: rest }
      else if j.processes.length = 1 then
        -- src/jobs.rs:420-427
        let jc := jc.modJob j.jobId fun j => { j with stopStatus := st, state := .finished }
        some { c with jc, calls := .del j.jobId .start :: .leaving saved :: rest }
      else some { c with jc, masked := true, calls := .waiting :: .leaving saved :: rest }

/-- One step of the process; `none` is a panic, which in a signal handler or in the main program
ends the shell. A deliverable signal is delivered before anything else: the handler is installed with
all signals blocked (src/trap.rs:404-408). -/
def goStep (r : WRes) (c : Conf) : Did × Option Conf :=
  if c.pending && !c.masked then
    (.handler, some { c with pending := false, masked := true, calls := .handler c.masked :: c.calls })
  else
    match c.calls with
    | [] => (.other, some c)
    | .main [] :: rest => (.other, some { c with calls := rest })
    | .main (.off :: t) :: rest => (.mask, some { c with masked := true, calls := .main t :: rest })
    | .main (.on :: t) :: rest => (.unmask, some { c with masked := false, calls := .main t :: rest })
    | .main (.read :: t) :: rest =>
      (.borrow false, if c.loan = .excl then none
        else some { c with loan := .shared, calls := .access :: .main t :: rest })
    | .main (.write :: t) :: rest =>
      (.borrow true, if c.loan = .free then
        some { c with loan := .excl, calls := .access :: .main t :: rest } else none)
    | .main (.delete id :: t) :: rest =>
      (.other, some { c with calls := .del id .start :: .main t :: rest })
    | .access :: rest => (.release, some { c with loan := .free, calls := rest })
    | .del id .start :: rest => (.mask, some { c with masked := true, calls := .del id .masked :: rest })
    | .del id .masked :: rest =>
      (.borrow true, if c.loan = .free then
        some { c with loan := .excl, calls := .del id .borrowed :: rest } else none)
    | .del id .borrowed :: rest =>
      (.other, some { c with jc := c.jc.deleteJob id, calls := .del id .deleted :: rest })
    | .del id .deleted :: rest =>
      (.unmask, some { c with masked := false, calls := .del id .unmasked :: rest })
    | .del _ .unmasked :: rest => (.release, some { c with loan := .free, calls := rest })
    | .handler saved :: rest =>
      match r with
      | .st (.exited pid code) => (.reaped pid, reapStep pid (.exited pid code) c saved rest)
      | .st (.signaled pid sg co) => (.reaped pid, reapStep pid (.signaled pid sg co) c saved rest)
      | .st (.stopped pid sg) => (.reaped pid, reapStep pid (.stopped pid sg) c saved rest)
      | _ => (.nothing, some { c with calls := .leaving saved :: rest })
    | .leaving saved :: rest => (.other, some { c with masked := saved, calls := rest })
    | .waiting :: _ => (.other, some c)

/-- One step. -/
def confStep : Choice → Conf → Did × Option Conf
  | .child, c => (.signal, some { c with pending := true })
  | .go r, c => goStep r c

/-- A run: what was done, and the configuration reached unless the shell crashed. -/
def runConf : List Choice → Conf → List Did × Option Conf
  | [], c => ([], some c)
  | ch :: chs, c =>
    match confStep ch c with
    | (d, none) => ([d], none)
    | (d, some c') =>
      let (ds, o) := runConf chs c'
      (d :: ds, o)

/-- The program `ops` about to start, with signals let in and nothing pending. -/
def startConf (jc : JobControl) (ops : List Op) : Conf :=
  { jc, loan := .free, masked := false, pending := false, calls := [.main ops] }

end Rsh

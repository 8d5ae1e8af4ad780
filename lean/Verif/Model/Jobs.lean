import Verif.Model.Context

/-!
# Model of src/jobs.rs and of the job wrappers in src/shell.rs

Jobs are `Rc<RefCell<Job>>` cells owned by the job table; every function below receives the id of
a job instead of the cell.  While `do_wait` runs nothing is removed from the table, so the cell a
caller holds is the one in the table.
-/

namespace Rsh

/-! ## Job control data (src/jobs.rs:51-248) -/

/-- `BTreeMap::insert`. -/
def tInsert (k : Nat) (j : Job) : List (Nat × Job) → List (Nat × Job)
  | [] => [(k, j)]
  | (k', j') :: t =>
    if k < k' then (k, j) :: (k', j') :: t
    else if k = k' then (k, j) :: t
    else (k', j') :: tInsert k j t

/-- `BTreeMap::remove`. -/
def tRemove (k : Nat) (t : List (Nat × Job)) : List (Nat × Job) := t.filter (fun p => p.1 ≠ k)

/-- `BTreeMap::get`. -/
def tGet (k : Nat) (t : List (Nat × Job)) : Option Job := t.lookup k

/-- `HashMap<Pid, usize>::insert`. -/
def pidInsert (p : Int) (id : Nat) (m : List (Int × Nat)) : List (Int × Nat) :=
  (p, id) :: m.filter (fun q => q.1 ≠ p)

/-- `HashMap<Pid, usize>::remove`. -/
def pidRemove (p : Int) (m : List (Int × Nat)) : List (Int × Nat) := m.filter (fun q => q.1 ≠ p)

namespace JobControl

/-- src/jobs.rs:66-84 `create_job` with src/jobs.rs:352-364 `Job::new`; returns the id. -/
def createJob (jc : JobControl) (procs : List Process) (background : Bool) : Nat × JobControl :=
  let id := jc.nextId
  let job : Job := { processes := procs, jobId := id, stopStatus := .stillAlive,
                     state := .running, background }
  (id, { jc with
    pids := procs.foldl (fun m p => pidInsert p.pid id m) jc.pids
    table := tInsert id job jc.table
    bg := if background then id :: jc.bg.filter (· ≠ id) else jc.bg
    current := some id
    nextId := id + 1 })

/-- src/jobs.rs:87-89. -/
def updatePid (jc : JobControl) (id : Nat) (pid : Int) : JobControl :=
  { jc with pids := pidInsert pid id jc.pids }

/-- src/jobs.rs:92-94 (the test is inverted in the code). -/
def backgroundJobs (jc : JobControl) : Bool := jc.bg.isEmpty

/-- src/jobs.rs:96-98. -/
def isBackgroundJob (jc : JobControl) (id : Nat) : Bool := jc.bg.contains id

/-- src/jobs.rs:101-107; the outer `none` is the `unwrap` panic on a dangling id. -/
def getCurrentJob (jc : JobControl) : Option (Option Job) :=
  match jc.current with
  | some i => (tGet i jc.table).map some
  | none => some none

/-- src/jobs.rs:110-112. -/
def setCurrentJob (jc : JobControl) (id : Nat) : JobControl := { jc with current := some id }

/-- src/jobs.rs:130-136. -/
def updateNextId (jc : JobControl) : JobControl :=
  match jc.table.getLast? with
  | none => { jc with nextId := 1 }
  | some (k, _) => { jc with nextId := k + 1 }

/-- src/jobs.rs:217-223: note a stopped first process. -/
def noteStopped (j : Job) : Job :=
  match j.processes.head? with
  | some p =>
    match p.status with
    | some st => if st.isStopped then { j with state := .stopped, stopStatus := st } else j
    | none => j
  | none => j

/-- Forget the pids of a job (src/jobs.rs:233-235). -/
def forgetPids (procs : List Process) (m : List (Int × Nat)) : List (Int × Nat) :=
  procs.foldl (fun m p => pidRemove p.pid m) m

/-- src/jobs.rs:205-242 `delete_job(JobId)`. -/
def deleteJob (jc : JobControl) (id : Nat) : JobControl :=
  match tGet id jc.table with
  | none => jc
  | some job =>
    let jc1 := { jc with table := tRemove id jc.table }
    if job.processes.length = 0 then jc1
    else
      let job := noteStopped job
      if job.stopStatus.isStopped then
        { jc1 with table := tInsert id { job with state := .stopped } jc1.table }
      else
        updateNextId { jc1 with
          pids := forgetPids job.processes jc1.pids
          bg := if job.background then jc1.bg.filter (· ≠ id) else jc1.bg }

/-- src/jobs.rs:148-186 `delete_job(Pid)`; `none` is the `processes[0]` index panic. -/
def deleteJobPid (jc : JobControl) (pid : Int) : Option JobControl :=
  match jc.pids.lookup pid with
  | none => some jc
  | some id =>
    match tGet id jc.table with
    | none => some jc
    | some job =>
      if job.processes.length = 0 then none
      else
        let jc1 := { jc with table := tRemove id jc.table }
        let job := noteStopped job
        if job.stopStatus.isStopped then
          some { jc1 with table := tInsert id { job with state := .stopped } jc1.table }
        else
          some (updateNextId { jc1 with
            bg := if job.background then jc1.bg.filter (· ≠ id) else jc1.bg
            pids := forgetPids job.processes jc1.pids })

/-- src/jobs.rs:245-247. -/
def getJob (jc : JobControl) (id : Nat) : Option Job := tGet id jc.table

/-- src/jobs.rs:190-199. -/
def getJobPid (jc : JobControl) (pid : Int) : Option Job :=
  (jc.pids.lookup pid).bind fun id => tGet id jc.table

/-- src/jobs.rs:115-127. -/
def clearCompleted (jc : JobControl) : JobControl :=
  ((jc.table.filter (fun p => p.2.state = .finished)).map Prod.fst).foldl deleteJob jc

/-- Change a job in place (`borrow_mut()` on its cell). -/
def modJob (jc : JobControl) (id : Nat) (f : Job → Job) : JobControl :=
  { jc with table := jc.table.map fun p => if p.1 = id then (p.1, f p.2) else p }

end JobControl

/-! ## Display (src/jobs.rs:251-280, 388-402) -/

/-- src/jobs.rs:271-280. -/
def JobState.show : JobState → Str
  | .waiting => cs!"Waiting"
  | .running => cs!"Running"
  | .finished => cs!"Done"
  | .stopped => cs!"Stopped"

/-- src/jobs.rs:388-402; a process is followed by ` | ` unless its pid equals that of the last
process (`PartialEq for Process`, 299-304). -/
def Job.show (j : Job) : Str :=
  let last := j.processes.getLast?.map Process.pid
  let body := j.processes.flatMap fun p =>
    p.cmd ++ (if some p.pid = last then [] else cs!" | ")
  j.state.show ++ ' ' :: body ++ (if j.background then cs!" &" else [])

/-! ## Wrappers of src/shell.rs -/

/-- Change the job control data. -/
def modJc (f : JobControl → JobControl) : M Unit := modS fun s => { s with jc := f s.jc }

/-- src/trap.rs:137-145 `interrupts_off`. -/
def interruptsOff : M Unit := modS fun s => { s with masked := true }
/-- src/trap.rs:147-149 `interrupts_on`. -/
def interruptsOn : M Unit := modS fun s => { s with masked := false }

/-- src/shell.rs:488-496 `delete_job(JobId)`: masks, deletes, unmasks. -/
def deleteJobM (id : Nat) : M Unit := do
  interruptsOff
  modJc (·.deleteJob id)
  interruptsOn

/-- src/shell.rs:471-474. -/
def createJobM (procs : List Process) (background : Bool) : M Nat := fun s =>
  let (id, jc) := s.jc.createJob procs background
  (.ok id, { s with jc })

/-- src/jobs.rs:254-257: the lines of the job listing.  The caller `display_jobs`
(src/shell.rs:499-502) holds a `Ref` of `SHELL`. -/
def showJobs (held : Held) : List (Nat × Job) → M Str
  | [] => pure []
  | (id, j) :: t => do
    let ps4 ← (do unwrapM .unwrap (← expandVar held (cs!"PS4")))
    let rest ← showJobs held t
    pure (cs!"[" ++ natStr id ++ cs!"] " ++ ps4 ++ j.show ++ '\n' :: rest)

/-- src/shell.rs:499-502 `display_jobs`: `borrow()` is held during formatting. -/
def displayJobs : M Str := do
  let s ← getS
  showJobs .shared s.jc.table

/-! ## Waiting (src/jobs.rs:413-664) -/

/-- One `waitpid(-1, …)` call: the next result of the schedule. An exhausted schedule means no
child will ever change state: the (blocking) call never returns. -/
def waitpidM : M WRes := fun s =>
  match s.waits with
  | [] => (.hang, s)
  | r :: rs => (.ok r, { s with waits := rs, trace := .waited r :: s.trace })

/-- src/jobs.rs:629-642, the inner loop of `wait_process`: `EINTR` is retried. -/
def waitRetry : Nat → M WRes
  | 0 => hangM
  | n + 1 => do
    let r ← waitpidM
    match r with
    | .eintr => waitRetry n
    | r => pure r

/-- src/jobs.rs:620-664 `wait_process`.  After the inner loop the result is `StillAlive`
(returned), an error, or has a pid; so the condition at 643 holds and the `sig_suspend` part
(647-660) is unreachable. -/
def waitProcess : M WRes := do
  modS fun s => { s with gotSigchld := false }
  let s ← getS
  waitRetry (s.waits.length + 1)

/-- src/jobs.rs:496-510: the pid used to find the process (`-1` for other statuses). -/
def waitPid : WStatus → Int
  | .exited p _ => p
  | .signaled p _ _ => p
  | .stopped p _ => p
  | _ => -1

/-- src/jobs.rs:519-536: update the processes and compute the job state: running if some process
has no status yet, else stopped if some process is stopped, else finished.  The code's loop keeps
the state `Running` once set. -/
def markProcs (pid : Int) (st : WStatus) (ps : List Process) : List Process :=
  ps.map fun p => if p.pid = pid then { p with status := some st } else p

/-- The loop of src/jobs.rs:520-536 for the state, process by process. -/
def jobStateOf : JobState → List Process → JobState
  | st, [] => st
  | st, p :: ps =>
    let st := if p.status = none then .running else st
    if st = .running then jobStateOf st ps
    else
      match p.status with
      | some s => jobStateOf (if s.isStopped then .stopped else st) ps
      | none => jobStateOf st ps

/-- Outcome of the loop over the job table. -/
structure WaitScan where
  table : List (Nat × Job)
  thisJob : Option Nat
  current : Option Nat

/-- src/jobs.rs:513-553: the loop over the job table; `none` is the panic of
`processes[0].status.unwrap()` at line 537.  Cells in `held` are mutably borrowed and skipped
(`try_borrow` fails, 514-517). -/
def scanJobs (held : List Nat) (pid : Int) (st : WStatus) (current : Option Nat) :
    List (Nat × Job) → Option WaitScan
  | [] => some ⟨[], none, current⟩
  | (id, j) :: t =>
    if held.contains id || j.state = .finished then
      (scanJobs held pid st current t).map fun r => { r with table := (id, j) :: r.table }
    else
      let hit := j.processes.any fun p => p.pid = pid
      let procs := markProcs pid st j.processes
      let state := jobStateOf .finished procs
      match procs.head?.bind Process.status with
      | none => none
      | some ss =>
        let j1 := { j with processes := procs, stopStatus := ss }
        if hit then
          if state ≠ .running then
            some ⟨(id, { j1 with state }) :: t, some id,
              if state = .stopped then some j.jobId else current⟩
          else some ⟨(id, j1) :: t, some id, current⟩
        else (scanJobs held pid st current t).map fun r => { r with table := (id, j1) :: r.table }

/-- src/jobs.rs:668-705 `format_status(result, true)`. -/
def formatStatus (w : World) (st : WStatus) : M (Option Str) := do
  let s ← getS
  let line (pid : Int) (tail : Str) : M (Option Str) :=
    match s.jc.getJobPid pid with
    | none => pure none
    | some j => do
      let ps4 ← (do unwrapM .unwrap (← expandVar .none (cs!"PS4")))
      pure (some (cs!"[" ++ natStr j.jobId ++ cs!"] " ++ ps4 ++ cs!"\t\t" ++ j.show ++ ' ' :: tail))
  match st with
  | .signaled pid sig core =>
    line pid (cs!"(" ++ w.sigName sig ++ cs!")" ++ (if core then cs!" (core dumped)" else []))
  | .stopped pid sig => line pid (cs!"(" ++ w.sigName sig ++ cs!")")
  | _ => pure none

/-- Result of `wait_one`: `Err(_)`, `Ok(None)`, `Ok(Some(_))`. -/
inductive WaitOne where
  | err | none | some
deriving DecidableEq

/-- src/jobs.rs:467-568 `wait_one`; `jobId` is the job being waited for. -/
def waitOne (w : World) (jobId : Nat) : M WaitOne := do
  interruptsOff
  match ← waitProcess with
  | .err => pure .err
  | .eintr => pure .err
  | .st st =>
    if st.pid? = none then
      interruptsOn
      pure .none
    else
      let s ← getS
      let r ← unwrapM .unwrap (scanJobs s.held (waitPid st) st s.jc.current s.jc.table)
      modJc fun jc => { jc with table := r.table, current := r.current }
      interruptsOn
      if r.thisJob = some jobId then
        match ← formatStatus w st with
        | some line => printlnM line
        | none => pure ()
      pure .some

/-- src/jobs.rs:586-611, the loop of `do_wait`.  `block` is whether the next `waitpid` blocks: a
blocking wait on an exhausted schedule hangs, a non-blocking one reports `StillAlive`. -/
def doWaitLoop (w : World) (jobId : Nat) : Nat → (block : Bool) → M Unit
  | 0, _ => hangM
  | n + 1, block => do
    let s ← getS
    if !block && s.waits.isEmpty then
      -- a non-blocking waitpid with nothing more to report: wait_one returns Ok(None)
      interruptsOff
      modS fun s => { s with gotSigchld := false }
      interruptsOn
    else
      match ← waitOne w jobId with
      | .none => pure ()
      | .err => pure ()
      | .some => doWaitLoop w jobId n false

/-- src/jobs.rs:571-614 `do_wait(block, Some(job))`. -/
def doWait (w : World) (jobId : Nat) : M Unit := do
  let s ← getS
  let j ← unwrapM .explicit (s.jc.getJob jobId)
  let block := j.state = .running
  if !block && !s.gotSigchld then pure ()
  else doWaitLoop w jobId (s.waits.length + 2) block

/-- src/jobs.rs:442-464 `wait_for_job(Some(job))`. -/
def waitForJob (w : World) (jobId : Nat) : M WStatus := do
  doWait w jobId
  let s ← getS
  let j ← unwrapM .explicit (s.jc.getJob jobId)
  if j.state = .finished || j.stopStatus.isExited then
    deleteJobM jobId
  pure j.stopStatus

/-- src/jobs.rs:413-433 `wait_for_job_sigchld(Some(job), status)`. -/
def waitForJobSigchld (w : World) (jobId : Nat) (st : WStatus) : M WStatus := do
  let s ← getS
  let j ← unwrapM .explicit (s.jc.getJob jobId)
  if j.processes.length = 1 then
    modJc fun jc => jc.modJob jobId fun j => { j with stopStatus := st, state := .finished }
    deleteJobM jobId
    pure st
  else
    interruptsOff
    let r ← waitForJob w jobId
    interruptsOn
    pure r

end Rsh

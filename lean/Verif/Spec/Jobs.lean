import Verif.Model.Jobs

/-!
# Vocabulary for the statements about jobs
-/

namespace Rsh.Spec

open Rsh

/-- The ids of the jobs in the table. -/
def jobIds (jc : JobControl) : List Nat := jc.table.map Prod.fst

/-- The job table as it is in a running shell: in increasing order of ids, every job under its own id,
every id smaller than the next one to be given. -/
structure TableOk (jc : JobControl) : Prop where
  sorted : jc.table.Pairwise (fun a b => a.1 < b.1)
  small : ∀ p ∈ jc.table, p.1 < jc.nextId
  own : ∀ p ∈ jc.table, p.2.jobId = p.1

/-- Operations on the job table. -/
inductive JobOp where
  | create (procs : List Process) (background : Bool)
  | setPid (id i : Nat) (pid : Int)
  | delete (id : Nat)
  | deletePid (pid : Int)
  | resume (id : Nat) (background : Bool)
  | reap (held : List Nat) (st : WStatus)
  | setCurrent (id : Nat)
  | clear

/-- Process number `i` gets its pid. -/
def startProc (i : Nat) (pid : Int) (j : Job) : Job :=
  { j with processes := j.processes.modify i fun p => { p with pid } }

/-- Perform one operation; `none` when it panics. -/
def JobOp.run (jc : JobControl) : JobOp → Option JobControl
  | .create ps b => some (jc.createJob ps b).2
  | .setPid id i pid => some ((jc.modJob id (startProc i pid)).updatePid id pid)
  | .delete id => some (jc.deleteJob id)
  | .deletePid pid => jc.deleteJobPid pid
  | .resume id b => some (jc.modJob id fun j => { j with state := .running, background := b })
  | .reap held st => (scanJobs held (waitPid st) st jc.current jc.table).map fun r =>
      { jc with table := r.table, current := r.current }
  | .setCurrent id => some (jc.setCurrentJob id)
  | .clear => some jc.clearCompleted

/-- Perform a sequence of operations. -/
def runJobOps (jc : JobControl) : List JobOp → Option JobControl
  | [] => some jc
  | o :: os => (o.run jc).bind fun jc' => runJobOps jc' os

/-- Operations as the shell performs them: new jobs have no started process yet, and a process gets a
pid that no process in the table has. -/
def JobOp.Fair (jc : JobControl) : JobOp → Prop
  | .create ps _ => ∀ p ∈ ps, p.pid = -1
  | .setPid _ _ pid => pid ≠ -1 ∧ ∀ q ∈ jc.table, ∀ p ∈ q.2.processes, p.pid ≠ pid
  | _ => True

/-- A sequence of such operations. -/
def FairOps (jc : JobControl) : List JobOp → Prop
  | [] => True
  | o :: os => o.Fair jc ∧ ∀ jc', o.run jc = some jc' → FairOps jc' os

/-- The pids of the children started for pipelines. -/
def spawnedPids : List Event → List Int
  | [] => []
  | .spawn pid .. :: t => pid :: spawnedPids t
  | _ :: t => spawnedPids t

/-- An operating system that gives every child a pid of its own. -/
def FreshPids (w : World) : Prop :=
  ∀ tr pid, w.fork tr = some pid → 0 < pid ∧ (pid : Int) ∉ spawnedPids tr

/-- The first process of a job is known to be stopped, or was when the job was last looked at. -/
def FirstStopped (j : Job) : Prop :=
  j.stopStatus.isStopped = true ∨
    ∃ p st, j.processes.head? = some p ∧ p.status = some st ∧ st.isStopped = true

/-- Some process of the job is stopped, all others have terminated or are stopped. -/
def AllStopped (j : Job) : Prop :=
  (∀ p ∈ j.processes, ∃ st, p.status = some st) ∧
    ∃ p ∈ j.processes, ∃ st, p.status = some st ∧ st.isStopped = true

/-- The status of the first process is unknown, even after `pid` has reported. -/
def Unreported (pid : Int) (j : Job) : Prop :=
  ∀ p, j.processes.head? = some p → p.status = none ∧ p.pid ≠ pid

/-- A job the shell looks at when a child reports. -/
def Open (held : List Nat) (q : Nat × Job) : Prop := q.1 ∉ held ∧ q.2.state ≠ .finished

/-- One line of the job listing. -/
def jobLine (ps4 : Str) (q : Nat × Job) : Str :=
  cs!"[" ++ natStr q.1 ++ cs!"] " ++ ps4 ++ q.2.show ++ cs!"\n"

end Rsh.Spec

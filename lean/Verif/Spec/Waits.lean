import Verif.Spec.Jobs

/-!
# What the shell learns about its children while it waits
-/

namespace Rsh.Spec

open Rsh

/-- Nothing more is reported to the shell. -/
def NoMore (rest : List WRes) : Prop :=
  rest = [] ∨ ∃ r rs, rest = r :: rs ∧ (r = .err ∨ r = .st .stillAlive)

/-- The reports `sts` are there to be collected, one after the other (calls may be interrupted before each), and
then nothing more. -/
inductive Batch : List WRes → List WStatus → Prop
  | none {rest : List WRes} (h : NoMore rest) : Batch rest []
  | some {rest : List WRes} {st : WStatus} {sts : List WStatus} (k : Nat) (hp : st ≠ .stillAlive)
      (h : Batch rest sts) : Batch (List.replicate k .eintr ++ .st st :: rest) (st :: sts)

/-- The status of the first process is known. -/
def FirstKnown (j : Job) : Prop := ∃ p st, j.processes.head? = some p ∧ p.status = some st

/-- The first process of the job is known to have the status `st`. -/
def FirstHas (j : Job) (st : WStatus) : Prop := ∃ p, j.processes.head? = some p ∧ p.status = some st

/-- A job that a report is not about: the status of its first process, if known, is noted as that of the job. -/
def passed (q : Nat × Job) : Nat × Job :=
  if q.2.state = .finished then q
  else (q.1, { q.2 with stopStatus := (q.2.processes.head?.bind Process.status).getD q.2.stopStatus })

/-- A job after its process `pid` has been reported: the job is still what it was while there is a process
nothing is known of; otherwise it is stopped if one of its processes is stopped, else finished. -/
def reportedTo (pid : Int) (st : WStatus) (j : Job) : Job :=
  let ps := j.processes.map fun p => if p.pid = pid then { p with status := some st } else p
  { j with
    processes := ps
    stopStatus := (ps.head?.bind Process.status).getD j.stopStatus
    state := if ps.any (fun p => p.status.isNone) then j.state
      else if ps.any (fun p => p.status.any WStatus.isStopped) then .stopped else .finished }

/-- Every process of the job is known to be stopped or to have ended, and one is stopped. -/
def Halted (j : Job) : Prop :=
  (∀ p ∈ j.processes, p.status ≠ none) ∧ ∃ p ∈ j.processes, ∃ st, p.status = some st ∧ st.isStopped = true

instance (j : Job) : Decidable (Halted j) :=
  decidable_of_iff ((∀ p ∈ j.processes, p.status ≠ none) ∧
      ∃ p ∈ j.processes, p.status.any WStatus.isStopped = true) (by
    unfold Halted
    refine and_congr_right fun _ => exists_congr fun p => and_congr_right fun _ => ?_
    cases p.status <;> simp)

/-- A job a report about `pid` passes by without harm. -/
def PassedBy (pid : Int) (q : Nat × Job) : Prop :=
  q.2.state ≠ .finished → FirstKnown q.2 ∧ ∀ p ∈ q.2.processes, p.pid ≠ pid

instance (j : Job) : Decidable (FirstKnown j) :=
  decidable_of_iff ((j.processes.head?.bind Process.status).isSome = true) (by
    unfold FirstKnown
    cases j.processes.head? with
    | none => simp
    | some p => cases h : p.status <;> simp [h])

instance (pid : Int) (q : Nat × Job) : Decidable (PassedBy pid q) := by unfold PassedBy; infer_instance

/-- What the report of a child does to the job table and the current job: it belongs to the first unfinished job
that has a process with that pid.  There is no such table when the report crashes the shell. -/
inductive Report (pid : Int) (st : WStatus) :
    List (Nat × Job) → Option Nat → List (Nat × Job) → Option Nat → Prop
  | stranger {t : List (Nat × Job)} {cur : Option Nat} (h : ∀ q ∈ t, PassedBy pid q) :
      Report pid st t cur (t.map passed) cur
  | member {pre post : List (Nat × Job)} {cur : Option Nat} {id : Nat} {j : Job} (h : ∀ q ∈ pre, PassedBy pid q)
      (ho : j.state ≠ .finished) (hm : ∃ p ∈ j.processes, p.pid = pid) (hk : FirstKnown (reportedTo pid st j)) :
      Report pid st (pre ++ (id, j) :: post) cur (pre.map passed ++ (id, reportedTo pid st j) :: post)
        (if Halted (reportedTo pid st j) then some j.jobId else cur)

/-- The pid a report is about. -/
def about : WStatus → Int
  | .exited p _ => p
  | .signaled p _ _ => p
  | .stopped p _ => p
  | _ => -1

/-- The current job after an operation on the job table, when it was `cur` before: a new job, the job that is made
the current one, or the job a report has stopped. -/
def JobOp.newest (jc : JobControl) (cur : Option Nat) : JobOp → Option Nat
  | .create .. => some jc.nextId
  | .setCurrent id => some id
  | .reap held st =>
    match jc.table.find? fun q => q.1 ∉ held ∧ q.2.state ≠ .finished ∧ ∃ p ∈ q.2.processes, p.pid = about st with
    | some q => if Halted (reportedTo (about st) st q.2) then some q.2.jobId else cur
    | none => cur
  | _ => cur

/-- The current job after a sequence of operations. -/
def newest (jc : JobControl) (cur : Option Nat) : List JobOp → Option Nat
  | [] => cur
  | o :: os =>
    match o.run jc with
    | some jc' => newest jc' (o.newest jc cur) os
    | none => cur

/-- A sequence of reports. -/
inductive Reports : List WStatus → List (Nat × Job) → Option Nat → List (Nat × Job) → Option Nat → Prop
  | nil (t : List (Nat × Job)) (cur : Option Nat) : Reports [] t cur t cur
  | cons {st : WStatus} {sts : List WStatus} {t t1 t2 : List (Nat × Job)} {cur cur1 cur2 : Option Nat}
      (h : Report (about st) st t cur t1 cur1) (hs : Reports sts t1 cur1 t2 cur2) :
      Reports (st :: sts) t cur t2 cur2

/-- The id of the job a report about `pid` belongs to: the first unfinished one that has such a process. -/
def owner (pid : Int) (t : List (Nat × Job)) : Option Nat :=
  (t.find? fun q => q.2.state != .finished && q.2.processes.any fun p => p.pid == pid).map Prod.fst

/-- A job as it is described to the user. -/
def jobText (state : Str) (names : List Str) (background : Bool) : Str :=
  state ++ [' '] ++ List.intercalate (cs!" | ") names ++ (if background then cs!" &" else [])

/-- What is said about a signal that killed or stopped a process. -/
def bySignal (w : World) : WStatus → Option Str
  | .signaled _ sig core => some (cs!"(" ++ w.sigName sig ++ cs!")" ++ (if core then cs!" (core dumped)" else []))
  | .stopped _ sig => some (cs!"(" ++ w.sigName sig ++ cs!")")
  | _ => none

/-- The line that announces it, for the job with that number and description. -/
def announcement (w : World) (ps4 : Str) (id : Nat) (text : Str) (st : WStatus) : Option Str :=
  (bySignal w st).map fun how =>
    cs!"[" ++ natStr id ++ cs!"] " ++ ps4 ++ cs!"\t\t" ++ text ++ [' '] ++ how ++ cs!"\n"

/-- The lines written during a sequence of reports by a shell that waits for the job `id`: reports about that job
are announced, with the job as it is afterwards. -/
inductive Told (w : World) (ps4 : Str) (id : Nat) : List WStatus → List (Nat × Job) → Option Nat → List Str → Prop
  | nil (t : List (Nat × Job)) (cur : Option Nat) : Told w ps4 id [] t cur []
  | own {st : WStatus} {sts : List WStatus} {t t1 : List (Nat × Job)} {cur cur1 : Option Nat} {j : Job} {outs : List Str}
      (h : Report (about st) st t cur t1 cur1) (ho : owner (about st) t = some id) (hj : t1.lookup id = some j)
      (hs : Told w ps4 id sts t1 cur1 outs) :
      Told w ps4 id (st :: sts) t cur ((announcement w ps4 j.jobId j.show st).toList ++ outs)
  | other {st : WStatus} {sts : List WStatus} {t t1 : List (Nat × Job)} {cur cur1 : Option Nat} {outs : List Str}
      (h : Report (about st) st t cur t1 cur1) (ho : owner (about st) t ≠ some id)
      (hs : Told w ps4 id sts t1 cur1 outs) : Told w ps4 id (st :: sts) t cur outs

/-- What was written to the standard output of the shell, and where to, oldest first (`new` has the newest event
first). -/
def printed (new : List Event) : List (Option Chan × Str) :=
  new.reverse.filterMap fun
    | .print ch t => some (ch, t)
    | _ => none

/-- From `s` to `s'` exactly these texts were written to the standard output of the shell. -/
def Wrote (s s' : Sh) (outs : List Str) : Prop :=
  ∃ new, s'.trace = new ++ s.trace ∧ printed new = outs.map fun t => ((s.fds.get 1).map FdE.chan, t)

/-- Some report of the sequence crashes the shell: everything before it is recorded, it cannot be. -/
inductive Crashing : List WStatus → List (Nat × Job) → Option Nat → Prop
  | here {st : WStatus} {sts : List WStatus} {t : List (Nat × Job)} {cur : Option Nat}
      (h : ∀ t1 cur1, ¬Report (about st) st t cur t1 cur1) : Crashing (st :: sts) t cur
  | later {st : WStatus} {sts : List WStatus} {t t1 : List (Nat × Job)} {cur cur1 : Option Nat}
      (h : Report (about st) st t cur t1 cur1) (hs : Crashing sts t1 cur1) : Crashing (st :: sts) t cur

/-- The job of a pipeline that has just been started with these processes: nothing is known of any of them. -/
structure NewJob (id : Nat) (pids : List Int) (j : Job) : Prop where
  pids : j.processes.map Process.pid = pids
  unknown : ∀ p ∈ j.processes, p.status = none
  running : j.state = .running
  noted : j.stopStatus = .stillAlive
  foreground : j.background = false
  number : j.jobId = id

/-- The shell is back at the prompt after having waited for the job `id`, with the jobs `t` and the current job
`cur`, except that the job waited for, now `j`, is forgotten unless its first process is stopped. -/
structure Returned (s s' : Sh) (id : Nat) (j : Job) (t : List (Nat × Job)) (cur : Option Nat) : Prop where
  unmasked : s'.masked = false
  current : s'.jc.current = cur
  others : ∀ k, k ≠ id → s'.jc.getJob k = t.lookup k
  gone : (∀ st, FirstHas j st → st.isStopped = false) → s'.jc.getJob id = none
  kept : ∀ st, FirstHas j st → st.isStopped = true → ∃ j', s'.jc.getJob id = some j' ∧ j'.state = .stopped ∧
    j'.processes = j.processes ∧ j'.background = false ∧ j'.jobId = id
  status : ∀ pid c, FirstHas j (.exited pid c) → s'.exitStatus = c
  oldStatus : (∀ pid c, ¬FirstHas j (.exited pid c)) → s'.exitStatus = s.exitStatus
  ctx : s'.ctx = s.ctx
  files : s'.fds = s.fds

/-- The jobs when the job `id` has been continued in the foreground. -/
def resumed (id : Nat) (t : List (Nat × Job)) : List (Nat × Job) :=
  t.map fun q => if q.1 = id then (q.1, { q.2 with state := .running, background := false }) else q

end Rsh.Spec

import Verif.Proofs.Jobs
import Verif.Spec.Demo

/-!
# Properties C43-C48: the job table
-/

namespace Rsh

open Spec

/-! ## C43 -/

/-- C43 (operations).  Whatever job operations were performed, a new job gets an id that no job in the
table has; the new job is found under that id and every other job stays as it is. -/
theorem C43_newIdUnused (os : List JobOp) (jc : JobControl) (h : runJobOps {} os = some jc)
    (ps : List Process) (b : Bool) :
    (jc.createJob ps b).1 ∉ jobIds jc ∧
    (∃ j, (jc.createJob ps b).2.getJob (jc.createJob ps b).1 = some j ∧ j.processes = ps ∧
      j.background = b) ∧
    ∀ id, id ∈ jobIds jc → (jc.createJob ps b).2.getJob id = jc.getJob id := by
  have hok := runJobOps_ok (jc := {}) ⟨by simp, by simp, by simp⟩ h
  have hn : (jc.createJob ps b).1 ∉ jobIds jc := by
    intro hm
    obtain ⟨p, hp, e⟩ := List.mem_map.1 hm
    exact Nat.lt_irrefl _ (e ▸ hok.small p hp)
  refine ⟨hn, ?_, fun id hid => ?_⟩
  · have : (jc.createJob ps b).2.getJob (jc.createJob ps b).1 =
        some ⟨ps, jc.nextId, .stillAlive, .running, b⟩ := by
      show tGet jc.nextId (tInsert jc.nextId _ _) = _
      rw [tGet_tInsert, if_pos rfl]
    exact ⟨_, this, rfl, rfl⟩
  · show tGet _ (tInsert _ _ _) = _
    rw [tGet_tInsert, if_neg (fun e : id = jc.nextId => hn (e ▸ hid : jc.nextId ∈ jobIds jc))]
    rfl

/-- C43 (sessions).  At every prompt of every interactive session the ids in the job table are
pairwise different and the next id to be given is not among them. -/
theorem C43_session (w : World) (s : Sh) (h : AtPrompt w s) :
    (jobIds s.jc).Nodup ∧ s.jc.nextId ∉ jobIds s.jc ∧
    ∀ ps b, (s.jc.createJob ps b).1 ∉ jobIds s.jc := by
  have hok := (tableInv w).atPrompt h
  have hn : s.jc.nextId ∉ jobIds s.jc := by
    intro hm
    obtain ⟨p, hp, e⟩ := List.mem_map.1 hm
    exact Nat.lt_irrefl _ (e ▸ hok.small p hp)
  refine ⟨?_, hn, fun _ _ => hn⟩
  unfold jobIds List.Nodup
  rw [List.pairwise_map]
  exact hok.sorted.imp fun h => Nat.ne_of_lt h

/-- Three jobs, the second one deleted: the new job gets id 4; after deleting the last one the id is
given again. -/
example :
    let p : Process := { pid := -1, argv := [cs!"a"], argv0 := cs!"a", cmd := cs!"a", status := none }
    (runJobOps {} [.create [p] true, .create [p] false, .create [p] true, .delete 2]).map
      (fun jc => (jobIds jc, (jc.createJob [p] true).1)) = some ([1, 3], 4) ∧
    (runJobOps {} [.create [p] true, .create [p] false, .create [p] true, .delete 3]).map
      (fun jc => (jobIds jc, (jc.createJob [p] true).1)) = some ([1, 2], 3) := by decide +kernel

/-! ## C44 -/

/-- C44, as far as it holds: deleting leaves every other job as it is, removes the job when its first
process is not stopped, and keeps it marked Stopped when that process is stopped.  (What is missing: a
pipeline whose first process has exited while a later one is stopped is removed too; see below.) -/
theorem C44_delete_partial (jc : JobControl) (id : Nat) (j : Job) (hj : jc.getJob id = some j)
    (hp : j.processes ≠ []) :
    (∀ id', id' ≠ id → (jc.deleteJob id).getJob id' = jc.getJob id') ∧
    (¬FirstStopped j → (jc.deleteJob id).getJob id = none) ∧
    (FirstStopped j → ∃ j', (jc.deleteJob id).getJob id = some j' ∧ j'.state = .stopped ∧
      j'.processes = j.processes ∧ j'.background = j.background ∧ j'.jobId = j.jobId) := by
  have hl : ¬j.processes.length = 0 := fun e => hp (List.length_eq_zero_iff.1 e)
  have hg : tGet id jc.table = some j := hj
  unfold JobControl.deleteJob
  rw [hg]
  simp only [if_neg hl]
  by_cases hs : FirstStopped j
  · rw [if_pos ((noteStopped_isStopped j).2 hs)]
    refine ⟨fun id' hne => ?_, fun h => absurd hs h, fun _ =>
      ⟨{ JobControl.noteStopped j with state := .stopped }, ?_, rfl, ?_, ?_, ?_⟩⟩
    · show tGet _ (tInsert _ _ _) = _
      rw [tGet_tInsert, if_neg hne, tGet_tRemove, if_neg hne]; rfl
    · show tGet _ (tInsert _ _ _) = _
      rw [tGet_tInsert, if_pos rfl]
    · exact PidsOk.noteStopped_procs j
    · unfold JobControl.noteStopped
      repeat' split
      all_goals rfl
    · exact TableOk.noteStopped_jobId j
  · rw [if_neg fun h => hs ((noteStopped_isStopped j).1 h)]
    refine ⟨fun id' hne => ?_, fun _ => ?_, fun h => absurd h hs⟩
    · rw [getJob_updateNextId]
      show tGet _ (tRemove _ _) = _
      rw [tGet_tRemove, if_neg hne]; rfl
    · rw [getJob_updateNextId]
      show tGet _ (tRemove _ _) = _
      rw [tGet_tRemove, if_pos rfl]

/-- C44, deletion by pid: the same effect as deletion by the id of the job the pid belongs to. -/
theorem C44_deleteByPid_partial (jc : JobControl) (pid : Int) (id : Nat) (j : Job)
    (hpid : jc.pids.lookup pid = some id) (hj : jc.getJob id = some j) (hp : j.processes ≠ []) :
    jc.deleteJobPid pid = some (jc.deleteJob id) := by
  have hl : ¬j.processes.length = 0 := fun e => hp (List.length_eq_zero_iff.1 e)
  have hg : tGet id jc.table = some j := hj
  unfold JobControl.deleteJobPid JobControl.deleteJob
  rw [hpid]
  simp only [hg, if_neg hl]
  split <;> rfl

/-- C44: deleting a job that does not exist changes nothing. -/
theorem C44_deleteMissing (jc : JobControl) (id : Nat) (h : jc.getJob id = none) :
    jc.deleteJob id = jc := by
  have hg : tGet id jc.table = none := h
  unfold JobControl.deleteJob
  rw [hg]

/-- No job. -/
def noJob : Job := { processes := [], jobId := 0, stopStatus := .stillAlive, state := .running, background := false }

/-- A table with a running job and a stopped one. -/
def twoJobs : JobControl :=
  let p (n : Int) : Process := { pid := n, argv := [cs!"a"], argv0 := cs!"a", cmd := cs!"a", status := none }
  ((runJobOps {} [.create [{ p 100 with status := some (.exited 100 0) }, p 101] true,
    .create [p 102] false, .reap [] (.stopped 102 20)]).getD {})

/-- Both cases of C44 occur. -/
example : (∃ j, twoJobs.getJob 1 = some j ∧ ¬FirstStopped j ∧ j.processes ≠ []) ∧
    (∃ j, twoJobs.getJob 2 = some j ∧ FirstStopped j ∧ j.processes ≠ []) := by
  refine ⟨⟨(twoJobs.getJob 1).getD noJob, by decide +kernel, ?_, by decide +kernel⟩,
    ⟨(twoJobs.getJob 2).getD noJob, by decide +kernel, .inl (by decide +kernel), by decide +kernel⟩⟩
  intro h
  rw [← noteStopped_isStopped] at h
  revert h
  decide +kernel

/-- C44 fails: in a pipeline of two the first process exits and the second one is stopped.  All of it
is stopped or terminated, the shell notes the job as Stopped, yet deleting the job removes it: the
stopped process can no longer be continued with `fg` or `bg`. -/
theorem C44_stoppedPipelineLost :
    ∃ (os : List JobOp) (jc : JobControl) (j : Job), runJobOps {} os = some jc ∧
      jc.getJob 1 = some j ∧ j.state = .stopped ∧ AllStopped j ∧ (jc.deleteJob 1).getJob 1 = none := by
  let p : Process := { pid := -1, argv := [cs!"a"], argv0 := cs!"a", cmd := cs!"a", status := none }
  let os : List JobOp := [.create [p, p] false, .setPid 1 0 100, .setPid 1 1 101,
    .reap [] (.exited 100 0), .reap [] (.stopped 101 20)]
  refine ⟨os, (runJobOps {} os).getD {}, (((runJobOps {} os).getD {}).getJob 1).getD noJob,
    by decide +kernel, by decide +kernel, by decide +kernel, ⟨?_, ?_⟩, by decide +kernel⟩
  · have : ∀ p ∈ ((((runJobOps {} os).getD {}).getJob 1).getD noJob).processes, p.status.isSome := by
      decide +kernel
    exact fun p hp => Option.isSome_iff_exists.1 (this p hp)
  · refine ⟨{ p with pid := 101, status := some (.stopped 101 20) }, by decide +kernel, _, rfl, rfl⟩

/-- The same, at the prompt: after `a | b` was stopped this way `fg %1` finds no job. -/
theorem C44_stoppedPipelineLost_session :
    (demo [cs!"a | b"] [.st (.exited 100 0), .st (.stopped 101 20)]).jc.table = [] := by
  decide +kernel

/-! ## C45 -/

/-- C45 (operations): after any sequence of job operations in which processes get pids of their own, a
job is found by the pid of each of its started processes. -/
theorem C45_found (os : List JobOp) (jc : JobControl) (h : runJobOps {} os = some jc)
    (hf : FairOps {} os) (id : Nat) (j : Job) (hj : jc.getJob id = some j) (p : Process)
    (hp : p ∈ j.processes) (hs : p.pid ≠ -1) : jc.getJobPid p.pid = some j := by
  have hok := runJobOps_pids (jc := {}) (fun _ _ h => (List.not_mem_nil h).elim) hf h
  unfold JobControl.getJobPid
  rw [hok id j (lookup_mem hj) p hp hs]
  exact hj

/-- C45 (deletion): once a job has been deleted, by id or by pid, none of its pids resolves to a job. -/
theorem C45_forgotten (jc : JobControl) (id : Nat) (j : Job) (hj : jc.getJob id = some j)
    (p : Process) (hp : p ∈ j.processes) (hd : (jc.deleteJob id).getJob id = none) :
    (jc.deleteJob id).getJobPid p.pid = none := by
  have hne : j.processes ≠ [] := fun e => by rw [e] at hp; cases hp
  have hl : ¬j.processes.length = 0 := fun e => hne (List.length_eq_zero_iff.1 e)
  have hs : ¬FirstStopped j := by
    intro hs
    obtain ⟨j', h, _⟩ := (C44_delete_partial jc id j hj hne).2.2 hs
    rw [hd] at h; cases h
  have hg : tGet id jc.table = some j := hj
  unfold JobControl.getJobPid
  have : (jc.deleteJob id).pids.lookup p.pid = none := by
    unfold JobControl.deleteJob
    rw [hg]
    simp only [if_neg hl]
    rw [if_neg fun h => hs ((noteStopped_isStopped j).1 h), pids_updateNextId]
    show (JobControl.forgetPids _ _).lookup _ = _
    rw [lookup_forget, PidsOk.noteStopped_procs, if_pos (List.mem_map_of_mem hp)]
  rw [this]
  rfl

/-- C45 (sessions): at every prompt of every session on a system that gives children pids of their
own, a job is found by the pid of each of its started processes. -/
theorem C45_session (w : World) (hw : FreshPids w) (s : Sh) (h : AtPrompt w s) (id : Nat) (j : Job)
    (hj : s.jc.getJob id = some j) (p : Process) (hp : p ∈ j.processes) (hs : p.pid ≠ -1) :
    s.jc.getJobPid p.pid = some j := by
  have hok := ((pidInv w hw).atPrompt h).1
  unfold JobControl.getJobPid
  rw [hok id j (lookup_mem hj) p hp hs]
  exact hj

/-- A history as in `C45_found`: two jobs, found by their three pids; the second deleted. -/
example :
    let p : Process := { pid := -1, argv := [cs!"a"], argv0 := cs!"a", cmd := cs!"a", status := none }
    let os : List JobOp := [.create [p, p] true, .setPid 1 0 100, .setPid 1 1 101, .create [p] true,
      .setPid 2 0 102, .reap [] (.exited 100 0)]
    FairOps {} os ∧
    (runJobOps {} os).map (fun jc => ([100, 101, 102].map fun n => (jc.getJobPid n).map Job.jobId,
      ((jc.deleteJob 2).getJob 2).isNone, ((jc.deleteJob 2).getJobPid 102).isNone)) =
      some ([some 1, some 1, some 2], true, true) := by
  intro p os
  constructor
  · refine ⟨by simp [JobOp.Fair, p], fun jc e => ?_⟩
    cases e
    refine ⟨⟨by decide, by decide +kernel⟩, fun jc e => ?_⟩
    cases e
    refine ⟨⟨by decide, by decide +kernel⟩, fun jc e => ?_⟩
    cases e
    refine ⟨by simp [JobOp.Fair, p], fun jc e => ?_⟩
    cases e
    refine ⟨⟨by decide, by decide +kernel⟩, fun jc e => ?_⟩
    cases e
    exact ⟨trivial, fun _ _ => trivial⟩
  · decide +kernel

/-- A system that gives every child a pid of its own. -/
def freshWorld : World := { demoWorld [] with
  fork := fun tr => some (tr.foldr (fun e n => match e with | .spawn p .. => n + p + 1 | _ => n) 1) }

theorem freshWorld_ok : FreshPids freshWorld := by
  intro tr pid h
  cases h
  have key : ∀ tr : List Event, ∀ q ∈ spawnedPids tr,
      q < (tr.foldr (fun e n => match e with | .spawn p .. => n + p + 1 | _ => n) 1 : Nat) := by
    intro tr
    induction tr with
    | nil => intro q hq; cases hq
    | cons e tr ih =>
      intro q hq
      cases e
      case spawn p e evs =>
        simp only [List.foldr_cons]
        rcases List.mem_cons.1 hq with rfl | hq
        · omega
        · have := ih q hq
          omega
      all_goals exact ih q hq
  constructor
  · induction tr with
    | nil => decide
    | cons e tr ih => cases e <;> simp only [List.foldr_cons] <;> omega
  · intro hm
    exact absurd (key tr _ hm) (by omega)

/-! ## C46 -/

/-- C46, as far as it holds: asking for the current job crashes exactly when the job last noted as
current is not in the table any more; never while it is, and never before any job was created. -/
theorem C46_current_partial (jc : JobControl) :
    jc.getCurrentJob = none ↔ ∃ id, jc.current = some id ∧ id ∉ jobIds jc := by
  unfold JobControl.getCurrentJob
  rcases hc : jc.current with _ | id
  · simp
  · simp only [Option.map_eq_none_iff, Option.some.injEq, exists_eq_left']
    unfold tGet jobIds
    rw [List.lookup_eq_none_iff]
    simp only [List.mem_map, not_exists, not_and, bne_iff_ne, ne_eq]
    constructor
    · intro h p hp e; exact h p hp e.symm
    · intro h p hp e; exact h p hp e.symm

/-- C46, as far as it holds: right after a job was created the current job is that job. -/
theorem C46_created_partial (jc : JobControl) (ps : List Process) (b : Bool) :
    ∃ j, (jc.createJob ps b).2.getCurrentJob = some (some j) ∧ j.jobId = (jc.createJob ps b).1 := by
  refine ⟨⟨ps, jc.nextId, .stillAlive, .running, b⟩, ?_, rfl⟩
  show (tGet jc.nextId (tInsert jc.nextId _ jc.table)).map some = _
  rw [tGet_tInsert, if_pos rfl]
  rfl

/-- C46 fails: after the only job was deleted, asking for the current job crashes. -/
theorem C46_crash (ps : List Process) (b : Bool) (hps : ∀ p ∈ ps, p.status = none) :
    ((({} : JobControl).createJob ps b).2.deleteJob 1).getCurrentJob = none := by
  rw [C46_current_partial]
  have hj : (({} : JobControl).createJob ps b).2.table =
      [(1, { processes := ps, jobId := 1, stopStatus := .stillAlive, state := .running, background := b })] := rfl
  have hn : ∀ j : Job, j.processes = ps → j.stopStatus = .stillAlive →
      (JobControl.noteStopped j).stopStatus.isStopped = false := by
    intro j h1 h2
    rw [Bool.eq_false_iff, ne_eq, noteStopped_isStopped, FirstStopped, h1, h2]
    rintro (h | ⟨p, st, hp, h, _⟩)
    · cases h
    · rw [hps p (List.mem_of_mem_head? hp)] at h; cases h
  refine ⟨1, ?_, ?_⟩
  · unfold JobControl.deleteJob
    rw [hj]
    simp only [tGet, List.lookup, beq_self_eq_true]
    split
    · rfl
    · rw [hn _ rfl rfl]
      unfold JobControl.updateNextId
      simp only [Bool.false_eq_true, if_false]
      split <;> rfl
  · unfold JobControl.deleteJob
    rw [hj]
    simp only [tGet, List.lookup, beq_self_eq_true]
    split
    · simp [jobIds, tRemove]
    · rw [hn _ rfl rfl]
      unfold JobControl.updateNextId
      simp only [Bool.false_eq_true, if_false]
      split <;> simp [jobIds, tRemove]

/-- C46 fails at the prompt: after one foreground command has finished. -/
theorem C46_crash_session :
    (demo [cs!"a"] [.st (.exited 100 0)]).jc.getCurrentJob = none := by decide +kernel

/-! ## C47 -/

/-- C47, as far as it holds: the text of the listing, if `PS4` could be read while it is made, is one
line per job, and (at every prompt) in increasing order of ids. -/
theorem C47_text_partial (s : Sh) (ps4 : Str) (h : valueOf s (cs!"PS4") = some ps4) :
    showJobs .none s.jc.table s = (.ok (s.jc.table.flatMap (jobLine ps4)), s) := by
  generalize s.jc.table = t
  have he : expandVar .none (cs!"PS4") s = (.ok (some ps4), s) := by
    show (Out.ok ((s.ctx.getVar _).map Var.value), s) = _
    rw [show (s.ctx.getVar (cs!"PS4")).map Var.value = some ps4 from h]
  induction t with
  | nil => rfl
  | cons p t ih =>
    obtain ⟨id, j⟩ := p
    unfold showJobs
    have h1 : ((do unwrapM .unwrap (← expandVar .none (cs!"PS4"))) : M Str) s = (.ok ps4, s) := by
      rw [run_bind, he]; rfl
    rw [run_bind_ok h1, run_bind_ok ih]
    simp [jobLine, List.append_assoc]

/-- C47: the order of the listing is that of increasing ids. -/
theorem C47_order_partial (w : World) (s : Sh) (h : AtPrompt w s) :
    (jobIds s.jc).Pairwise (· < ·) := by
  unfold jobIds
  rw [List.pairwise_map]
  exact ((tableInv w).atPrompt h).sorted

/-- C47: without jobs, `jobs` prints nothing. -/
theorem C47_empty_partial (s : Sh) (h : s.jc.table = []) :
    bJobs s = printM [] s := by
  unfold bJobs displayJobs
  rw [run_bind_ok (a := []) (s' := s)]
  rw [run_getS_bind, h]
  rfl

/-- C47 fails: as soon as there is any job, `jobs` crashes the shell instead of listing it. -/
theorem C47_crash (s : Sh) (h : s.jc.table ≠ []) : bJobs s = (.panic .borrow, s) := by
  have : displayJobs s = (.panic .borrow, s) := by
    unfold displayJobs
    rw [run_getS_bind]
    rcases ht : s.jc.table with _ | ⟨⟨id, j⟩, t⟩
    · exact absurd ht h
    · rfl
  unfold bJobs
  rw [run_bind, this]

/-- C47 fails at the prompt: start a job in the background, then list the jobs. -/
theorem C47_crash_session : outcome (demoOut [cs!"a &", cs!"jobs"]) = .panic .borrow := by decide +kernel

/-! ## C48 -/

theorem head_markProcs (pid : Int) (st : WStatus) (j : Job) :
    ((markProcs pid st j.processes).head?.bind Process.status = none) ↔ Unreported pid j := by
  unfold markProcs Unreported
  rw [List.head?_map]
  rcases j.processes.head? with _ | p
  · simp
  · simp only [Option.map_some, Option.bind_some, Option.some.injEq, forall_eq']
    by_cases h : p.pid = pid <;> simp [h]

/-- C48, exactly: recording that the child `pid` has reported crashes the shell if and only if the
shell, going through the jobs in order of their ids, comes to a job it looks at whose first process
has not reported yet, before it comes past the job to which `pid` belongs. -/
theorem C48_reap_partial (held : List Nat) (pid : Int) (st : WStatus) (cur : Option Nat)
    (t : List (Nat × Job)) :
    scanJobs held pid st cur t = none ↔
      ∃ pre q post, t = pre ++ q :: post ∧ Open held q ∧ Unreported pid q.2 ∧
        ∀ r ∈ pre, Open held r → ∀ p ∈ r.2.processes, p.pid ≠ pid := by
  induction t with
  | nil => simp [scanJobs]
  | cons q t ih =>
    obtain ⟨id, j⟩ := q
    unfold scanJobs
    split
    · next hc =>
      have hno : ¬Open held (id, j) := by
        rintro ⟨h1, h2⟩
        simp [h1, h2] at hc
      rw [Option.map_eq_none_iff, ih]
      constructor
      · rintro ⟨pre, q, post, rfl, ho, hu, hp⟩
        refine ⟨(id, j) :: pre, q, post, rfl, ho, hu, fun r hr hor => ?_⟩
        rcases List.mem_cons.1 hr with rfl | hr
        · exact absurd hor hno
        · exact hp r hr hor
      · rintro ⟨pre, q, post, e, ho, hu, hp⟩
        cases pre with
        | nil => cases e; exact absurd ho hno
        | cons r pre =>
          cases e
          exact ⟨pre, q, post, rfl, ho, hu, fun r hr => hp r (List.mem_cons_of_mem _ hr)⟩
    · next hc =>
      have ho : Open held (id, j) := by
        simp only [Bool.or_eq_true, List.contains_iff_mem, decide_eq_true_eq, not_or] at hc
        exact hc
      simp only
      split
      · next hn =>
        simp only [true_iff]
        exact ⟨[], (id, j), t, rfl, ho, (head_markProcs pid st j).1 hn, by simp⟩
      · next ss hss =>
        have hnu : ¬Unreported pid j := fun h => by
          rw [(head_markProcs pid st j).2 h] at hss; cases hss
        split
        · next hit =>
          have hmem : ∃ p ∈ j.processes, p.pid = pid := by
            simpa [List.any_eq_true] using hit
          have : ¬∃ pre q post, (id, j) :: t = pre ++ q :: post ∧ Open held q ∧ Unreported pid q.2 ∧
              ∀ r ∈ pre, Open held r → ∀ p ∈ r.2.processes, p.pid ≠ pid := by
            rintro ⟨pre, q, post, e, ho', hu, hp⟩
            cases pre with
            | nil => cases e; exact hnu hu
            | cons r pre =>
              cases e
              obtain ⟨p, hpm, hpe⟩ := hmem
              exact hp _ List.mem_cons_self ho p hpm hpe
          simp only [this, iff_false]
          split <;> simp
        · next hit =>
          have hmem : ∀ p ∈ j.processes, p.pid ≠ pid := by
            simpa [List.any_eq_true] using hit
          rw [Option.map_eq_none_iff, ih]
          constructor
          · rintro ⟨pre, q, post, rfl, ho, hu, hp⟩
            refine ⟨(id, j) :: pre, q, post, rfl, ho, hu, fun r hr hor => ?_⟩
            rcases List.mem_cons.1 hr with rfl | hr
            · exact hmem
            · exact hp r hr hor
          · rintro ⟨pre, q, post, e, ho, hu, hp⟩
            cases pre with
            | nil => cases e; exact absurd hu hnu
            | cons r pre =>
              cases e
              exact ⟨pre, q, post, rfl, ho, hu, fun r hr => hp r (List.mem_cons_of_mem _ hr)⟩

/-- C48, as far as it holds: with a single unfinished job, recording that its first process has
reported does not crash. -/
theorem C48_single_partial (pid : Int) (st : WStatus) (cur : Option Nat) (id : Nat) (j : Job)
    (p : Process) (hp : j.processes.head? = some p) (hpid : p.pid = pid ∨ p.status ≠ none) :
    scanJobs [] pid st cur [(id, j)] ≠ none := by
  rw [ne_eq, C48_reap_partial]
  rintro ⟨pre, q, post, e, ho, hu, _⟩
  cases pre with
  | nil =>
    cases e
    have := hu p hp
    rcases hpid with h | h
    · exact this.2 h
    · exact h this.1
  | cons r pre =>
    have := congrArg List.length e
    simp at this

/-- C48 fails: with a background job running, any foreground command that terminates crashes the
shell. -/
theorem C48_crash_background :
    outcome (demoOut [cs!"a &", cs!"b"] [.st (.exited 101 0)]) = .panic .unwrap := by decide +kernel

/-- C48 fails: in a pipeline the shell crashes if the second process terminates first. -/
theorem C48_crash_pipeline :
    outcome (demoOut [cs!"a | b"] [.st (.exited 101 0), .st (.exited 100 0)]) = .panic .unwrap := by
  decide +kernel

/-- With no other job and the processes terminating in order there is no crash. -/
example : outcome (demoOut [cs!"a | b"] [.st (.exited 100 0), .st (.exited 101 0)]) = .ok := by
  decide +kernel

end Rsh

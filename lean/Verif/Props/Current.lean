import Verif.Proofs.Waits
import Verif.Props.Jobs

/-!
# Property C46: which job is the current one
-/

namespace Rsh

open Spec

theorem waitPid_about (st : WStatus) : waitPid st = about st := by cases st <;> rfl

theorem scan_current {held : List Nat} {st : WStatus} {cur : Option Nat} (t : List (Nat × Job)) {r : WaitScan}
    (h : scanJobs held (waitPid st) st cur t = some r) :
    r.current = match t.find? fun q => q.1 ∉ held ∧ q.2.state ≠ .finished ∧ ∃ p ∈ q.2.processes, p.pid = about st with
      | some q => if Halted (reportedTo (about st) st q.2) then some q.2.jobId else cur
      | none => cur := by
  induction t generalizing r with
  | nil => cases h; rfl
  | cons q t ih =>
    obtain ⟨id, j⟩ := q
    rw [scanJobs] at h
    by_cases hh : id ∈ held ∨ j.state = .finished
    · rw [if_pos (by simpa using hh)] at h
      obtain ⟨r', hr', rfl⟩ := Option.map_eq_some_iff.1 h
      rw [List.find?_cons_of_neg (by simp; intro h1 h2; exact absurd (hh.resolve_left h1) h2)]
      exact ih (r := r') hr'
    · rw [if_neg (by simpa using hh)] at h
      obtain ⟨h1, h2⟩ := not_or.1 hh
      simp only at h
      split at h
      · cases h
      · by_cases hm : ∃ p ∈ j.processes, p.pid = about st
        · rw [List.find?_cons_of_pos (by simpa using ⟨h1, h2, hm⟩)]
          have hi := halted_iff (about st) st j
          rw [if_pos (by simpa [waitPid_about] using hm)] at h
          simp only
          rw [waitPid_about] at h
          split at h
          · cases h
            by_cases hs : Halted (reportedTo (about st) st j)
            · rw [if_pos hs]; simp only [hi.1 hs, if_true]
            · rw [if_neg hs]; exact if_neg fun e => hs (hi.2 e)
          · rename_i hr
            cases h
            rw [if_neg]
            intro hs
            exact hr (by rw [hi.1 hs]; simp)
        · rw [List.find?_cons_of_neg (by simpa using fun _ _ => by simpa using hm)]
          rw [if_neg (by simpa [waitPid_about] using hm)] at h
          obtain ⟨r', hr', rfl⟩ := Option.map_eq_some_iff.1 h
          exact ih (r := r') hr'

theorem JobOp.run_current {jc jc' : JobControl} (o : JobOp) (h : o.run jc = some jc') :
    jc'.current = o.newest jc jc.current := by
  cases o with
  | create ps b => cases h; rfl
  | setPid id i pid => cases h; rfl
  | delete id => cases h; exact deleteJob_current ..
  | deletePid pid =>
    simp only [JobOp.run] at h
    unfold JobControl.deleteJobPid at h
    split at h
    · cases h; rfl
    · split at h
      · cases h; rfl
      · split at h
        · cases h
        · simp only at h
          split at h
          · cases h; rfl
          · cases h
            unfold JobControl.updateNextId
            simp only
            split <;> rfl
  | resume id b => cases h; rfl
  | reap held st =>
    simp only [JobOp.run] at h
    obtain ⟨r, hr, rfl⟩ := Option.map_eq_some_iff.1 h
    exact scan_current _ hr
  | setCurrent id => cases h; rfl
  | clear =>
    cases h
    show (JobControl.clearCompleted jc).current = jc.current
    unfold JobControl.clearCompleted
    generalize (jc.table.filter _).map Prod.fst = ids
    induction ids generalizing jc with
    | nil => rfl
    | cons i ids ih => exact (ih (jc := jc.deleteJob i)).trans (deleteJob_current ..)

/-- C46, as far as it holds: after any sequence of operations the current job is the one that was created, made the
current one or stopped last, as long as it is in the table; there is none if that has never happened.  (What is
missing: when that job is not there any more, the shell crashes.) -/
theorem C46_latest_partial (jc jc' : JobControl) (ops : List JobOp) (h : runJobOps jc ops = some jc') :
    (∀ id j, newest jc jc.current ops = some id → jc'.table.lookup id = some j → jc'.getCurrentJob = some (some j)) ∧
    (newest jc jc.current ops = none → jc'.getCurrentJob = some none) ∧
    (∀ id, newest jc jc.current ops = some id → id ∉ jobIds jc' → jc'.getCurrentJob = none) := by
  have key : jc'.current = newest jc jc.current ops := by
    induction ops generalizing jc with
    | nil => cases h; rfl
    | cons o os ih =>
      obtain ⟨jc1, h1, h2⟩ := Option.bind_eq_some_iff.1 h
      rw [ih jc1 h2, newest, h1, JobOp.run_current o h1]
  refine ⟨fun id j hn hj => ?_, fun hn => ?_, fun id hn hj => ?_⟩
  · unfold JobControl.getCurrentJob tGet
    rw [key, hn]
    simp only [hj, Option.map_some]
  · unfold JobControl.getCurrentJob
    rw [key, hn]
  · rw [C46_current_partial]
    exact ⟨id, key.trans hn, hj⟩

/-- Two jobs are started, the first is stopped, the second ends: the first is the current one. -/
def demoCurrent : List JobOp :=
  [.create [⟨-1, [cs!"a"], cs!"a", cs!"a", none⟩] true, .setPid 1 0 100, .create [⟨-1, [cs!"b"], cs!"b", cs!"b", none⟩] false, .setPid 2 0 101,
    .reap [2] (.stopped 100 20), .reap [] (.exited 101 0), .delete 2]

example : newest {} none demoCurrent = some 1 ∧ newest {} none (demoCurrent.take 4) = some 2 ∧
    ((runJobOps {} demoCurrent).bind JobControl.getCurrentJob).map (·.map Job.jobId) = some (some 1) ∧
    newest {} none (demoCurrent ++ [.create [⟨-1, [cs!"c"], cs!"c", cs!"c", none⟩] false, .setCurrent 1]) = some 1 := by
  decide +kernel

end Rsh

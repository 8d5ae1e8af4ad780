import Verif.Props.Waiting

/-!
# Properties C105-C109: what is known and said about jobs
-/

namespace Rsh

open Spec

/-! ## C105 -/

/-- C105 fails for every `fg`: whatever is reported about the job it continues, and about others, the exit status
stays what it was. -/
theorem C105_unchanged (w : World) (n : Nat) (s : Sh) (hp : AtPrompt w s) (c : Call) (hc : c.Ok s)
    (hname : c.name = cs!"fg") (x : Str) (vs : List Str) (hx : c.values = x :: vs) (id : Nat) (hn : Names s x id)
    (j : Job) (hj : s.jc.getJob id = some j) (hk : ∀ tr, ∀ p ∈ j.processes, w.killOk tr p.pid = true) (ps4 : Str)
    (hps4 : valueOf s (cs!"PS4") = some ps4) (sts : List WStatus) (hb : Batch s.waits sts) (hne : s.waits ≠ []) :
    (∃ s', interactiveLine w (n + 1) c.text s = (.ok (), s') ∧ s'.exitStatus = s.exitStatus) ∨
    ∃ s', interactiveLine w (n + 1) c.text s = (.panic .unwrap, s') := by
  have h := fg_exact w n s hp c hc hname x vs hx id hn j hj hk ps4 hps4 sts hb
  rcases reports_or_crashing sts (resumed id s.jc.table) s.jc.current with ⟨t', cur', hr⟩ | hr
  · obtain ⟨s', j', a1, -, -, -, a5, -⟩ := h.1 hne t' cur' hr
    exact .inl ⟨s', a1, a5⟩
  · exact .inr (h.2 hr)

/-- C105 fails: the command continued by `fg` exits with status 5, yet `&&` runs the next command. -/
theorem C105_counterexample :
    started (demo [cs!"ls", cs!"fg %1 && ls x"]
      [.st (.stopped 100 20), .err, .st (.exited 100 5), .err, .st (.exited 101 0), .err]).trace =
        [[cs!"ls"], [cs!"ls", cs!"x"]] := by decide +kernel

/-! ## C106 and C107 -/

/-- Operations on the job table other than continuing a job; every new job has a process. -/
def Spec.JobOp.Plain : JobOp → Prop
  | .create ps _ => ps ≠ []
  | .resume .. => False
  | _ => True

/-- What matters of a table for C106. -/
def bgTags (t : List (Nat × Job)) : List (Nat × Bool × Nat) := t.map fun p => (p.1, p.2.background, p.2.processes.length)

theorem lookup_mapped [DecidableEq α] (f : β → γ) (k : α) (l : List (α × β)) :
    (l.map fun p => (p.1, f p.2)).lookup k = (l.lookup k).map f := by
  induction l with
  | nil => rfl
  | cons p l ih =>
    obtain ⟨a, b⟩ := p
    rw [List.map_cons, lookup_cons_if, lookup_cons_if, ih]
    split <;> rfl

theorem scan_bgTags {held : List Nat} {pid : Int} {st : WStatus} {cur : Option Nat}
    {t : List (Nat × Job)} {r : WaitScan} (h : scanJobs held pid st cur t = some r) :
    bgTags r.table = bgTags t := by
  have hl : ∀ ps : List Process, (markProcs pid st ps).length = ps.length := fun ps => by simp [markProcs]
  induction t generalizing r with
  | nil => unfold scanJobs at h; cases h; rfl
  | cons p t ih =>
    obtain ⟨id, j⟩ := p
    unfold scanJobs at h
    split at h
    · rcases hs : scanJobs held pid st cur t with _ | r'
      · rw [hs] at h; cases h
      · rw [hs] at h; cases h
        have := ih hs
        simp only [bgTags, List.map_cons] at this ⊢
        rw [this]
    · simp only at h
      split at h
      · cases h
      · split at h
        · split at h
          · cases h
            simp only [bgTags, List.map_cons, hl]
          · cases h
            simp only [bgTags, List.map_cons, hl]
        · rcases hs : scanJobs held pid st cur t with _ | r'
          · rw [hs] at h; cases h
          · rw [hs] at h; cases h
            have := ih hs
            simp only [bgTags, List.map_cons, hl] at this ⊢
            rw [this]

/-- The ids noted as those of background jobs are those of the background jobs. -/
structure BgOk (jc : JobControl) : Prop where
  table : TableOk jc
  procs : ∀ q ∈ jc.table, q.2.processes ≠ []
  bg : ∀ id, id ∈ jc.bg ↔ ∃ j, jc.table.lookup id = some j ∧ j.background = true

namespace BgOk

theorem of_tags {jc jc' : JobControl} (h : BgOk jc) (ht : bgTags jc'.table = bgTags jc.table) (hn : TableOk jc')
    (hb : jc'.bg = jc.bg) : BgOk jc' where
  table := hn
  procs q hq e := by
    have : (q.1, q.2.background, q.2.processes.length) ∈ bgTags jc.table := by
      rw [← ht]; exact List.mem_map_of_mem (f := fun p : Nat × Job => (p.1, p.2.background, p.2.processes.length)) hq
    obtain ⟨q', hq', e'⟩ := List.mem_map.1 this
    simp only [Prod.mk.injEq] at e'
    rw [e] at e'
    exact h.procs q' hq' (List.length_eq_zero_iff.1 e'.2.2)
  bg id := by
    have hl : ∀ t : List (Nat × Job), (∃ j, t.lookup id = some j ∧ j.background = true) ↔
        ∃ x, (bgTags t).lookup id = some x ∧ x.1 = true := by
      intro t
      have h : (bgTags t).lookup id = (t.lookup id).map fun j : Job => (j.background, j.processes.length) :=
        lookup_mapped (fun j : Job => (j.background, j.processes.length)) id t
      rw [h]
      cases t.lookup id <;> simp
    rw [hb, h.bg id, hl, hl, ht]

theorem modJob {jc : JobControl} (h : BgOk jc) (id : Nat) (f : Job → Job) (hf : ∀ j, (f j).jobId = j.jobId)
    (hb : ∀ j, (f j).background = j.background) (hl : ∀ j, (f j).processes.length = j.processes.length) :
    BgOk (jc.modJob id f) := by
  refine h.of_tags ?_ (h.table.modJob id f hf) rfl
  simp only [JobControl.modJob, bgTags, List.map_map]
  apply List.map_congr_left
  intro p _
  simp only [Function.comp]
  split
  · simp [hb, hl]
  · rfl

theorem createJob {jc : JobControl} (h : BgOk jc) {ps : List Process} (hps : ps ≠ []) (b : Bool) :
    BgOk (jc.createJob ps b).2 where
  table := h.table.createJob ps b
  procs q hq := by
    rcases mem_tInsert hq with rfl | hq
    · exact hps
    · exact h.procs q hq
  bg id := by
    have hnew : jc.nextId ∉ jc.bg := by
      rw [h.bg]
      rintro ⟨j, hj, -⟩
      exact Nat.lt_irrefl _ (h.table.small _ (lookup_mem hj))
    show id ∈ (if b then jc.nextId :: jc.bg.filter (· ≠ jc.nextId) else jc.bg) ↔
      ∃ j, tGet id (tInsert jc.nextId ⟨ps, jc.nextId, .stillAlive, .running, b⟩ jc.table) = some j ∧ j.background = true
    rw [tGet_tInsert]
    by_cases hid : id = jc.nextId
    · subst hid
      rw [if_pos rfl]
      cases b <;> simp [hnew]
    · rw [if_neg hid, show tGet id jc.table = jc.table.lookup id from rfl, ← h.bg]
      cases b <;> simp [hid]

theorem deleteJob {jc : JobControl} (h : BgOk jc) (id : Nat) : BgOk (jc.deleteJob id) := by
  cases hj : jc.getJob id with
  | none => rw [C44_deleteMissing jc id hj]; exact h
  | some j =>
    have hm := lookup_mem (show jc.table.lookup id = some j from hj)
    have hd := C44_delete_partial jc id j hj (h.procs _ hm)
    have hok := h.table.deleteJob id
    have hbg : (¬FirstStopped j → (jc.deleteJob id).bg = if j.background then jc.bg.filter (· ≠ id) else jc.bg) ∧
        (FirstStopped j → (jc.deleteJob id).bg = jc.bg) := by
      have hl : ¬j.processes.length = 0 := fun e => h.procs _ hm (List.length_eq_zero_iff.1 e)
      have hb : (JobControl.noteStopped j).background = j.background := by
        unfold JobControl.noteStopped
        repeat' split
        all_goals rfl
      unfold JobControl.deleteJob
      rw [show tGet id jc.table = some j from hj]
      simp only [if_neg hl]
      by_cases hs : FirstStopped j
      · rw [if_pos ((noteStopped_isStopped j).2 hs)]
        exact ⟨fun e => absurd hs e, fun _ => rfl⟩
      · rw [if_neg fun e => hs ((noteStopped_isStopped j).1 e)]
        refine ⟨fun _ => ?_, fun e => absurd e hs⟩
        rw [hb]
        unfold JobControl.updateNextId
        split <;> rfl
    refine ⟨hok, fun q hq => ?_, fun k => ?_⟩
    · have hq' : (jc.deleteJob id).getJob q.1 = some q.2 := (tGet_iff hok.sorted).2 hq
      by_cases e : q.1 = id
      · rw [e] at hq'
        by_cases hs : FirstStopped j
        · obtain ⟨j', a1, -, a2, -⟩ := hd.2.2 hs
          rw [hq'] at a1
          rw [Option.some.inj a1, a2]
          exact h.procs _ hm
        · rw [hd.2.1 hs] at hq'; cases hq'
      · rw [hd.1 _ e] at hq'
        exact h.procs q (lookup_mem hq')
    · show k ∈ (jc.deleteJob id).bg ↔ ∃ j, (jc.deleteJob id).getJob k = some j ∧ _
      have hk : k ∈ jc.bg ↔ ∃ j, jc.getJob k = some j ∧ j.background = true := h.bg k
      by_cases hs : FirstStopped j
      · rw [hbg.2 hs, hk]
        by_cases e : k = id
        · subst e
          obtain ⟨j', a1, -, -, a2, -⟩ := hd.2.2 hs
          rw [a1, hj]
          simp [a2]
        · rw [hd.1 k e]
      · rw [hbg.1 hs]
        by_cases e : k = id
        · subst e
          rw [hd.2.1 hs]
          cases hb : j.background with
          | true => simp
          | false =>
            rw [if_neg (by simp), hk, hj]
            simp [hb]
        · rw [hd.1 k e, ← hk]
          split
          · simp [e]
          · rfl

theorem run {o : JobOp} {jc jc' : JobControl} (h : BgOk jc) (ho : o.Plain) (e : o.run jc = some jc') : BgOk jc' := by
  cases o with
  | create ps b => cases e; exact h.createJob ho b
  | setPid id i pid =>
    cases e
    have := h.modJob id (startProc i pid) (fun _ => rfl) (fun _ => rfl) (fun j => by simp [startProc])
    exact ⟨this.table.updatePid id pid, this.procs, this.bg⟩
  | delete id => cases e; exact h.deleteJob id
  | deletePid pid =>
    change jc.deleteJobPid pid = some jc' at e
    cases hp : jc.pids.lookup pid with
    | none => unfold JobControl.deleteJobPid at e; rw [hp] at e; cases e; exact h
    | some id =>
      cases hj : jc.getJob id with
      | none =>
        unfold JobControl.deleteJobPid at e
        rw [hp] at e
        simp only [show tGet id jc.table = none from hj] at e
        cases e; exact h
      | some j =>
        rw [C44_deleteByPid_partial jc pid id j hp hj (h.procs _ (lookup_mem (show jc.table.lookup id = some j from hj)))] at e
        cases e; exact h.deleteJob id
  | resume id b => exact ho.elim
  | reap held st =>
    simp only [JobOp.run] at e
    rcases hs : scanJobs held (waitPid st) st jc.current jc.table with _ | r
    · rw [hs] at e; cases e
    · rw [hs] at e; cases e
      exact h.of_tags (scan_bgTags hs) (TableOk.of_tags h.table (TableOk.scan_tags hs) rfl) rfl
  | setCurrent id => cases e; exact ⟨TableOk.of_tags h.table rfl rfl, h.procs, h.bg⟩
  | clear =>
    cases e
    unfold JobControl.clearCompleted
    generalize (jc.table.filter _).map Prod.fst = ids
    induction ids generalizing jc with
    | nil => exact h
    | cons i ids ih => exact ih (h.deleteJob i)

theorem runs {os : List JobOp} {jc jc' : JobControl} (h : BgOk jc) (ho : ∀ o ∈ os, o.Plain)
    (e : runJobOps jc os = some jc') : BgOk jc' := by
  induction os generalizing jc with
  | nil => cases e; exact h
  | cons o os ih =>
    simp only [runJobOps] at e
    rcases h1 : o.run jc with _ | jc1
    · rw [h1] at e; cases e
    · rw [h1] at e
      exact ih (h.run (ho o List.mem_cons_self) h1) (fun o' h' => ho o' (List.mem_cons_of_mem _ h')) e

end BgOk

/-- C106, the part that holds: whatever operations are performed on the job table, in whatever order, as long as
none continues a stopped job, the shell takes for background jobs exactly the jobs in the table that were created
as such.  Missing: jobs continued by `fg` and `bg` (see the counterexamples). -/
theorem C106_ops_partial (os : List JobOp) (ho : ∀ o ∈ os, o.Plain) (jc : JobControl)
    (h : runJobOps {} os = some jc) (id : Nat) :
    jc.isBackgroundJob id = true ↔ ∃ j, jc.getJob id = some j ∧ j.background = true := by
  have := BgOk.runs (jc := {}) ⟨⟨by simp, by simp, by simp⟩, by simp, by simp⟩ ho h
  unfold JobControl.isBackgroundJob
  rw [List.contains_iff_mem]
  exact this.bg id

/-- Two background jobs and one in the foreground; one of the two exits and is removed. -/
example :
    let p (n : Int) : Process := { pid := n, argv := [cs!"a"], argv0 := cs!"a", cmd := cs!"a", status := none }
    let os : List JobOp := [.create [p 100] true, .create [p 101] false, .create [p 102, p 103] true,
      .reap [] (.exited 100 0), .clear]
    (∀ o ∈ os, o.Plain) ∧ (runJobOps {} (os.take 3)).map (fun jc => (List.range 5).filter jc.isBackgroundJob) = some [1, 3] := by
  refine ⟨?_, by decide +kernel⟩
  intro o ho
  simp only [List.mem_cons, List.not_mem_nil, or_false] at ho
  rcases ho with rfl | rfl | rfl | rfl | rfl <;> simp [JobOp.Plain]

/-- C106 fails: a command is stopped and continued by `bg`; it runs in the background and is not taken for a
background job. -/
theorem C106_bgUnknown :
    let s := demo [cs!"ls", cs!"bg %1"] [.st (.stopped 100 20), .err]
    (s.jc.getJob 1).map (fun j => (j.state, j.background)) = some (.running, true) ∧
      s.jc.isBackgroundJob 1 = false := by decide +kernel

/-- C106 fails: a background job is continued by `fg` and exits; there is no job left, and job 1 is still taken for a
background job, also when a new command in the foreground gets that number. -/
theorem C106_fgStale :
    (let s := demo [cs!"ls &", cs!"fg %1"] [.st (.exited 100 0), .err]
     s.jc.table = [] ∧ s.jc.isBackgroundJob 1 = true) ∧
    (let s := demo [cs!"ls &", cs!"fg %1", cs!"ls"] [.st (.exited 100 0), .err, .st (.stopped 101 20), .err]
     (s.jc.getJob 1).map (fun j => j.background) = some false ∧ s.jc.isBackgroundJob 1 = true) := by decide +kernel

/-- C107 fails in every state: asked whether there are background jobs, the shell answers yes exactly when none of
its jobs is taken for one. -/
theorem C107_inverted (jc : JobControl) :
    jc.backgroundJobs = true ↔ ∀ id, jc.isBackgroundJob id = false := by
  unfold JobControl.backgroundJobs JobControl.isBackgroundJob
  cases jc.bg with
  | nil => simp
  | cons a l =>
    simp only [List.isEmpty_cons, Bool.false_eq_true, false_iff]
    intro h
    have := h a
    simp at this

/-- C107 fails: there is no job at all, and the answer is yes; one job runs in the background, and it is no. -/
theorem C107_counterexample :
    (demo [] []).jc.table = [] ∧ (demo [] []).jc.backgroundJobs = true ∧
    (demo [cs!"ls &"] []).jc.table.map (fun q => (q.1, q.2.background)) = [(1, true)] ∧
    (demo [cs!"ls &"] []).jc.backgroundJobs = false := by decide +kernel

/-! ## C108 and C109 -/

theorem flatMap_names (last : Option Int) (ps : List Process) (h : ∀ p ∈ ps, some p.pid ≠ last) (q : Process)
    (hq : some q.pid = last) :
    ((ps ++ [q]).flatMap fun p => p.cmd ++ (if some p.pid = last then [] else cs!" | ")) =
      List.intercalate (cs!" | ") ((ps ++ [q]).map Process.cmd) := by
  induction ps with
  | nil => simp [hq, List.intercalate]
  | cons p ps ih =>
    have := ih fun p hp => h p (List.mem_cons_of_mem _ hp)
    rw [List.cons_append, List.flatMap_cons, this, List.map_cons, if_neg (h p List.mem_cons_self)]
    cases ps with
    | nil => simp [List.intercalate, List.intersperse]
    | cons p' ps => simp [List.intercalate, List.intersperse]

/-- How a job is described, when the last of its processes has a pid of its own. -/
theorem show_text {j : Job} {ps : List Process} {q : Process} (hps : j.processes = ps ++ [q])
    (h : ∀ p ∈ ps, p.pid ≠ q.pid) :
    j.show = jobText j.state.show (j.processes.map Process.cmd) j.background := by
  have hl : j.processes.getLast?.map Process.pid = some q.pid := by rw [hps]; simp
  unfold Job.show jobText
  simp only
  rw [hl, hps, flatMap_names (some q.pid) ps (fun p hp e => h p hp (Option.some.inj e)) q rfl]
  simp

theorem report_unique {pid : Int} {st : WStatus} {t t1 t2 : List (Nat × Job)} {cur cur1 cur2 : Option Nat}
    (h1 : Report pid st t cur t1 cur1) (h2 : Report pid st t cur t2 cur2) : t1 = t2 ∧ cur1 = cur2 := by
  have e1 := scanJobs_report h1
  rw [scanJobs_report h2] at e1
  simp only [Option.some.injEq, WaitScan.mk.injEq, true_and] at e1
  exact ⟨e1.1.symm, e1.2.symm⟩

/-- Reports about other processes are not announced. -/
theorem told_others {w : World} {ps4 : Str} {id : Nat} {sts : List WStatus} {t : List (Nat × Job)} {cur : Option Nat}
    {outs : List Str} (h : Told w ps4 id sts t cur outs) (pids : List Int)
    (hP : ∀ q ∈ t, q.1 = id → ∀ p ∈ q.2.processes, p.pid ∈ pids) (hsts : ∀ st ∈ sts, about st ∉ pids) : outs = [] := by
  induction h with
  | nil => rfl
  | @own st sts t t1 cur cur1 j outs h ho hj hs ih =>
    exfalso
    unfold owner at ho
    cases hf : t.find? fun q => q.2.state != .finished && q.2.processes.any fun p => p.pid == about st with
    | none => rw [hf] at ho; cases ho
    | some q =>
      rw [hf] at ho
      have h1 := List.find?_some hf
      simp only [Bool.and_eq_true, List.any_eq_true, beq_iff_eq] at h1
      obtain ⟨p, hp, e⟩ := h1.2
      have := hP q (List.mem_of_find?_eq_some hf) (Option.some.inj ho) p hp
      rw [e] at this
      exact hsts st List.mem_cons_self this
  | @other st sts t t1 cur cur1 outs h ho hs ih =>
    refine ih ?_ fun st' h' => hsts st' (List.mem_cons_of_mem _ h')
    refine Report.all h (P := fun i j => i = id → ∀ p ∈ j.processes, p.pid ∈ pids) ?_ ?_ hP
    · intro q hq
      unfold passed
      split
      · exact hq
      · exact hq
    · intro i j hP e p hp
      obtain ⟨p0, hp0, rfl⟩ := List.mem_map.1 hp
      have := hP e p0 hp0
      split <;> exact this

/-- C108, for pipelines and any other jobs: during the wait exactly the lines of `Told` are written, one for each
process of the pipeline that is reported as killed or stopped, in the order of the reports. -/
theorem C108_told (w : World) (hw : Resources w) (n : Nat) (s : Sh) (hp : AtPrompt w s) (p : ExtPipe)
    (hok : ∀ e ∈ p.stages, e.Simple s) (hfg : p.background = false) (ps4 : Str)
    (hps4 : valueOf s (cs!"PS4") = some ps4) :
    ∃ (kid : Kid) (kids : List Kid) (j : Job), NewJob s.jc.nextId ((kid :: kids).map fun k => (k.1 : Int)) j ∧
      j.processes.map Process.cmd = p.stages.map Ext.name ∧
      ∀ sts t' cur', Batch s.waits sts → s.waits ≠ [] →
        Reports sts (s.jc.table ++ [(s.jc.nextId, j)]) (some s.jc.nextId) t' cur' →
        ∃ s' outs, interactiveLine w (n + 1) p.text s = (.ok (), s') ∧
          Told w ps4 s.jc.nextId sts (s.jc.table ++ [(s.jc.nextId, j)]) (some s.jc.nextId) outs ∧ Wrote s s' outs := by
  obtain ⟨kid, kids, j, -, -, -, hnew, hnames, hrun⟩ := foreground_exact w hw n s hp p hok hfg ps4 hps4
  refine ⟨kid, kids, j, hnew, hnames, fun sts t' cur' hb hne hr => ?_⟩
  obtain ⟨s', j', a1, -, -, -, -, outs, a2, a3⟩ := (hrun sts hb).1 hne t' cur' hr
  exact ⟨s', outs, a1, a2, a3⟩

/-- C108: a command that is killed or stopped by a signal is announced by one line on the standard output: the number
of the job, the prompt PS4, what became of it, its name, and the signal; when it exits nothing is written.  Whatever
other jobs there are and are reported about. -/
theorem C108_command (w : World) (hw : Resources w) (n : Nat) (s : Sh) (hp : AtPrompt w s) (e : Ext)
    (hok : e.Simple s) (ps4 : Str) (hps4 : valueOf s (cs!"PS4") = some ps4) (pid : Nat)
    (hpid : w.fork s.trace = some pid) (hjobs : ∀ q ∈ s.jc.table, PassedBy pid q) (st : WStatus) (hst : about st = pid)
    (sts : List WStatus) (hsts : ∀ st' ∈ sts, about st' ≠ pid) (hb : Batch s.waits (st :: sts)) :
    ∃ s', interactiveLine w (n + 1) (ExtPipe.mk e [] false).text s = (.ok (), s') ∧
      Wrote s s' (announcement w ps4 s.jc.nextId
        (jobText (if st.isStopped then cs!"Stopped" else cs!"Done") [e.name] false) st).toList := by
  have hti := (tableInv w).atPrompt hp
  have hid : ∀ q ∈ s.jc.table, q.1 ≠ s.jc.nextId := fun q hq => Nat.ne_of_lt (hti.small q hq)
  have hall : ∀ e' ∈ (ExtPipe.mk e [] false).stages, e'.Simple s := by simpa [ExtPipe.stages] using hok
  obtain ⟨kid, kids, j, hlen, hfork, -, hnew, hnames, hrun⟩ :=
    foreground_exact w hw n s hp (ExtPipe.mk e [] false) hall rfl ps4 hps4
  obtain rfl : kid.1 = pid := by rw [hpid] at hfork; exact (Option.some.inj hfork).symm
  obtain rfl : kids = [] := by
    have : kids.length + 1 = 1 := hlen
    exact List.length_eq_zero_iff.1 (by omega)
  have hnames : j.processes.map Process.cmd = [e.name] := hnames
  obtain ⟨p1, hps⟩ : ∃ p1, j.processes = [p1] :=
    List.length_eq_one_iff.1 (by simpa using congrArg List.length hnames)
  have hp1 : p1.pid = kid.1 := by have := hnew.pids; rw [hps] at this; simpa using this
  have hc1 : p1.cmd = e.name := by rw [hps] at hnames; simpa using hnames
  have h1 : Report kid.1 st (s.jc.table ++ [(s.jc.nextId, j)]) (some s.jc.nextId)
      (s.jc.table.map passed ++ [(s.jc.nextId, reportedTo kid.1 st j)])
      (if Halted (reportedTo kid.1 st j) then some j.jobId else some s.jc.nextId) :=
    new_report hnew st hjobs (some s.jc.nextId)
  obtain ⟨⟨p2, hp2, hs2⟩, -⟩ := new_first hnew st
  have hknown : ∀ q ∈ s.jc.table.map passed ++ [(s.jc.nextId, reportedTo kid.1 st j)],
      q.2.state ≠ .finished → FirstKnown q.2 := by
    intro q hq
    rcases List.mem_append.1 hq with hq | hq
    · obtain ⟨q0, hq0, rfl⟩ := List.mem_map.1 hq
      exact passed_all fun hf => (hjobs q0 hq0 hf).1
    · obtain rfl := List.mem_singleton.1 hq
      exact fun _ => ⟨p2, st, hp2, hs2⟩
  obtain ⟨t', cur', h2⟩ := reports_exist sts hknown
    (if Halted (reportedTo kid.1 st j) then some j.jobId else some s.jc.nextId)
  rw [← hst] at h1
  obtain ⟨s', j', a1, -, -, -, -, outs, a2, a3⟩ := (hrun _ hb).1 hb.ne_nil t' cur' (.cons h1 (by rw [hst]; exact h2))
  refine ⟨s', a1, ?_⟩
  have howner : owner (about st) (s.jc.table ++ [(s.jc.nextId, j)]) = some s.jc.nextId := by
    rw [hst]
    exact owner_member hjobs (by rw [hnew.running]; simp) ⟨p1, by rw [hps]; exact List.mem_singleton_self _, hp1⟩
  cases a2 with
  | other _ ho _ => exact absurd howner ho
  | @own _ _ _ t1 _ cur1 j1 outs h ho hj hs =>
    obtain ⟨rfl, rfl⟩ := report_unique h h1
    have hj1 : j1 = reportedTo (about st) st j := by
      have := lookup_last (t := s.jc.table.map passed) (k := s.jc.nextId) (fun q hq => by
        obtain ⟨q0, hq0, rfl⟩ := List.mem_map.1 hq
        rw [passed_fst]
        exact hid q0 hq0) (reportedTo (about st) st j)
      rw [this] at hj
      exact (Option.some.inj hj).symm
    have houts : outs = [] := by
      refine told_others hs [(kid.1 : Int)] ?_ fun st' h' hm => hsts st' h' (List.mem_singleton.1 hm)
      intro q hq e' p' hp'
      rcases List.mem_append.1 hq with hq | hq
      · obtain ⟨q0, hq0, rfl⟩ := List.mem_map.1 hq
        exact absurd ((passed_fst q0).symm.trans e') (hid q0 hq0)
      · obtain rfl := List.mem_singleton.1 hq
        have hpp : (reportedTo (about st) st j).processes.map Process.pid = [(kid.1 : Int)] := by
          show (j.processes.map _).map Process.pid = _
          rw [hps]
          simp only [List.map_cons, List.map_nil]
          split <;> rw [← hp1]
        have := List.mem_map_of_mem (f := Process.pid) hp'
        rw [hpp] at this
        exact this
    have hjob : (reportedTo (about st) st j).processes = [{ p1 with status := some st }] := by
      show j.processes.map _ = _
      rw [hps]
      simp [hst, hp1]
    have hstate : (reportedTo (about st) st j).state.show = if st.isStopped then cs!"Stopped" else cs!"Done" := by
      have : (reportedTo (about st) st j).state = if st.isStopped then .stopped else .finished := by
        unfold reportedTo
        simp only
        rw [hps]
        simp [hst, hp1]
      rw [this]
      split <;> rfl
    have hshow : (reportedTo (about st) st j).show =
        jobText (if st.isStopped then cs!"Stopped" else cs!"Done") [e.name] false := by
      rw [show_text (ps := []) (q := { p1 with status := some st }) hjob (by intro p hp; cases hp), hstate, hjob]
      show jobText _ [p1.cmd] j.background = _
      rw [hc1, hnew.foreground]
    rw [houts, List.append_nil, hj1, hshow] at a3
    have : (reportedTo (about st) st j).jobId = s.jc.nextId := hnew.number
    rw [this] at a3
    exact a3

/-- C109: a pipeline started in the background is announced by one line on the standard output: the number of the job,
the pid of its first process, and the names of its commands. -/
theorem C109_announced (w : World) (hw : Resources w) (hf : FreshPids w) (n : Nat) (s : Sh) (hp : AtPrompt w s)
    (p : ExtPipe) (hok : ∀ e ∈ p.stages, e.Simple s) (hbg : p.background = true) (pid : Nat)
    (hpid : w.fork s.trace = some pid) :
    ∃ s', interactiveLine w (n + 1) p.text s = (.ok (), s') ∧
      Wrote s s' [cs!"[" ++ natStr s.jc.nextId ++ cs!"] (" ++ natStr pid ++ cs!") " ++
        jobText (cs!"Running") (p.stages.map Ext.name) true ++ cs!"\n"] := by
  obtain ⟨kid, kids, s', job, a1, a2, a3, a4, -, -, -, a7, a8, -, a9, a10, -⟩ := background_exact w hw n s hp p hok hbg
  have h0 := a3 0 kid rfl
  obtain rfl : kid.1 = pid := by
    have h0 : w.fork s.trace = some kid.1 := h0
    rw [hpid] at h0; exact (Option.some.inj h0).symm
  have hne : job.processes ≠ [] := by
    intro e; rw [e] at a9; simp at a9
  obtain ⟨ps, q, hps⟩ : ∃ ps q, job.processes = ps ++ [q] :=
    ⟨_, _, (List.dropLast_concat_getLast hne).symm⟩
  have hmem : ∀ (ks : List Kid) (k : Kid), k ∈ ks → ∀ tr, (k.1 : Int) ∈ spawnedPids ((ks.map Kid.event).reverse ++ tr) := by
    intro ks k hk tr
    have : ∀ (l : List Event) (k : Kid), k.event ∈ l → (k.1 : Int) ∈ spawnedPids l := by
      intro l k hk
      induction l with
      | nil => cases hk
      | cons e l ih =>
        rcases List.mem_cons.1 hk with h | h
        · subst h; exact List.mem_cons_self
        · cases e <;> first | exact ih h | exact List.mem_cons_of_mem _ (ih h)
    exact this _ k (List.mem_append_left _ (List.mem_reverse.2 (List.mem_map_of_mem hk)))
  have hdiff : ∀ p' ∈ ps, p'.pid ≠ q.pid := by
    intro p' hp' he
    rw [hps, List.map_append, List.map_singleton] at a9
    have hl : ps.length + 1 = (kid :: kids).length := by simpa using congrArg List.length a9
    obtain ⟨ks, k, hk⟩ : ∃ ks k, kid :: kids = ks ++ [k] := ⟨_, _, (List.dropLast_concat_getLast (by simp)).symm⟩
    rw [hk, List.map_append, List.map_singleton] at a9
    have hlk : ks.length = ps.length := by rw [hk] at hl; simp at hl; omega
    obtain ⟨b1, b2⟩ := List.append_inj a9 (by simp [hlk])
    have hq : q.pid = k.1 := by simpa using b2
    have hp'' : p'.pid ∈ ks.map fun k => (k.1 : Int) := by rw [← b1]; exact List.mem_map_of_mem hp'
    obtain ⟨k', hk', e'⟩ := List.mem_map.1 hp''
    have hfork := a3 ks.length k (by rw [hk]; simp)
    rw [hk, List.take_left] at hfork
    refine (hf _ _ hfork).2 ?_
    rw [← hq, ← he, ← e']
    exact hmem ks k' hk' _
  have hshow : job.show = jobText (cs!"Running") (p.stages.map Ext.name) true := by
    rw [show_text hps hdiff, a8, a7, a10]
    rfl
  refine ⟨s', a1, _ :: ((kid :: kids).map Kid.event).reverse, a4, ?_⟩
  rw [show ∀ (e : Event) l, e :: l = [e] ++ l from fun _ _ => rfl, printed_append, printed_kids, hshow]
  rfl

/-! ## Examples -/

/-- `C105_unchanged` applies: `fg %1`, and the command exits with status 5. -/
example : (∃ s', interactiveLine (demoWorld []) 20 (cs!" fg %1") (stoppedTwo (.exited 100 5)) = (.ok (), s') ∧
      s'.exitStatus = (stoppedTwo (.exited 100 5)).exitStatus) ∨
    ∃ s', interactiveLine (demoWorld []) 20 (cs!" fg %1") (stoppedTwo (.exited 100 5)) = (.panic .unwrap, s') := by
  obtain ⟨j, p, h1, h2, h3, h4⟩ := stoppedTwo_job (s := stoppedTwo (.exited 100 5)) (pid := 100) (by decide +kernel)
  exact C105_unchanged (demoWorld []) 19 (stoppedTwo (.exited 100 5))
    (atPrompt_ok (by decide +kernel)) ⟨cs!"fg", [word (cs!"%1")]⟩ (stoppedTwo_fg _ (by decide +kernel)) rfl (cs!"%1") [] rfl 1
    (.inl ⟨by decide, by omega⟩) j h1 (fun _ _ _ => rfl) (cs!"+ ") (by decide +kernel) [.exited 100 5]
    (batch_eq (l := [.exited 100 5].map .st ++ [.err]) (by decide +kernel) (batch_all (by decide))) (by decide +kernel)

/-- `C108_command` applies: `u` is killed while `v` is stopped; `v` is reported as killed afterwards. -/
example : ∃ s', interactiveLine (demoWorld []) 20 (cs!" u -x") (stoppedFirst [.signaled 101 9 true, .signaled 100 9 false]) = (.ok (), s') ∧
    Wrote (stoppedFirst [.signaled 101 9 true, .signaled 100 9 false]) s'
      [cs!"[2] + \t\tDone u (SIG) (core dumped)\n"] := by
  have h := C108_command (demoWorld []) (demo_resources []) 19 (stoppedFirst [.signaled 101 9 true, .signaled 100 9 false])
    (atPrompt_ok (by decide +kernel)) (plainExt (cs!"u") [cs!"-x"]) (plainExt_simple (by decide +kernel)) (cs!"+ ") (by decide +kernel) 101
    (by decide +kernel) (by decide +kernel) (.signaled 101 9 true) rfl [.signaled 100 9 false] (by decide)
    (batch_eq (l := [.signaled 101 9 true, .signaled 100 9 false].map .st ++ [.err]) (by decide +kernel) (batch_all (by decide)))
  have he : announcement (demoWorld []) (cs!"+ ")
      (stoppedFirst [.signaled 101 9 true, .signaled 100 9 false]).jc.nextId
      (jobText (if (WStatus.signaled 101 9 true).isStopped then cs!"Stopped" else cs!"Done") [(plainExt (cs!"u") [cs!"-x"]).name] false)
      (.signaled 101 9 true) = some (cs!"[2] + \t\tDone u (SIG) (core dumped)\n") := by decide +kernel
  rw [he] at h
  exact h

theorem freshWorld_prompt : AtPrompt freshWorld (atPrompt []) :=
  .start (n := 5) (args := []) (root := false) (ppid := 1) (pid := 2) (cwd := cs!"/")
    (env := [(cs!"PATH", cs!"/bin"), (cs!"HOME", cs!"/home")]) (waits := []) rfl

/-- `C109_announced` applies. -/
example : ∃ s', interactiveLine freshWorld 20 (cs!" ls -l | grep x | wc &") (atPrompt []) = (.ok (), s') ∧
    Wrote (atPrompt []) s' [cs!"[1] (1) Running ls | grep | wc &\n"] := by
  have h := C109_announced freshWorld ⟨fun _ => rfl, fun _ => by simp [freshWorld]⟩ freshWorld_ok 19 (atPrompt [])
    freshWorld_prompt (demoPipe true)
    (demoPipe_ok true _ (by decide +kernel) (by decide +kernel) (by decide +kernel)) rfl 1 (by decide +kernel)
  have he : cs!"[" ++ natStr (atPrompt []).jc.nextId ++ cs!"] (" ++ natStr 1 ++ cs!") " ++
      jobText (cs!"Running") ((demoPipe true).stages.map Ext.name) true ++ cs!"\n" =
      cs!"[1] (1) Running ls | grep | wc &\n" := by decide +kernel
  rw [he] at h
  exact h

end Rsh

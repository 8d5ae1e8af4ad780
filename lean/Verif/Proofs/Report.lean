import Verif.Proofs.Foreground
import Verif.Proofs.Pipes
import Verif.Spec.Lists
import Verif.Spec.Waits

/-!
# A foreground command that is killed or stopped
-/

namespace Rsh

open Spec

/-- The wait status of a process that a signal has killed or stopped. -/
inductive Spec.BySignal (pid : Int) : WStatus → Prop
  | killed (sig : Nat) (core : Bool) : BySignal pid (.signaled pid sig core)
  | stopped (sig : Nat) : BySignal pid (.stopped pid sig)

/-- The loop of waits ends when nothing more is reported. -/
theorem doWaitLoop_noMore (w : World) (id : Nat) (n : Nat) {s : Sh} (h : NoMore s.waits) :
    ∃ s', doWaitLoop w id (n + 1) false s = (.ok (), s') ∧ s'.jc = s.jc ∧ Waited s s' ∧
      ∃ ws : List WRes, s'.trace = ws.map .waited ++ s.trace := by
  rcases h with h | ⟨r, rs, h, hr⟩
  · refine ⟨{ s with masked := false, gotSigchld := false }, ?_, rfl, rfl, [], rfl⟩
    unfold doWaitLoop
    rw [run_getS_bind, if_pos (by simp [h])]
    rfl
  · have hwp : ∀ x : Sh, x.waits = r :: rs → waitProcess x = (.ok r, { x with
        gotSigchld := false, waits := rs, trace := .waited r :: x.trace }) := by
      intro x hx
      unfold waitProcess
      rw [run_modS_bind, run_getS_bind]
      show waitRetry (x.waits.length + 1) _ = _
      unfold waitRetry
      have : waitpidM { x with gotSigchld := false } = (.ok r, { x with
          gotSigchld := false, waits := rs, trace := .waited r :: x.trace }) := by
        unfold waitpidM; rw [show ({ x with gotSigchld := false } : Sh).waits = _ from hx]
      rw [run_bind_ok this]
      rcases hr with rfl | rfl <;> rfl
    have hgo : ∃ s', doWaitLoop w id (n + 1) false s = (.ok (), s') ∧ s'.jc = s.jc ∧ Waited s s' ∧
        s'.trace = .waited r :: s.trace := by
      unfold doWaitLoop
      rw [run_getS_bind, if_neg (by simp [h])]
      unfold waitOne interruptsOff
      rcases hr with rfl | rfl
      · refine ⟨{ s with masked := true, gotSigchld := false, waits := rs, trace := .waited .err :: s.trace }, ?_, rfl, rfl, rfl⟩
        rw [bind_assoc, run_modS_bind, bind_assoc, run_bind_ok (hwp { s with masked := true } h)]
        rfl
      · refine ⟨{ s with masked := false, gotSigchld := false, waits := rs, trace := .waited (.st .stillAlive) :: s.trace }, ?_, rfl, rfl, rfl⟩
        rw [bind_assoc, run_modS_bind, bind_assoc, run_bind_ok (hwp { s with masked := true } h)]
        rfl
    obtain ⟨s', a, b, c, d⟩ := hgo
    exact ⟨s', a, b, c, [r], d⟩

/-- The job after its only process was reported. -/
def reportedJob (j : Job) (p : Process) (st : WStatus) : Job :=
  { j with
    processes := [{ p with status := some st }]
    stopStatus := st
    state := if st.isStopped then .stopped else .finished }

/-- The wait for the only job, whose only process was killed or stopped. -/
theorem doWait_report (w : World) (id : Nat) {s : Sh} {j : Job} {p : Process} (ht : s.jc.table = [(id, j)])
    (hh : s.held = []) (hrun : j.state = .running) (hps : j.processes = [p]) (hid : j.jobId = id)
    (hpid : s.jc.pids.lookup p.pid = some id) {ps4 : Str} (hps4 : valueOf s (cs!"PS4") = some ps4)
    {k : Nat} {st : WStatus} (hst : BySignal p.pid st) {rest : List WRes} (hno : NoMore rest)
    (hw : s.waits = List.replicate k .eintr ++ .st st :: rest) :
    ∃ s', doWait w id s = (.ok (), s') ∧ Waited s s' ∧
      s'.jc = { s.jc with
        table := [(id, reportedJob j p st)]
        current := if st.isStopped then some id else s.jc.current } ∧
      .waited (.st st) ∈ s'.trace := by
  have hget : s.jc.getJob id = some j := by unfold JobControl.getJob tGet; rw [ht]; simp
  have hwp : waitPid st = p.pid := by cases hst <;> rfl
  have hp? : st.pid? = some p.pid := by cases hst <;> rfl
  have hscan : scanJobs [] p.pid st s.jc.current [(id, j)] =
      some ⟨[(id, reportedJob j p st)], some id, if st.isStopped then some id else s.jc.current⟩ := by
    unfold scanJobs
    rw [if_neg (by simp [hrun])]
    simp only [hps, markProcs, List.map_cons, List.map_nil, if_true, List.head?_cons, Option.bind_some,
      List.any_cons, List.any_nil, decide_true, Bool.or_false]
    cases hst with
    | killed sig core => simp [jobStateOf, reportedJob, WStatus.isStopped]
    | stopped sig => simp [jobStateOf, reportedJob, WStatus.isStopped, hid]
  let s1 : Sh := { s with
    masked := false, gotSigchld := false, waits := rest
    trace := .waited (.st st) :: (List.replicate k (.waited .eintr) ++ s.trace)
    jc := { s.jc with
      table := [(id, reportedJob j p st)]
      current := if st.isStopped then some id else s.jc.current } }
  have hjp : s1.jc.getJobPid p.pid = some (reportedJob j p st) := by
    unfold JobControl.getJobPid tGet
    rw [show s1.jc.pids = s.jc.pids from rfl, hpid]
    simp [s1]
  have hexp : ((do unwrapM .unwrap (← expandVar .none (cs!"PS4"))) : M Str) s1 = (.ok ps4, s1) := by
    unfold expandVar
    rw [if_neg (by simp)]
    simp only [bind_assoc, run_getS_bind, run_pure_bind]
    rw [show (s1.ctx.getVar (cs!"PS4")).map Var.value = some ps4 from hps4]
    rfl
  have hfmt : ∃ text, formatStatus w st s1 = (.ok (some text), s1) := by
    cases hst with
    | killed sig core =>
      unfold formatStatus
      rw [run_getS_bind]
      simp only [hjp]
      rw [run_bind_ok hexp]
      exact ⟨_, rfl⟩
    | stopped sig =>
      unfold formatStatus
      rw [run_getS_bind]
      simp only [hjp]
      rw [run_bind_ok hexp]
      exact ⟨_, rfl⟩
  obtain ⟨text, hfmt⟩ := hfmt
  have hone : waitOne w id s = (.ok .some, { s1 with
      trace := .print ((s.fds.get 1).map FdE.chan) (text ++ ['\n']) :: s1.trace }) := by
    unfold waitOne interruptsOff
    rw [run_modS_bind, run_bind_ok (waitProcess_hit (s := { s with masked := true }) hw)]
    simp only
    rw [if_neg (by rw [hp?]; simp), run_getS_bind]
    simp only [hwp]
    have hscan' : scanJobs s.held p.pid st s.jc.current s.jc.table =
        some ⟨[(id, reportedJob j p st)], some id, if st.isStopped then some id else s.jc.current⟩ := by
      rw [hh, ht]; exact hscan
    rw [hscan', unwrapM_some, run_pure_bind, modJc, run_modS_bind, interruptsOn, run_modS_bind]
    simp only [if_true]
    exact run_bind_ok hfmt _
  obtain ⟨s', a1, a2, a3, ws, a4⟩ := doWaitLoop_noMore w id s.waits.length (s := { s1 with
    trace := .print ((s.fds.get 1).map FdE.chan) (text ++ ['\n']) :: s1.trace }) hno
  refine ⟨s', ?_, a3, a2, ?_⟩
  · unfold doWait
    rw [run_getS_bind, hget, unwrapM_some, run_pure_bind]
    simp only [hrun, decide_true, Bool.not_true, Bool.false_and]
    rw [if_neg (by simp)]
    show doWaitLoop w id (s.waits.length + 1 + 1) true s = _
    rw [doWaitLoop, run_getS_bind]
    simp only [Bool.not_true, Bool.false_and]
    rw [if_neg (by simp), run_bind_ok hone]
    exact a1
  · rw [a4]
    exact List.mem_append_right _ (List.mem_cons_of_mem _ List.mem_cons_self)

/-- One external command, killed or stopped: what the line does. -/
theorem report_run {w : World} (hw : Resources w) (n : Nat) {s : Sh} (hp : AtPrompt w s) {e : Ext}
    (hok : e.Simple s) (ht : s.jc.table = []) {pid : Nat} (hpid : w.fork s.trace = some pid) {ps4 : Str}
    (hps4 : valueOf s (cs!"PS4") = some ps4) {k : Nat} {st : WStatus} (hst : BySignal pid st) {rest : List WRes}
    (hno : NoMore rest) (hwaits : s.waits = List.replicate k .eintr ++ .st st :: rest) :
    ∃ s' j, interactiveLine w (n + 1) (ExtPipe.mk e [] false).text s = (.ok (), s') ∧
      evalText w (n + 1) (ExtPipe.mk e [] false).text s = (.ok s.exitStatus, s') ∧
      s'.exitStatus = s.exitStatus ∧ s'.masked = false ∧ .waited (.st st) ∈ s'.trace ∧
      j.processes.map Process.pid = [(pid : Int)] ∧ j.state = .stopped ∧ j.background = false ∧ j.jobId = s.jc.nextId ∧
      if st.isStopped then s'.jc.table = [(s.jc.nextId, j)] ∧ s'.jc.current = some s.jc.nextId
      else s'.jc.table = [] := by
  have hfds := AtPrompt_resources_fds hw hp
  have hall : ∀ e' ∈ (ExtPipe.mk e [] false).stages, e'.Simple s := by simpa [ExtPipe.stages] using hok
  have hexp := evalCommands_ext w (evalFuel w n) (es := [e]) (s := { s with masked := true })
    fun e' he => by
      obtain rfl := List.mem_singleton.1 he
      exact ⟨hok.ok.plain, hok.ok.external, hok.ok.alias, hok.ok.function, hok.ok.args, hok.ok.nul, hok.ok.assign⟩
  obtain ⟨kids, hk, hrun⟩ := pipeline_launch hw (evalFuel w n) (.mk false [e.command] false) hexp
    (by simp) (fun q hq => by
      obtain rfl := List.mem_singleton.1 hq
      exact hok.ok.function) (by show StdFds s.fds; rw [hfds]; exact stdTable_std)
  have hlen : kids.length = 1 := hk.length
  obtain ⟨kid, rfl⟩ := List.length_eq_one_iff.1 hlen
  have h0 : w.fork s.trace = some kid.1 := hk.pid 0 kid rfl
  have hkid : kid.1 = pid := by rw [hpid] at h0; exact (Option.some.inj h0).symm
  have htab := started_table (jc := s.jc) (by rw [ht]; simp) [e.proc.1] false [kid.1] rfl
  rw [ht, List.nil_append] at htab
  let s0 := launched { s with masked := true } false [e.proc] [kid]
  let p : Process := { e.proc.1 with pid := (kid.1 : Int) }
  let j : Job := ⟨[p], s.jc.nextId, .stillAlive, .running, false⟩
  have hpp : (p.pid : Int) = pid := by show (kid.1 : Int) = pid; rw [hkid]
  have hlook : s0.jc.pids.lookup p.pid = some s.jc.nextId := by
    show (installPids s.jc.nextId 0 [kid.1] (s.jc.createJob [e.proc.1] false).2).pids.lookup (kid.1 : Int) = _
    rw [(installPids_eq _ _ _ _).2.2.2.2]
    simp [pidInsert]
  obtain ⟨s1, h1, h2, h3, h4⟩ := doWait_report w s.jc.nextId (s := s0) (j := j) (p := p) htab
    (AtPrompt_own hp).2.1 rfl rfl rfl hlook hps4 (by rw [hpp]; exact hst) hno hwaits
  have hget : s1.jc.getJob s.jc.nextId = some (reportedJob j p st) := by
    rw [h3]; unfold JobControl.getJob tGet; simp
  have hstat : s1.exitStatus = s.exitStatus := by rw [h2]; rfl
  have hst' : st.isExited = false := by cases hst <;> rfl
  have hline : ∀ s2, afterFork w false s.jc.nextId 1 s0 = (.ok (), s2) → s2.exitStatus = s.exitStatus →
      interactiveLine w (n + 1) (ExtPipe.mk e [] false).text s = (.ok (), { s2 with masked := false }) ∧
      evalText w (n + 1) (ExtPipe.mk e [] false).text s = (.ok s.exitStatus, { s2 with masked := false }) := by
    intro s2 hs2 hx
    have hpipe : evalPipeline w (evalFuel w n) (.mk false [e.command] false) s =
        (.ok s.exitStatus, { s2 with masked := false }) := by
      rw [hrun]
      refine (run_bind_ok hs2 _).trans ?_
      rw [← hx]
      rfl
    refine ⟨interactiveLine_one (ExtPipe.parse hall) (ExtPipe.text_ne hall) hpipe, ?_⟩
    unfold evalText
    rw [ExtPipe.parse hall]
    show evalListFrom w (evalFuel w n) (-1) [.mk none none (.mk false [e.command] false)] s = _
    unfold evalListFrom evalAndOr
    rw [run_bind_ok hpipe]
    rfl
  cases hst with
  | killed sig core =>
    have hdel : s1.jc.deleteJob s.jc.nextId = { s1.jc with
        table := []
        nextId := 1
        pids := JobControl.forgetPids [{ p with status := some (.signaled pid sig core) }] s1.jc.pids
        bg := s1.jc.bg } := by
      rw [h3]
      simp [JobControl.deleteJob, tGet, reportedJob, JobControl.noteStopped, WStatus.isStopped, tRemove,
        JobControl.updateNextId, j]
    have hgone : ∀ jc : JobControl, jc.table = [] → jc.deleteJob s.jc.nextId = jc := by
      intro jc hjc; unfold JobControl.deleteJob tGet; rw [hjc]; rfl
    let s2 : Sh := { s1 with masked := false, jc := s1.jc.deleteJob s.jc.nextId }
    have hwait : waitForJob w s.jc.nextId s0 = (.ok (.signaled pid sig core), s2) := by
      unfold waitForJob
      rw [run_bind_ok h1, run_getS_bind, hget, unwrapM_some, run_pure_bind, if_pos (by simp [reportedJob, WStatus.isStopped])]
      rfl
    have hafter : afterFork w false s.jc.nextId 1 s0 = (.ok (), s2) := by
      unfold afterFork
      rw [if_neg (by simp), if_neg (by simp), run_bind_ok hwait]
      unfold deleteJobM interruptsOff interruptsOn modJc
      show (Out.ok (), { s2 with masked := false, jc := s2.jc.deleteJob s.jc.nextId }) = _
      rw [hgone s2.jc (by show (s1.jc.deleteJob s.jc.nextId).table = []; rw [hdel])]
    refine ⟨_, { j with state := .stopped }, (hline s2 hafter hstat).1, (hline s2 hafter hstat).2, hstat, rfl, h4, ?_, rfl, rfl, rfl, ?_⟩
    · show [p.pid] = _; rw [hpp]
    · rw [if_neg (by simp [WStatus.isStopped])]
      show (s1.jc.deleteJob s.jc.nextId).table = []
      rw [hdel]
  | stopped sig =>
    have hdel : s1.jc.deleteJob s.jc.nextId = s1.jc := by
      rw [h3]
      simp [JobControl.deleteJob, tGet, reportedJob, JobControl.noteStopped, WStatus.isStopped, tRemove, tInsert, j]
    have hwait : waitForJob w s.jc.nextId s0 = (.ok (.stopped pid sig), s1) := by
      unfold waitForJob
      rw [run_bind_ok h1, run_getS_bind, hget, unwrapM_some, run_pure_bind,
        if_neg (by simp [reportedJob, WStatus.isStopped, WStatus.isExited])]
      rfl
    have hafter : afterFork w false s.jc.nextId 1 s0 = (.ok (), { s1 with masked := false }) := by
      unfold afterFork
      rw [if_neg (by simp), if_neg (by simp), run_bind_ok hwait]
      unfold deleteJobM interruptsOff interruptsOn modJc
      show (Out.ok (), { s1 with masked := false, jc := s1.jc.deleteJob s.jc.nextId }) = _
      rw [hdel]
    refine ⟨_, reportedJob j p (.stopped pid sig), (hline _ hafter hstat).1, (hline _ hafter hstat).2, hstat, rfl, h4, ?_, rfl, rfl, rfl, ?_⟩
    · show [p.pid] = _; rw [hpp]
    · rw [if_pos (by simp [WStatus.isStopped])]
      show s1.jc.table = _ ∧ s1.jc.current = _
      rw [h3]
      exact ⟨rfl, rfl⟩

end Rsh

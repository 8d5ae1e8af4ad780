import Verif.Model.CtrlC
import Verif.Props.Waiting

/-!
# Running a foreground command while the interrupt key is pressed
-/

namespace Rsh

open Spec

theorem run_bind_hang {m : M α} {s s' : Sh} (h : m s = (.hang, s')) (f : α → M β) :
    (m >>= f) s = (.hang, s') := by
  show M.bind m f s = _
  unfold M.bind; rw [h]

/-- A pipeline of external commands up to the point where all processes have been started. -/
theorem pipelineKey_launch {w : World} (hw : Resources w) (ended : Bool) (rec : List AndOr → M Int) (pl : Pipeline)
    {s s1 : Sh} {procs : List (Process × SimpleCommand)}
    (hexp : evalCommands w rec pl.seq { s with masked := true } = (.ok procs, s1))
    (hne : procs ≠ []) (hfun : ∀ q ∈ procs, s1.ctx.isFunction q.2.name = false) (hfds : StdFds s1.fds) :
    ∃ kids, Kids w rec pl.background s1 procs kids ∧
      evalPipelineKey w ended rec pl s = (do
        pressKey w ended
        afterFork w pl.background s1.jc.nextId procs.length
        interruptsOn
        let s ← getS
        pure s.exitStatus : M Int) (launched s1 pl.background procs kids) := by
  obtain ⟨kids, hrun, hlen, hpids, hkids⟩ := forkLoop_run w rec pl.background s1.jc.nextId procs.length
    hw.pipe hw.fork { s1 with jc := (s1.jc.createJob (procs.map Prod.fst) pl.background).2 } hfds procs 0 none
    (-1, -1) { s1 with jc := (s1.jc.createJob (procs.map Prod.fst) pl.background).2 } hne
    ⟨_, _, [], rfl⟩ rfl ⟨fun _ _ e => (by cases e), fun _ _ _ e => (by cases e)⟩ rfl rfl (Nat.zero_add _).symm hfun
  refine ⟨kids, ⟨hlen, hpids, ?_⟩, ?_⟩
  · intro i q kid hq hk
    have := hkids i q kid hq hk
    rw [Nat.zero_add] at this
    exact this
  · unfold evalPipelineKey interruptsOff
    rw [run_modS_bind, run_bind_ok hexp]
    rw [if_neg (by simpa using hne)]
    have hc : createJobM (procs.map Prod.fst) pl.background s1 =
      (.ok s1.jc.nextId, { s1 with jc := (s1.jc.createJob (procs.map Prod.fst) pl.background).2 }) := rfl
    split
    · rw [run_pure_bind]
      exact (run_bind_ok hc _).trans (run_bind_ok hrun _)
    · rw [run_bind_ok (runFunctions_none rec hfun)]
      exact (run_bind_ok hc _).trans (run_bind_ok hrun _)

/-- The state in which a single command has been started: what matters of it. -/
structure Running (w : World) (s s0 : Sh) (pid : Nat) (j : Job) : Prop where
  table : s0.jc.table = s.jc.table ++ [(s.jc.nextId, j)]
  current : s0.jc.current = some s.jc.nextId
  pids : s0.jc.pids.lookup (pid : Int) = some s.jc.nextId
  new : NewJob s.jc.nextId [(pid : Int)] j
  fresh : ∀ q ∈ s.jc.table, q.1 ≠ s.jc.nextId
  forked : s0.forked = false
  held : s0.held = []
  fds : s0.fds = stdTable
  sfds : s.fds = stdTable
  ctx : s0.ctx = s.ctx
  waits : s0.waits = s.waits
  status : s0.exitStatus = s.exitStatus

theorem Running.job {w : World} {s s0 : Sh} {pid : Nat} {j : Job} (h : Running w s s0 pid j) :
    s0.jc.getJob s.jc.nextId = some j := by
  unfold JobControl.getJob
  rw [tGet_lookup, h.table]
  exact lookup_last h.fresh j

/-- A line with one command, the key being pressed while it runs. -/
theorem key_line {w : World} (hw : Resources w) (ended : Bool) (n : Nat) {s : Sh} (hp : AtPrompt w s) {e : Ext}
    (hok : e.Simple s) {pid : Nat} (hpid : w.fork s.trace = some pid) :
    ∃ s0 j, Running w s s0 pid j ∧
      ∀ {o : Out Unit} {s' : Sh}, (pressKey w ended >>= fun _ => afterFork w false s.jc.nextId 1) s0 = (o, s') →
        ((o = .ok () → interruptedLine w ended n (ExtPipe.mk e [] false).text s = (.ok (), { s' with masked := false })) ∧
        (∀ k, o = .panic k → interruptedLine w ended n (ExtPipe.mk e [] false).text s = (.panic k, s')) ∧
        (o = .hang → interruptedLine w ended n (ExtPipe.mk e [] false).text s = (.hang, s'))) := by
  have hfds := AtPrompt_resources_fds hw hp
  have hti := (tableInv w).atPrompt hp
  have hoks : ∀ e' ∈ (ExtPipe.mk e [] false).stages, e'.Simple s := by
    intro e' he'
    rw [List.mem_singleton.1 he']
    exact hok
  have hexp := evalCommands_ext w (evalFuel w n) (es := [e]) (s := { s with masked := true })
    fun e' he => ⟨(hoks e' he).ok.plain, (hoks e' he).ok.external, (hoks e' he).ok.alias, (hoks e' he).ok.function,
      (hoks e' he).ok.args, (hoks e' he).ok.nul, (hoks e' he).ok.assign⟩
  obtain ⟨kids0, hk, hrun⟩ := pipelineKey_launch hw ended (evalFuel w n) (.mk false ([e].map Ext.command) false) hexp
    (by simp) (fun q hq => by
      obtain ⟨e', he, rfl⟩ := List.mem_map.1 hq
      exact (hoks e' he).ok.function) (by show StdFds s.fds; rw [hfds]; exact stdTable_std)
  have hlen : kids0.length = 1 := by rw [hk.length]; rfl
  obtain ⟨kid, rfl⟩ : ∃ kid, kids0 = [kid] := by
    match kids0, hlen with
    | [kid], _ => exact ⟨kid, rfl⟩
  obtain rfl : kid.1 = pid := by
    have h : w.fork s.trace = some kid.1 := hk.pid 0 kid rfl
    rw [hpid] at h
    exact (Option.some.inj h).symm
  have hparse := ExtPipe.parse hoks
  have htab := started_table (jc := s.jc) hti.small (([e].map Ext.proc).map Prod.fst) false
    ([kid].map Prod.fst) rfl
  let s0 := launched { s with masked := true } false ([e].map Ext.proc) [kid]
  let j : Job := ⟨withPids (([e].map Ext.proc).map Prod.fst) ([kid].map Prod.fst), s.jc.nextId, .stillAlive, .running, false⟩
  have hR : Running w s s0 kid.1 j := by
    refine ⟨htab, ?_, ?_, ⟨rfl, ?_, rfl, rfl, rfl, rfl⟩, fun q hq => Nat.ne_of_lt (hti.small q hq), (AtPrompt_own hp).1,
      (AtPrompt_own hp).2.1, hfds, hfds, rfl, rfl, rfl⟩
    · show (installPids _ _ _ _).current = _
      rw [(installPids_eq _ _ _ _).2.2.1]; rfl
    · show (installPids _ _ _ _).pids.lookup _ = _
      rw [(installPids_eq _ _ _ _).2.2.2.2]
      exact lookup_inserted _ _ _ _ (.inr ⟨kid.1, by simp, rfl⟩)
    · intro q hq
      obtain rfl := List.mem_singleton.1 hq
      rfl
  refine ⟨s0, j, hR, fun {o s'} ho => ?_⟩
  have hline : interruptedLine w ended n (ExtPipe.mk e [] false).text s = (do
      match ← tryE (evalPipelineKey w ended (evalFuel w n) (.mk false ([e].map Ext.command) false)) with
      | .ok _ => pure ()
      | .error e => printlnM e : M Unit) s := by
    unfold interruptedLine
    cases ht : (ExtPipe.mk e [] false).text with
    | nil => exact absurd ht (ExtPipe.text_ne hoks)
    | cons c cs =>
      rw [ht] at hparse
      rw [hparse]
      rfl
  have hrun' : evalPipelineKey w ended (evalFuel w n) (.mk false ([e].map Ext.command) false) s =
      ((pressKey w ended >>= fun _ => afterFork w false s.jc.nextId 1) >>= fun _ => (do
        interruptsOn
        let s ← getS
        pure s.exitStatus : M Int)) s0 := by
    rw [hrun, bind_assoc]
    rfl
  rw [hline]
  refine ⟨?_, ?_, ?_⟩
  · rintro rfl
    have h1 : evalPipelineKey w ended (evalFuel w n) (.mk false ([e].map Ext.command) false) s =
        (.ok s'.exitStatus, { s' with masked := false }) := by
      rw [hrun', run_bind_ok ho]
      rfl
    rw [run_bind_ok (run_tryE_ok h1)]
    rfl
  · rintro k rfl
    have h1 := hrun'.trans (run_bind_panic ho _)
    exact run_bind_panic (by rw [run_tryE, h1]) _
  · rintro rfl
    have h1 := hrun'.trans (run_bind_hang ho _)
    exact run_bind_hang (by rw [run_tryE, h1]) _

/-- The state after the handler of SIGINT. -/
theorem onSigint_run {w : World} {s : Sh} (hf : s.forked = false) (hfds : s.fds = stdTable) :
    onSigOther w SIGINT s = if w.writeOk s.trace (.orig 0) = true then
        (.ok (), { s with trace := .print (some (.orig 0)) ['\n'] :: s.trace })
      else (.panic .unwrap, s) := by
  unfold onSigOther
  have h0 : s.fds.get 0 = some ⟨.orig 0, false⟩ := by rw [hfds]; rfl
  rw [run_getS_bind, if_neg (by rw [hf]; simp), if_pos rfl, h0]
  simp only
  split <;> rfl

/-- Waiting for a running job when there is no child to wait for, or none that has anything to report. -/
theorem waitForJob_nothing (w : World) {id : Nat} {s : Sh} {j : Job} (hj : s.jc.getJob id = some j)
    (hrun : j.state = .running) (hstop : j.stopStatus = .stillAlive) {r : WRes} {rest : List WRes}
    (hwaits : s.waits = r :: rest) (hr : r = .err ∨ r = .st .stillAlive) :
    ∃ s', waitForJob w id s = (.ok .stillAlive, s') ∧
      s' = { s with masked := s'.masked, gotSigchld := false, waits := rest, trace := .waited r :: s.trace } := by
  have hdo : ∃ m, doWait w id s = (.ok (), { s with masked := m, gotSigchld := false, waits := rest, trace := .waited r :: s.trace }) := by
    unfold doWait
    rw [run_getS_bind, hj, unwrapM_some, run_pure_bind]
    simp only [hrun, decide_true, Bool.not_true, Bool.false_and, Bool.false_eq_true, if_false]
    unfold doWaitLoop
    rw [run_getS_bind]
    simp only [Bool.not_true, Bool.false_and, Bool.false_eq_true, if_false]
    have h1 : waitProcess { s with masked := true } =
        (.ok r, { s with masked := true, gotSigchld := false, waits := rest, trace := .waited r :: s.trace }) := by
      unfold waitProcess
      rw [run_modS_bind, run_getS_bind]
      unfold waitRetry
      have h2 : waitpidM { s with masked := true, gotSigchld := false } =
          (.ok r, { s with masked := true, gotSigchld := false, waits := rest, trace := .waited r :: s.trace }) := by
        unfold waitpidM
        simp only [hwaits]
      rw [run_bind_ok h2]
      rcases hr with rfl | rfl <;> rfl
    have h3 : ∃ m a, (a = WaitOne.err ∨ a = WaitOne.none) ∧ waitOne w id s =
        (.ok a, { s with masked := m, gotSigchld := false, waits := rest, trace := .waited r :: s.trace }) := by
      unfold waitOne interruptsOff
      rw [run_modS_bind, run_bind_ok h1]
      rcases hr with rfl | rfl
      · exact ⟨true, .err, .inl rfl, rfl⟩
      · exact ⟨false, .none, .inr rfl, rfl⟩
    obtain ⟨m, a, ha, h3⟩ := h3
    refine ⟨m, ?_⟩
    rw [run_bind_ok h3]
    rcases ha with rfl | rfl <;> rfl
  obtain ⟨m, hdo⟩ := hdo
  refine ⟨{ s with masked := m, gotSigchld := false, waits := rest, trace := .waited r :: s.trace }, ?_, rfl⟩
  unfold waitForJob
  rw [run_bind_ok hdo, run_getS_bind]
  simp only
  rw [hj, unwrapM_some, run_pure_bind, if_neg (by rw [hrun, hstop]; decide), hstop]
  rfl

/-- Waiting for a running job when no child will ever have anything to report. -/
theorem waitForJob_stuck (w : World) {id : Nat} {s : Sh} {j : Job} (hj : s.jc.getJob id = some j)
    (hrun : j.state = .running) (hwaits : s.waits = []) : ∃ s', waitForJob w id s = (.hang, s') := by
  have h1 : waitProcess { s with masked := true } = (.hang, { s with masked := true, gotSigchld := false }) := by
    unfold waitProcess
    rw [run_modS_bind, run_getS_bind]
    unfold waitRetry
    refine run_bind_hang ?_ _
    unfold waitpidM
    simp only [hwaits]
  refine ⟨{ s with masked := true, gotSigchld := false }, ?_⟩
  unfold waitForJob
  refine run_bind_hang ?_ _
  unfold doWait
  rw [run_getS_bind, hj, unwrapM_some, run_pure_bind]
  simp only [hrun, decide_true, Bool.not_true, Bool.false_and, Bool.false_eq_true, if_false]
  unfold doWaitLoop
  rw [run_getS_bind]
  simp only [Bool.not_true, Bool.false_and, Bool.false_eq_true, if_false]
  refine run_bind_hang ?_ _
  unfold waitOne interruptsOff
  rw [run_modS_bind]
  exact run_bind_hang h1 _

/-- Both handlers: the one of SIGCHLD collects the status of the command. -/
theorem pressKey_collect {w : World} {s s0 : Sh} {pid : Nat} {j : Job} (h : Running w s s0 pid j)
    (hwrite : ∀ tr, w.writeOk tr (.orig 0) = true) {st : WStatus} (hst' : waitPid st = pid)
    {rest : List WRes} (hwaits : s.waits = .st st :: rest) :
    pressKey w true s0 = (.ok (), { s0 with
      gotSigchld := true
      waits := rest
      jc := s0.jc.modJob s.jc.nextId fun j => { j with processes := setStatusFirst pid st j.processes }
      trace := .waited (.st st) :: .print (some (.orig 0)) ['\n'] :: s0.trace }) := by
  unfold pressKey
  rw [run_getS_bind, run_bind_ok (by rw [onSigint_run h.forked h.fds, if_pos (hwrite _)]), if_pos rfl]
  have hj : s0.jc.getJobPid pid = some j := by
    unfold JobControl.getJobPid
    rw [h.pids]
    exact h.job
  have hgo : ∀ msg, sigChldWith.go w pid st msg { s0 with
        gotSigchld := true
        waits := rest
        trace := .waited (.st st) :: .print (some (.orig 0)) ['\n'] :: s0.trace } = (.ok (), { s0 with
      gotSigchld := true
      waits := rest
      jc := s0.jc.modJob s.jc.nextId fun j => { j with processes := setStatusFirst pid st j.processes }
      trace := .waited (.st st) :: .print (some (.orig 0)) ['\n'] :: s0.trace }) := by
    intro msg
    unfold sigChldWith.go
    rw [run_getS_bind]
    simp only [hj]
    unfold modJc
    rw [run_modS_bind, if_neg (by rw [h.new.foreground]; simp), h.new.number]
    rfl
  have hs : onSigchld w { s0 with trace := .print (some (.orig 0)) ['\n'] :: s0.trace } = (.ok (), { s0 with
      gotSigchld := true
      waits := rest
      jc := s0.jc.modJob s.jc.nextId fun j => { j with processes := setStatusFirst pid st j.processes }
      trace := .waited (.st st) :: .print (some (.orig 0)) ['\n'] :: s0.trace }) := by
    unfold onSigchld
    rw [run_getS_bind, if_neg (by simp only [h.forked]; simp), run_modS_bind]
    simp only [h.waits, hwaits]
    have hw' : waitpidM { s0 with
          gotSigchld := true
          waits := .st st :: rest
          trace := .print (some (.orig 0)) ['\n'] :: s0.trace } =
        (.ok (.st st), { s0 with
          gotSigchld := true
          waits := rest
          trace := .waited (.st st) :: .print (some (.orig 0)) ['\n'] :: s0.trace }) := by
      rfl
    rw [run_bind_ok hw']
    cases st with
    | exited p c => obtain rfl : p = pid := hst'; unfold sigChldWith; exact hgo _
    | signaled p sg co => obtain rfl : p = pid := hst'; unfold sigChldWith; exact hgo _
    | stopped p sg => obtain rfl : p = pid := hst'; unfold sigChldWith; exact hgo _
    | _ => simp [waitPid] at hst' <;> omega
  rw [run_bind_ok hs]
  rfl

end Rsh

import Verif.Proofs.Monad
import Verif.Proofs.Jobs

/-!
# Lemmas about waiting for jobs
-/

namespace Rsh

open Spec

/-! ## `waitpid` -/

theorem waitRetry_hit (k : Nat) (st : WStatus) (rest : List WRes) :
    ∀ (n : Nat) (s : Sh), k < n → s.waits = List.replicate k .eintr ++ .st st :: rest →
    waitRetry n s = (.ok (.st st), { s with waits := rest
                                            trace := .waited (.st st) ::
                                              (List.replicate k (.waited .eintr) ++ s.trace) }) := by
  induction k with
  | zero =>
    intro n s hn hw
    obtain ⟨n, rfl⟩ : ∃ m, n = m + 1 := ⟨n - 1, by omega⟩
    unfold waitRetry
    have h : waitpidM s = (.ok (.st st), { s with waits := rest, trace := .waited (.st st) :: s.trace }) := by
      unfold waitpidM; rw [hw]; rfl
    rw [run_bind_ok h]
    rfl
  | succ k ih =>
    intro n s hn hw
    obtain ⟨n, rfl⟩ : ∃ m, n = m + 1 := ⟨n - 1, by omega⟩
    unfold waitRetry
    have h : waitpidM s = (.ok .eintr, { s with waits := List.replicate k .eintr ++ .st st :: rest
                                                trace := .waited .eintr :: s.trace }) := by
      unfold waitpidM; rw [hw]; rfl
    rw [run_bind_ok h]
    simp only
    rw [ih n _ (by omega) rfl]
    simp [List.replicate_succ', List.append_assoc]

theorem waitProcess_hit {s : Sh} {k : Nat} {st : WStatus} {rest : List WRes}
    (hw : s.waits = List.replicate k .eintr ++ .st st :: rest) :
    waitProcess s = (.ok (.st st), { s with gotSigchld := false, waits := rest
                                            trace := .waited (.st st) ::
                                              (List.replicate k (.waited .eintr) ++ s.trace) }) := by
  unfold waitProcess
  rw [run_modS_bind, run_getS_bind]
  refine waitRetry_hit k st rest _ { s with gotSigchld := false } ?_ hw
  show k < s.waits.length + 1
  rw [hw, List.length_append, List.length_replicate]
  omega

/-- One call of `wait_one` in which a child terminates. -/
theorem waitOne_exited (w : World) (id : Nat) {s : Sh} {k : Nat} {pid : Int} {code : Int}
    {rest : List WRes} {r : WaitScan}
    (hw : s.waits = List.replicate k .eintr ++ .st (.exited pid code) :: rest)
    (hr : scanJobs s.held pid (.exited pid code) s.jc.current s.jc.table = some r) :
    waitOne w id s = (.ok .some, { s with
      masked := false, gotSigchld := false, waits := rest
      trace := .waited (.st (.exited pid code)) :: (List.replicate k (.waited .eintr) ++ s.trace)
      jc := { s.jc with table := r.table, current := r.current } }) := by
  unfold waitOne
  unfold interruptsOff
  rw [run_modS_bind, run_bind_ok (waitProcess_hit (s := { s with masked := true }) hw)]
  simp only
  rw [if_neg (show (WStatus.exited pid code).pid? ≠ none by simp [WStatus.pid?])]
  rw [run_getS_bind]
  simp only [waitPid]
  simp only [hr, unwrapM_some]
  rw [run_pure_bind, modJc, run_modS_bind, interruptsOn, run_modS_bind]
  simp only
  split
  · rfl
  · rfl

/-! ## The loop -/

theorem scanJobs_finished (held : List Nat) (pid : Int) (st : WStatus) (cur : Option Nat)
    (t : List (Nat × Job)) (h : ∀ q ∈ t, q.2.state = .finished) :
    scanJobs held pid st cur t = some ⟨t, none, cur⟩ := by
  induction t with
  | nil => rfl
  | cons q t ih =>
    obtain ⟨id, j⟩ := q
    unfold scanJobs
    rw [if_pos (by simp [show j.state = _ from h (id, j) List.mem_cons_self]), ih fun q hq => h q (List.mem_cons_of_mem _ hq)]
    rfl

/-- The states agree in everything but the signal mask, the SIGCHLD flag, the schedule of the outside
world, the events and the job control data. -/
def Waited (s s' : Sh) : Prop :=
  s' = { s with jc := s'.jc, masked := s'.masked, gotSigchld := s'.gotSigchld, waits := s'.waits,
                trace := s'.trace }

theorem Waited.refl (s : Sh) : Waited s s := rfl

theorem Waited.trans {a b c : Sh} (h1 : Waited a b) (h2 : Waited b c) : Waited a c := by
  unfold Waited at *
  rw [h2, h1]

theorem Waited.of_upd {s s' : Sh} {jc m g ws tr}
    (h : Waited { s with jc := jc, masked := m, gotSigchld := g, waits := ws, trace := tr } s') :
    Waited s s' := h

/-- Once all jobs are finished the loop ends and changes no job. -/
theorem doWaitLoop_finished (w : World) (id : Nat) : ∀ (n : Nat) (s : Sh), s.waits.length < n →
    (∀ q ∈ s.jc.table, q.2.state = .finished) → .eintr ∉ s.waits →
    ∃ s', doWaitLoop w id n false s = (.ok (), s') ∧ s'.jc = s.jc ∧ Waited s s' ∧
      ∃ ws : List WRes, s'.trace = ws.map .waited ++ s.trace := by
  intro n
  induction n with
  | zero => intro s h; omega
  | succ n ih =>
    intro s hn hf he
    unfold doWaitLoop
    rw [run_getS_bind]
    simp only [Bool.not_false, Bool.true_and]
    rcases hw : s.waits with _ | ⟨r, rest⟩
    · exact ⟨_, rfl, rfl, rfl, [], rfl⟩
    · rw [if_neg (by simp)]
      have hne : r ≠ .eintr := fun e => he (by rw [hw, e]; exact List.mem_cons_self)
      have hp : waitProcess { s with masked := true } = (.ok r, { s with
          masked := true, gotSigchld := false, waits := rest, trace := .waited r :: s.trace }) := by
        unfold waitProcess
        rw [run_modS_bind, run_getS_bind]
        show waitRetry (s.waits.length + 1) _ = _
        rw [hw]
        unfold waitRetry
        rw [run_bind_ok (a := r) (s' := { s with
          masked := true, gotSigchld := false, waits := rest, trace := .waited r :: s.trace })]
        · cases r with
          | eintr => exact absurd rfl hne
          | err => rfl
          | st st => rfl
        · unfold waitpidM; simp only
      cases r with
      | eintr => exact absurd rfl hne
      | err =>
        have h1 : waitOne w id s = (.ok .err, { s with
            masked := true, gotSigchld := false, waits := rest, trace := .waited .err :: s.trace }) := by
          unfold waitOne interruptsOff
          rw [run_modS_bind, run_bind_ok hp]
          rfl
        rw [run_bind_ok h1]
        exact ⟨_, rfl, rfl, rfl, [_], rfl⟩
      | st st =>
        rcases hpid : st.pid? with _ | pid
        · have h1 : waitOne w id s = (.ok .none, { s with
              masked := false, gotSigchld := false, waits := rest, trace := .waited (.st st) :: s.trace }) := by
            unfold waitOne interruptsOff
            rw [run_modS_bind, run_bind_ok hp]
            simp only
            rw [if_pos hpid]
            rfl
          rw [run_bind_ok h1]
          exact ⟨_, rfl, rfl, rfl, [_], rfl⟩
        · have h1 : waitOne w id s = (.ok .some, { s with
              masked := false, gotSigchld := false, waits := rest, trace := .waited (.st st) :: s.trace }) := by
            unfold waitOne interruptsOff
            rw [run_modS_bind, run_bind_ok hp]
            simp only
            rw [if_neg (by rw [hpid]; simp), run_getS_bind]
            simp only [scanJobs_finished s.held (waitPid st) st s.jc.current s.jc.table hf, unwrapM_some]
            rfl
          rw [run_bind_ok h1]
          simp only
          obtain ⟨s', e, hj, hs, l, hl⟩ := ih { s with
              masked := false, gotSigchld := false, waits := rest, trace := .waited (.st st) :: s.trace }
            (by rw [hw] at hn; simpa using hn) hf (fun h => he (by rw [hw]; exact List.mem_cons_of_mem _ h))
          exact ⟨s', e, hj, Waited.of_upd hs, l ++ [.st st], by rw [hl]; simp⟩

/-! ## What is left of the schedule -/

theorem waitOne_waits (w : World) (id : Nat) {s s' : Sh} {p c : Int} {ws : List WRes} {r : WaitOne}
    (hw : s.waits = .st (.exited p c) :: ws) (h : waitOne w id s = (.ok r, s')) : r = .some ∧ s'.waits = ws := by
  rcases hr : scanJobs s.held p (.exited p c) s.jc.current s.jc.table with _ | x
  · unfold waitOne interruptsOff at h
    rw [run_modS_bind, run_bind_ok (waitProcess_hit (s := { s with masked := true }) (k := 0) hw)] at h
    simp only at h
    rw [if_neg (show (WStatus.exited p c).pid? ≠ none by simp [WStatus.pid?]), run_getS_bind] at h
    simp only [waitPid, hr] at h
    cases h
  · rw [waitOne_exited w id (k := 0) hw hr] at h
    cases h
    exact ⟨rfl, rfl⟩

theorem waitOne_err (w : World) (id : Nat) {s : Sh} {ws : List WRes} (hw : s.waits = .err :: ws) :
    waitOne w id s = (.ok .err, { s with
      masked := true, gotSigchld := false, waits := ws, trace := .waited .err :: s.trace }) := by
  have hp : waitProcess { s with masked := true } = (.ok .err, { s with
      masked := true, gotSigchld := false, waits := ws, trace := .waited .err :: s.trace }) := by
    unfold waitProcess
    rw [run_modS_bind, run_getS_bind]
    show waitRetry (s.waits.length + 1) _ = _
    unfold waitRetry
    rw [run_bind_ok (a := .err) (s' := { s with
      masked := true, gotSigchld := false, waits := ws, trace := .waited .err :: s.trace })]
    · rfl
    · unfold waitpidM
      simp only [hw]
  unfold waitOne interruptsOff
  rw [run_modS_bind, run_bind_ok hp]
  rfl

/-- Waiting goes on until there are no children. -/
theorem doWaitLoop_waits (w : World) (id : Nat) (rest : List WRes) (sts : List (Int × Int)) :
    ∀ (n : Nat) (b : Bool) {s s' : Sh}, s.waits = sts.map (fun p => .st (.exited p.1 p.2)) ++ .err :: rest →
      doWaitLoop w id n b s = (.ok (), s') → s'.waits = rest := by
  induction sts with
  | nil =>
    intro n b s s' hw h
    cases n with
    | zero => cases h
    | succ n =>
      unfold doWaitLoop at h
      rw [run_getS_bind, if_neg (by rw [hw]; simp), run_bind_ok (waitOne_err w id hw)] at h
      cases h
      rfl
  | cons p sts ih =>
    intro n b s s' hw h
    cases n with
    | zero => cases h
    | succ n =>
      unfold doWaitLoop at h
      rw [run_getS_bind, if_neg (by rw [hw]; simp)] at h
      rcases h1 : waitOne w id s with ⟨o, s1⟩
      cases o with
      | ok r =>
        obtain ⟨rfl, h2⟩ := waitOne_waits w id hw h1
        rw [run_bind_ok h1] at h
        exact ih n false h2 h
      | _ =>
        rw [run_bind, h1] at h
        cases h

/-! ## The progress of one job -/

theorem jobStateOf_running (ps : List Process) : jobStateOf .running ps = .running := by
  induction ps with
  | nil => rfl
  | cons p ps ih =>
    unfold jobStateOf
    by_cases h : p.status = none <;> simp [h, ih]

theorem jobStateOf_none {ps : List Process} (h : ∃ p ∈ ps, p.status = none) (st : JobState) :
    jobStateOf st ps = .running := by
  induction ps generalizing st with
  | nil => obtain ⟨p, hp, _⟩ := h; cases hp
  | cons p ps ih =>
    unfold jobStateOf
    by_cases hn : p.status = none
    · simp [hn, jobStateOf_running]
    · have h' : ∃ q ∈ ps, q.status = none := by
        obtain ⟨q, hq, e⟩ := h
        rcases List.mem_cons.1 hq with rfl | hq
        · exact absurd e hn
        · exact ⟨q, hq, e⟩
      simp only [hn, if_false]
      split
      · exact ih h' _
      · split <;> exact ih h' _

theorem jobStateOf_done {ps : List Process}
    (h : ∀ p ∈ ps, ∃ st, p.status = some st ∧ st.isStopped = false) :
    jobStateOf .finished ps = .finished := by
  induction ps with
  | nil => rfl
  | cons p ps ih =>
    unfold jobStateOf
    obtain ⟨st, e, hs⟩ := h p List.mem_cons_self
    simp [e, hs, ih fun q hq => h q (List.mem_cons_of_mem _ hq)]

/-- The pids of the processes that have not reported. -/
def unknown (j : Job) : List Int := (j.processes.filter fun p => p.status = none).map Process.pid

/-- A job all of whose reported processes have exited, the first one with `code`. -/
structure Prog (p0 code : Int) (j : Job) : Prop where
  head : j.processes.head?.map (fun p => (p.pid, p.status)) = some (p0, some (.exited p0 code))
  exited : ∀ p ∈ j.processes, p.status = none ∨ ∃ c, p.status = some (.exited p.pid c)
  stop : j.stopStatus = .exited p0 code
  state : j.state = if unknown j = [] then .finished else .running

theorem unknown_nil {j : Job} : unknown j = [] ↔ ∀ p ∈ j.processes, p.status ≠ none := by
  unfold unknown
  rw [List.map_eq_nil_iff, List.filter_eq_nil_iff]
  simp

theorem jobStateOf_prog {j : Job} (h : ∀ p ∈ j.processes, p.status = none ∨ ∃ c, p.status = some (.exited p.pid c)) :
    jobStateOf .finished j.processes = if unknown j = [] then .finished else .running := by
  split
  · next hu =>
    rw [unknown_nil] at hu
    refine jobStateOf_done fun p hp => ?_
    rcases h p hp with e | ⟨c, e⟩
    · exact absurd e (hu p hp)
    · exact ⟨_, e, rfl⟩
  · next hu =>
    rw [unknown_nil] at hu
    refine jobStateOf_none ?_ _
    simpa using hu

theorem mem_unknown_mark {j j' : Job} {pid : Int} {st : WStatus}
    (h : j'.processes = markProcs pid st j.processes) {x : Int} (hx : x ∈ unknown j') :
    x ∈ unknown j ∧ x ≠ pid := by
  unfold unknown at hx ⊢
  rw [h] at hx
  obtain ⟨p, hp, rfl⟩ := List.mem_map.1 hx
  obtain ⟨hp, hs⟩ := List.mem_filter.1 hp
  obtain ⟨q, hq, rfl⟩ := List.mem_map.1 hp
  by_cases hpid : q.pid = pid
  · simp [hpid] at hs
  · rw [if_neg hpid] at hs ⊢
    exact ⟨List.mem_map_of_mem (List.mem_filter.2 ⟨hq, hs⟩), hpid⟩

/-- A report about the only job. -/
theorem scan_single {id : Nat} {j : Job} {pid c : Int} {cur : Option Nat}
    (hrun : j.state = .running) {p0 code : Int}
    (hhead : (markProcs pid (.exited pid c) j.processes).head?.map (fun p => (p.pid, p.status)) =
      some (p0, some (.exited p0 code)))
    (hex : ∀ p ∈ j.processes, p.status = none ∨ ∃ c, p.status = some (.exited p.pid c))
    (hu : unknown j ≠ []) :
    ∃ j' t, scanJobs [] pid (.exited pid c) cur [(id, j)] = some ⟨[(id, j')], t, cur⟩ ∧
      Prog p0 code j' ∧ j'.processes = markProcs pid (.exited pid c) j.processes ∧
      j'.background = j.background ∧ j'.jobId = j.jobId := by
  have hex' : ∀ p ∈ markProcs pid (.exited pid c) j.processes,
      p.status = none ∨ ∃ c, p.status = some (.exited p.pid c) := by
    intro p hp
    obtain ⟨q, hq, rfl⟩ := List.mem_map.1 hp
    by_cases hpid : q.pid = pid
    · rw [if_pos hpid]; exact .inr ⟨c, by rw [← hpid]⟩
    · rw [if_neg hpid]; exact hex q hq
  unfold scanJobs
  rw [if_neg (by simp [hrun])]
  simp only
  have hst : (markProcs pid (.exited pid c) j.processes).head?.bind Process.status =
      some (.exited p0 code) := by
    rcases hh : (markProcs pid (.exited pid c) j.processes).head? with _ | p
    · rw [hh] at hhead; cases hhead
    · rw [hh] at hhead
      simp only [Option.map_some, Option.some.injEq, Prod.mk.injEq] at hhead
      exact hhead.2
  rw [hst]
  simp only
  split
  · next hit =>
    have hj := jobStateOf_prog (j := { j with processes := markProcs pid (.exited pid c) j.processes }) hex'
    simp only at hj
    split
    · have hns : jobStateOf .finished (markProcs pid (.exited pid c) j.processes) ≠ .stopped := by
        rw [hj]; split <;> simp
      rw [if_neg hns]
      exact ⟨_, _, rfl, ⟨hhead, hex', rfl, hj⟩, rfl, rfl, rfl⟩
    · next hr =>
      refine ⟨_, _, rfl, ⟨hhead, hex', rfl, ?_⟩, rfl, rfl, rfl⟩
      rw [hj] at hr
      show j.state = _
      rw [hrun]
      by_cases hu' : unknown { j with processes := markProcs pid (.exited pid c) j.processes } = []
      · rw [if_pos hu'] at hr; simp at hr
      · exact (if_neg hu').symm
  · next hit =>
    have hm : markProcs pid (.exited pid c) j.processes = j.processes := by
      unfold markProcs
      conv => rhs; rw [← List.map_id j.processes]
      apply List.map_congr_left
      intro p hp
      rw [if_neg]
      · rfl
      · intro e
        exact hit (List.any_eq_true.2 ⟨p, hp, by simp [e]⟩)
    refine ⟨_, _, rfl, ⟨hhead, hex', rfl, ?_⟩, rfl, rfl, rfl⟩
    show j.state = if unknown { j with processes := _, stopStatus := _ } = [] then _ else _
    rw [hrun, hm]
    exact (if_neg hu).symm

theorem Prog.head_mark {p0 code : Int} {j : Job} (h : Prog p0 code j) {pid c : Int} (hne : pid ≠ p0) :
    (markProcs pid (.exited pid c) j.processes).head?.map (fun p => (p.pid, p.status)) =
      some (p0, some (.exited p0 code)) := by
  have := h.head
  unfold markProcs
  rw [List.head?_map]
  rcases hh : j.processes.head? with _ | p
  · rw [hh] at this; cases this
  · rw [hh] at this
    simp only [Option.map_some, Option.some.injEq, Prod.mk.injEq] at this ⊢
    rw [if_neg (by rw [this.1]; exact fun e => hne e.symm)]
    exact this

/-- After the first process has exited: the other exits are recorded as long as they are available. -/
theorem doWaitLoop_prog (w : World) (id : Nat) (p0 code : Int) (rest : List WRes) (he : .eintr ∉ rest)
    (sts : List (Int × Int)) : ∀ (n : Nat) (s : Sh) (j : Job),
    s.waits = sts.map (fun p => .st (.exited p.1 p.2)) ++ rest → s.waits.length < n →
    s.held = [] → s.jc.table = [(id, j)] → Prog p0 code j → p0 ∉ sts.map Prod.fst →
    (∀ x ∈ unknown j, x ∈ sts.map Prod.fst) →
    ∃ s' j', doWaitLoop w id n false s = (.ok (), s') ∧ Waited s s' ∧
      s'.jc = { s.jc with table := [(id, j')] } ∧ Prog p0 code j' ∧ unknown j' = [] ∧
      j'.processes.map Process.pid = j.processes.map Process.pid ∧ j'.background = j.background ∧
      j'.jobId = j.jobId ∧ (∃ ws : List WRes, s'.trace = ws.map .waited ++ s.trace) ∧
      ∀ x ∈ unknown j, ∃ c, .waited (.st (.exited x c)) ∈ s'.trace := by
  induction sts with
  | nil =>
    intro n s j hw hn hh ht hp hp0 hu
    have hu' : unknown j = [] := List.eq_nil_iff_forall_not_mem.2 fun x hx => by cases hu x hx
    have hf : j.state = .finished := by rw [hp.state, if_pos hu']
    obtain ⟨s', e, hj, hs, hl⟩ := doWaitLoop_finished w id n s hn
      (by rw [ht]; intro q hq; rw [List.mem_singleton.1 hq]; exact hf)
      (by rw [hw]; simpa using he)
    exact ⟨s', j, e, hs, by rw [hj, ← ht], hp, hu', rfl, rfl, rfl, hl, by rw [hu']; simp⟩
  | cons p sts ih =>
    intro n s j hw hn hh ht hp hp0 hu
    by_cases hfin : unknown j = []
    · have hf : j.state = .finished := by rw [hp.state, if_pos hfin]
      obtain ⟨s', e, hj, hs, hl⟩ := doWaitLoop_finished w id n s hn
        (by rw [ht]; intro q hq; rw [List.mem_singleton.1 hq]; exact hf)
        (by rw [hw]; simpa using he)
      exact ⟨s', j, e, hs, by rw [hj, ← ht], hp, hfin, rfl, rfl, rfl, hl, by rw [hfin]; simp⟩
    · obtain ⟨pid, c⟩ := p
      have hne : pid ≠ p0 := fun e => hp0 (by simp [e])
      have hrun : j.state = .running := by rw [hp.state, if_neg hfin]
      obtain ⟨j1, t, hscan, hp1, hpr, hb, hid⟩ := scan_single (id := id) (cur := s.jc.current) hrun
        (hp.head_mark hne (c := c)) hp.exited hfin
      obtain ⟨n, rfl⟩ : ∃ m, n = m + 1 := ⟨n - 1, by omega⟩
      unfold doWaitLoop
      rw [run_getS_bind]
      rw [if_neg (by rw [hw]; simp)]
      rw [run_bind_ok (waitOne_exited w id (k := 0) (pid := pid) (code := c)
        (rest := sts.map (fun p => .st (.exited p.1 p.2)) ++ rest) (by rw [hw]; rfl)
        (by rw [hh, ht]; exact hscan))]
      simp only
      obtain ⟨s', j', e, hs, hjc, hp', hu', hpids, hb', hid', ⟨l, hl⟩, hx⟩ := ih n { s with
        masked := false, gotSigchld := false
        waits := sts.map (fun p => .st (.exited p.1 p.2)) ++ rest
        trace := .waited (.st (.exited pid c)) :: (List.replicate 0 (.waited .eintr) ++ s.trace)
        jc := { s.jc with table := [(id, j1)], current := s.jc.current } } j1 rfl
        (by rw [hw] at hn; simpa using hn) hh rfl hp1 (fun h => hp0 (List.mem_cons_of_mem _ h))
        (fun x hx => by
          have := mem_unknown_mark hpr hx
          rcases List.mem_cons.1 (hu x this.1) with h | h
          · exact absurd h this.2
          · exact h)
      refine ⟨s', j', e, Waited.of_upd hs, hjc, hp', hu', ?_, hb'.trans hb, hid'.trans hid,
        ⟨l ++ [.st (.exited pid c)], by rw [hl]; simp⟩, ?_⟩
      · rw [hpids, hpr, markProcs_pids]
      · intro x hxu
        by_cases hxp : x = pid
        · refine ⟨c, ?_⟩
          rw [hl, hxp]
          exact List.mem_append_right _ List.mem_cons_self
        · refine hx x ?_
          unfold unknown at hxu ⊢
          obtain ⟨p, hp, rfl⟩ := List.mem_map.1 hxu
          obtain ⟨hp, hst⟩ := List.mem_filter.1 hp
          refine List.mem_map_of_mem (List.mem_filter.2 ⟨?_, hst⟩)
          rw [hpr]
          exact List.mem_map.2 ⟨p, hp, if_neg hxp⟩

end Rsh

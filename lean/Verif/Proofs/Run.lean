import Verif.Proofs.Pipeline
import Verif.Proofs.Wait

/-!
# Running pipelines of external commands
-/

namespace Rsh

open Spec

/-- A command that is neither a builtin, a function definition nor a compound command. -/
def Plain (c : Command) : Prop := ∃ sc, c = .simple sc ∧ isBuiltin sc.name = false

theorem evalSimple_plain (w : World) (rec : List AndOr → M Int) {c : SimpleCommand}
    (h : isBuiltin c.name = false) : Keeps Expands (fun _ _ => True) (evalSimple w rec c) := by
  unfold evalSimple
  rw [if_neg (by rw [h]; simp)]
  have S := Expands.eframe.toSeq
  exact .bind S (Expands.eframe.expandCommand (evalSubshell_expands w rec) c) fun _ =>
    .bind S (.unwrapM S _ _) fun _ => .pure S _

theorem evalCommands_plain (w : World) (rec : List AndOr → M Int) {cs : List Command}
    (h : ∀ c ∈ cs, Plain c) : Keeps Expands (fun _ _ => True) (evalCommands w rec cs) := by
  have S := Expands.eframe.toSeq
  induction cs with
  | nil => exact .pure S _
  | cons c cs ih =>
    unfold evalCommands
    refine .bind S ?_ fun o => ?_
    · obtain ⟨sc, rfl, hb⟩ := h c List.mem_cons_self
      exact evalSimple_plain w rec hb
    · cases o with
      | none => exact .pure S _
      | some pc => exact .bind S (ih fun c hc => h c (List.mem_cons_of_mem _ hc)) fun _ => .pure S _

/-- Every plain command yields a process without pid and status. -/
theorem evalCommands_procs (w : World) (rec : List AndOr → M Int) {cs : List Command}
    (h : ∀ c ∈ cs, Plain c) {s s' : Sh} {procs : List (Process × SimpleCommand)}
    (e : evalCommands w rec cs s = (.ok procs, s')) :
    procs.length = cs.length ∧ ∀ q ∈ procs, q.1.pid = -1 ∧ q.1.status = none := by
  refine ⟨?_, ?_⟩
  · induction cs generalizing s s' procs with
    | nil => cases e; rfl
    | cons c cs ih =>
      unfold evalCommands at e
      obtain ⟨o, s1, h1, h2⟩ := bind_ok_iff.1 e
      cases o with
      | none =>
        obtain ⟨sc, rfl, hb⟩ := h c List.mem_cons_self
        unfold evalCommand evalSimple at h1
        simp only at h1
        rw [if_neg (by rw [hb]; simp)] at h1
        obtain ⟨_, _, _, h3⟩ := bind_ok_iff.1 h1
        obtain ⟨_, _, _, h4⟩ := bind_ok_iff.1 h3
        cases h4
      | some pc =>
        obtain ⟨rest, s2, h3, h4⟩ := bind_ok_iff.1 h2
        cases h4
        simp [ih (fun c hc => h c (List.mem_cons_of_mem _ hc)) h3]
  · induction cs generalizing s s' procs with
    | nil => cases e; simp
    | cons c cs ih =>
      unfold evalCommands at e
      obtain ⟨o, s1, h1, h2⟩ := bind_ok_iff.1 e
      cases o with
      | none => cases h2; simp
      | some pc =>
        obtain ⟨rest, s2, h3, h4⟩ := bind_ok_iff.1 h2
        cases h4
        intro q hq
        rcases List.mem_cons.1 hq with rfl | hq
        · obtain ⟨sc, rfl, hb⟩ := h c List.mem_cons_self
          unfold evalCommand evalSimple at h1
          simp only at h1
          rw [if_neg (by rw [hb]; simp)] at h1
          obtain ⟨_, _, _, h3⟩ := bind_ok_iff.1 h1
          obtain ⟨_, _, _, h4⟩ := bind_ok_iff.1 h3
          cases h4; exact ⟨rfl, rfl⟩
        · exact ih (fun c hc => h c (List.mem_cons_of_mem _ hc)) h3 q hq

theorem runFunctions_none (rec : List AndOr → M Int) {procs : List (Process × SimpleCommand)} {s : Sh}
    (h : ∀ q ∈ procs, s.ctx.isFunction q.2.name = false) : runFunctions rec procs s = (.ok procs, s) := by
  induction procs with
  | nil => rfl
  | cons q procs ih =>
    obtain ⟨p, c⟩ := q
    unfold runFunctions
    rw [run_getS_bind, if_neg (by rw [h (p, c) List.mem_cons_self]; simp),
      run_bind_ok (ih fun q hq => h q (List.mem_cons_of_mem _ hq))]
    rfl

/-! ## The new job -/

/-- Give the processes their pids. -/
def withPids (ps : List Process) (pids : List Nat) : List Process :=
  List.zipWith (fun p (pid : Nat) => { p with pid := (pid : Int) }) ps pids

/-- `installPids` on the processes. -/
def setPids (count : Nat) : List Nat → List Process → List Process
  | [], ps => ps
  | pid :: pids, ps => setPids (count + 1) pids (ps.modify count fun p => { p with pid := (pid : Int) })

theorem setPids_eq (pids : List Nat) : ∀ (pre ps : List Process), pids.length = ps.length →
    setPids pre.length pids (pre ++ ps) = pre ++ withPids ps pids := by
  induction pids with
  | nil =>
    intro pre ps h
    cases ps with
    | nil => rfl
    | cons p ps => simp at h
  | cons pid pids ih =>
    intro pre ps h
    cases ps with
    | nil => simp at h
    | cons p ps =>
      unfold setPids
      have e : (pre ++ p :: ps).modify pre.length (fun p => { p with pid := (pid : Int) }) =
          (pre ++ [{ p with pid := (pid : Int) }]) ++ ps := by
        clear ih h
        induction pre with
        | nil => rfl
        | cons a pre ih => simpa using ih
      rw [e]
      have := ih (pre ++ [{ p with pid := (pid : Int) }]) ps (by simpa using h)
      rw [List.length_append, List.length_singleton] at this
      rw [this]
      simp [withPids]

theorem installPids_eq (id : Nat) (pids : List Nat) : ∀ (count : Nat) (jc : JobControl), 
    (installPids id count pids jc).table = jc.table.map (fun p =>
      if p.1 = id then (p.1, { p.2 with processes := setPids count pids p.2.processes }) else p) ∧
    (installPids id count pids jc).bg = jc.bg ∧ (installPids id count pids jc).current = jc.current ∧
    (installPids id count pids jc).nextId = jc.nextId ∧
    (installPids id count pids jc).pids = pids.foldl (fun m (p : Nat) => pidInsert (p : Int) id m) jc.pids := by
  induction pids with
  | nil =>
    intro count jc
    refine ⟨?_, rfl, rfl, rfl, rfl⟩
    unfold installPids setPids
    conv => lhs; rw [← List.map_id jc.table]
    apply List.map_congr_left
    intro p _
    split <;> rfl
  | cons pid pids ih =>
    intro count jc
    unfold installPids
    obtain ⟨h1, h2, h3, h4, h5⟩ := ih (count + 1) ((jc.modJob id (setPidAt count pid)).updatePid id pid)
    refine ⟨?_, h2, h3, h4, ?_⟩
    · rw [h1]
      show (List.map _ (List.map _ jc.table)) = _
      rw [List.map_map]
      apply List.map_congr_left
      intro p _
      simp only [Function.comp]
      by_cases hp : p.1 = id
      · simp [hp, setPids, setPidAt]
      · simp [hp]
    · rw [h5]; rfl

theorem tInsert_fresh (k : Nat) (j : Job) (t : List (Nat × Job)) (h : ∀ p ∈ t, p.1 < k) :
    tInsert k j t = t ++ [(k, j)] := by
  induction t with
  | nil => rfl
  | cons p t ih =>
    obtain ⟨k', j'⟩ := p
    have hk : k' < k := h (k', j') List.mem_cons_self
    unfold tInsert
    rw [if_neg (by omega), if_neg (by omega), ih fun p hp => h p (List.mem_cons_of_mem _ hp)]
    rfl

/-- The job table after a pipeline has been started. -/
theorem started_table {jc : JobControl} (h : ∀ p ∈ jc.table, p.1 < jc.nextId) (ps : List Process) (b : Bool)
    (pids : List Nat) (hl : pids.length = ps.length) :
    (installPids jc.nextId 0 pids (jc.createJob ps b).2).table =
      jc.table ++ [(jc.nextId, ⟨withPids ps pids, jc.nextId, .stillAlive, .running, b⟩)] := by
  rw [(installPids_eq _ _ _ _).1]
  show List.map _ (tInsert jc.nextId _ jc.table) = _
  rw [tInsert_fresh _ _ _ h, List.map_append]
  congr 1
  · conv => rhs; rw [← List.map_id jc.table]
    apply List.map_congr_left
    intro p hp
    rw [if_neg (by have := h p hp; omega)]
    rfl
  · simp only [List.map_cons, List.map_nil, if_true]
    have := setPids_eq pids [] ps hl
    simp only [List.length_nil, List.nil_append] at this
    rw [this]

theorem withPids_cmds {ps : List Process} {pids : List Nat} (h : pids.length = ps.length) :
    (withPids ps pids).map Process.cmd = ps.map Process.cmd := by
  induction ps generalizing pids with
  | nil => cases pids <;> simp_all [withPids]
  | cons p ps ih =>
    cases pids with
    | nil => simp at h
    | cons q pids =>
      have := ih (pids := pids) (by simpa using h)
      unfold withPids at this ⊢
      simp only [List.zipWith_cons_cons, List.map_cons, this]

/-! ## Starting a pipeline -/

/-- What is known of the started processes. -/
structure Kids (w : World) (rec : List AndOr → M Int) (b : Bool) (s : Sh)
    (procs : List (Process × SimpleCommand)) (kids : List Kid) : Prop where
  length : kids.length = procs.length
  pid : ∀ (i : Nat) kid, kids[i]? = some kid →
    w.fork (((kids.take i).map Kid.event).reverse ++ s.trace) = some kid.1
  kid : ∀ (i : Nat) q kid, procs[i]? = some q → kids[i]? = some kid →
    KidOk w rec b s.jc.nextId (inPipe s.nextPipe i) (outPipe s.nextPipe i procs.length)
      { s with jc := (s.jc.createJob (procs.map Prod.fst) b).2 } q kid

/-- The state of the shell when all processes of a pipeline have been started. -/
def launched (s : Sh) (b : Bool) (procs : List (Process × SimpleCommand)) (kids : List Kid) : Sh :=
  { s with
    nextPipe := s.nextPipe + (procs.length - 1)
    jc := installPids s.jc.nextId 0 (kids.map Prod.fst) (s.jc.createJob (procs.map Prod.fst) b).2
    trace := (kids.map Kid.event).reverse ++ s.trace }

/-- A pipeline of external commands up to the point where all processes have been started. -/
theorem pipeline_launch {w : World} (hw : Resources w) (rec : List AndOr → M Int) (pl : Pipeline)
    {s s1 : Sh} {procs : List (Process × SimpleCommand)}
    (hexp : evalCommands w rec pl.seq { s with masked := true } = (.ok procs, s1))
    (hne : procs ≠ []) (hfun : ∀ q ∈ procs, s1.ctx.isFunction q.2.name = false) (hfds : StdFds s1.fds) :
    ∃ kids, Kids w rec pl.background s1 procs kids ∧
      evalPipeline w rec pl s = (do
        afterFork w pl.background s1.jc.nextId procs.length
        interruptsOn
        let s ← getS
        pure s.exitStatus : M Int) (launched s1 pl.background procs kids) := by
  obtain ⟨kids, hrun, hlen, hpids, hkids⟩ := forkLoop_run w rec pl.background s1.jc.nextId procs.length
    hw.pipe hw.fork { s1 with jc := (s1.jc.createJob (procs.map Prod.fst) pl.background).2 } hfds procs 0 none
    (-1, -1) { s1 with jc := (s1.jc.createJob (procs.map Prod.fst) pl.background).2 } hne
    ⟨_, _, [], rfl⟩ rfl ⟨fun _ _ e => (by cases e), fun _ _ _ e => (by cases e)⟩ rfl rfl (Nat.zero_add _).symm hfun
  refine ⟨kids, ⟨hlen, hpids, ?_⟩, ?_⟩
  · intro i q kid hq hk
    have := hkids i q kid hq hk
    rw [Nat.zero_add] at this
    exact this
  · unfold evalPipeline interruptsOff
    rw [run_modS_bind, run_bind_ok hexp]
    rw [if_neg (by simpa using hne)]
    have hc : createJobM (procs.map Prod.fst) pl.background s1 =
      (.ok s1.jc.nextId, { s1 with jc := (s1.jc.createJob (procs.map Prod.fst) pl.background).2 }) := rfl
    split
    · rw [run_pure_bind]
      exact (run_bind_ok hc _).trans (run_bind_ok hrun _)
    · rw [run_bind_ok (runFunctions_none rec hfun)]
      exact (run_bind_ok hc _).trans (run_bind_ok hrun _)

/-! ## Waiting for a foreground pipeline -/

/-- The only job runs in the foreground, and its processes exit: the first one first. -/
theorem waitForJob_all (w : World) (id : Nat) {s : Sh} {j : Job} {p0 : Process} {ps : List Process}
    (ht : s.jc.table = [(id, j)]) (hh : s.held = []) (hrun : j.state = .running)
    (hps : j.processes = p0 :: ps) (hnone : ∀ p ∈ j.processes, p.status = none)
    {k : Nat} {code : Int} {sts : List (Int × Int)} {rest : List WRes}
    (hw : s.waits = List.replicate k .eintr ++ .st (.exited p0.pid code) ::
      (sts.map (fun p => .st (.exited p.1 p.2)) ++ rest))
    (he : .eintr ∉ rest) (hp0 : p0.pid ∉ sts.map Prod.fst) (hsts : ∀ p ∈ ps, p.pid ≠ p0.pid → p.pid ∈ sts.map Prod.fst) :
    ∃ s' j', waitForJob w id s = (.ok (.exited p0.pid code), s') ∧ Waited s s' ∧ s'.masked = false ∧
      s'.jc = { s.jc with table := [(id, j')] }.deleteJob id ∧ Prog p0.pid code j' ∧ unknown j' = [] ∧
      j'.processes.map Process.pid = j.processes.map Process.pid ∧ j'.background = j.background ∧
      (∃ ws : List WRes, s'.trace = ws.map .waited ++ .waited (.st (.exited p0.pid code)) ::
        (List.replicate k (.waited .eintr) ++ s.trace)) ∧
      (∀ p ∈ j.processes, ∃ c, .waited (.st (.exited p.pid c)) ∈ s'.trace) ∧
      ∀ more, rest = .err :: more → s'.waits = more := by
  have hu : unknown j ≠ [] := by
    rw [Ne, unknown_nil, hps]
    intro h
    exact h p0 List.mem_cons_self (hnone p0 (by rw [hps]; exact List.mem_cons_self))
  obtain ⟨j1, t, hscan, hp1, hpr, hb, hid⟩ := scan_single (id := id) (cur := s.jc.current) (pid := p0.pid) (c := code)
    (p0 := p0.pid) (code := code) hrun (by rw [hps]; simp [markProcs]) (fun p hp => .inl (hnone p hp)) hu
  obtain ⟨s', j', e, hs, hjc, hp', hu', hpids, hb', hid', ⟨l, hl⟩, hx⟩ := doWaitLoop_prog w id p0.pid code rest he sts
    (s.waits.length + 1) { s with
      masked := false, gotSigchld := false
      waits := sts.map (fun p => .st (.exited p.1 p.2)) ++ rest
      trace := .waited (.st (.exited p0.pid code)) :: (List.replicate k (.waited .eintr) ++ s.trace)
      jc := { s.jc with table := [(id, j1)], current := s.jc.current } } j1 rfl
    (by rw [hw]; simp; omega) hh rfl hp1 hp0 (fun x hx => by
      obtain ⟨h1, h2⟩ := mem_unknown_mark hpr hx
      unfold unknown at h1
      obtain ⟨p, hp, rfl⟩ := List.mem_map.1 h1
      have hp := (List.mem_filter.1 hp).1
      rw [hps] at hp
      rcases List.mem_cons.1 hp with rfl | hp
      · exact absurd rfl h2
      · exact hsts p hp h2)
  have hget : s.jc.getJob id = some j := by
    unfold JobControl.getJob tGet; rw [ht]; simp
  have hdo : doWait w id s = (.ok (), s') := by
    unfold doWait
    rw [run_getS_bind, hget, unwrapM_some, run_pure_bind]
    simp only [hrun, decide_true, Bool.not_true, Bool.false_and]
    rw [if_neg (by simp)]
    show doWaitLoop w id (s.waits.length + 1 + 1) true s = _
    unfold doWaitLoop
    rw [run_getS_bind]
    simp only [Bool.not_true, Bool.false_and]
    rw [if_neg (by simp), run_bind_ok (waitOne_exited w id hw (by rw [hh, ht]; exact hscan))]
    exact e
  have hget' : s'.jc.getJob id = some j' := by
    unfold JobControl.getJob tGet; rw [hjc]; simp
  have hstop : j'.stopStatus = .exited p0.pid code := hp'.stop
  refine ⟨{ s' with masked := false, jc := s'.jc.deleteJob id }, j', ?_, ?_, rfl, ?_, hp', hu', ?_, hb'.trans hb,
    ⟨l, hl⟩, ?_, ?_⟩
  · unfold waitForJob
    rw [run_bind_ok hdo, run_getS_bind, hget', unwrapM_some, run_pure_bind]
    rw [if_pos (by rw [hstop]; simp [WStatus.isExited])]
    unfold deleteJobM interruptsOff interruptsOn modJc
    rw [← hstop]
    rfl
  · exact Waited.trans (Waited.of_upd hs) rfl
  · show s'.jc.deleteJob id = _
    rw [hjc]
  · rw [hpids, hpr, markProcs_pids]
  · intro p hp
    by_cases hpp : p.pid = p0.pid
    · refine ⟨code, ?_⟩
      show _ ∈ s'.trace
      rw [hl, hpp]
      exact List.mem_append_right _ List.mem_cons_self
    · refine hx p.pid ?_
      unfold unknown
      rw [hpr]
      refine List.mem_map.2 ⟨p, List.mem_filter.2 ⟨List.mem_map.2 ⟨p, hp, if_neg hpp⟩, ?_⟩, rfl⟩
      simp [hnone p hp]
  · intro more hm
    subst hm
    exact doWaitLoop_waits w id more sts _ _ (s' := s') rfl e

/-- Deleting the only job when its first process has exited. -/
theorem deleteJob_only {jc : JobControl} {id : Nat} {j : Job} {p0 code : Int} (h : Prog p0 code j) :
    { jc with table := [(id, j)] }.deleteJob id = { jc with
      table := [], nextId := 1, pids := JobControl.forgetPids j.processes jc.pids
      bg := if j.background then jc.bg.filter (· ≠ id) else jc.bg } := by
  have hhead := h.head
  unfold JobControl.deleteJob tGet
  simp only [List.lookup_cons, beq_self_eq_true]
  rcases hps : j.processes with _ | ⟨p, ps⟩
  · rw [hps] at hhead; cases hhead
  · rw [hps] at hhead
    simp only [List.head?_cons, Option.map_some, Option.some.injEq, Prod.mk.injEq] at hhead
    rw [if_neg (by simp)]
    have hn : JobControl.noteStopped j = j := by
      unfold JobControl.noteStopped
      rw [hps]
      simp [hhead.2, WStatus.isStopped]
    rw [hn, h.stop]
    simp only [WStatus.isStopped]
    simp [JobControl.updateNextId, tRemove, hps]

end Rsh

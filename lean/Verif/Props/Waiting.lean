import Verif.Proofs.Waits
import Verif.Props.Jobs
import Verif.Props.Signals
import Verif.Props.Outcomes
import Verif.Props.Pipelines

/-!
# Waiting for the job in the foreground (C48, C50, C51, C52, C64, C95, C96)

What the shell does with the reports it gets about its children, whatever other jobs there are.
-/

namespace Rsh

open Spec

/-- Deleting a job once or twice. -/
def Deleted (jc jc' : JobControl) (id : Nat) (j : Job) : Prop :=
  (∀ k, k ≠ id → jc'.getJob k = jc.getJob k) ∧
    (¬FirstStopped j → jc'.getJob id = none) ∧
    (FirstStopped j → ∃ j', jc'.getJob id = some j' ∧ j'.state = .stopped ∧ j'.processes = j.processes ∧
      j'.background = j.background ∧ j'.jobId = j.jobId)

theorem Deleted.again {jc jc' : JobControl} {id : Nat} {j : Job} (hn : NotedOk j) (hp : j.processes ≠ [])
    (h : Deleted jc jc' id j) : Deleted jc (jc'.deleteJob id) id j := by
  obtain ⟨h1, h2, h3⟩ := h
  by_cases hs : FirstStopped j
  · obtain ⟨j', a1, a2, a3, a4, a5⟩ := h3 hs
    have hs' : FirstStopped j' := by
      obtain ⟨st, ⟨p, b1, b2⟩, b3⟩ := hn.firstStopped.1 hs
      exact .inr ⟨p, st, by rw [a3]; exact b1, b2, b3⟩
    obtain ⟨c1, -, c3⟩ := C44_delete_partial jc' id j' a1 (by rw [a3]; exact hp)
    refine ⟨fun k hk => (c1 k hk).trans (h1 k hk), fun h => absurd hs h, fun _ => ?_⟩
    obtain ⟨j'', d1, d2, d3, d4, d5⟩ := c3 hs'
    exact ⟨j'', d1, d2, d3.trans a3, d4.trans a4, d5.trans a5⟩
  · have : jc'.deleteJob id = jc' := C44_deleteMissing jc' id (h2 hs)
    rw [this]
    exact ⟨h1, h2, h3⟩

theorem tGet_lookup (id : Nat) (t : List (Nat × Job)) : tGet id t = t.lookup id := rfl

/-- What is known of the job waited for when the reports have been recorded. -/
theorem reports_new {sts : List WStatus} {t t' : List (Nat × Job)} {cur cur' : Option Nat} {id : Nat} {j : Job}
    {pids : List Int} (hj : NewJob id pids j) (hid : ∀ q ∈ t, q.1 ≠ id)
    (hr : Reports sts (t ++ [(id, j)]) cur t' cur') :
    ∃ j', t'.lookup id = some j' ∧ NotedOk j' ∧ j'.processes.map Process.pid = pids ∧ j'.background = false ∧
      j'.jobId = id := by
  have hall := Reports.all hr (P := fun k j' => k = id → NotedOk j' ∧ j'.processes.map Process.pid = pids ∧
      j'.background = false ∧ j'.jobId = id)
    (by
      intro q h hk
      have hk' : q.1 = id := by rw [← hk]; unfold Spec.passed; split <;> rfl
      obtain ⟨a1, a2, a3, a4⟩ := h hk'
      refine ⟨a1.passed, ?_⟩
      unfold Spec.passed
      split
      · exact ⟨a2, a3, a4⟩
      · exact ⟨a2, a3, a4⟩)
    (by
      intro st _ k j0 h hk
      obtain ⟨a1, a2, a3, a4⟩ := h hk
      refine ⟨a1.reported _ _, ?_, a3, a4⟩
      rw [← a2]
      show (j0.processes.map _).map Process.pid = _
      rw [List.map_map]
      apply List.map_congr_left
      intro p _
      show (if p.pid = about st then { p with status := some st } else p : Process).pid = p.pid
      split <;> rfl)
    (by
      intro q hq hk
      rcases List.mem_append.1 hq with hq | hq
      · exact absurd hk (hid q hq)
      · obtain rfl := List.mem_singleton.1 hq
        refine ⟨?_, hj.pids, hj.foreground, hj.number⟩
        unfold NotedOk
        rw [hj.noted]
        cases hh : j.processes.head? with
        | none => rfl
        | some p =>
          rw [Option.bind_some, hj.unknown p (List.mem_of_head? hh)]
          rfl)
  have hfst := Reports.fst hr
  obtain ⟨j', hj'⟩ := lookup_of_fst (t := t') (id := id) (by rw [hfst]; simp)
  exact ⟨j', hj', hall (id, j') (lookup_mem hj') rfl⟩

theorem lookup_inserted (id : Nat) (pids : List Nat) (m : List (Int × Nat)) (pid : Int)
    (h : m.lookup pid = some id ∨ ∃ p ∈ pids, (p : Int) = pid) :
    (pids.foldl (fun m (p : Nat) => pidInsert (p : Int) id m) m).lookup pid = some id := by
  induction pids generalizing m with
  | nil =>
    rcases h with h | ⟨p, hp, _⟩
    · exact h
    · cases hp
  | cons p pids ih =>
    rw [List.foldl_cons]
    refine ih _ ?_
    rw [lookup_pidInsert]
    by_cases hpid : pid = p
    · exact .inl (if_pos hpid)
    · rw [if_neg hpid]
      rcases h with h | ⟨p', hp', e⟩
      · exact .inl h
      · rcases List.mem_cons.1 hp' with rfl | hp'
        · exact absurd e.symm hpid
        · exact .inr ⟨p', hp', e⟩

theorem printed_kids (kids : List Kid) : printed (kids.map Kid.event).reverse = [] := by
  unfold printed
  rw [List.reverse_reverse, List.filterMap_eq_nil_iff]
  intro e he
  obtain ⟨k, -, rfl⟩ := List.mem_map.1 he
  rfl

/-- C50, C64, C95 and C96 in one: whatever jobs there are, a foreground pipeline typed at the prompt becomes a new
job; the shell then records the reports that are there, whoever they are about, and returns; what it does next
depends on the first process of the pipeline alone (`Returned`).  When the reports cannot be recorded it crashes. -/
theorem foreground_exact (w : World) (hw : Resources w) (n : Nat) (s : Sh) (hp : AtPrompt w s) (p : ExtPipe)
    (hok : ∀ e ∈ p.stages, e.Simple s) (hfg : p.background = false) (ps4 : Str)
    (hps4 : valueOf s (cs!"PS4") = some ps4) :
    ∃ (kid : Kid) (kids : List Kid) (j : Job), kids.length + 1 = p.stages.length ∧
      w.fork s.trace = some kid.1 ∧
      Happened s (interactiveLine w (n + 1) p.text s).2 ((kid :: kids).map Kid.event) ∧
      NewJob s.jc.nextId ((kid :: kids).map fun k => (k.1 : Int)) j ∧
      j.processes.map Process.cmd = p.stages.map Ext.name ∧
      ∀ sts, Batch s.waits sts →
        (s.waits ≠ [] → ∀ t' cur', Reports sts (s.jc.table ++ [(s.jc.nextId, j)]) (some s.jc.nextId) t' cur' →
          ∃ s' j', interactiveLine w (n + 1) p.text s = (.ok (), s') ∧
            evalText w (n + 1) p.text s = (.ok s'.exitStatus, s') ∧ t'.lookup s.jc.nextId = some j' ∧
            Returned s s' s.jc.nextId j' t' cur' ∧ (∀ st ∈ sts, .waited (.st st) ∈ s'.trace) ∧
            ∃ outs, Told w ps4 s.jc.nextId sts (s.jc.table ++ [(s.jc.nextId, j)]) (some s.jc.nextId) outs ∧
              Wrote s s' outs) ∧
        (Crashing sts (s.jc.table ++ [(s.jc.nextId, j)]) (some s.jc.nextId) →
          ∃ s', interactiveLine w (n + 1) p.text s = (.panic .unwrap, s')) := by
  have hfds := AtPrompt_resources_fds hw hp
  have hti := (tableInv w).atPrompt hp
  have hexp := evalCommands_ext w (evalFuel w n) (es := p.stages) (s := { s with masked := true })
    fun e he => ⟨(hok e he).ok.plain, (hok e he).ok.external, (hok e he).ok.alias, (hok e he).ok.function,
      (hok e he).ok.args, (hok e he).ok.nul, (hok e he).ok.assign⟩
  obtain ⟨kids0, hk, hrun⟩ := pipeline_launch hw (evalFuel w n) (.mk false (p.stages.map Ext.command) false) hexp
    (by simp [ExtPipe.stages]) (fun q hq => by
      obtain ⟨e, he, rfl⟩ := List.mem_map.1 hq
      exact (hok e he).ok.function) (by show StdFds s.fds; rw [hfds]; exact stdTable_std)
  have hlen : kids0.length = p.stages.length := by rw [hk.length, List.length_map]
  obtain ⟨kid, kids, rfl⟩ : ∃ kid kids, kids0 = kid :: kids := by
    cases kids0 with
    | nil => simp [ExtPipe.stages] at hlen
    | cons kid kids => exact ⟨kid, kids, rfl⟩
  have hparse := ExtPipe.parse hok
  rw [hfg] at hparse
  have htab := started_table (jc := s.jc) hti.small ((p.stages.map Ext.proc).map Prod.fst) false
    ((kid :: kids).map Prod.fst) (by simpa using hlen)
  have hlw : ((kid :: kids).map Prod.fst).length = ((p.stages.map Ext.proc).map Prod.fst).length := by simpa using hlen
  let j : Job := ⟨withPids ((p.stages.map Ext.proc).map Prod.fst) ((kid :: kids).map Prod.fst), s.jc.nextId,
    .stillAlive, .running, false⟩
  have hnew : NewJob s.jc.nextId ((kid :: kids).map fun k => (k.1 : Int)) j := by
    refine ⟨?_, ?_, rfl, rfl, rfl, rfl⟩
    · show (withPids _ _).map Process.pid = _
      rw [withPids_pids hlw, List.map_map]; rfl
    · intro q hq
      obtain ⟨q0, hq0, pid, _, rfl⟩ := withPids_mem hq
      obtain ⟨x, hx, rfl⟩ := List.mem_map.1 hq0
      obtain ⟨e, _, rfl⟩ := List.mem_map.1 hx
      rfl
  let s0 := launched { s with masked := true } false (p.stages.map Ext.proc) (kid :: kids)
  have hid : ∀ q ∈ s.jc.table, q.1 ≠ s.jc.nextId := fun q hq => Nat.ne_of_lt (hti.small q hq)
  have ht0 : s0.jc.table = s.jc.table ++ [(s.jc.nextId, j)] := htab
  have hc0 : s0.jc.current = some s.jc.nextId := by
    show (installPids _ _ _ _).current = _
    rw [(installPids_eq _ _ _ _).2.2.1]; rfl
  have hj0 : s0.jc.getJob s.jc.nextId = some j := by
    unfold JobControl.getJob
    rw [tGet_lookup, ht0]
    exact lookup_last hid j
  have hcount : (p.stages.map Ext.proc).length ≠ 0 := by simp [ExtPipe.stages]
  have hne : ∀ j' : Job, j'.processes.map Process.pid = ((kid :: kids).map fun k => (k.1 : Int)) → j'.processes ≠ [] := by
    intro j' h e
    rw [e] at h
    simp at h
  have hnames : j.processes.map Process.cmd = p.stages.map Ext.name := by
    show (withPids _ _).map Process.cmd = _
    rw [withPids_cmds hlw, List.map_map, List.map_map]
    rfl
  have hnum : Numbered s0.jc.pids s.jc.nextId s0.jc.table := by
    intro q hq e q' hq'
    rw [ht0] at hq
    rcases List.mem_append.1 hq with hq | hq
    · exact absurd e (hid q hq)
    · obtain rfl := List.mem_singleton.1 hq
      show (installPids _ _ _ _).pids.lookup _ = _
      rw [(installPids_eq _ _ _ _).2.2.2.2]
      refine lookup_inserted _ _ _ _ (.inr ?_)
      have : q'.pid ∈ j.processes.map Process.pid := List.mem_map_of_mem hq'
      rw [hnew.pids] at this
      obtain ⟨k, hk', e⟩ := List.mem_map.1 this
      exact ⟨k.1, List.mem_map_of_mem hk', e⟩
  refine ⟨kid, kids, j, by simpa using hlen, hk.pid 0 kid rfl, ?_, hnew, hnames, fun sts hb => ⟨fun hwne t' cur' hr => ?_, fun hr => ?_⟩⟩
  · have hsil : Silent s0 (evalPipeline w (evalFuel w n) (.mk false (p.stages.map Ext.command) false) s).2 := by
      rw [hrun]
      refine silent_post (Keeps.bind Silent.seq (silent_afterFork w _ _ _) (fun _ => ?_) _)
      refine .bind Silent.seq ?_ fun _ => .bind Silent.seq (.getS Silent.seq) fun _ => .pure Silent.seq _
      exact silent_modS fun _ => rfl
    obtain ⟨l, e, hl⟩ := interactiveLine_silent hparse (ExtPipe.text_ne hok) hsil
    exact ⟨l, hl, e⟩
  · obtain ⟨j', hj', hn, hpids, hb', hjid⟩ := reports_new hnew hid hr
    obtain ⟨s1, h1, h2, h3, new, h4, h5, h6⟩ := waitForJob_batch w s.jc.nextId hj0 rfl (AtPrompt_own hp).2.1 (s := s0) hps4 hb hwne
      (by rw [ht0, hc0]; exact hr) hj'
    let A : JobControl := { s0.jc with table := t', current := cur' }
    have hA : A.getJob s.jc.nextId = some j' := hj'
    have hdel : Deleted A (s1.jc.deleteJob s.jc.nextId) s.jc.nextId j' := by
      have hone : Deleted A (A.deleteJob s.jc.nextId) s.jc.nextId j' := C44_delete_partial A s.jc.nextId j' hA (hne j' hpids)
      rw [h3]
      split
      · exact hone.again hn (hne j' hpids)
      · exact hone
    have hcur : (s1.jc.deleteJob s.jc.nextId).current = cur' := by
      rw [deleteJob_current, h3]
      split
      · rw [deleteJob_current]
      · rfl
    let code := match j'.stopStatus with
      | .exited _ c => c
      | _ => s1.exitStatus
    let s2 : Sh := { s1 with jc := s1.jc.deleteJob s.jc.nextId, masked := false, exitStatus := code }
    have hafter : afterFork w false s.jc.nextId (p.stages.map Ext.proc).length s0 = (.ok (), s2) := by
      unfold afterFork
      rw [if_neg hcount, if_neg (by simp), run_bind_ok h1]
      show (match j'.stopStatus with
        | .exited _ code => modS fun s => { s with exitStatus := code }
        | _ => pure () : M Unit) { s1 with masked := false, jc := s1.jc.deleteJob s.jc.nextId } = (Out.ok (), s2)
      show _ = (Out.ok (), { s1 with jc := s1.jc.deleteJob s.jc.nextId, masked := false, exitStatus := code })
      unfold code
      cases j'.stopStatus <;> rfl
    have hpipe : evalPipeline w (evalFuel w n) (.mk false (p.stages.map Ext.command) false) s = (.ok s2.exitStatus, s2) := by
      rw [hrun]
      exact (run_bind_ok hafter _).trans rfl
    have hstat : s1.exitStatus = s.exitStatus := by rw [h2]; rfl
    refine ⟨s2, j', interactiveLine_one hparse (ExtPipe.text_ne hok) hpipe, ?_, hj', ?_, ?_, ?_⟩
    · unfold evalText
      rw [hparse]
      show evalListFrom w (evalFuel w n) (-1) [.mk none none _] s = _
      unfold evalListFrom evalAndOr
      rw [run_bind_ok hpipe]
      rfl
    · refine ⟨rfl, hcur, hdel.1, fun h => hdel.2.1 ?_, ?_, ?_, ?_, ?_, ?_⟩
      · intro hs
        obtain ⟨st, a1, a2⟩ := hn.firstStopped.1 hs
        rw [h st a1] at a2
        cases a2
      · intro st a1 a2
        obtain ⟨j'', d1, d2, d3, d4, d5⟩ := hdel.2.2 (hn.firstStopped.2 ⟨st, a1, a2⟩)
        exact ⟨j'', d1, d2, d3, d4.trans hb', d5.trans hjid⟩
      · intro pid c h
        have := (hn.has (by simp)).2 h
        show (match j'.stopStatus with
          | .exited _ c => c
          | _ => s1.exitStatus) = c
        rw [this]
      · intro h
        show (match j'.stopStatus with
          | .exited _ c => c
          | _ => s1.exitStatus) = s.exitStatus
        split
        · next pid c he => exact absurd ((hn.has (by simp)).1 he) (h pid c)
        · exact hstat
      · show s1.ctx = _
        rw [h2]; rfl
      · show s1.fds = _
        rw [h2]; rfl
    · intro st hst
      show _ ∈ s1.trace
      rw [h4]
      exact List.mem_append_left _ (h5.1 st hst)
    · obtain ⟨outs, d1, d2⟩ := h6 hnum
      rw [ht0, hc0] at d1
      refine ⟨outs, d1, new ++ ((kid :: kids).map Kid.event).reverse, ?_, ?_⟩
      · show s1.trace = _
        rw [h4, List.append_assoc]
        rfl
      · rw [printed_append, printed_kids, d2]
        rfl
  · obtain ⟨s1, h1⟩ := waitForJob_crash w s.jc.nextId hj0 rfl (AtPrompt_own hp).2.1 (s := s0) hps4 hb
      (by rw [ht0, hc0]; exact hr)
    have hpanic : evalPipeline w (evalFuel w n) (.mk false (p.stages.map Ext.command) false) s = (.panic .unwrap, s1) := by
      rw [hrun]
      refine run_bind_panic ?_ _
      unfold afterFork
      rw [if_neg hcount]
      show (waitForJob w s.jc.nextId >>= _) _ = _
      exact run_bind_panic h1 _
    exact ⟨s1, interactiveLine_panic hparse (ExtPipe.text_ne hok) hpanic⟩

theorem Spec.Batch.ne_nil {waits : List WRes} {st : WStatus} {sts : List WStatus} (h : Batch waits (st :: sts)) : waits ≠ [] := by
  cases h with
  | some k hp h => cases k <;> simp [List.replicate]

/-- A foreground pipeline whose first process is the first to be reported; any other reports follow. -/
theorem first_reported (w : World) (hw : Resources w) (n : Nat) (s : Sh) (hp : AtPrompt w s) (p : ExtPipe)
    (hok : ∀ e ∈ p.stages, e.Simple s) (hfg : p.background = false) (ps4 : Str)
    (hps4 : valueOf s (cs!"PS4") = some ps4) (pid : Nat) (hpid : w.fork s.trace = some pid)
    (hjobs : ∀ q ∈ s.jc.table, PassedBy pid q) (st : WStatus) (hst : about st = pid) (sts : List WStatus)
    (hsts : ∀ st' ∈ sts, about st' ≠ pid) (hb : Batch s.waits (st :: sts)) :
    ∃ s' j' t' cur', interactiveLine w (n + 1) p.text s = (.ok (), s') ∧
      evalText w (n + 1) p.text s = (.ok s'.exitStatus, s') ∧ FirstHas j' st ∧
      j'.processes.length = p.stages.length ∧
      Returned s s' s.jc.nextId j' t' cur' ∧ (∀ st' ∈ st :: sts, .waited (.st st') ∈ s'.trace) ∧
      ((∀ st' ∈ sts, ∀ q ∈ s.jc.table, q.2.state ≠ .finished → ∀ p ∈ q.2.processes, p.pid ≠ about st') →
        s'.jc.current = some s.jc.nextId ∧
        ∀ k, k ≠ s.jc.nextId → (s'.jc.getJob k).map essence = (s.jc.getJob k).map essence) := by
  have hti := (tableInv w).atPrompt hp
  have hid : ∀ q ∈ s.jc.table, q.1 ≠ s.jc.nextId := fun q hq => Nat.ne_of_lt (hti.small q hq)
  obtain ⟨kid, kids, j, hlen, hfork, -, hnew, -, hrun⟩ := foreground_exact w hw n s hp p hok hfg ps4 hps4
  obtain rfl : kid.1 = pid := by rw [hpid] at hfork; exact (Option.some.inj hfork).symm
  rw [List.map_cons] at hnew
  have h1 := new_report hnew st hjobs (some s.jc.nextId)
  rw [hnew.number] at h1
  have hcur : (if Halted (reportedTo kid.1 st j) then some s.jc.nextId else some s.jc.nextId) = some s.jc.nextId := by
    split <;> rfl
  rw [hcur] at h1
  obtain ⟨⟨p1, hp1, hs1⟩, p2, hp2, hpid2⟩ := new_first hnew st
  have hknown : ∀ q ∈ s.jc.table.map passed ++ [(s.jc.nextId, reportedTo kid.1 st j)],
      q.2.state ≠ .finished → FirstKnown q.2 := by
    intro q hq
    rcases List.mem_append.1 hq with hq | hq
    · obtain ⟨q0, hq0, rfl⟩ := List.mem_map.1 hq
      exact passed_all fun hf => (hjobs q0 hq0 hf).1
    · obtain rfl := List.mem_singleton.1 hq
      exact fun _ => ⟨p1, st, hp1, hs1⟩
  obtain ⟨t', cur', h2⟩ := reports_exist sts hknown (some s.jc.nextId)
  have hr : Reports (st :: sts) (s.jc.table ++ [(s.jc.nextId, j)]) (some s.jc.nextId) t' cur' :=
    .cons (by rw [hst]; exact h1) h2
  obtain ⟨s', j', a1, a2, a3, a4, a5, -⟩ := (hrun _ hb).1 hb.ne_nil t' cur' hr
  have hfirst := reports_first s.jc.nextId kid.1 st h2 hsts (by
    intro q hq hk
    rcases List.mem_append.1 hq with hq | hq
    · obtain ⟨q0, hq0, rfl⟩ := List.mem_map.1 hq
      exact absurd ((passed_fst q0).symm.trans hk) (hid q0 hq0)
    · obtain rfl := List.mem_singleton.1 hq
      refine ⟨p1, hp1, hs1, ?_⟩
      rw [hp1] at hp2
      obtain rfl := Option.some.inj hp2
      exact hpid2) (s.jc.nextId, j') (lookup_mem a3) rfl
  obtain ⟨j'', b1, -, b2, -⟩ := reports_new hnew hid hr
  obtain rfl : j' = j'' := by rw [a3] at b1; exact Option.some.inj b1
  refine ⟨s', j', t', cur', a1, a2, hfirst, ?_, a4, a5, fun ho => ?_⟩
  · have := congrArg List.length b2
    simpa [← hlen] using this
  · have hnum : ∀ q ∈ s.jc.table.map passed ++ [(s.jc.nextId, reportedTo kid.1 st j)], q.2.jobId = q.1 := by
      intro q hq
      rcases List.mem_append.1 hq with hq | hq
      · obtain ⟨q0, hq0, rfl⟩ := List.mem_map.1 hq
        have e : (passed q0).2.jobId = q0.2.jobId := congrArg (fun x => x.2.2.2) (essence_passed q0)
        rw [e, passed_fst]
        exact hti.own q0 hq0
      · obtain rfl := List.mem_singleton.1 hq
        exact hnew.number
    obtain ⟨c1, c2⟩ := reports_own (id := s.jc.nextId) h2 hnum (by
      intro st' hst' q hq hne ho' p hp
      rcases List.mem_append.1 hq with hq | hq
      · obtain ⟨q0, hq0, rfl⟩ := List.mem_map.1 hq
        have e := essence_passed q0
        have e1 : (passed q0).2.processes = q0.2.processes := congrArg (fun x => x.1) e
        have e2 : (passed q0).2.state = q0.2.state := congrArg (fun x => x.2.1) e
        exact ho st' hst' q0 hq0 (by rw [← e2]; exact ho') p (by rw [← e1]; exact hp)
      · obtain rfl := List.mem_singleton.1 hq
        exact absurd rfl hne) rfl
    refine ⟨a4.current.trans c1, fun k hk => ?_⟩
    rw [a4.others k hk, c2 k hk, List.lookup_append]
    have e := lookup_passed k s.jc.table
    have hlast : ([(s.jc.nextId, reportedTo kid.1 st j)] : List (Nat × Job)).lookup k = none := by
      rw [List.lookup_cons, beq_eq_false_iff_ne.2 hk]; rfl
    rw [hlast, Option.or_none, e]
    rfl

/-! ## C48, C50, C64 -/

/-- C48, for the wait for a foreground pipeline: when something is known of the first process of every other
unfinished job and the first process of the pipeline is reported first, no report that follows crashes the shell,
whatever it is about. -/
theorem C48_foreground_partial (w : World) (hw : Resources w) (n : Nat) (s : Sh) (hp : AtPrompt w s) (p : ExtPipe)
    (hok : ∀ e ∈ p.stages, e.Simple s) (hfg : p.background = false) (ps4 : Str)
    (hps4 : valueOf s (cs!"PS4") = some ps4) (pid : Nat) (hpid : w.fork s.trace = some pid)
    (hjobs : ∀ q ∈ s.jc.table, PassedBy pid q) (st : WStatus) (hst : about st = pid) (sts : List WStatus)
    (hsts : ∀ st' ∈ sts, about st' ≠ pid) (hb : Batch s.waits (st :: sts)) :
    ∃ s', interactiveLine w (n + 1) p.text s = (.ok (), s') ∧ ∀ st' ∈ st :: sts, .waited (.st st') ∈ s'.trace := by
  obtain ⟨s', j', t', cur', h1, -, -, -, -, h2, -⟩ := first_reported w hw n s hp p hok hfg ps4 hps4 pid hpid hjobs st hst sts hsts hb
  exact ⟨s', h1, h2⟩

/-- C48 and C50 fail for every pipeline of several commands: the first report is about a process of the pipeline
that is not the first one, and the shell crashes. -/
theorem C48_crash (w : World) (hw : Resources w) (n : Nat) (s : Sh) (hp : AtPrompt w s) (p : ExtPipe)
    (hok : ∀ e ∈ p.stages, e.Simple s) (hfg : p.background = false) (ps4 : Str)
    (hps4 : valueOf s (cs!"PS4") = some ps4) (pid : Nat) (hpid : w.fork s.trace = some pid) (st : WStatus)
    (hst : about st ≠ pid) (hjobs : ∀ q ∈ s.jc.table, q.2.state ≠ .finished → ∀ p ∈ q.2.processes, p.pid ≠ about st)
    (sts : List WStatus) (hb : Batch s.waits (st :: sts)) :
    ∃ s', interactiveLine w (n + 1) p.text s = (.panic .unwrap, s') := by
  obtain ⟨kid, kids, j, hlen, hfork, -, hnew, -, hrun⟩ := foreground_exact w hw n s hp p hok hfg ps4 hps4
  obtain rfl : kid.1 = pid := by rw [hpid] at hfork; exact (Option.some.inj hfork).symm
  obtain ⟨p1, ps, hps⟩ : ∃ p ps, j.processes = p :: ps := by
    cases h : j.processes with
    | nil => have := hnew.pids; rw [h] at this; simp at this
    | cons p ps => exact ⟨p, ps, rfl⟩
  have hp1 : p1.pid = kid.1 := by have := hnew.pids; rw [hps] at this; simp at this; exact this.1
  have hn1 : p1.status = none := hnew.unknown p1 (by rw [hps]; exact List.mem_cons_self)
  have hun : ¬FirstKnown j := by
    rintro ⟨q, x, h1, h2⟩
    rw [hps] at h1
    cases h1
    rw [hn1] at h2
    cases h2
  refine (hrun _ hb).2 (.here fun t1 cur1 hr => ?_)
  generalize ht : s.jc.table ++ [(s.jc.nextId, j)] = t0 at hr
  cases hr with
  | stranger h =>
    subst ht
    exact hun (h (s.jc.nextId, j) (by simp) (by rw [hnew.running]; simp)).1
  | @member pre post _ i j0 hpre ho hm hk =>
    have hmem : (i, j0) ∈ s.jc.table ++ [(s.jc.nextId, j)] := by rw [ht]; simp
    rcases List.mem_append.1 hmem with h | h
    · obtain ⟨q, hq, e⟩ := hm
      exact hjobs (i, j0) h ho q hq e
    · have : j0 = j := (Prod.mk.inj (List.mem_singleton.1 h)).2
      subst this
      obtain ⟨q, x, h1, h2⟩ := hk
      have hh : (reportedTo (about st) st j0).processes.head? = some p1 := by
        show (j0.processes.map _).head? = _
        rw [hps, List.map_cons, List.head?_cons, if_neg (by rw [hp1]; exact Ne.symm hst)]
      rw [hh] at h1
      cases h1
      rw [hn1] at h2
      cases h2

/-- C50 fails for every pipeline: when its first process has exited and nothing else is reported, the prompt is
back and the job forgotten, however many other processes it has. -/
theorem C50_early (w : World) (hw : Resources w) (n : Nat) (s : Sh) (hp : AtPrompt w s) (p : ExtPipe)
    (hok : ∀ e ∈ p.stages, e.Simple s) (hfg : p.background = false) (ps4 : Str)
    (hps4 : valueOf s (cs!"PS4") = some ps4) (pid : Nat) (hpid : w.fork s.trace = some pid)
    (hjobs : ∀ q ∈ s.jc.table, PassedBy pid q) (c : Int) (hb : Batch s.waits [.exited pid c]) :
    ∃ s', interactiveLine w (n + 1) p.text s = (.ok (), s') ∧ s'.masked = false ∧ s'.exitStatus = c ∧
      s'.jc.getJob s.jc.nextId = none := by
  obtain ⟨s', j', t', cur', h1, -, h3, -, h4, -⟩ := first_reported w hw n s hp p hok hfg ps4 hps4 pid hpid hjobs (.exited pid c)
    rfl [] (by simp) hb
  refine ⟨s', h1, h4.unmasked, h4.status _ _ h3, h4.gone fun st hst => ?_⟩
  obtain ⟨p1, a1, a2⟩ := h3
  obtain ⟨p2, b1, b2⟩ := hst
  rw [a1] at b1
  cases b1
  rw [a2] at b2
  cases b2
  rfl

/-- C64, whatever other jobs there are and whatever is reported after the first process has exited: the status is
that of the first command, and the job is forgotten, whether the others have ended, been stopped or still run. -/
theorem C64_anyJobs_partial (w : World) (hw : Resources w) (n : Nat) (s : Sh) (hp : AtPrompt w s) (p : ExtPipe)
    (hok : ∀ e ∈ p.stages, e.Simple s) (hfg : p.background = false) (ps4 : Str)
    (hps4 : valueOf s (cs!"PS4") = some ps4) (pid : Nat) (hpid : w.fork s.trace = some pid)
    (hjobs : ∀ q ∈ s.jc.table, PassedBy pid q) (c : Int) (sts : List WStatus)
    (hsts : ∀ st' ∈ sts, about st' ≠ pid) (hb : Batch s.waits (.exited pid c :: sts)) :
    ∃ s', interactiveLine w (n + 1) p.text s = (.ok (), s') ∧ evalText w (n + 1) p.text s = (.ok c, s') ∧
      s'.exitStatus = c ∧ s'.jc.getJob s.jc.nextId = none := by
  obtain ⟨s', j', t', cur', h1, h2, h3, -, h4, -⟩ := first_reported w hw n s hp p hok hfg ps4 hps4 pid hpid hjobs (.exited pid c)
    rfl sts hsts hb
  have hc := h4.status _ _ h3
  rw [hc] at h2
  refine ⟨s', h1, h2, hc, h4.gone fun st hst => ?_⟩
  obtain ⟨p1, a1, a2⟩ := h3
  obtain ⟨p2, b1, b2⟩ := hst
  rw [a1] at b1
  cases b1
  rw [a2] at b2
  cases b2
  rfl

/-! ## C51 -/

/-- C51 fails for every command and every pipeline: when a process of a job started before is reported (and
nothing else), the shell goes back to the prompt and forgets the pipeline it has just started, although nothing
has been reported about it; the status is that of the command before. -/
theorem C51_other (w : World) (hw : Resources w) (n : Nat) (s : Sh) (hp : AtPrompt w s) (p : ExtPipe)
    (hok : ∀ e ∈ p.stages, e.Simple s) (hfg : p.background = false) (ps4 : Str)
    (hps4 : valueOf s (cs!"PS4") = some ps4) (st : WStatus) (pre post : List (Nat × Job)) (id : Nat) (j : Job)
    (htab : s.jc.table = pre ++ (id, j) :: post) (hpre : ∀ q ∈ pre, PassedBy (about st) q)
    (ho : j.state ≠ .finished) (hm : ∃ q ∈ j.processes, q.pid = about st)
    (hk : FirstKnown (reportedTo (about st) st j)) (hb : Batch s.waits [st]) :
    ∃ s', interactiveLine w (n + 1) p.text s = (.ok (), s') ∧ s'.masked = false ∧
      s'.jc.getJob s.jc.nextId = none ∧ s'.exitStatus = s.exitStatus := by
  obtain ⟨kid, kids, j0, hlen, hfork, -, hnew, -, hrun⟩ := foreground_exact w hw n s hp p hok hfg ps4 hps4
  have hti := (tableInv w).atPrompt hp
  have hid : ∀ q ∈ s.jc.table, q.1 ≠ s.jc.nextId := fun q hq => Nat.ne_of_lt (hti.small q hq)
  have h1 : Report (about st) st (s.jc.table ++ [(s.jc.nextId, j0)]) (some s.jc.nextId)
      (pre.map passed ++ (id, reportedTo (about st) st j) :: (post ++ [(s.jc.nextId, j0)]))
      (if Halted (reportedTo (about st) st j) then some j.jobId else some s.jc.nextId) := by
    rw [htab, List.append_assoc, List.cons_append]
    exact .member hpre ho hm hk
  obtain ⟨s', j', a1, -, a3, a4, -⟩ := (hrun _ hb).1 hb.ne_nil _ _ (.cons h1 (.nil _ _))
  have hj' : j' = j0 := by
    have hne : ∀ q ∈ pre.map passed ++ (id, reportedTo (about st) st j) :: post, q.1 ≠ s.jc.nextId := by
      intro q hq
      rcases List.mem_append.1 hq with hq | hq
      · obtain ⟨q0, hq0, rfl⟩ := List.mem_map.1 hq
        rw [passed_fst]
        exact hid q0 (by rw [htab]; exact List.mem_append_left _ hq0)
      · rcases List.mem_cons.1 hq with rfl | hq
        · exact hid (id, j) (by rw [htab]; simp)
        · exact hid q (by rw [htab]; exact List.mem_append_right _ (List.mem_cons_of_mem _ hq))
    have h := lookup_last hne j0
    rw [List.append_assoc, List.cons_append] at h
    rw [h] at a3
    exact (Option.some.inj a3).symm
  subst hj'
  have hno : ∀ x, ¬FirstHas j' x := by
    rintro x ⟨q, h1, h2⟩
    rw [hnew.unknown q (List.mem_of_head? h1)] at h2
    cases h2
  exact ⟨s', a1, a4.unmasked, a4.gone fun st hst => absurd hst (hno st), a4.oldStatus fun pid c => hno _⟩

/-! ## C95 and C96 -/

/-- C95, the part that holds, for pipelines and whatever other jobs there are: when the first program is killed by
a signal (and whatever is reported afterwards), the shell goes back to the prompt with signals unblocked, and the
job is gone.  Missing: the status is that of the command before. -/
theorem C95_anyJobs_partial (w : World) (hw : Resources w) (n : Nat) (s : Sh) (hp : AtPrompt w s) (p : ExtPipe)
    (hok : ∀ e ∈ p.stages, e.Simple s) (hfg : p.background = false) (ps4 : Str)
    (hps4 : valueOf s (cs!"PS4") = some ps4) (pid : Nat) (hpid : w.fork s.trace = some pid)
    (hjobs : ∀ q ∈ s.jc.table, PassedBy pid q) (sig : Nat) (core : Bool) (sts : List WStatus)
    (hsts : ∀ st' ∈ sts, about st' ≠ pid) (hb : Batch s.waits (.signaled pid sig core :: sts)) :
    ∃ s', interactiveLine w (n + 1) p.text s = (.ok (), s') ∧ evalText w (n + 1) p.text s = (.ok s.exitStatus, s') ∧
      s'.masked = false ∧ s'.jc.getJob s.jc.nextId = none ∧ s'.exitStatus = s.exitStatus ∧
      .waited (.st (.signaled pid sig core)) ∈ s'.trace := by
  obtain ⟨s', j', t', cur', h1, h2, h3, -, h4, h5, -⟩ := first_reported w hw n s hp p hok hfg ps4 hps4 pid hpid hjobs
    (.signaled pid sig core) rfl sts hsts hb
  have huniq : ∀ st, FirstHas j' st → st = .signaled pid sig core := by
    rintro st ⟨p2, b1, b2⟩
    obtain ⟨p1, a1, a2⟩ := h3
    rw [a1] at b1
    cases b1
    rw [a2] at b2
    exact (Option.some.inj b2).symm
  have hold : s'.exitStatus = s.exitStatus := h4.oldStatus fun q c h => by cases huniq _ h
  rw [hold] at h2
  exact ⟨s', h1, h2, h4.unmasked, h4.gone fun st hst => by rw [huniq st hst]; rfl, hold, h5 _ List.mem_cons_self⟩

/-- C96, for pipelines and whatever other jobs there are: when the first program is stopped by a signal (and
whatever is reported afterwards about other processes), the shell goes back to the prompt with signals unblocked
and keeps the job with its number and processes, as a stopped one; if nothing is reported about other jobs, it is
the current one, and the other jobs are what they were. -/
theorem C96_anyJobs_partial (w : World) (hw : Resources w) (n : Nat) (s : Sh) (hp : AtPrompt w s) (p : ExtPipe)
    (hok : ∀ e ∈ p.stages, e.Simple s) (hfg : p.background = false) (ps4 : Str)
    (hps4 : valueOf s (cs!"PS4") = some ps4) (pid : Nat) (hpid : w.fork s.trace = some pid)
    (hjobs : ∀ q ∈ s.jc.table, PassedBy pid q) (sig : Nat) (sts : List WStatus)
    (hsts : ∀ st' ∈ sts, about st' ≠ pid) (hb : Batch s.waits (.stopped pid sig :: sts)) :
    ∃ s' j', interactiveLine w (n + 1) p.text s = (.ok (), s') ∧ s'.masked = false ∧
      s'.exitStatus = s.exitStatus ∧ s'.jc.getJob s.jc.nextId = some j' ∧ j'.state = .stopped ∧
      j'.processes.length = p.stages.length ∧ j'.background = false ∧ j'.jobId = s.jc.nextId ∧
      ((∀ st' ∈ sts, ∀ q ∈ s.jc.table, q.2.state ≠ .finished → ∀ p ∈ q.2.processes, p.pid ≠ about st') →
        s'.jc.current = some s.jc.nextId ∧
        ∀ k, k ≠ s.jc.nextId → (s'.jc.getJob k).map essence = (s.jc.getJob k).map essence) := by
  obtain ⟨s', j', t', cur', h1, h2, h3, hl, h4, h5, h6⟩ := first_reported w hw n s hp p hok hfg ps4 hps4 pid hpid hjobs
    (.stopped pid sig) rfl sts hsts hb
  obtain ⟨j'', b1, b2, b3, b4, b5⟩ := h4.kept _ h3 rfl
  refine ⟨s', j'', h1, h4.unmasked, h4.oldStatus fun q c h => ?_, b1, b2, by rw [b3]; exact hl, b4, b5, h6⟩
  obtain ⟨p1, a1, a2⟩ := h3
  obtain ⟨p2, c1, c2⟩ := h
  rw [a1] at c1
  cases c1
  rw [a2] at c2
  cases c2

/-- C96 fails: with a background job of which nothing is known, or when the second command of a pipeline is stopped,
the shell crashes. -/
theorem C96_counterexample :
    outcome (demoOut [cs!"sleep &", cs!"v"] [.st (.stopped 101 20), .err]) = .panic .unwrap ∧
    outcome (demoOut [cs!"a | b"] [.st (.stopped 101 20), .err]) = .panic .unwrap := by
  decide +kernel

/-! ## `fg` -/

theorem deleteJob_others (jc : JobControl) (id k : Nat) (hk : k ≠ id) : (jc.deleteJob id).getJob k = jc.getJob k := by
  cases hj : jc.getJob id with
  | none => rw [C44_deleteMissing jc id hj]
  | some j =>
    by_cases hp : j.processes = []
    · have hg : tGet id jc.table = some j := hj
      unfold JobControl.deleteJob
      rw [hg]
      simp only [hp, List.length_nil, if_true]
      show tGet k (tRemove id jc.table) = tGet k jc.table
      rw [tGet_tRemove, if_neg hk]
    · exact (C44_delete_partial jc id j hj hp).1 k hk

theorem deleteJob_gone (jc : JobControl) (id : Nat) (j : Job) (hj : jc.getJob id = some j) (hs : ¬FirstStopped j) :
    (jc.deleteJob id).getJob id = none := by
  by_cases hp : j.processes = []
  · have hg : tGet id jc.table = some j := hj
    unfold JobControl.deleteJob
    rw [hg]
    simp only [hp, List.length_nil, if_true]
    show tGet id (tRemove id jc.table) = none
    rw [tGet_tRemove, if_pos rfl]
  · exact (C44_delete_partial jc id j hj hp).2.1 hs

theorem run_reportM_panic {m : M Unit} {s s' : Sh} {k : PanicKind} (h : m s = (.panic k, s')) :
    reportM m s = (.panic k, s') := by
  unfold reportM
  rw [run_bind, run_tryE, h]

/-- C52, `fg`, with the wait: the job is marked as running in the foreground, the reports that are there are
recorded, and the shell returns; the job stays in the table unless it is finished or the status noted for it is an
exit.  The exit status is not recorded. -/
theorem fg_exact (w : World) (n : Nat) (s : Sh) (hp : AtPrompt w s) (c : Call) (hc : c.Ok s)
    (hname : c.name = cs!"fg") (x : Str) (vs : List Str) (hx : c.values = x :: vs) (id : Nat) (hn : Names s x id)
    (j : Job) (hj : s.jc.getJob id = some j) (hk : ∀ tr, ∀ p ∈ j.processes, w.killOk tr p.pid = true) (ps4 : Str)
    (hps4 : valueOf s (cs!"PS4") = some ps4) (sts : List WStatus) (hb : Batch s.waits sts) :
    (s.waits ≠ [] → ∀ t' cur', Reports sts (resumed id s.jc.table) s.jc.current t' cur' →
      ∃ s' j', interactiveLine w (n + 1) c.text s = (.ok (), s') ∧ t'.lookup id = some j' ∧ s'.masked = false ∧
        s'.jc.current = cur' ∧ s'.exitStatus = s.exitStatus ∧
        (∀ k, k ≠ id → s'.jc.getJob k = t'.lookup k) ∧
        (j'.state ≠ .finished ∧ j'.stopStatus.isExited = false → s'.jc.getJob id = some j') ∧
        (j'.state = .finished ∨ j'.stopStatus.isExited = true → ¬FirstStopped j' → s'.jc.getJob id = none) ∧
        ∀ st ∈ sts, .waited (.st st) ∈ s'.trace) ∧
    (Crashing sts (resumed id s.jc.table) s.jc.current →
      ∃ s', interactiveLine w (n + 1) c.text s = (.panic .unwrap, s')) := by
  have hti := (tableInv w).atPrompt hp
  obtain ⟨e, he, hline⟩ := fg_line w n s hp c hc hname x vs hx id hn j hj hk
  let s0 : Sh := { s with
    masked := true
    jc := s.jc.modJob id fun j => { j with state := .running, background := false }
    trace := e :: ((j.processes.map fun p => Event.kill p.pid).reverse ++ s.trace) }
  have hj0 : s0.jc.getJob id = some { j with state := .running, background := false } := by
    show (s.jc.modJob id _).getJob id = _
    rw [getJob_modJob, if_pos rfl, hj]; rfl
  refine ⟨fun hwne t' cur' hr => ?_, fun hr => ?_⟩
  · have hid : id ∈ t'.map Prod.fst := by
      rw [Reports.fst hr]
      unfold resumed
      rw [List.map_map]
      have := lookup_mem (show s.jc.table.lookup id = some j from hj)
      exact List.mem_map.2 ⟨(id, j), this, by simp⟩
    obtain ⟨j', hj'⟩ := lookup_of_fst hid
    obtain ⟨s1, h1, h2, h3, new, h4, h5, h6⟩ := waitForJob_batch w id hj0 rfl (AtPrompt_own hp).2.1 (s := s0) hps4 hb hwne hr hj'
    let A : JobControl := { s0.jc with table := t', current := cur' }
    have hA : A.getJob id = some j' := hj'
    have hne : (j'.state = .finished ∨ j'.stopStatus.isExited = true) → ∀ k, k ≠ id → (A.deleteJob id).getJob k = A.getJob k := by
      intro _ k hkne
      exact deleteJob_others A id k hkne
    refine ⟨{ s1 with masked := false }, j', ?_, hj', rfl, ?_, ?_, ?_, ?_, ?_, ?_⟩
    · rw [hline]
      refine reportM_ok ?_
      rw [run_bind_ok h1]
      rfl
    · show s1.jc.current = _
      rw [h3]
      split
      · rw [deleteJob_current]
      · rfl
    · show s1.exitStatus = _
      rw [h2]
    · intro k hkne
      show s1.jc.getJob k = _
      rw [h3]
      split
      · next h => exact hne h k hkne
      · rfl
    · intro h
      show s1.jc.getJob id = _
      rw [h3, if_neg]
      · exact hA
      · rintro (h' | h')
        · exact h.1 h'
        · rw [h.2] at h'; cases h'
    · intro h hns
      show s1.jc.getJob id = _
      rw [h3, if_pos h]
      exact deleteJob_gone A id j' hA hns
    · intro st hst
      show _ ∈ s1.trace
      rw [h4]
      exact List.mem_append_left _ (h5.1 st hst)
  · obtain ⟨s1, h1⟩ := waitForJob_crash w id hj0 rfl (AtPrompt_own hp).2.1 (s := s0) hps4 hb hr
    refine ⟨s1, ?_⟩
    rw [hline]
    exact run_reportM_panic (run_bind_panic h1 _)

/-- The report about the first process of the job that has been continued. -/
theorem resumed_report {w : World} {s : Sh} (hp : AtPrompt w s) {id : Nat} {j : Job} (hj : s.jc.getJob id = some j)
    {p : Process} (hps : j.processes.head? = some p) (hjobs : ∀ q ∈ s.jc.table, q.1 ≠ id → PassedBy p.pid q)
    (st : WStatus) (cur : Option Nat) :
    ∃ t', Report p.pid st (resumed id s.jc.table) cur t'
        (if Halted (reportedTo p.pid st { j with state := .running, background := false }) then some id else cur) ∧
      t'.lookup id = some (reportedTo p.pid st { j with state := .running, background := false }) ∧
      ∀ k, k ≠ id → (t'.lookup k).map essence = (s.jc.getJob k).map essence := by
  have hti := (tableInv w).atPrompt hp
  have hmem : (id, j) ∈ s.jc.table := lookup_mem (show s.jc.table.lookup id = some j from hj)
  obtain ⟨pre, post, ht⟩ := List.append_of_mem hmem
  have hs := hti.sorted
  rw [ht, List.pairwise_append] at hs
  have hpre : ∀ q ∈ pre, q.1 ≠ id := fun q hq => Nat.ne_of_lt (hs.2.2 q hq (id, j) List.mem_cons_self)
  have hpost : ∀ q ∈ post, q.1 ≠ id := fun q hq => Nat.ne_of_gt ((List.pairwise_cons.1 hs.2.1).1 q hq)
  have hsame : ∀ l : List (Nat × Job), (∀ q ∈ l, q.1 ≠ id) → resumed id l = l := by
    intro l hl
    unfold resumed
    conv => rhs; rw [← List.map_id l]
    apply List.map_congr_left
    intro q hq
    rw [if_neg (hl q hq)]; rfl
  have hres : resumed id s.jc.table = pre ++ (id, { j with state := .running, background := false }) :: post := by
    rw [ht]
    have : resumed id (pre ++ (id, j) :: post) = resumed id pre ++ resumed id [(id, j)] ++ resumed id post := by
      unfold resumed; simp
    rw [this, hsame pre hpre, hsame post hpost, List.append_assoc]
    simp [resumed]
  have hown : j.jobId = id := hti.own (id, j) hmem
  obtain ⟨jr, hjr⟩ : ∃ jr : Job, jr = { j with state := .running, background := false } := ⟨_, rfl⟩
  rw [← hjr] at hres ⊢
  have hown : jr.jobId = id := by rw [hjr]; exact hown
  have hpsr : jr.processes.head? = some p := by rw [hjr]; exact hps
  have hh : (reportedTo p.pid st jr).processes.head? = some { p with status := some st } := by
    show (jr.processes.map _).head? = _
    rw [List.head?_map, hpsr, Option.map_some, if_pos rfl]
  have hr : Report p.pid st (resumed id s.jc.table) cur
      (pre.map passed ++ (id, reportedTo p.pid st jr) :: post)
      (if Halted (reportedTo p.pid st jr) then some jr.jobId else cur) := by
    rw [hres]
    exact .member (fun q hq => hjobs q (by rw [ht]; exact List.mem_append_left _ hq) (hpre q hq)) (by rw [hjr]; simp)
      ⟨p, List.mem_of_head? hpsr, rfl⟩ ⟨_, st, hh, rfl⟩
  rw [hown] at hr
  refine ⟨_, hr, ?_, fun k hk => ?_⟩
  · rw [List.lookup_append]
    have : (pre.map passed).lookup id = none := by
      rw [List.lookup_eq_none_iff]
      intro q hq
      obtain ⟨q0, hq0, rfl⟩ := List.mem_map.1 hq
      rw [passed_fst]
      exact bne_iff_ne.2 fun e => hpre q0 hq0 e.symm
    rw [this, Option.none_or, List.lookup_cons]
    simp
  · show _ = (s.jc.table.lookup k).map essence
    rw [ht, List.lookup_append, List.lookup_append, List.lookup_cons, List.lookup_cons, beq_eq_false_iff_ne.2 hk]
    have e := lookup_passed k pre
    cases h3 : pre.lookup k with
    | some y =>
      rw [h3] at e
      cases h4 : (pre.map passed).lookup k with
      | none => rw [h4] at e; simp at e
      | some z => rw [h4] at e; simpa using e
    | none =>
      rw [h3] at e
      have h4 : (pre.map passed).lookup k = none := by simpa using e
      rw [h4, Option.none_or]

/-- C96, for `fg`: a job all of whose processes have been reported (as those of a stopped one have) is continued
and its first process is stopped again: the job stays in the table as a stopped one with its number, it is the
current one whichever was, and the other jobs are what they were. -/
theorem C96_fg_partial (w : World) (n : Nat) (s : Sh) (hp : AtPrompt w s) (c : Call) (hc : c.Ok s)
    (hname : c.name = cs!"fg") (x : Str) (vs : List Str) (hx : c.values = x :: vs) (id : Nat) (hn : Names s x id)
    (j : Job) (hj : s.jc.getJob id = some j) (hk : ∀ tr, ∀ p ∈ j.processes, w.killOk tr p.pid = true) (ps4 : Str)
    (hps4 : valueOf s (cs!"PS4") = some ps4) (p : Process) (hps : j.processes.head? = some p)
    (hknown : ∀ q ∈ j.processes, q.status ≠ none) (hjobs : ∀ q ∈ s.jc.table, q.1 ≠ id → PassedBy p.pid q) (sig : Nat)
    (hb : Batch s.waits [.stopped p.pid sig]) :
    ∃ s' j', interactiveLine w (n + 1) c.text s = (.ok (), s') ∧ s'.masked = false ∧
      s'.exitStatus = s.exitStatus ∧ s'.jc.getJob id = some j' ∧ j'.state = .stopped ∧ j'.background = false ∧
      j'.processes.map Process.pid = j.processes.map Process.pid ∧ s'.jc.current = some id ∧
      ∀ k, k ≠ id → (s'.jc.getJob k).map essence = (s.jc.getJob k).map essence := by
  obtain ⟨t', h1, h2, h3⟩ := resumed_report hp hj hps hjobs (.stopped p.pid sig) s.jc.current
  obtain ⟨s', j', a1, a2, a3, a4, a5, a6, a7, -, -⟩ := (fg_exact w n s hp c hc hname x vs hx id hn j hj hk ps4 hps4 _ hb).1 hb.ne_nil
    t' _ (.cons h1 (.nil _ _))
  rw [h2] at a2
  obtain rfl := Option.some.inj a2
  have hall : ∀ q ∈ (reportedTo p.pid (.stopped p.pid sig) { j with state := .running, background := false }).processes,
      q.status ≠ none := by
    intro q hq
    obtain ⟨q0, hq0, rfl⟩ := List.mem_map.1 hq
    split
    · simp
    · exact hknown q0 hq0
  have hone : ({ p with status := some (.stopped p.pid sig) } : Process) ∈
      (reportedTo p.pid (.stopped p.pid sig) { j with state := .running, background := false }).processes :=
    List.mem_map.2 ⟨p, List.mem_of_head? hps, by rw [if_pos rfl]⟩
  have hstate : (reportedTo p.pid (.stopped p.pid sig) { j with state := .running, background := false }).state = .stopped := by
    show (if (List.map _ _).any _ = true then _ else if (List.map _ _).any _ = true then _ else _) = _
    rw [if_neg, if_pos]
    · exact List.any_eq_true.2 ⟨_, hone, rfl⟩
    · intro h
      obtain ⟨q, hq, hq'⟩ := List.any_eq_true.1 h
      exact hall q hq (by simpa using hq')
  have hhead : (reportedTo p.pid (.stopped p.pid sig) { j with state := .running, background := false }).processes.head? =
      some { p with status := some (.stopped p.pid sig) } := by
    show (j.processes.map _).head? = _
    rw [List.head?_map, hps, Option.map_some, if_pos rfl]
  have hnoted : (reportedTo p.pid (.stopped p.pid sig) { j with state := .running, background := false }).stopStatus =
      .stopped p.pid sig := by
    show ((reportedTo p.pid (.stopped p.pid sig) { j with state := .running, background := false }).processes.head?.bind
      Process.status).getD _ = _
    rw [hhead]; rfl
  have hhalt : Halted (reportedTo p.pid (.stopped p.pid sig) { j with state := .running, background := false }) :=
    ⟨hall, _, hone, _, rfl, rfl⟩
  refine ⟨s', _, a1, a3, a5, a7 ⟨by rw [hstate]; simp, by rw [hnoted]; rfl⟩, hstate, rfl, ?_, ?_, fun k hk => ?_⟩
  · show (j.processes.map _).map Process.pid = _
    rw [List.map_map]
    apply List.map_congr_left
    intro q _
    show (if q.pid = p.pid then { q with status := some _ } else q : Process).pid = q.pid
    split <;> rfl
  · rw [a4, if_pos hhalt]
  · rw [a6 k hk, h3 k hk]

/-- C52, `fg` of a job whose first process then exits: the shell returns to the prompt and the job is gone, also
when another process of it has been stopped; the exit status is not recorded. -/
theorem C52_fgExits_partial (w : World) (n : Nat) (s : Sh) (hp : AtPrompt w s) (c : Call) (hc : c.Ok s)
    (hname : c.name = cs!"fg") (x : Str) (vs : List Str) (hx : c.values = x :: vs) (id : Nat) (hn : Names s x id)
    (j : Job) (hj : s.jc.getJob id = some j) (hk : ∀ tr, ∀ p ∈ j.processes, w.killOk tr p.pid = true) (ps4 : Str)
    (hps4 : valueOf s (cs!"PS4") = some ps4) (p : Process) (hps : j.processes.head? = some p)
    (hjobs : ∀ q ∈ s.jc.table, q.1 ≠ id → PassedBy p.pid q) (code : Int) (hb : Batch s.waits [.exited p.pid code]) :
    ∃ s', interactiveLine w (n + 1) c.text s = (.ok (), s') ∧ s'.masked = false ∧
      s'.jc.getJob id = none ∧ s'.exitStatus = s.exitStatus ∧
      ∀ k, k ≠ id → (s'.jc.getJob k).map essence = (s.jc.getJob k).map essence := by
  obtain ⟨t', h1, h2, h3⟩ := resumed_report hp hj hps hjobs (.exited p.pid code) s.jc.current
  obtain ⟨s', j', a1, a2, a3, a4, a5, a6, -, a7, -⟩ := (fg_exact w n s hp c hc hname x vs hx id hn j hj hk ps4 hps4 _ hb).1 hb.ne_nil
    t' _ (.cons h1 (.nil _ _))
  rw [h2] at a2
  obtain rfl := Option.some.inj a2
  have hhead : (reportedTo p.pid (.exited p.pid code) { j with state := .running, background := false }).processes.head? =
      some { p with status := some (.exited p.pid code) } := by
    show (j.processes.map _).head? = _
    rw [List.head?_map, hps, Option.map_some, if_pos rfl]
  have hnoted : (reportedTo p.pid (.exited p.pid code) { j with state := .running, background := false }).stopStatus =
      .exited p.pid code := by
    show ((reportedTo p.pid (.exited p.pid code) { j with state := .running, background := false }).processes.head?.bind
      Process.status).getD _ = _
    rw [hhead]; rfl
  refine ⟨s', a1, a3, a7 (.inr (by rw [hnoted]; rfl)) ?_, a5, fun k hk => by rw [a6 k hk, h3 k hk]⟩
  rintro (h | ⟨q, st, b1, b2, b3⟩)
  · rw [hnoted] at h; cases h
  · rw [hhead] at b1
    cases b1
    cases b2
    cases b3

/-! ## Examples -/

/-- A stopped job, and what will be reported about `ls -l | grep x | wc`. -/
def stoppedFirst (sts : List WStatus) : Sh :=
  atPrompt [cs!"v"] ([.st (.stopped 100 20), .err] ++ sts.map .st ++ [.err])

theorem batch_all {sts : List WStatus} (h : ∀ st ∈ sts, st ≠ .stillAlive) : Batch (sts.map .st ++ [.err]) sts := by
  induction sts with
  | nil => exact .none (.inr ⟨_, _, rfl, .inl rfl⟩)
  | cons st sts ih =>
    exact .some (k := 0) (h st List.mem_cons_self) (ih fun st hst => h st (List.mem_cons_of_mem _ hst))

theorem batch_eq {waits l : List WRes} {sts : List WStatus} (h : waits = l) (hb : Batch l sts) : Batch waits sts := h ▸ hb

/-- One of the pipeline is killed, one stopped, and the job from before killed. -/
def demoReports (st : WStatus) : List WStatus := [st, .stopped 102 20, .signaled 100 9 false]

example : ∃ s', interactiveLine (demoWorld []) 20 (demoPipe false).text (stoppedFirst (demoReports (.exited 101 3))) = (.ok (), s') ∧
    evalText (demoWorld []) 20 (demoPipe false).text (stoppedFirst (demoReports (.exited 101 3))) = (.ok 3, s') ∧
    s'.exitStatus = 3 ∧ s'.jc.getJob (stoppedFirst (demoReports (.exited 101 3))).jc.nextId = none :=
  C64_anyJobs_partial (demoWorld []) (demo_resources []) 19 (stoppedFirst (demoReports (.exited 101 3))) (atPrompt_ok (by decide +kernel)) (demoPipe false)
    (demoPipe_ok false _ (by decide +kernel) (by decide +kernel) (by decide +kernel)) rfl (cs!"+ ") (by decide +kernel) 101
    (by decide +kernel) (by decide +kernel) 3 [.stopped 102 20, .signaled 100 9 false] (by decide)
    (batch_eq (l := (demoReports (.exited 101 3)).map .st ++ [.err]) (by decide +kernel) (batch_all (by decide)))

example : ∃ s', interactiveLine (demoWorld []) 20 (demoPipe false).text (stoppedFirst (demoReports (.signaled 101 9 true))) = (.ok (), s') ∧
    evalText (demoWorld []) 20 (demoPipe false).text (stoppedFirst (demoReports (.signaled 101 9 true))) =
      (.ok (stoppedFirst (demoReports (.signaled 101 9 true))).exitStatus, s') ∧
    s'.masked = false ∧ s'.jc.getJob (stoppedFirst (demoReports (.signaled 101 9 true))).jc.nextId = none ∧
    s'.exitStatus = (stoppedFirst (demoReports (.signaled 101 9 true))).exitStatus ∧
    .waited (.st (.signaled (101 : Nat) 9 true)) ∈ s'.trace :=
  C95_anyJobs_partial (demoWorld []) (demo_resources []) 19 (stoppedFirst (demoReports (.signaled 101 9 true))) (atPrompt_ok (by decide +kernel)) (demoPipe false)
    (demoPipe_ok false _ (by decide +kernel) (by decide +kernel) (by decide +kernel)) rfl (cs!"+ ") (by decide +kernel) 101
    (by decide +kernel) (by decide +kernel) 9 true [.stopped 102 20, .signaled 100 9 false] (by decide)
    (batch_eq (l := (demoReports (.signaled 101 9 true)).map .st ++ [.err]) (by decide +kernel) (batch_all (by decide)))

/-- `C96_anyJobs_partial` applies: the pipeline becomes job 2, the command stopped before is job 1. -/
example : ∃ s' j', interactiveLine (demoWorld []) 20 (demoPipe false).text (stoppedFirst [.stopped 101 20, .exited 103 0]) = (.ok (), s') ∧
    s'.jc.getJob (stoppedFirst [.stopped 101 20, .exited 103 0]).jc.nextId = some j' ∧ j'.state = .stopped ∧
    j'.processes.length = 3 ∧ s'.jc.current = some (stoppedFirst [.stopped 101 20, .exited 103 0]).jc.nextId := by
  obtain ⟨s', j', h1, -, -, h2, h3, h4, -, -, h5⟩ := C96_anyJobs_partial (demoWorld []) (demo_resources []) 19
    (stoppedFirst [.stopped 101 20, .exited 103 0]) (atPrompt_ok (by decide +kernel)) (demoPipe false)
    (demoPipe_ok false _ (by decide +kernel) (by decide +kernel) (by decide +kernel)) rfl (cs!"+ ") (by decide +kernel) 101
    (by decide +kernel) (by decide +kernel) 20 [.exited 103 0] (by decide)
    (batch_eq (l := [.stopped 101 20, .exited 103 0].map .st ++ [.err]) (by decide +kernel) (batch_all (by decide)))
  exact ⟨s', j', h1, h2, h3, h4, (h5 (by decide +kernel)).1⟩

/-- `C48_crash` applies: `wc` is reported first. -/
example : ∃ s', interactiveLine (demoWorld []) 20 (demoPipe false).text (stoppedFirst [.exited 103 0]) = (.panic .unwrap, s') :=
  C48_crash (demoWorld []) (demo_resources []) 19 (stoppedFirst [.exited 103 0]) (atPrompt_ok (by decide +kernel)) (demoPipe false)
    (demoPipe_ok false _ (by decide +kernel) (by decide +kernel) (by decide +kernel)) rfl (cs!"+ ") (by decide +kernel) 101
    (by decide +kernel) (.exited 103 0) (by decide) (by decide +kernel) []
    (batch_eq (l := [.exited 103 0].map .st ++ [.err]) (by decide +kernel) (batch_all (by decide)))

/-- `C50_early` applies: nothing is known of `grep` and `wc`. -/
example : ∃ s', interactiveLine (demoWorld []) 20 (demoPipe false).text (stoppedFirst [.exited 101 0]) = (.ok (), s') ∧ s'.masked = false ∧
    s'.exitStatus = 0 ∧ s'.jc.getJob (stoppedFirst [.exited 101 0]).jc.nextId = none :=
  C50_early (demoWorld []) (demo_resources []) 19 (stoppedFirst [.exited 101 0]) (atPrompt_ok (by decide +kernel)) (demoPipe false)
    (demoPipe_ok false _ (by decide +kernel) (by decide +kernel) (by decide +kernel)) rfl (cs!"+ ") (by decide +kernel) 101
    (by decide +kernel) (by decide +kernel) 0
    (batch_eq (l := [.exited 101 0].map .st ++ [.err]) (by decide +kernel) (batch_all (by decide)))

/-- `C51_other` applies: the command stopped before is killed while the pipeline runs. -/
example : ∃ s', interactiveLine (demoWorld []) 20 (demoPipe false).text (stoppedFirst [.signaled 100 9 false]) = (.ok (), s') ∧
    s'.masked = false ∧ s'.jc.getJob (stoppedFirst [.signaled 100 9 false]).jc.nextId = none ∧
    s'.exitStatus = (stoppedFirst [.signaled 100 9 false]).exitStatus := by
  obtain ⟨j, h1, h2, h3, h4⟩ : ∃ j : Job, (stoppedFirst [.signaled 100 9 false]).jc.table = [(1, j)] ∧ j.state ≠ .finished ∧
      (∃ q ∈ j.processes, q.pid = 100) ∧ FirstKnown (reportedTo 100 (.signaled 100 9 false) j) := by
    have hl : (stoppedFirst [.signaled 100 9 false]).jc.table.map Prod.fst = [1] := by decide +kernel
    have hq : ∀ q ∈ (stoppedFirst [.signaled 100 9 false]).jc.table, q.2.state ≠ .finished ∧
      (∃ p ∈ q.2.processes, p.pid = 100) ∧ FirstKnown (reportedTo 100 (.signaled 100 9 false) q.2) := by decide +kernel
    generalize (stoppedFirst [.signaled 100 9 false]).jc.table = t at hl hq
    obtain ⟨⟨i, j⟩, rfl⟩ := List.length_eq_one_iff.1 (by simpa using congrArg List.length hl)
    obtain rfl : i = 1 := by simpa using hl
    exact ⟨j, rfl, hq (1, j) (by simp)⟩
  exact C51_other (demoWorld []) (demo_resources []) 19 (stoppedFirst [.signaled 100 9 false]) (atPrompt_ok (by decide +kernel))
    (demoPipe false) (demoPipe_ok false _ (by decide +kernel) (by decide +kernel) (by decide +kernel)) rfl (cs!"+ ")
    (by decide +kernel) (.signaled 100 9 false) [] [] 1 j h1 (by simp) h2 h3 h4
    (batch_eq (l := [.signaled 100 9 false].map .st ++ [.err]) (by decide +kernel) (batch_all (by decide)))

/-- Two stopped commands, `v` and `u`; the second is the current job. -/
def stoppedTwo (st : WStatus) : Sh :=
  atPrompt [cs!"v", cs!"u"] ([.st (.stopped 100 20), .err, .st (.stopped 101 20), .err] ++ [st].map .st ++ [.err])

theorem stoppedTwo_fg (st : WStatus) (h : (stoppedTwo st).aliases.get (cs!"fg") = none) :
    (⟨cs!"fg", [word (cs!"%1")]⟩ : Call).Ok (stoppedTwo st) := by
  refine ⟨by decide, by decide, h, by decide, ?_⟩
  intro a ha
  simp only [List.mem_singleton] at ha
  subst ha
  exact means_word (by decide)

theorem stoppedTwo_job {s : Sh} {pid : Int} (h : (s.jc.getJob 1).map (fun j => j.processes.map fun p => (p.pid, p.status.isSome)) =
    some [(pid, true)]) :
    ∃ j p, s.jc.getJob 1 = some j ∧ j.processes = [p] ∧ p.pid = pid ∧ p.status ≠ none := by
  cases hj : s.jc.getJob 1 with
  | none => rw [hj] at h; simp at h
  | some j =>
    rw [hj, Option.map_some, Option.some.injEq] at h
    obtain ⟨p, hp⟩ := List.length_eq_one_iff.1 (show j.processes.length = 1 by simpa using congrArg List.length h)
    rw [hp] at h
    simp only [List.map_cons, List.map_nil, List.cons.injEq, Prod.mk.injEq, and_true] at h
    exact ⟨j, p, rfl, hp, h.1, by intro e; rw [e] at h; simp at h⟩

/-- `C96_fg_partial` applies: `fg %1`, and the command is stopped again; job 1 becomes the current one. -/
example : (stoppedTwo (.stopped 100 20)).jc.current = some 2 ∧
    ∃ s' j', interactiveLine (demoWorld []) 20 (cs!" fg %1") (stoppedTwo (.stopped 100 20)) = (.ok (), s') ∧
      s'.jc.getJob 1 = some j' ∧ j'.state = .stopped ∧ s'.jc.current = some 1 := by
  refine ⟨by decide +kernel, ?_⟩
  obtain ⟨j, p, h1, h2, h3, h4⟩ := stoppedTwo_job (s := stoppedTwo (.stopped 100 20)) (pid := 100) (by decide +kernel)
  obtain ⟨s', j', a1, -, -, a2, a3, -, -, a4, -⟩ := C96_fg_partial (demoWorld []) 19 (stoppedTwo (.stopped 100 20))
    (atPrompt_ok (by decide +kernel)) ⟨cs!"fg", [word (cs!"%1")]⟩ (stoppedTwo_fg _ (by decide +kernel)) rfl (cs!"%1") [] rfl 1
    (.inl ⟨by decide, by omega⟩) j h1 (fun _ _ _ => rfl) (cs!"+ ") (by decide +kernel) p (by rw [h2]; rfl)
    (by rw [h2]; intro q hq; rw [List.mem_singleton.1 hq]; exact h4) (by rw [h3]; decide +kernel) 20
    (by rw [h3]; exact batch_eq (l := [.stopped 100 20].map .st ++ [.err]) (by decide +kernel) (batch_all (by decide)))
  exact ⟨s', j', a1, a2, a3, a4⟩

/-- `C52_fgExits_partial` applies: `fg %1`, and the command exits. -/
example : ∃ s', interactiveLine (demoWorld []) 20 (cs!" fg %1") (stoppedTwo (.exited 100 5)) = (.ok (), s') ∧
      s'.jc.getJob 1 = none ∧ s'.exitStatus = (stoppedTwo (.exited 100 5)).exitStatus := by
  obtain ⟨j, p, h1, h2, h3, h4⟩ := stoppedTwo_job (s := stoppedTwo (.exited 100 5)) (pid := 100) (by decide +kernel)
  obtain ⟨s', a1, -, a2, a3, -⟩ := C52_fgExits_partial (demoWorld []) 19 (stoppedTwo (.exited 100 5))
    (atPrompt_ok (by decide +kernel)) ⟨cs!"fg", [word (cs!"%1")]⟩ (stoppedTwo_fg _ (by decide +kernel)) rfl (cs!"%1") [] rfl 1
    (.inl ⟨by decide, by omega⟩) j h1 (fun _ _ _ => rfl) (cs!"+ ") (by decide +kernel) p (by rw [h2]; rfl)
    (by rw [h3]; decide +kernel) 5
    (by rw [h3]; exact batch_eq (l := [.exited 100 5].map .st ++ [.err]) (by decide +kernel) (batch_all (by decide)))
  exact ⟨s', a1, a2, a3⟩

end Rsh

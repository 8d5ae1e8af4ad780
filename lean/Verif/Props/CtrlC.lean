import Verif.Spec.CtrlC
import Verif.Proofs.CtrlC

/-!
# The interrupt key while a foreground command runs (C149)

The command gets SIGINT too and ends, or catches it and ends later.  What happens depends on when: if it has ended
before the shell's handler of SIGINT returns, the handler of SIGCHLD collects its status, which the shell then waits
for in vain.
-/

namespace Rsh

open Spec

theorem setStatus_single {j : Job} {id : Nat} {pid : Int} (h : NewJob id [pid] j) (st : WStatus) :
    ∃ p : Process, setStatusFirst pid st j.processes = [p] ∧ p.status = some st := by
  match hps : j.processes, h.pids with
  | [p], e =>
    have : p.pid = pid := by simpa using e
    exact ⟨{ p with status := some st }, by simp [setStatusFirst, this], rfl⟩

/-- C149, when the command ends before the handler has returned and no other child runs: the prompt is back.
Missing: whatever status the command has exited with, `$?` is what it was before. -/
theorem C149_collected_partial (w : World) (hw : Resources w) (n : Nat) (s : Sh) (hp : AtPrompt w s) (e : Ext)
    (hok : e.Simple s) (hwrite : ∀ tr, w.writeOk tr (.orig 0) = true) (pid : Nat) (hpid : w.fork s.trace = some pid)
    (st : WStatus) (hst : EndOf pid st) (r : WRes) (rest : List WRes) (hr : NoMore (r :: rest))
    (hwaits : s.waits = .st st :: r :: rest) :
    ∃ s', interruptedLine w true n (ExtPipe.mk e [] false).text s = (.ok (), s') ∧ PromptBack s s' ∧
      keyLine ∈ s'.trace ∧ .waited (.st st) ∈ s'.trace ∧ s'.exitStatus = s.exitStatus := by
  obtain ⟨s0, j, h, hline⟩ := key_line hw true n hp hok hpid
  have hst' : waitPid st = pid := by rcases hst with ⟨c, rfl⟩ | ⟨sg, co, rfl⟩ <;> rfl
  have hkey := pressKey_collect h hwrite hst' hwaits
  have hr' : r = .err ∨ r = .st .stillAlive := by
    rcases hr with hr | ⟨r', rs, e', hr⟩
    · cases hr
    · cases e'; exact hr
  let jc1 := s0.jc.modJob s.jc.nextId fun j => { j with processes := setStatusFirst pid st j.processes }
  let j1 : Job := { j with processes := setStatusFirst pid st j.processes }
  have hj1 : jc1.getJob s.jc.nextId = some j1 := by
    show (s0.jc.modJob _ _).getJob _ = _
    rw [getJob_modJob, if_pos rfl, h.job]; rfl
  obtain ⟨s2, hwait, hs2⟩ := waitForJob_nothing w (s := { s0 with
      gotSigchld := true
      waits := r :: rest
      jc := jc1
      trace := .waited (.st st) :: .print (some (.orig 0)) ['\n'] :: s0.trace }) hj1 h.new.running h.new.noted rfl hr'
  have hafter : (pressKey w true >>= fun _ => afterFork w false s.jc.nextId 1) s0 =
      (.ok (), { s2 with masked := false, jc := s2.jc.deleteJob s.jc.nextId }) := by
    rw [run_bind_ok hkey]
    unfold afterFork
    rw [if_neg (by decide), if_neg (by simp), run_bind_ok hwait]
    rfl
  obtain ⟨p, hp1, hp2⟩ := setStatus_single h.new st
  have hne : j1.processes ≠ [] := by
    show setStatusFirst _ _ _ ≠ _
    rw [hp1]; simp
  have hns : ¬FirstStopped j1 := by
    rintro (hs | ⟨q, st', hq, hq', hs⟩)
    · rw [show j1.stopStatus = _ from h.new.noted] at hs
      cases hs
    · rw [show j1.processes = [p] from hp1] at hq
      cases hq
      rw [hp2] at hq'
      cases hq'
      rcases hst with ⟨c, rfl⟩ | ⟨sg, co, rfl⟩ <;> cases hs
  have hjc2 : s2.jc = jc1 := by rw [hs2]
  have hdel := C44_delete_partial jc1 s.jc.nextId j1 hj1 hne
  refine ⟨_, (hline hafter).1 rfl, ⟨rfl, ?_, ?_, ?_, ?_⟩, ?_, ?_, ?_⟩
  · show (s2.jc.deleteJob _).getJob _ = _
    rw [hjc2]
    exact hdel.2.1 hns
  · intro k hk
    show ((s2.jc.deleteJob _).getJob _).map _ = _
    rw [hjc2, hdel.1 k hk]
    show ((s0.jc.modJob _ _).getJob _).map _ = _
    rw [getJob_modJob, if_neg hk]
    unfold JobControl.getJob
    rw [tGet_lookup, tGet_lookup, h.table, List.lookup_append]
    have hlast : ([(s.jc.nextId, j)] : List (Nat × Job)).lookup k = none := by
      rw [List.lookup_cons, beq_eq_false_iff_ne.2 hk]; rfl
    rw [hlast, Option.or_none]
  · show s2.ctx = _
    rw [hs2]
    exact h.ctx
  · show s2.fds = _
    rw [hs2]
    exact h.fds.trans h.sfds.symm
  · show _ ∈ s2.trace
    rw [hs2]
    exact List.mem_cons_of_mem _ (List.mem_cons_of_mem _ List.mem_cons_self)
  · show _ ∈ s2.trace
    rw [hs2]
    exact List.mem_cons_of_mem _ List.mem_cons_self
  · show s2.exitStatus = _
    rw [hs2]
    exact h.status

/-- C149 fails whenever another child still runs: the command has ended, and its status has been collected, but the
shell goes on waiting until some other child has something to report. -/
theorem C149_stuck (w : World) (hw : Resources w) (n : Nat) (s : Sh) (hp : AtPrompt w s) (e : Ext)
    (hok : e.Simple s) (hwrite : ∀ tr, w.writeOk tr (.orig 0) = true) (pid : Nat) (hpid : w.fork s.trace = some pid)
    (st : WStatus) (hst : EndOf pid st) (hwaits : s.waits = [.st st]) :
    ∃ s', interruptedLine w true n (ExtPipe.mk e [] false).text s = (.hang, s') := by
  obtain ⟨s0, j, h, hline⟩ := key_line hw true n hp hok hpid
  have hst' : waitPid st = pid := by rcases hst with ⟨c, rfl⟩ | ⟨sg, co, rfl⟩ <;> rfl
  have hkey := pressKey_collect h hwrite hst' hwaits
  obtain ⟨s2, hwait⟩ := waitForJob_stuck w (id := s.jc.nextId) (s := { s0 with
      gotSigchld := true
      waits := []
      jc := s0.jc.modJob s.jc.nextId fun j => { j with processes := setStatusFirst pid st j.processes }
      trace := .waited (.st st) :: .print (some (.orig 0)) ['\n'] :: s0.trace })
    (j := { j with processes := setStatusFirst pid st j.processes })
    (by show (s0.jc.modJob _ _).getJob _ = _; rw [getJob_modJob, if_pos rfl, h.job]; rfl) h.new.running rfl
  refine ⟨s2, (hline (o := .hang) (s' := s2) ?_).2.2 rfl⟩
  rw [run_bind_ok hkey]
  unfold afterFork
  rw [if_neg (by decide), if_neg (by simp)]
  exact run_bind_hang hwait _

/-- C149 fails when descriptor 0 cannot be written to: the shell crashes. -/
theorem C149_crash (w : World) (hw : Resources w) (ended : Bool) (n : Nat) (s : Sh) (hp : AtPrompt w s) (e : Ext)
    (hok : e.Simple s) (hwrite : ∀ tr, w.writeOk tr (.orig 0) = false) :
    ∃ s', interruptedLine w ended n (ExtPipe.mk e [] false).text s = (.panic .unwrap, s') := by
  obtain ⟨pid, hpid⟩ := Option.ne_none_iff_exists'.1 (hw.fork s.trace)
  obtain ⟨s0, j, h, hline⟩ := key_line hw ended n hp hok hpid
  refine ⟨s0, (hline (o := .panic .unwrap) (s' := s0) ?_).2.1 _ rfl⟩
  refine run_bind_panic ?_ _
  unfold pressKey
  rw [run_getS_bind]
  refine run_bind_panic ?_ _
  rw [onSigint_run h.forked h.fds, if_neg (by rw [hwrite]; simp)]

/-- C149, when the command ends after the handler has returned and before anything else is reported: the prompt is
back, and `$?` is what the command has exited with.  Missing: after a command that has been killed, `$?` is what it
was before. -/
theorem C149_later_partial (w : World) (hw : Resources w) (n : Nat) (s : Sh) (hp : AtPrompt w s) (e : Ext)
    (hok : e.Simple s) (hwrite : ∀ tr, w.writeOk tr (.orig 0) = true) (ps4 : Str)
    (hps4 : valueOf s (cs!"PS4") = some ps4) (pid : Nat) (hpid : w.fork s.trace = some pid)
    (hjobs : ∀ q ∈ s.jc.table, PassedBy pid q) (st : WStatus) (hst : EndOf pid st) (hb : Batch s.waits [st]) :
    ∃ s', interruptedLine w false n (ExtPipe.mk e [] false).text s = (.ok (), s') ∧ PromptBack s s' ∧
      keyLine ∈ s'.trace ∧ .waited (.st st) ∈ s'.trace ∧ (∀ c, st = .exited pid c → s'.exitStatus = c) ∧
      ((∀ c, st ≠ .exited pid c) → s'.exitStatus = s.exitStatus) := by
  obtain ⟨s0, j, h, hline⟩ := key_line hw false n hp hok hpid
  let sk : Sh := { s0 with trace := .print (some (.orig 0)) ['\n'] :: s0.trace }
  have hkey : pressKey w false s0 = (.ok (), sk) := by
    unfold pressKey
    rw [run_getS_bind, run_bind_ok (by rw [onSigint_run h.forked h.fds, if_pos (hwrite _)]), if_neg (by simp)]
    rfl
  have hrep := new_report h.new st hjobs (some s.jc.nextId)
  rw [h.new.number] at hrep
  have hcur : (if Halted (reportedTo (pid : Int) st j) then some s.jc.nextId else some s.jc.nextId) = some s.jc.nextId := by
    split <;> rfl
  rw [hcur] at hrep
  have hab : about st = pid := by rcases hst with ⟨c, rfl⟩ | ⟨sg, co, rfl⟩ <;> rfl
  let j1 := reportedTo (pid : Int) st j
  let t1 := s.jc.table.map passed ++ [(s.jc.nextId, j1)]
  have hr : Reports [st] sk.jc.table sk.jc.current t1 (some s.jc.nextId) := by
    show Reports [st] s0.jc.table s0.jc.current _ _
    rw [h.table, h.current]
    exact .cons (by rw [hab]; exact hrep) (.nil _ _)
  have hfresh : ∀ q ∈ s.jc.table.map passed, q.1 ≠ s.jc.nextId := by
    intro q hq
    obtain ⟨q0, hq0, rfl⟩ := List.mem_map.1 hq
    rw [passed_fst]
    exact h.fresh q0 hq0
  have hj1 : t1.lookup s.jc.nextId = some j1 := lookup_last hfresh j1
  obtain ⟨s1, h1, h2, h3, new, h4, h5, -⟩ := waitForJob_batch w s.jc.nextId (s := sk) (ps4 := ps4) h.job h.new.running h.held
    (by show valueOf s0 _ = _; unfold valueOf; rw [h.ctx]; exact hps4) (by show Batch s0.waits _; rw [h.waits]; exact hb)
    (by show s0.waits ≠ _; rw [h.waits]; exact hb.ne_nil) hr hj1
  obtain ⟨⟨p, hp1, hp2⟩, -⟩ := new_first h.new st
  have hstop : j1.stopStatus = st := by
    show (j1.processes.head?.bind Process.status).getD j.stopStatus = st
    rw [hp1, Option.bind_some, hp2]
    rfl
  have hne : j1.processes ≠ [] := by
    intro e'
    have hp1' : j1.processes.head? = some p := hp1
    rw [e'] at hp1'
    cases hp1'
  have hns : ¬FirstStopped j1 := by
    rintro (hs | ⟨q, st', hq, hq', hs⟩)
    · rw [hstop] at hs
      rcases hst with ⟨c, rfl⟩ | ⟨sg, co, rfl⟩ <;> cases hs
    · rw [hp1] at hq
      cases hq
      rw [hp2] at hq'
      cases hq'
      rcases hst with ⟨c, rfl⟩ | ⟨sg, co, rfl⟩ <;> cases hs
  let A : JobControl := { sk.jc with table := t1, current := some s.jc.nextId }
  have hdel := C44_delete_partial A s.jc.nextId j1 hj1 hne
  have hjc : (∀ k, k ≠ s.jc.nextId → (s1.jc.deleteJob s.jc.nextId).getJob k = t1.lookup k) ∧
      (s1.jc.deleteJob s.jc.nextId).getJob s.jc.nextId = none := by
    rw [h3]
    split
    · rw [C44_deleteMissing _ _ (hdel.2.1 hns)]
      exact ⟨hdel.1, hdel.2.1 hns⟩
    · exact ⟨hdel.1, hdel.2.1 hns⟩
  let code := match st with
    | .exited _ c => c
    | _ => s1.exitStatus
  have hafter : (pressKey w false >>= fun _ => afterFork w false s.jc.nextId 1) s0 =
      (.ok (), { s1 with masked := false, jc := s1.jc.deleteJob s.jc.nextId, exitStatus := code }) := by
    rw [run_bind_ok hkey]
    unfold afterFork
    rw [if_neg (by decide), if_neg (by simp), run_bind_ok h1]
    show (match j1.stopStatus with
      | .exited _ code => modS fun s => { s with exitStatus := code }
      | _ => pure () : M Unit) { s1 with masked := false, jc := s1.jc.deleteJob s.jc.nextId } = _
    rw [hstop]
    rcases hst with ⟨c, rfl⟩ | ⟨sg, co, rfl⟩ <;> rfl
  have h1s : s1.exitStatus = s.exitStatus := by rw [h2]; exact h.status
  refine ⟨_, (hline hafter).1 rfl, ⟨rfl, hjc.2, ?_, ?_, ?_⟩, ?_, ?_, ?_, ?_⟩
  · intro k hk
    show ((s1.jc.deleteJob _).getJob _).map _ = _
    rw [hjc.1 k hk, List.lookup_append]
    have hlast : ([(s.jc.nextId, j1)] : List (Nat × Job)).lookup k = none := by
      rw [List.lookup_cons, beq_eq_false_iff_ne.2 hk]; rfl
    rw [hlast, Option.or_none]
    have he := congrArg (Option.map fun x : List Process × JobState × Bool × Nat => (x.1, x.2.1, x.2.2.1))
      (lookup_passed k s.jc.table)
    rw [Option.map_map, Option.map_map] at he
    exact he
  · show s1.ctx = _
    rw [h2]
    exact h.ctx
  · show s1.fds = _
    rw [h2]
    exact h.fds.trans h.sfds.symm
  · show _ ∈ s1.trace
    rw [h4]
    exact List.mem_append_right _ List.mem_cons_self
  · show _ ∈ s1.trace
    rw [h4]
    exact List.mem_append_left _ (h5.1 st (by simp))
  · rintro c rfl
    rfl
  · intro hnot
    show code = _
    rcases hst with ⟨c, rfl⟩ | ⟨sg, co, rfl⟩
    · exact absurd rfl (hnot c)
    · exact h1s

/-! ## Demonstration -/

theorem demo_write (tr : List Event) : (demoWorld []).writeOk tr (.orig 0) = true := rfl

/-- `C149_collected_partial` applies: `cat` is killed by the key. -/
example : ∃ s', interruptedLine (demoWorld []) true 9 (ExtPipe.mk (plainExt (cs!"cat") []) [] false).text
      (atPrompt [] [.st (.signaled 100 2 false), .err]) = (.ok (), s') ∧
    PromptBack (atPrompt [] [.st (.signaled 100 2 false), .err]) s' ∧
    keyLine ∈ s'.trace ∧ .waited (.st (.signaled 100 2 false)) ∈ s'.trace ∧
    s'.exitStatus = (atPrompt [] [.st (.signaled 100 2 false), .err]).exitStatus :=
  C149_collected_partial (demoWorld []) (demo_resources []) 9 _ (atPrompt_ok (by decide +kernel)) _
    (plainExt_simple (by decide +kernel)) demo_write 100 (by decide +kernel) _ (.inr ⟨2, false, rfl⟩) .err []
    (.inr ⟨_, _, rfl, .inl rfl⟩) (by decide +kernel)

/-- `C149_stuck` applies: `sleep` runs in the background while `cat` is killed by the key. -/
example : ∃ s', interruptedLine (demoWorld []) true 9 (ExtPipe.mk (plainExt (cs!"cat") []) [] false).text
    (atPrompt [cs!"sleep &"] [.st (.signaled 101 2 false)]) = (.hang, s') :=
  C149_stuck (demoWorld []) (demo_resources []) 9 _ (atPrompt_ok (by decide +kernel)) _
    (plainExt_simple (by decide +kernel)) demo_write 101 (by decide +kernel) _ (.inr ⟨2, false, rfl⟩) (by decide +kernel)

/-- `C149_later_partial` applies: `cat` catches the signal and exits with status 3. -/
example : ∃ s', interruptedLine (demoWorld []) false 9 (ExtPipe.mk (plainExt (cs!"cat") []) [] false).text
      (atPrompt [] [.st (.exited 100 3), .err]) = (.ok (), s') ∧ s'.exitStatus = 3 := by
  obtain ⟨s', h1, -, -, -, h2, -⟩ := C149_later_partial (demoWorld []) (demo_resources []) 9
    (atPrompt [] [.st (.exited 100 3), .err]) (atPrompt_ok (by decide +kernel)) _
    (plainExt_simple (x := cs!"cat") (args := []) (by decide +kernel)) demo_write (cs!"+ ") (by decide +kernel) 100 (by decide +kernel)
    (by decide +kernel) (.exited 100 3) (.inl ⟨3, rfl⟩)
    (batch_eq (l := [.exited 100 3].map .st ++ [.err]) (by decide +kernel) (batch_all (by decide)))
  exact ⟨s', h1, h2 3 rfl⟩

/-- A system where descriptor 0 of the shell is open for reading only. -/
def readOnlyStdin : World := { demoWorld [] with writeOk := fun _ c => decide (c ≠ .orig 0) }

/-- A shell started there. -/
def readOnlyShell : Sh :=
  (startUp readOnlyStdin 5 [] (initSh false 1 2 (cs!"/") [(cs!"PATH", cs!"/bin")] [])).2

/-- `C149_crash` applies. -/
example : ∃ s', interruptedLine readOnlyStdin true 9 (ExtPipe.mk (plainExt (cs!"cat") []) [] false).text readOnlyShell =
    (.panic .unwrap, s') := by
  obtain ⟨a, ha⟩ := outcome_ok (show outcome (startUp readOnlyStdin 5 []
    (initSh false 1 2 (cs!"/") [(cs!"PATH", cs!"/bin")] [])).1 = .ok by decide +kernel)
  exact C149_crash readOnlyStdin ⟨fun _ => rfl, fun _ => by intro h; cases h⟩ true 9 readOnlyShell
    (.start (Prod.ext ha rfl)) _ (plainExt_simple (by decide +kernel)) fun _ => rfl

end Rsh

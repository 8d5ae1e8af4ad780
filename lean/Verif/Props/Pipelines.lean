import Verif.Proofs.Pipes
import Verif.Proofs.Foreground
import Verif.Proofs.Prompt
import Verif.Proofs.Later
import Verif.Spec.Waits

/-!
# Properties C49-C51, C61-C65, C85: pipelines
-/

namespace Rsh

open Spec

/-! ## C61 -/

theorem stageFd_in {k i total : Nat} : (stageFd stdTable (inPipe k i) (outPipe k i total) 0).map FdE.chan =
    some (if i = 0 then .orig 0 else .pipeR (k + (i - 1))) := by
  unfold inPipe outPipe
  split <;> split <;> rfl

theorem stageFd_out {k i total : Nat} : (stageFd stdTable (inPipe k i) (outPipe k i total) 1).map FdE.chan =
    some (if i + 1 < total then .pipeW (k + i) else .orig 1) := by
  unfold inPipe outPipe
  split <;> split <;> rfl

theorem stageFd_other {k i total : Nat} {fd : Int} (h0 : fd ≠ 0) (h1 : fd ≠ 1) :
    stageFd stdTable (inPipe k i) (outPipe k i total) fd = stdTable.get fd := by
  unfold stageFd
  split <;> simp [h0, h1]

/-- Programs with the descriptors of the stages of a pipeline. -/
theorem plumbed_of {imgs : List ExecImage} {np : Nat} (hall : ∀ (i : Nat) img, imgs[i]? = some img → ∀ fd,
    img.fds.get fd = stageFd stdTable (inPipe np i) (outPipe np i imgs.length) fd) : Plumbed imgs := by
  refine ⟨?_, ?_, ?_, ?_, ?_⟩
  · intro img hi
    rw [List.head?_eq_getElem?] at hi
    unfold chanOf
    rw [hall 0 img hi, stageFd_in]
    rfl
  · intro img hi
    rw [List.getLast?_eq_getElem?] at hi
    unfold chanOf
    rw [hall _ img hi, stageFd_out, if_neg]
    have := (List.getElem?_eq_some_iff.1 hi).1
    omega
  · refine ⟨fun i => np + i, fun i j h => Nat.add_left_cancel h, fun i img img' hi hi' => ?_⟩
    have := (List.getElem?_eq_some_iff.1 hi').1
    unfold chanOf
    rw [hall i img hi, hall _ img' hi', stageFd_out, stageFd_in, if_pos (by omega), if_neg (by omega)]
    exact ⟨rfl, by simp⟩
  · intro img hm
    obtain ⟨i, hi, e⟩ := List.mem_iff_getElem.1 hm
    unfold chanOf
    rw [hall i img (by rw [List.getElem?_eq_getElem hi, e]), stageFd_other (by decide) (by decide)]
    rfl
  · intro img hm fd h0 h1 h2
    obtain ⟨i, hi, e⟩ := List.mem_iff_getElem.1 hm
    unfold chanOf
    rw [hall i img (by rw [List.getElem?_eq_getElem hi, e]), stageFd_other h0 h1, stdTable_other h0 h1 h2]
    rfl

/-- C61: typing a pipeline of external commands starts one program for each, in order, and nothing else;
they are connected as they should be. -/
theorem C61_plumbed (w : World) (hw : Resources w) (n : Nat) (s : Sh) (hp : AtPrompt w s) (p : ExtPipe)
    (hok : ∀ e ∈ p.stages, e.Simple s) (file : Ext → Str)
    (hrun : ∀ e ∈ p.stages, ∀ tr, Runnable w s (tr ++ s.trace) e.name (file e)) :
    ∃ (pids : List Nat) (imgs : List ExecImage), pids.length = p.stages.length ∧
      Happened s (interactiveLine w (n + 1) p.text s).2
        (List.zipWith (fun pid img => .spawn pid (.exec img) []) pids imgs) ∧
      imgs.map (fun img => (img.path, img.argv)) = p.stages.map (fun e => (file e, e.argv)) ∧ Plumbed imgs := by
  obtain ⟨pids, imgs, h1, h2, h3, h4⟩ := extPipe_programs hw n hp hok hrun
  have hget : ∀ (i : Nat) img, imgs[i]? = some img → ∃ e, p.stages[i]? = some e := by
    intro i img hi
    have := (List.getElem?_eq_some_iff.1 hi).1
    exact ⟨_, List.getElem?_eq_getElem (by omega)⟩
  have hall : ∀ (i : Nat) img, imgs[i]? = some img → ∀ fd, img.fds.get fd =
      stageFd stdTable (inPipe s.nextPipe i) (outPipe s.nextPipe i p.stages.length) fd := by
    intro i img hi
    obtain ⟨e, he⟩ := hget i img hi
    exact (h4 i e img he hi).2.2.2.2.2
  refine ⟨pids, imgs, h1, h3, ?_, plumbed_of (np := s.nextPipe) (by rw [h2]; exact hall)⟩
  refine List.ext_getElem? fun i => ?_
  rw [List.getElem?_map, List.getElem?_map]
  rcases hi : imgs[i]? with _ | img
  · rw [List.getElem?_eq_none_iff] at hi
    rw [List.getElem?_eq_none_iff.2 (by omega)]
    rfl
  · obtain ⟨e, he⟩ := hget i img hi
    obtain ⟨a1, a2, -⟩ := h4 i e img he hi
    rw [he]
    simp [a1, a2]

/-- The pipeline of the examples. -/
def demoPipe (bg : Bool) : ExtPipe :=
  { first := plainExt (cs!"ls") [cs!"-l"], rest := [plainExt (cs!"grep") [cs!"x"], plainExt (cs!"wc") []], background := bg }

theorem demoPipe_ok (bg : Bool) (s : Sh) (h1 : plainExtOk s (cs!"ls") [cs!"-l"] = true)
    (h2 : plainExtOk s (cs!"grep") [cs!"x"] = true) (h3 : plainExtOk s (cs!"wc") [] = true) :
    ∀ e ∈ (demoPipe bg).stages, e.Simple s := by
  intro e he
  simp only [demoPipe, ExtPipe.stages, List.mem_cons, List.not_mem_nil, or_false] at he
  rcases he with rfl | rfl | rfl
  · exact plainExt_simple h1
  · exact plainExt_simple h2
  · exact plainExt_simple h3

theorem demoPipe_runnable (bg : Bool) {s : Sh} (hp : pathOf s = some (cs!"/bin")) :
    ∀ e ∈ (demoPipe bg).stages, ∀ tr, Runnable (demoWorld []) s tr e.name (cs!"/bin/" ++ e.name) := by
  intro e he tr
  simp only [demoPipe, ExtPipe.stages, List.mem_cons, List.not_mem_nil, or_false] at he
  rcases he with rfl | rfl | rfl <;> exact demo_runnable hp (by decide) (by decide) _

example : (demoPipe false).text = cs!" ls -l | grep x | wc" ∧ (demoPipe true).text = cs!" ls -l | grep x | wc &" := by decide

example : ∃ (pids : List Nat) (imgs : List ExecImage), pids.length = (demoPipe false).stages.length ∧
    Happened (atPrompt []) (interactiveLine (demoWorld []) (19 + 1) (demoPipe false).text (atPrompt [])).2
      (List.zipWith (fun pid img => .spawn pid (.exec img) []) pids imgs) ∧
    imgs.map (fun img => (img.path, img.argv)) =
      (demoPipe false).stages.map (fun e => (cs!"/bin/" ++ e.name, e.argv)) ∧ Plumbed imgs :=
  C61_plumbed (demoWorld []) (demo_resources []) 19 (atPrompt []) (atPrompt_ok (by decide +kernel))
    (demoPipe false) (demoPipe_ok false _ (by decide +kernel) (by decide +kernel) (by decide +kernel))
    (fun e => cs!"/bin/" ++ e.name) fun e he tr => demoPipe_runnable false (by decide +kernel) e he _

/-! ## C62 -/

/-- C62: whatever is evaluated, the shell has afterwards the descriptors it had before. -/
theorem C62_restored (w : World) (hpipe : ∀ tr, w.pipeOk tr = true) (n : Nat) (cc : CompleteCommand) (s s' : Sh)
    (h : StdFds s.fds) (st : Int) (he : evalTop w n cc s = (.ok st, s')) : s'.fds = s.fds :=
  (((Static.frame w (p := True) fun _ => hpipe).evalTop (fun _ => trivial) n cc).ok he).fds trivial h

/-- C62: the same if the evaluation reports an error. -/
theorem C62_restoredError (w : World) (hpipe : ∀ tr, w.pipeOk tr = true) (n : Nat) (cc : CompleteCommand) (s s' : Sh)
    (h : StdFds s.fds) (msg : Str) (he : evalTop w n cc s = (.err msg, s')) : s'.fds = s.fds :=
  (((Static.frame w (p := True) fun _ => hpipe).evalTop (fun _ => trivial) n cc).err he).fds trivial h

/-- C62: at every prompt of a session the shell has its three standard descriptors and no other. -/
theorem C62_prompt (w : World) (hpipe : ∀ tr, w.pipeOk tr = true) (s : Sh) (h : AtPrompt w s) (fd : Int) :
    (s.fds.get fd).isSome = true ↔ fd = 0 ∨ fd = 1 ∨ fd = 2 := by
  rw [AtPrompt_fds hpipe h]
  by_cases h0 : fd = 0
  · subst h0; exact ⟨fun _ => .inl rfl, fun _ => rfl⟩
  by_cases h1 : fd = 1
  · subst h1; exact ⟨fun _ => .inr (.inl rfl), fun _ => rfl⟩
  by_cases h2 : fd = 2
  · subst h2; exact ⟨fun _ => .inr (.inr rfl), fun _ => rfl⟩
  rw [show (FdTable.get _ fd) = none from stdTable_other h0 h1 h2]
  simp [h0, h1, h2]

/-- C62: no `close` or `dup2` fails (a failed one ends the process it happens in): whatever other
descriptors the shell has open, all commands of a pipeline become programs. -/
theorem C62_noFailure (w : World) (hw : Resources w) (rec : List AndOr → M Int) (s : Sh) (es : List Ext)
    (hne : es ≠ []) (bang bg : Bool) (hok : ∀ e ∈ es, e.Simple s) (hfds : StdFds s.fds) (hu : Uniq s.fds)
    (file : Ext → Str) (hrun : ∀ e ∈ es, ∀ tr, Runnable w s (tr ++ s.trace) e.name (file e)) :
    ∃ (pids : List Nat) (imgs : List ExecImage), pids.length = es.length ∧ imgs.length = es.length ∧
      Happened s (evalPipeline w rec (.mk bang (es.map Ext.command) bg) s).2
        (List.zipWith (fun pid img => .spawn pid (.exec img) []) pids imgs) := by
  obtain ⟨kids, hk, l, hl, hq⟩ := evalPipeline_ext hw rec es hne bang bg (fun e he => (hok e he).ok) hfds
  obtain ⟨imgs, h1, ⟨pids, h2, h3⟩, -⟩ := Kids.images (file := file) hk
    (fun e he => ⟨⟨(hok e he).ok.plain, (hok e he).ok.external, (hok e he).ok.alias, (hok e he).ok.function,
      (hok e he).ok.args, (hok e he).ok.nul, (hok e he).ok.assign⟩, (hok e he).typed, (hok e he).args, (hok e he).pre,
      (hok e he).redirs⟩) hu
    (fun e he tr => ⟨(hrun e he tr).path, (hrun e he tr).exec, (hrun e he tr).nul⟩)
  refine ⟨pids, imgs, h2, h1, l, hq, ?_⟩
  rw [hl, ← kid_events, ← h3]
  rfl

example : (evalTop (demoWorld []) 20 ((parse (cs!"a | b | c &")).getD none) (demoShell [])).2.fds = (demoShell []).fds := by
  have h : outcome (evalTop (demoWorld []) 20 ((parse (cs!"a | b | c &")).getD none) (demoShell [])).1 = .ok := by
    decide +kernel
  have hfds : StdFds (demoShell []).fds := ⟨by decide +kernel, by decide +kernel⟩
  rcases hr : evalTop (demoWorld []) 20 ((parse (cs!"a | b | c &")).getD none) (demoShell []) with ⟨o, s'⟩
  rw [hr] at h
  obtain ⟨st, rfl⟩ := outcome_ok h
  exact C62_restored _ (fun _ => rfl) _ _ _ _ hfds st hr

example : ∃ (pids : List Nat) (imgs : List ExecImage), pids.length = 3 ∧ imgs.length = 3 ∧
    Happened { demoShell [] with fds := (7, ⟨.pipeR 9, true⟩) :: (demoShell []).fds }
      (evalPipeline (demoWorld []) (evalFuel (demoWorld []) 5) (.mk false ((demoPipe false).stages.map Ext.command) false)
        { demoShell [] with fds := (7, ⟨.pipeR 9, true⟩) :: (demoShell []).fds }).2
      (List.zipWith (fun pid img => .spawn pid (.exec img) []) pids imgs) :=
  C62_noFailure _ (demo_resources []) _ _ (demoPipe false).stages (by simp [ExtPipe.stages]) false false
    (demoPipe_ok false _ (by decide +kernel) (by decide +kernel) (by decide +kernel))
    ⟨by decide +kernel, by decide +kernel⟩ (by unfold Uniq; decide +kernel) (fun e => cs!"/bin/" ++ e.name)
    fun e he tr => demoPipe_runnable false (by decide +kernel) e he _

/-! ## C63 -/

/-- C63, as far as it holds: every command of a pipeline of external commands is executed. -/
theorem C63_external_partial (w : World) (hw : Resources w) (n : Nat) (s : Sh) (hp : AtPrompt w s) (p : ExtPipe)
    (hok : ∀ e ∈ p.stages, e.Simple s) (file : Ext → Str)
    (hrun : ∀ e ∈ p.stages, ∀ tr, Runnable w s (tr ++ s.trace) e.name (file e)) (e : Ext) (he : e ∈ p.stages) :
    ∃ pid img, .spawn pid (.exec img) [] ∈ (interactiveLine w (n + 1) p.text s).2.trace ∧
      img.path = file e ∧ img.argv = e.argv := by
  obtain ⟨pids, imgs, h1, h2, ⟨l, -, h3⟩, h4⟩ := extPipe_programs hw n hp hok hrun
  obtain ⟨i, hi, rfl⟩ := List.mem_iff_getElem.1 he
  have hi1 : i < pids.length := by omega
  have hi2 : i < imgs.length := by omega
  obtain ⟨a1, a2, -⟩ := h4 i _ _ (List.getElem?_eq_getElem hi) (List.getElem?_eq_getElem hi2)
  refine ⟨pids[i], imgs[i], ?_, a1, a2⟩
  rw [h3]
  refine List.mem_append_right _ (List.mem_append_left _ (List.mem_reverse.2 ?_))
  exact List.mem_of_getElem? (i := i) (by
    rw [List.getElem?_zipWith, List.getElem?_eq_getElem hi1, List.getElem?_eq_getElem hi2])

example : ∃ pid img, .spawn pid (.exec img) [] ∈
      (interactiveLine (demoWorld []) (19 + 1) (demoPipe false).text (atPrompt [])).2.trace ∧
    img.path = cs!"/bin/" ++ cs!"grep" ∧ img.argv = [cs!"grep", cs!"x"] :=
  C63_external_partial (demoWorld []) (demo_resources []) 19 (atPrompt []) (atPrompt_ok (by decide +kernel))
    (demoPipe false) (demoPipe_ok false _ (by decide +kernel) (by decide +kernel) (by decide +kernel))
    (fun e => cs!"/bin/" ++ e.name) (fun e he tr => demoPipe_runnable false (by decide +kernel) e he _)
    (plainExt (cs!"grep") [cs!"x"]) (by simp [demoPipe, ExtPipe.stages])

/-- C63 is false: the commands after a builtin are not executed, nor is a builtin's output passed on. -/
theorem C63_counterexample :
    started (demo [cs!"pwd | a"]).trace = [] ∧
    started (demo [cs!"a | pwd | b"] [.st (.exited 100 0)]).trace = [[cs!"a"]] := by
  decide +kernel

/-! ## C49 -/

/-- C49: an external command typed at the prompt while there is no job is waited for (interrupted waits are
repeated); its exit status is recorded, the job table is empty again. -/
theorem C49_status (w : World) (hw : Resources w) (n : Nat) (s : Sh) (hp : AtPrompt w s) (e : Ext) (hok : e.Simple s)
    (ht : s.jc.table = []) (pid : Nat) (hpid : w.fork s.trace = some pid) (k : Nat) (code : Int) (rest : List WRes)
    (hwaits : s.waits = List.replicate k .eintr ++ .st (.exited pid code) :: rest) (hrest : .eintr ∉ rest) :
    ∃ s', interactiveLine w (n + 1) (ExtPipe.mk e [] false).text s = (.ok (), s') ∧ s'.exitStatus = code ∧
      s'.jc.table = [] ∧ .waited (.st (.exited pid code)) ∈ s'.trace := by
  obtain ⟨kid, kids, hk, -, hrun⟩ := extPipe_foreground hw n hp (p := ⟨e, [], false⟩)
    (by simpa [ExtPipe.stages] using hok) rfl ht
  have hlen := hk.length
  simp only [ExtPipe.stages, List.map_cons, List.map_nil, List.length_cons, List.length_nil] at hlen
  obtain rfl : kids = [] := List.length_eq_zero_iff.1 (by omega)
  have h0 : w.fork s.trace = some kid.1 := hk.pid 0 kid rfl
  have hkid : kid.1 = pid := by rw [hpid] at h0; exact (Option.some.inj h0).symm
  obtain ⟨s', h1, h2, -, h3, -, ⟨l, hl⟩, -⟩ := hrun k code [] rest (by rw [hkid]; exact hwaits) hrest (by simp) (by simp)
  refine ⟨s', h1, h2, h3, ?_⟩
  rw [hl, ← hkid]
  exact List.mem_append_right _ List.mem_cons_self

/-- `ls`. -/
def demoLs : Ext := plainExt (cs!"ls") []

example : ∃ s', interactiveLine (demoWorld []) (19 + 1) (ExtPipe.mk demoLs [] false).text
      (atPrompt [] [.eintr, .eintr, .st (.exited 100 3), .err]) = (.ok (), s') ∧ s'.exitStatus = 3 ∧
      s'.jc.table = [] ∧ .waited (.st (.exited (100 : Nat) 3)) ∈ s'.trace :=
  C49_status (demoWorld []) (demo_resources []) 19 (atPrompt [] [.eintr, .eintr, .st (.exited 100 3), .err])
    (atPrompt_ok (by decide +kernel)) demoLs (plainExt_simple (by decide +kernel)) (by decide +kernel) 100
    (by decide +kernel) 2 3 [.err] (by decide +kernel) (by decide +kernel)

/-! ## C50 and C64 -/

/-- A foreground pipeline all of whose processes exit. -/
theorem pipeline_finished (w : World) (hw : Resources w) (n : Nat) (s : Sh) (hp : AtPrompt w s) (p : ExtPipe)
    (hok : ∀ e ∈ p.stages, e.Simple s) (hfg : p.background = false) (ht : s.jc.table = []) :
    ∃ (kid : Kid) (kids : List Kid), kids.length + 1 = p.stages.length ∧
      Happened s (interactiveLine w (n + 1) p.text s).2 ((kid :: kids).map Kid.event) ∧ ∀ code,
      AllExit s.waits kid.1 (kids.map Prod.fst) code →
        ∃ s', interactiveLine w (n + 1) p.text s = (.ok (), s') ∧
          s'.jc.table = [] ∧ s'.exitStatus = code ∧
          ∀ q ∈ kid :: kids, ∃ c, .waited (.st (.exited q.1 c)) ∈ s'.trace := by
  obtain ⟨kid, kids, hk, hhap, hrun⟩ := extPipe_foreground hw n hp hok hfg ht
  refine ⟨kid, kids, ?_, hhap, ?_⟩
  · have := hk.length
    rw [List.length_map, List.length_cons] at this
    exact this
  · rintro code ⟨k, sts, rest, h1, h2, h3, h4⟩
    obtain ⟨s', a1, a2, -, a3, -, -, a4, -⟩ := hrun k code sts rest h1 h2 h3
      (fun q hq => h4 q.1 (List.mem_map.2 ⟨q, hq, rfl⟩))
    exact ⟨s', a1, a3, a2, a4⟩

/-- C50, as far as it holds: if the first process of a foreground pipeline exits first and the others have
exited when the shell looks for them, the prompt appears only after all of them have been reported. -/
theorem C50_all_partial (w : World) (hw : Resources w) (n : Nat) (s : Sh) (hp : AtPrompt w s) (p : ExtPipe)
    (hok : ∀ e ∈ p.stages, e.Simple s) (hfg : p.background = false) (ht : s.jc.table = []) :
    ∃ (kid : Kid) (kids : List Kid), kids.length + 1 = p.stages.length ∧
      Happened s (interactiveLine w (n + 1) p.text s).2 ((kid :: kids).map Kid.event) ∧ ∀ code,
      AllExit s.waits kid.1 (kids.map Prod.fst) code →
        ∃ s', interactiveLine w (n + 1) p.text s = (.ok (), s') ∧
          s'.jc.table = [] ∧ ∀ q ∈ kid :: kids, ∃ c, .waited (.st (.exited q.1 c)) ∈ s'.trace := by
  obtain ⟨kid, kids, h1, h0, h2⟩ := pipeline_finished w hw n s hp p hok hfg ht
  refine ⟨kid, kids, h1, h0, fun code hc => ?_⟩
  obtain ⟨s', a1, a3, -, a4⟩ := h2 code hc
  exact ⟨s', a1, a3, a4⟩

/-- A schedule in which the three processes of the example exit. -/
def demoWaits : List WRes := [.st (.exited 100 1), .st (.exited 102 2), .st (.exited 101 3), .err]

example : ∃ (kid : Kid) (kids : List Kid), kids.length + 1 = (demoPipe false).stages.length ∧
    Happened (atPrompt [] demoWaits) (interactiveLine (demoWorld []) (19 + 1) (demoPipe false).text
      (atPrompt [] demoWaits)).2 ((kid :: kids).map Kid.event) ∧ ∀ code,
    AllExit (atPrompt [] demoWaits).waits kid.1 (kids.map Prod.fst) code →
      ∃ s', interactiveLine (demoWorld []) (19 + 1) (demoPipe false).text (atPrompt [] demoWaits) = (.ok (), s') ∧
        s'.jc.table = [] ∧ ∀ q ∈ kid :: kids, ∃ c, .waited (.st (.exited q.1 c)) ∈ s'.trace :=
  C50_all_partial _ (demo_resources []) 19 _ (atPrompt_ok (by decide +kernel)) (demoPipe false)
    (demoPipe_ok false _ (by decide +kernel) (by decide +kernel) (by decide +kernel)) rfl (by decide +kernel)

example : AllExit (atPrompt [] demoWaits).waits 100 [101, 102] 1 :=
  ⟨0, [(102, 2), (101, 3)], [.err], by decide +kernel, by decide, by decide, by decide⟩

/-- C50 is false: when the first process has exited the shell prompts again, although the second one is still
running and will never be waited for: its job is gone.  If another one exits first the shell crashes. -/
theorem C50_counterexample :
    (outcome (demoOut [cs!"a | b"] [.st (.exited 100 0), .st .stillAlive]) = .ok ∧
      started (demo [cs!"a | b"] [.st (.exited 100 0), .st .stillAlive]).trace = [[cs!"a"], [cs!"b"]] ∧
      (demo [cs!"a | b"] [.st (.exited 100 0), .st .stillAlive]).jc.table = []) ∧
    outcome (demoOut [cs!"a | b"] [.st (.exited 101 0)]) = .panic .unwrap := by
  decide +kernel

/-- C64, as far as it holds: a foreground pipeline has the exit status of its first command; so it has that of
its last command if it consists of one command. -/
theorem C64_first_partial (w : World) (hw : Resources w) (n : Nat) (s : Sh) (hp : AtPrompt w s) (p : ExtPipe)
    (hok : ∀ e ∈ p.stages, e.Simple s) (hfg : p.background = false) (ht : s.jc.table = []) :
    ∃ (kid : Kid) (kids : List Kid), kids.length + 1 = p.stages.length ∧
      Happened s (interactiveLine w (n + 1) p.text s).2 ((kid :: kids).map Kid.event) ∧ ∀ code,
      AllExit s.waits kid.1 (kids.map Prod.fst) code →
        ∃ s', interactiveLine w (n + 1) p.text s = (.ok (), s') ∧
          s'.exitStatus = code := by
  obtain ⟨kid, kids, h1, h0, h2⟩ := pipeline_finished w hw n s hp p hok hfg ht
  refine ⟨kid, kids, h1, h0, fun code hc => ?_⟩
  obtain ⟨s', a1, -, a3, -⟩ := h2 code hc
  exact ⟨s', a1, a3⟩

example : ∃ (kid : Kid) (kids : List Kid), kids.length + 1 = (demoPipe false).stages.length ∧
    Happened (atPrompt [] demoWaits) (interactiveLine (demoWorld []) (19 + 1) (demoPipe false).text
      (atPrompt [] demoWaits)).2 ((kid :: kids).map Kid.event) ∧ ∀ code,
    AllExit (atPrompt [] demoWaits).waits kid.1 (kids.map Prod.fst) code →
      ∃ s', interactiveLine (demoWorld []) (19 + 1) (demoPipe false).text (atPrompt [] demoWaits) = (.ok (), s') ∧ s'.exitStatus = code :=
  C64_first_partial _ (demo_resources []) 19 _ (atPrompt_ok (by decide +kernel)) (demoPipe false)
    (demoPipe_ok false _ (by decide +kernel) (by decide +kernel) (by decide +kernel)) rfl (by decide +kernel)

/-- C64 is false: if `a` (pid 100) fails and `b` (pid 101) succeeds, `a | b` has failed. -/
theorem C64_counterexample :
    (demo [cs!"a | b"] [.st (.exited 100 1), .st (.exited 101 0)]).exitStatus = 1 ∧
    started (demo [cs!"a | b || c"] [.st (.exited 100 1), .st (.exited 101 0), .err, .st (.exited 102 0)]).trace =
      [[cs!"a"], [cs!"b"], [cs!"c"]] := by
  decide +kernel

/-! ## C51 -/

/-- The wait for the only job, when a process of another is reported. -/
theorem waitForJob_stranger (w : World) (id : Nat) {s : Sh} {j : Job} {p : Process}
    (ht : s.jc.table = [(id, j)]) (hh : s.held = []) (hrun : j.state = .running) (hps : j.processes = [p])
    (hnone : p.status = none) {pid : Nat} (hpid : p.pid = pid) {k : Nat} {st : WStatus} (hq : about st ≠ pid)
    (hst : st ≠ .stillAlive) {rest : List WRes} (hw : s.waits = List.replicate k .eintr ++ .st st :: rest) :
    ∃ s', waitForJob w id s = (.panic .unwrap, s') := by
  have hget : s.jc.getJob id = some j := by
    unfold JobControl.getJob tGet; rw [ht]; simp
  have hwp : waitPid st ≠ p.pid := by
    rw [hpid]
    cases st <;> exact hq
  have hscan : scanJobs [] (waitPid st) st s.jc.current [(id, j)] = none := by
    unfold scanJobs
    rw [if_neg (by simp [hrun])]
    simp only [hps, markProcs, List.map_cons, List.map_nil]
    rw [if_neg (fun h => hwp h.symm)]
    simp [hnone]
  have hone : ∃ s', waitOne w id s = (.panic .unwrap, s') := by
    unfold waitOne interruptsOff
    rw [run_modS_bind, run_bind_ok (waitProcess_hit (s := { s with masked := true }) hw)]
    simp only
    rw [if_neg (by cases st <;> simp [WStatus.pid?] at hst ⊢), run_getS_bind]
    simp only
    rw [hh, ht, hscan]
    exact ⟨_, rfl⟩
  obtain ⟨s', hone⟩ := hone
  have hdo : doWait w id s = (.panic .unwrap, s') := by
    unfold doWait
    rw [run_getS_bind, hget, unwrapM_some, run_pure_bind]
    simp only [hrun, decide_true, Bool.not_true, Bool.false_and]
    rw [if_neg (by simp)]
    show doWaitLoop w id (s.waits.length + 1 + 1) true s = _
    unfold doWaitLoop
    rw [run_getS_bind]
    simp only [Bool.not_true, Bool.false_and]
    rw [if_neg (by simp)]
    exact run_bind_panic hone _
  exact ⟨s', run_bind_panic hdo _⟩

/-- C51, as far as it holds: while there is no other job, the report of a process that does not belong to the
command run in the foreground does not bring back the prompt (it crashes the shell). -/
theorem C51_noOther_partial (w : World) (hw : Resources w) (n : Nat) (s : Sh) (hp : AtPrompt w s) (e : Ext)
    (hok : e.Simple s) (ht : s.jc.table = []) (pid : Nat) (hpid : w.fork s.trace = some pid) (k : Nat)
    (st : WStatus) (hq : about st ≠ pid) (hst : st ≠ .stillAlive) (rest : List WRes)
    (hwaits : s.waits = List.replicate k .eintr ++ .st st :: rest) (s' : Sh) :
    interactiveLine w (n + 1) (ExtPipe.mk e [] false).text s ≠ (.ok (), s') := by
  have hfds := AtPrompt_resources_fds hw hp
  have hall : ∀ e' ∈ (ExtPipe.mk e [] false).stages, e'.Simple s := by simpa [ExtPipe.stages] using hok
  have hexp := evalCommands_ext w (evalFuel w n) (es := [e]) (s := { s with masked := true })
    fun e' he => by
      obtain rfl := List.mem_singleton.1 he
      exact ⟨hok.ok.plain, hok.ok.external, hok.ok.alias, hok.ok.function, hok.ok.args, hok.ok.nul, hok.ok.assign⟩
  obtain ⟨kids, hk, hrun⟩ := pipeline_launch hw (evalFuel w n) (.mk false [e.command] false) hexp
    (by simp) (fun q hq => by
      obtain rfl := List.mem_singleton.1 hq
      exact hok.ok.function) (by show StdFds s.fds; rw [hfds]; exact stdTable_std)
  have hlen : kids.length = 1 := hk.length
  obtain ⟨kid, rfl⟩ := List.length_eq_one_iff.1 hlen
  have h0 : w.fork s.trace = some kid.1 := hk.pid 0 kid rfl
  have hkid : kid.1 = pid := by rw [hpid] at h0; exact (Option.some.inj h0).symm
  have htab := started_table (jc := s.jc) (by rw [ht]; simp) [e.proc.1] false [kid.1] rfl
  rw [ht, List.nil_append] at htab
  obtain ⟨s1, h1⟩ := waitForJob_stranger w s.jc.nextId
    (s := launched { s with masked := true } false [e.proc] [kid]) htab (AtPrompt_own hp).2.1 rfl rfl rfl
    (pid := pid) (by rw [← hkid]) hq hst hwaits
  have hpanic : evalPipeline w (evalFuel w n) (.mk false [e.command] false) s = (.panic .unwrap, s1) := by
    rw [hrun]
    refine run_bind_panic ?_ _
    unfold afterFork
    rw [if_neg (by simp)]
    show (waitForJob w s.jc.nextId >>= _) _ = _
    exact run_bind_panic h1 _
  rw [interactiveLine_panic (ExtPipe.parse hall) (ExtPipe.text_ne hall) hpanic]
  simp

example (s' : Sh) : interactiveLine (demoWorld []) (19 + 1) (ExtPipe.mk demoLs [] false).text
    (atPrompt [] [.eintr, .st (.exited 50 0), .err]) ≠ (.ok (), s') :=
  C51_noOther_partial _ (demo_resources []) 19 _ (atPrompt_ok (by decide +kernel)) demoLs
    (plainExt_simple (by decide +kernel)) (by decide +kernel) 100 (by decide +kernel) 1 (.exited 50 0) (by decide)
    (by decide) [.err] (by decide +kernel) s'

/-- C51 is false: `b` (pid 101) still runs when the shell, having been told that `a` has exited, prompts again. -/
theorem C51_counterexample :
    outcome (demoOut [cs!"a &", cs!"b"] [.st (.exited 100 0), .st .stillAlive]) = .ok ∧
    started (demo [cs!"a &", cs!"b"] [.st (.exited 100 0), .st .stillAlive]).trace = [[cs!"a"], [cs!"b"]] := by
  decide +kernel

/-! ## C65 -/

theorem lookup_last {t : List (Nat × Job)} {k : Nat} (h : ∀ q ∈ t, q.1 ≠ k) (j : Job) :
    (t ++ [(k, j)]).lookup k = some j := by
  induction t with
  | nil => simp
  | cons q t ih =>
    obtain ⟨k', j'⟩ := q
    rw [List.cons_append, List.lookup_cons, beq_eq_false_iff_ne.2 fun e => h (k', j') List.mem_cons_self e.symm]
    exact ih fun q hq => h q (List.mem_cons_of_mem _ hq)

theorem afterFork_bg (w : World) {id count : Nat} (hc : count ≠ 0) {s : Sh} {j : Job} {p : Process}
    (hj : s.jc.getJob id = some j) (hp : j.processes.head? = some p) :
    afterFork w true id count s = (.ok (), { s with
      trace := .print ((s.fds.get 1).map FdE.chan)
        (cs!"[" ++ natStr id ++ cs!"] (" ++ intStr p.pid ++ cs!") " ++ j.show ++ ['\n']) :: s.trace }) := by
  unfold afterFork
  rw [if_neg hc, if_pos rfl, run_getS_bind, hj, unwrapM_some, run_pure_bind, hp, unwrapM_some, run_pure_bind]
  rfl

/-- A pipeline in the background, typed at the prompt: all that happens. -/
theorem background_exact (w : World) (hw : Resources w) (n : Nat) (s : Sh) (hp : AtPrompt w s) (p : ExtPipe)
    (hok : ∀ e ∈ p.stages, e.Simple s) (hbg : p.background = true) :
    ∃ (kid : Kid) (kids : List Kid) (s' : Sh) (job : Job),
      interactiveLine w (n + 1) p.text s = (.ok (), s') ∧ (kid :: kids).length = p.stages.length ∧
      (∀ (i : Nat) (k : Kid), (kid :: kids)[i]? = some k →
        w.fork ((((kid :: kids).take i).map Kid.event).reverse ++ s.trace) = some k.1) ∧
      s'.trace = .print ((s.fds.get 1).map FdE.chan) (cs!"[" ++ natStr s.jc.nextId ++ cs!"] (" ++ intStr kid.1 ++
        cs!") " ++ job.show ++ ['\n']) :: (((kid :: kids).map Kid.event).reverse ++ s.trace) ∧ s'.waits = s.waits ∧
      s'.exitStatus = s.exitStatus ∧ s'.jc.table = s.jc.table ++ [(s.jc.nextId, job)] ∧
      job.background = true ∧ job.state = .running ∧ job.jobId = s.jc.nextId ∧
      job.processes.map Process.pid = (kid :: kids).map (fun k => (k.1 : Int)) ∧
      job.processes.map Process.cmd = p.stages.map Ext.name ∧
      s'.jc.current = some s.jc.nextId ∧
      ∀ id, s'.jc.isBackgroundJob id = (decide (id = s.jc.nextId) || s.jc.isBackgroundJob id) := by
  have hfds := AtPrompt_resources_fds hw hp
  have hexp := evalCommands_ext w (evalFuel w n) (es := p.stages) (s := { s with masked := true })
    fun e he => ⟨(hok e he).ok.plain, (hok e he).ok.external, (hok e he).ok.alias, (hok e he).ok.function,
      (hok e he).ok.args, (hok e he).ok.nul, (hok e he).ok.assign⟩
  obtain ⟨kids, hk, hrun⟩ := pipeline_launch hw (evalFuel w n) (.mk false (p.stages.map Ext.command) p.background) hexp
    (by simp [ExtPipe.stages]) (fun q hq => by
      obtain ⟨e, he, rfl⟩ := List.mem_map.1 hq
      exact (hok e he).ok.function) (by show StdFds s.fds; rw [hfds]; exact stdTable_std)
  have hsmall := ((tableInv w).atPrompt hp).small
  have hlen : (kids.map Prod.fst).length = ((p.stages.map Ext.proc).map Prod.fst).length := by
    rw [List.length_map, List.length_map, hk.length]
  have htab := started_table (jc := s.jc) hsmall ((p.stages.map Ext.proc).map Prod.fst) p.background
    (kids.map Prod.fst) hlen
  rw [hbg] at hrun htab
  obtain ⟨q0, qs, hq⟩ : ∃ q0 qs, p.stages.map Ext.proc = q0 :: qs := ⟨_, _, rfl⟩
  obtain ⟨kid, kids', rfl⟩ : ∃ kid kids', kids = kid :: kids' := by
    have := hk.length
    rcases kids with _ | ⟨k, ks⟩
    · rw [hq] at this; simp at this
    · exact ⟨k, ks, rfl⟩
  have hget : (launched { s with masked := true } true (p.stages.map Ext.proc) (kid :: kids')).jc.getJob s.jc.nextId =
      some ⟨withPids ((p.stages.map Ext.proc).map Prod.fst) ((kid :: kids').map Prod.fst), s.jc.nextId, .stillAlive,
        .running, true⟩ := by
    unfold JobControl.getJob tGet
    show List.lookup s.jc.nextId (installPids s.jc.nextId 0 ((kid :: kids').map Prod.fst)
      (s.jc.createJob ((p.stages.map Ext.proc).map Prod.fst) true).2).table = _
    rw [htab]
    exact lookup_last (fun q hq => by have := hsmall q hq; omega) _
  have hpipe : evalPipeline w (evalFuel w n) (.mk false (p.stages.map Ext.command) true) s =
      (.ok s.exitStatus, { launched { s with masked := true } true (p.stages.map Ext.proc) (kid :: kids') with
        masked := false
        trace := .print ((s.fds.get 1).map FdE.chan) (cs!"[" ++ natStr s.jc.nextId ++ cs!"] (" ++ intStr kid.1 ++
          cs!") " ++ (Job.mk (withPids ((p.stages.map Ext.proc).map Prod.fst) ((kid :: kids').map Prod.fst))
            s.jc.nextId .stillAlive .running true).show ++ ['\n']) ::
          (((kid :: kids').map Kid.event).reverse ++ s.trace) }) := by
    rw [hrun]
    exact run_bind_ok (afterFork_bg w (by rw [hq]; simp) hget rfl) _
  have hparse := ExtPipe.parse hok
  rw [hbg] at hparse
  refine ⟨kid, kids', _, _, interactiveLine_one hparse (ExtPipe.text_ne hok) hpipe, ?_, hk.pid, rfl, rfl, rfl, htab, rfl,
    rfl, rfl, ?_, ?_, ?_, fun id => ?_⟩
  · have := hk.length
    rw [List.length_map] at this
    exact this
  · rw [withPids_pids hlen, List.map_map]
    rfl
  · rw [withPids_cmds hlen, List.map_map, List.map_map]
    rfl
  · show (installPids _ _ _ _).current = _
    rw [(installPids_eq _ _ _ _).2.2.1]
    rfl
  · show (installPids _ _ _ _).bg.contains id = _
    rw [(installPids_eq _ _ _ _).2.1]
    show (s.jc.nextId :: s.jc.bg.filter (· ≠ s.jc.nextId)).contains id = (_ || s.jc.bg.contains id)
    rw [Bool.eq_iff_iff]
    simp only [List.contains_iff_mem, List.mem_cons, List.mem_filter, decide_eq_true_eq, Bool.or_eq_true]
    by_cases h : id = s.jc.nextId <;> simp [h]

/-- C65: a pipeline in the background is started, nothing is waited for, and it is in the job table as a
background job; the shell takes it for one from then on, and the jobs before as it did. -/
theorem C65_background (w : World) (hw : Resources w) (n : Nat) (s : Sh) (hp : AtPrompt w s) (p : ExtPipe)
    (hok : ∀ e ∈ p.stages, e.Simple s) (hbg : p.background = true) :
    ∃ (kids : List Kid) (s' : Sh) (chan : Option Chan) (line : Str) (job : Job),
      interactiveLine w (n + 1) p.text s = (.ok (), s') ∧ kids.length = p.stages.length ∧
      s'.trace = .print chan line :: ((kids.map Kid.event).reverse ++ s.trace) ∧ s'.waits = s.waits ∧
      s'.exitStatus = s.exitStatus ∧ s'.jc.table = s.jc.table ++ [(s.jc.nextId, job)] ∧
      job.background = true ∧ job.state = .running ∧
      job.processes.map Process.pid = kids.map (fun k => (k.1 : Int)) ∧
      ∀ id, s'.jc.isBackgroundJob id = (decide (id = s.jc.nextId) || s.jc.isBackgroundJob id) := by
  obtain ⟨kid, kids, s', job, a1, a2, -, a3, a4, a5, a6, a7, a8, -, a9, -, -, a10⟩ := background_exact w hw n s hp p hok hbg
  exact ⟨kid :: kids, s', _, _, job, a1, a2, a3, a4, a5, a6, a7, a8, a9, a10⟩

example : ∃ (kids : List Kid) (s' : Sh) (chan : Option Chan) (line : Str) (job : Job),
    interactiveLine (demoWorld []) (19 + 1) (demoPipe true).text (atPrompt [cs!"x &"]) = (.ok (), s') ∧
      kids.length = (demoPipe true).stages.length ∧
      s'.trace = .print chan line :: ((kids.map Kid.event).reverse ++ (atPrompt [cs!"x &"]).trace) ∧
      s'.waits = (atPrompt [cs!"x &"]).waits ∧ s'.exitStatus = (atPrompt [cs!"x &"]).exitStatus ∧
      s'.jc.table = (atPrompt [cs!"x &"]).jc.table ++ [((atPrompt [cs!"x &"]).jc.nextId, job)] ∧
      job.background = true ∧ job.state = .running ∧
      job.processes.map Process.pid = kids.map (fun k => (k.1 : Int)) ∧
      ∀ id, s'.jc.isBackgroundJob id =
        (decide (id = (atPrompt [cs!"x &"]).jc.nextId) || (atPrompt [cs!"x &"]).jc.isBackgroundJob id) :=
  C65_background _ (demo_resources []) 19 _ (atPrompt_ok (by decide +kernel)) (demoPipe true)
    (demoPipe_ok true _ (by decide +kernel) (by decide +kernel) (by decide +kernel)) rfl

/-! ## C85 -/

/-- What a child must not change: variables, functions and contexts, aliases, environment and directory. -/
def SameShell (s s' : Sh) : Prop :=
  s'.ctx = s.ctx ∧ s'.aliases = s.aliases ∧ s'.env = s.env ∧ s'.cwd = s.cwd

namespace SameShell

theorem seq : Seq SameShell SameShell where
  refl _ := ⟨rfl, rfl, rfl, rfl⟩
  trans h1 h2 := ⟨h2.1.trans h1.1, h2.2.1.trans h1.2.1, h2.2.2.1.trans h1.2.2.1, h2.2.2.2.trans h1.2.2.2⟩
  rq h := h
  rqq h1 h2 := ⟨h2.1.trans h1.1, h2.2.1.trans h1.2.1, h2.2.2.1.trans h1.2.2.1, h2.2.2.2.trans h1.2.2.2⟩

theorem subst (w : World) (rec : List AndOr → M Int) (x : Str) : Keeps SameShell SameShell (evalSubshell w rec x) :=
  subst_of seq (fun _ _ _ => ⟨rfl, rfl, rfl, rfl⟩) (fun _ _ _ => ⟨rfl, rfl, rfl, rfl⟩) x

theorem frame (w : World) : JFrame w (fun _ => True) SameShell SameShell where
  toSeq := seq
  trace _ _ _ := ⟨rfl, rfl, rfl, rfl⟩
  masked _ _ := ⟨rfl, rfl, rfl, rfl⟩
  handlers _ := ⟨rfl, rfl, rfl, rfl⟩
  createJob _ _ _ _ := ⟨rfl, rfl, rfl, rfl⟩
  deleteJob _ _ := ⟨rfl, rfl, rfl, rfl⟩
  resumeJob _ _ _ := ⟨rfl, rfl, rfl, rfl⟩
  scan _ _ _ _ _ := ⟨rfl, rfl, rfl, rfl⟩
  waited _ _ _ _ := ⟨rfl, rfl, rfl, rfl⟩
  gotSigchld _ _ := ⟨rfl, rfl, rfl, rfl⟩
  exitStatus _ _ := ⟨rfl, rfl, rfl, rfl⟩
  subst rec x _ := subst w rec x
  fork _ b id procs _ := fork_of seq (fun _ _ _ => ⟨rfl, rfl, rfl, rfl⟩) (fun _ _ _ => ⟨rfl, rfl, rfl, rfl⟩)
    (fun _ _ _ _ _ _ _ => ⟨rfl, rfl, rfl, rfl⟩) b id procs.length procs 0 (-1, -1) (-1)

theorem afterFork (w : World) (b : Bool) (id count : Nat) : Keeps SameShell SameShell (afterFork w b id count) := by
  have F := frame w
  unfold Rsh.afterFork
  refine .ite (F.deleteJobM _) (.ite ?_ ?_)
  · keeps
  · refine .bind F.toSeq (F.waitForJob _) fun st => ?_
    refine .bind F.toSeq (F.deleteJobM _) fun _ => ?_
    split
    · exact Keeps.modS fun s => F.exitStatus s _
    · exact .pure F.toSeq _

theorem evalCommands (w : World) (rec : List AndOr → M Int) {cs : List Command} (h : ∀ c ∈ cs, Plain c) :
    Keeps SameShell SameShell (evalCommands w rec cs) := by
  have F := frame w
  have S := F.toSeq
  induction cs with
  | nil => exact .pure S _
  | cons c cs ih =>
    unfold Rsh.evalCommands
    refine .bind S ?_ fun o => ?_
    · obtain ⟨sc, rfl, hb⟩ := h c List.mem_cons_self
      show Keeps _ _ (evalSimple w rec sc)
      unfold evalSimple
      rw [if_neg (by rw [hb]; simp)]
      exact .bind S (F.expandCommand (subst w rec) sc) fun _ =>
        .bind S (.unwrapM S _ _) fun _ => .pure S _
    · cases o with
      | none => exact .pure S _
      | some pc => exact .bind S (ih fun c hc => h c (List.mem_cons_of_mem _ hc)) fun _ => .pure S _

theorem evalPipeline (w : World) (rec : List AndOr → M Int) {cs : List Command} (h : ∀ c ∈ cs, Plain c)
    (bang bg : Bool) (s : Sh) (hf : bg = true ∨ ∀ procs s2, Rsh.evalCommands w rec cs { s with masked := true } =
      (.ok procs, s2) → ∀ q ∈ procs, s2.ctx.isFunction q.2.name = false) :
    Post SameShell SameShell s (evalPipeline w rec (.mk bang cs bg) s) := by
  have F := frame w
  have h3 : ∀ procs : List (Process × SimpleCommand), (∀ q ∈ procs, q.1.pid = -1) → Keeps SameShell SameShell (do
      let jobId ← Rsh.createJobM (procs.map Prod.fst) bg
      forkLoop w rec bg jobId procs.length procs 0 (-1, -1) (-1)
      Rsh.afterFork w bg jobId procs.length
      Rsh.interruptsOn
      let s ← getS
      pure s.exitStatus) := by
    intro procs hp
    refine .bind F.toSeq (F.createJobM _ _ fun p hm => ?_) fun id => ?_
    · obtain ⟨q, hq, rfl⟩ := List.mem_map.1 hm
      exact hp q hq
    · refine .bind F.toSeq (fork_of seq (fun _ _ _ => ⟨rfl, rfl, rfl, rfl⟩) (fun _ _ _ => ⟨rfl, rfl, rfl, rfl⟩)
        (fun _ _ _ _ _ _ _ => ⟨rfl, rfl, rfl, rfl⟩) _ _ _ _ _ _ _) fun _ => ?_
      refine .bind F.toSeq (afterFork _ _ _ _) fun _ => ?_
      exact .bind F.toSeq F.interruptsOn fun _ => .bind F.toSeq (.getS F.toSeq) fun _ => .pure F.toSeq _
  unfold Rsh.evalPipeline
  refine Keeps.bindAt F.toSeq (F.interruptsOff s) fun _ s1 h1 => ?_
  cases h1
  refine Keeps.bindAt F.toSeq (evalCommands w rec h _) fun procs s2 hc => ?_
  have hprocs := evalCommands_pids hc
  dsimp only
  split
  · exact F.refl s2
  · split
    · exact h3 procs hprocs s2
    · rename_i hb
      have hnf : ∀ q ∈ procs, s2.ctx.isFunction q.2.name = false := by
        rcases hf with hf | hf
        · exact absurd hf hb
        · exact hf procs s2 hc
      rw [run_bind_ok (runFunctions_none rec hnf)]
      exact h3 procs hprocs s2

end SameShell

theorem SameShell.post {s : Sh} {r : Out α × Sh} (h : Post SameShell SameShell s r) : SameShell s r.2 := by
  unfold Post at h
  split at h <;> exact h

/-- C85: however it ends, a command substitution changes nothing of the shell that started it. -/
theorem C85_substitution (w : World) (rec : List AndOr → M Int) (word : Str) (s : Sh) :
    SameShell s (evalSubshell w rec word s).2 :=
  SameShell.post (SameShell.subst w rec word s)

/-- C85: however it ends, a pipeline whose commands run in processes of their own (none is a builtin, and it runs
in the background, where functions run in processes of their own, too, or there are no functions) changes nothing
of the shell. -/
theorem C85_process (w : World) (rec : List AndOr → M Int) (cs : List Command) (h : ∀ c ∈ cs, Plain c)
    (bang bg : Bool) (s : Sh) (hf : bg = true ∨ ∀ x, s.ctx.isFunction x = false) :
    SameShell s (evalPipeline w rec (.mk bang cs bg) s).2 :=
  SameShell.post (SameShell.evalPipeline w rec h bang bg s (hf.imp id fun hf procs s2 hc q _ => by
    rw [((SameShell.evalCommands w rec h).ok hc).1]; exact hf _))

/-- C85: a line with one pipeline of external commands changes nothing of the shell. -/
theorem C85_external (w : World) (n : Nat) (es : List Ext) (bang bg : Bool) (s : Sh) (hok : ∀ e ∈ es, e.Ok s)
    (input : Str) (hin : input ≠ [])
    (hp : parse input = some (some [.mk none none (.mk bang (es.map Ext.command) bg)])) :
    SameShell s (interactiveLine w (n + 1) input s).2 := by
  have hpl : SameShell s (evalPipeline w (evalFuel w n) (.mk bang (es.map Ext.command) bg) s).2 := by
    refine SameShell.post (SameShell.evalPipeline w _ (fun c hc => ?_) bang bg s (.inr fun procs s2 hc q hq => ?_))
    · obtain ⟨e, he, rfl⟩ := List.mem_map.1 hc
      exact Ext.plain_command (hok e he)
    · have hexp := evalCommands_ext w (evalFuel w n) (es := es) (s := { s with masked := true })
        fun e he => ⟨(hok e he).plain, (hok e he).external, (hok e he).alias, (hok e he).function,
          (hok e he).args, (hok e he).nul, (hok e he).assign⟩
      rw [hexp] at hc
      cases hc
      obtain ⟨e, he, rfl⟩ := List.mem_map.1 hq
      exact (hok e he).function
  have e1 : (evalTop w (n + 1) (some [.mk none none (.mk bang (es.map Ext.command) bg)]) : M Int) s =
      evalPipeline w (evalFuel w n) (.mk bang (es.map Ext.command) bg) s := by
    show evalListFrom w (evalFuel w n) (-1) [.mk none none (.mk bang (es.map Ext.command) bg)] s = _
    unfold evalListFrom evalAndOr evalListFrom
    rw [run_bind]
    rcases evalPipeline w (evalFuel w n) (.mk bang (es.map Ext.command) bg) s with ⟨o, s1⟩
    cases o <;> rfl
  unfold interactiveLine
  rw [if_neg hin, hp]
  simp only
  rw [run_bind, run_tryE, e1]
  rcases hE : evalPipeline w (evalFuel w n) (.mk bang (es.map Ext.command) bg) s with ⟨o, s1⟩
  rw [hE] at hpl
  cases o <;> exact hpl

/-- A function that assigns, changes the directory and defines an alias is called in the background. -/
example : ∃ cs, parse (cs!"f a | ls &") = some (some [.mk none none (.mk false cs true)]) ∧
    (demo [cs!"f () { X=2 ; cd /tmp ; alias q=r ; }"]).ctx.isFunction (cs!"f") = true ∧
    SameShell (demo [cs!"f () { X=2 ; cd /tmp ; alias q=r ; }"])
      (evalPipeline (demoWorld []) (evalFuel (demoWorld []) 5) (.mk false cs true)
        (demo [cs!"f () { X=2 ; cd /tmp ; alias q=r ; }"])).2 := by
  refine ⟨_, rfl, by decide +kernel, C85_process _ _ _ ?_ _ _ _ (.inl rfl)⟩
  intro c hc
  rcases List.mem_cons.1 hc with rfl | hc
  · exact ⟨_, rfl, by decide⟩
  · obtain rfl := List.mem_singleton.1 hc
    exact ⟨_, rfl, by decide⟩

end Rsh

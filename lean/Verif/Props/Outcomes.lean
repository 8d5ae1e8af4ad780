import Verif.Proofs.Report
import Verif.Proofs.RedirFail
import Verif.Proofs.BuiltinAny
import Verif.Props.Redirections
import Verif.Props.Startup

/-!
# Properties C93 – C98: what becomes of commands

Redirections that fail, redirections of builtins, commands ended or stopped by signals, aliases and
builtins, the exit status of the shell.
-/

namespace Rsh

open Spec

/-! ## C93 -/

/-- C93, the part that holds: at every prompt, for every command with redirections, whichever of its files
cannot be opened: the child opens the files written before the first of those in order, reports the failure
on the shell's standard error and ends; no program is run.  Missing: redirections after the name of a
command without arguments (`C93_counterexample`). -/
theorem C93_notRun_partial (w : World) (hw : Resources w) (n : Nat) (s : Sh) (hp : AtPrompt w s) (c : RCmd)
    (hok : c.Ok s) (hk : c.Kept) (good : Redir → Bool) (ho : Openable w s.trace good c.redirs)
    (hbad : ∃ r ∈ c.redirs, good r = false) :
    ∃ pid, Happened s (interactiveLine w (n + 1) c.text s).2
      [.spawn pid (.panic (some (.orig 2))) ((c.redirs.takeWhile good).map fun r => .opened r.op r.file)] := by
  have e := RCmd.applied_kept hk
  have := rcmd_fails hw n hp hok good (by rw [e]; exact ho) (by rw [e]; exact hbad)
  rw [e] at this
  exact this

/-- C93 fails: in `ls < /nope` the redirection is lost and the program runs. -/
theorem C93_counterexample :
    started (demo [cs!"ls < /nope"]).trace = [[cs!"ls"]] ∧ started (demo [cs!"ls a < /nope"]).trace = [] := by
  decide +kernel

/-- `prog > f x < /nope`. -/
def failSample : RCmd where
  name := cs!"prog"
  back := [.redir ⟨.output, .plain (cs!"f"), none⟩, .arg (word (cs!"x")).1 (word (cs!"x")).2, .redir ⟨.input, .plain (cs!"/nope"), none⟩]

theorem failSample_redirs : failSample.redirs = [⟨.output, .plain (cs!"f"), none⟩, ⟨.input, .plain (cs!"/nope"), none⟩] := rfl

example : ∃ pid, Happened (atPrompt []) (interactiveLine (demoWorld []) 20 failSample.text (atPrompt [])).2
    [.spawn pid (.panic (some (.orig 2))) [.opened .output (cs!"f")]] := by
  refine C93_notRun_partial (demoWorld []) (demo_resources []) 19 (atPrompt []) (atPrompt_ok (by decide +kernel)) failSample
    ⟨?_, by simp [failSample, frontAssigns], by decide, by decide, by decide +kernel, by decide +kernel, ?_, ?_, by decide⟩
    (.inl (by decide)) (fun r => r.file ≠ cs!"/nope") ?_ ⟨⟨.input, .plain (cs!"/nope"), none⟩, by simp [failSample_redirs], by decide⟩
  · intro r hr
    simp only [failSample_redirs, List.mem_cons, List.not_mem_nil, or_false] at hr
    rcases hr with rfl | rfl <;> exact ⟨by decide, by decide, by decide⟩
  · intro a ha
    simp only [failSample, backArgs, List.mem_singleton] at ha
    subst ha
    decide
  · intro a ha
    simp only [failSample, backArgs, List.mem_singleton] at ha
    subst ha
    exact means_word (by decide)
  · intro r hr tr
    rfl

/-! ## C94 -/

/-- Redirections and assignments around a builtin change nothing: the line behaves exactly as the builtin
with its arguments alone, from every state of the shell. -/
theorem C94_ignored (w : World) (n : Nat) (s : Sh) (c : RCmd) (hc : c.Builtin s) :
    interactiveLine w (n + 1) c.text s = interactiveLine w (n + 1) c.bare.text s :=
  RCmd.builtin_eq w n hc

/-- C94, the part that holds: after a builtin with redirections and assignments, the descriptors and the
variables of the shell are what they are after the builtin alone.  Missing: the output does not go to the
file (`C94_ignored`, `C94_counterexample`). -/
theorem C94_restored_partial (w : World) (n : Nat) (s : Sh) (c : RCmd) (hc : c.Builtin s) :
    (interactiveLine w (n + 1) c.text s).2.fds = (interactiveLine w (n + 1) c.bare.text s).2.fds ∧
    ∀ x, valueOf (interactiveLine w (n + 1) c.text s).2 x = valueOf (interactiveLine w (n + 1) c.bare.text s).2 x := by
  rw [C94_ignored w n s c hc]
  exact ⟨rfl, fun _ => rfl⟩

/-- C94 fails: the file is not even opened, and a redirection that must fail does not stop the builtin. -/
theorem C94_counterexample :
    (match (demo [cs!"alias x=y > f"]).trace with
     | [] => true
     | _ => false) = true ∧
    (demo [cs!"cd /tmp < /nope"]).cwd = cs!"/tmp" := by
  decide +kernel

/-- `A=1 cd /tmp > f`. -/
def builtinSample : RCmd where
  front := [.assign (cs!"A") (.plain (cs!"1"))]
  name := cs!"cd"
  back := [.arg (word (cs!"/tmp")).1 (word (cs!"/tmp")).2, .redir ⟨.output, .plain (cs!"f"), none⟩]

theorem builtinSample_ok : builtinSample.Builtin (atPrompt []) where
  redirs := by
    intro r hr
    simp only [builtinSample, RCmd.redirs, frontRedirs, backRedirs, List.nil_append, List.mem_singleton] at hr
    subst hr
    exact ⟨by decide, by decide, by decide⟩
  assigns := by
    intro a ha
    simp only [builtinSample, frontAssigns, List.mem_singleton] at ha
    subst ha
    decide
  builtin := by decide
  named := by decide
  alias := by decide +kernel
  typed := by
    intro a ha
    simp only [builtinSample, backArgs, List.mem_singleton] at ha
    subst ha
    decide
  means := by
    intro a ha
    simp only [builtinSample, backArgs, List.mem_singleton] at ha
    subst ha
    exact means_word (by decide)

example : interactiveLine (demoWorld []) 20 builtinSample.text (atPrompt []) =
    interactiveLine (demoWorld []) 20 (Call.text ⟨cs!"cd", [word (cs!"/tmp")]⟩) (atPrompt []) :=
  C94_ignored (demoWorld []) 19 (atPrompt []) builtinSample builtinSample_ok

/-! ## C95 -/

/-- C95, the part that holds: when the program of a line is killed by a signal, the shell learns of it, goes
back to the prompt with signals unblocked, and the job is gone.  Missing: the status (`C95_status`).
Other jobs at the same time and pipelines: `C95_anyJobs_partial`. -/
theorem C95_returns_partial (w : World) (hw : Resources w) (n k : Nat) (s : Sh) (hp : AtPrompt w s) (e : Ext)
    (hok : e.Simple s) (ht : s.jc.table = []) (pid : Nat) (hpid : w.fork s.trace = some pid) (ps4 : Str)
    (hps4 : valueOf s (cs!"PS4") = some ps4) (sig : Nat) (core : Bool) (rest : List WRes) (hno : NoMore rest)
    (hwaits : s.waits = List.replicate k .eintr ++ .st (.signaled pid sig core) :: rest) :
    ∃ s', interactiveLine w (n + 1) (ExtPipe.mk e [] false).text s = (.ok (), s') ∧
      .waited (.st (.signaled pid sig core)) ∈ s'.trace ∧ s'.masked = false ∧ s'.jc.table = [] := by
  obtain ⟨s', j, h1, -, -, h4, h5, -, -, -, -, h6⟩ := report_run hw n hp hok ht hpid hps4 (.killed sig core) hno hwaits
  exact ⟨s', h1, h5, h4, h6⟩

/-- C95 fails for every such line: the status, as `&&`, `||` and `$?` see it, is that of the command
before. -/
theorem C95_status (w : World) (hw : Resources w) (n k : Nat) (s : Sh) (hp : AtPrompt w s) (e : Ext)
    (hok : e.Simple s) (ht : s.jc.table = []) (pid : Nat) (hpid : w.fork s.trace = some pid) (ps4 : Str)
    (hps4 : valueOf s (cs!"PS4") = some ps4) (sig : Nat) (core : Bool) (rest : List WRes) (hno : NoMore rest)
    (hwaits : s.waits = List.replicate k .eintr ++ .st (.signaled pid sig core) :: rest) :
    (evalText w (n + 1) (ExtPipe.mk e [] false).text s).1 = .ok s.exitStatus ∧
    (interactiveLine w (n + 1) (ExtPipe.mk e [] false).text s).2.exitStatus = s.exitStatus := by
  obtain ⟨s', j, h1, h2, h3, -⟩ := report_run hw n hp hok ht hpid hps4 (.killed sig core) hno hwaits
  rw [h1, h2]
  exact ⟨rfl, h3⟩

/-- C95 fails: in `ls && ls x` the second command runs although the first was killed. -/
theorem C95_counterexample :
    started (demo [cs!"ls && ls x"] [.st (.signaled 100 9 false), .err, .st (.exited 101 0)]).trace =
      [[cs!"ls"], [cs!"ls", cs!"x"]] := by decide +kernel

/-! ## C96 -/

/-- C96, for one command: when the program of a line is stopped by a signal, the shell goes back to the
prompt with signals unblocked; the job stays in the table, as a stopped one with the number it had, and is
the current one, so that `fg` continues it.  Other jobs at the same time and
pipelines: `C96_anyJobs_partial`. -/
theorem C96_stopped_partial (w : World) (hw : Resources w) (n k : Nat) (s : Sh) (hp : AtPrompt w s) (e : Ext)
    (hok : e.Simple s) (ht : s.jc.table = []) (pid : Nat) (hpid : w.fork s.trace = some pid) (ps4 : Str)
    (hps4 : valueOf s (cs!"PS4") = some ps4) (sig : Nat) (rest : List WRes) (hno : NoMore rest)
    (hwaits : s.waits = List.replicate k .eintr ++ .st (.stopped pid sig) :: rest) :
    ∃ s' j, interactiveLine w (n + 1) (ExtPipe.mk e [] false).text s = (.ok (), s') ∧
      s'.masked = false ∧ s'.jc.table = [(s.jc.nextId, j)] ∧ s'.jc.current = some s.jc.nextId ∧
      j.jobId = s.jc.nextId ∧ j.state = .stopped ∧ j.background = false ∧
      j.processes.map Process.pid = [(pid : Int)] := by
  obtain ⟨s', j, h1, -, -, h4, -, h5, h6, h7, h8, h9⟩ := report_run hw n hp hok ht hpid hps4 (.stopped sig) hno hwaits
  exact ⟨s', j, h1, h4, h9.1, h9.2, h8, h6, h7, h5⟩

/-- `ls`, killed. -/
example : (evalText (demoWorld []) 20 (ExtPipe.mk demoLs [] false).text
      (atPrompt [] [.eintr, .st (.signaled 100 9 true), .err])).1 =
      .ok (atPrompt [] [.eintr, .st (.signaled 100 9 true), .err]).exitStatus :=
  (C95_status (demoWorld []) (demo_resources []) 19 1 (atPrompt [] [.eintr, .st (.signaled 100 9 true), .err])
    (atPrompt_ok (by decide +kernel)) demoLs (plainExt_simple (by decide +kernel)) (by decide +kernel) 100
    (by decide +kernel) (cs!"+ ") (by decide +kernel) 9 true [.err] (.inr ⟨_, _, rfl, .inl rfl⟩) (by decide +kernel)).1

/-- `ls`, stopped. -/
example : ∃ s' j, interactiveLine (demoWorld []) 20 (ExtPipe.mk demoLs [] false).text
      (atPrompt [] [.st (.stopped 100 20), .st .stillAlive]) = (.ok (), s') ∧
      s'.masked = false ∧ s'.jc.table = [(1, j)] ∧ s'.jc.current = some 1 ∧
      j.jobId = 1 ∧ j.state = .stopped ∧ j.background = false ∧ j.processes.map Process.pid = [((100 : Nat) : Int)] :=
  C96_stopped_partial (demoWorld []) (demo_resources []) 19 0 (atPrompt [] [.st (.stopped 100 20), .st .stillAlive])
    (atPrompt_ok (by decide +kernel)) demoLs (plainExt_simple (by decide +kernel)) (by decide +kernel) 100
    (by decide +kernel) (cs!"+ ") (by decide +kernel) 20 [.st .stillAlive] (.inr ⟨_, _, rfl, .inr rfl⟩) (by decide +kernel)

/-! ## C97 -/

namespace Spec

/-- A command whose first word is an alias; `name` and `extra` are the words it stands for. -/
structure Aliased (c : Call) (s : Sh) (name : Str) (extra : List (Typed × Str)) : Prop where
  first : PlainWord c.name
  plain : PlainWord name
  alias : ∃ v, s.aliases.get c.name = some v ∧ WordsOf v (name :: extra.map fun a => a.1.text)
  typed : ∀ a ∈ c.args, a.1.Ok
  means : ∀ a ∈ c.args ++ extra, a.1.Means (valueOf s) a.2

end Spec

theorem aliased_cmd_ok {c : Call} {s : Sh} {name : Str} {extra : List (Typed × Str)} (h : Aliased c s name extra) :
    c.cmd.Ok where
  before := by simp [Call.cmd]
  noArg := by simp [Call.cmd]
  name := by
    intro t ht
    simp only [Call.cmd, Option.some.injEq] at ht
    subst ht
    exact h.first
  after := by
    intro p hp
    simp only [Call.cmd, List.mem_map] at hp
    obtain ⟨a, ha, rfl⟩ := hp
    exact h.typed a ha
  some := by simp [Call.cmd]

theorem aliased_line (w : World) (n : Nat) {s : Sh} {c : Call} {name : Str} {extra : List (Typed × Str)}
    (h : Aliased c s name extra) (hb : c.name ∈ builtins) :
    interactiveLine w (n + 1) c.text s =
      reportM (callBuiltin w (evalFuel w n) ⟨none, name, some ⟨[], (c.args ++ extra).map Prod.snd⟩⟩)
        { s with masked := true } := by
  have hcmd : c.cmd.command =
      ⟨none, c.name, if c.args = [] then none else some ⟨[], c.args.map fun a => a.1.text⟩⟩ := by
    simp [TCmd.command, Call.cmd, Typed.text, wordsOf_args, redirsOf_args]
  obtain ⟨v, hv, hsp⟩ := h.alias
  refine builtin_line_any w n (aliased_cmd_ok h) (name := name)
    (sf := (applyAlias c.cmd.command name (extra.map fun a => a.1.text)).suffix) ?_ h.plain ?_ (args := c.args ++ extra) ?_ ?_ h.means
  · rw [hcmd]; exact hb
  · refine (aliasLookup_some (v := v) ?_ hsp).trans ?_
    · rw [hcmd]; exact hv
    · unfold applyAlias
      rw [hcmd]
      split <;> rfl
  · unfold applyAlias
    rw [hcmd]
    by_cases ha : c.args = []
    · simp [ha]
    · simp [ha]
  · rw [hcmd]; intro p hp; cases hp

/-- C97, the part that holds: an alias that has the name of a builtin and stands for a builtin with some
arguments is that builtin; its arguments follow those typed (see C23).  Missing: every other alias for a
builtin (`C97_program`), and every other alias with the name of a builtin (`C97_refused`). -/
theorem C97_builtin_partial (w : World) (n : Nat) (s : Sh) (c : Call) (name : Str) (extra : List (Typed × Str))
    (h : Aliased c s name extra) (hb : c.name ∈ builtins) (hname : name ∈ builtins) (hno : s.aliases.get name = none)
    (hx : ∀ a ∈ extra, a.1.Ok) :
    interactiveLine w (n + 1) c.text s = interactiveLine w (n + 1) (Call.mk name (c.args ++ extra)).text s := by
  have hok : (Call.mk name (c.args ++ extra)).Ok s := ⟨hname, h.plain.1, hno, fun a ha => by
    rcases List.mem_append.1 ha with ha | ha
    · exact h.typed a ha
    · exact hx a ha, h.means⟩
  rw [aliased_line w n h hb, Call.line w n hok]
  rfl

/-- C97 fails for every alias that has the name of a builtin and stands for no builtin: nothing is run but an
error message printed. -/
theorem C97_refused (w : World) (n : Nat) (s : Sh) (c : Call) (name : Str) (extra : List (Typed × Str))
    (h : Aliased c s name extra) (hb : c.name ∈ builtins) (hname : name ∉ builtins) :
    interactiveLine w (n + 1) c.text s = printlnM (cs!"Not a builtin") { s with masked := true } := by
  rw [aliased_line w n h hb]
  refine reportM_err ?_
  have hk : ∀ b ∈ builtins, name ≠ b := fun b hb e => hname (e ▸ hb)
  unfold callBuiltin
  simp only [hk (cs!"cd") (by decide), hk (cs!"exit") (by decide), hk (cs!"return") (by decide), hk (cs!"jobs") (by decide),
    hk (cs!"fg") (by decide), hk (cs!"bg") (by decide), hk (cs!"alias") (by decide), hk (cs!"unalias") (by decide),
    hk (cs!"export") (by decide), hk (cs!"eval") (by decide), hk (cs!"unset") (by decide), hk (cs!"pwd") (by decide),
    hk (cs!"readonly") (by decide), hk (cs!"exec") (by decide), hk (cs!".") (by decide), hk (cs!"source") (by decide),
    h.plain.1, or_self, if_false]
  rfl

/-- C97 fails for every alias, not with the name of a builtin, that stands for a builtin: a program of that name
is looked for and run. -/
theorem C97_program (w : World) (hw : Resources w) (n : Nat) (s : Sh) (hp : AtPrompt w s) (c : CmdLine)
    (hok : c.Ok s) (_hb : c.name ∈ builtins) (file : Str) (hrun : ∀ tr, Runnable w s (tr ++ s.trace) c.name file) :
    ∃ pid img, Happened s (interactiveLine w (n + 1) c.text s).2 [.spawn pid (.exec img) []] ∧
      img.path = file ∧ img.argv = c.argv := by
  obtain ⟨pid, img, h1, -, h2, h3, -⟩ := cmdLine_program hw n hp hok hrun
  exact ⟨pid, img, h1, h2, h3⟩

/-- C97 fails: after `alias p=pwd`, `p` runs a program `pwd`. -/
theorem C97_counterexample : started (demo [cs!"alias p=pwd", cs!"p"]).trace = [[cs!"pwd"]] := by decide +kernel

/-- After `alias cd=pwd`, `alias jobs=ls`. -/
def aliasSession : Sh := atPrompt [cs!"alias cd=pwd", cs!"alias jobs=ls"]

example : interactiveLine (demoWorld []) 20 (Call.text ⟨cs!"cd", []⟩) aliasSession =
    interactiveLine (demoWorld []) 20 (Call.text ⟨cs!"pwd", []⟩) aliasSession :=
  C97_builtin_partial (demoWorld []) 19 aliasSession ⟨cs!"cd", []⟩ (cs!"pwd") []
    ⟨by decide, by decide, ⟨cs!"pwd", by decide +kernel, by decide⟩, by simp, by simp⟩ (by decide) (by decide)
    (by decide +kernel) (by simp)

example : interactiveLine (demoWorld []) 20 (Call.text ⟨cs!"jobs", []⟩) aliasSession =
    printlnM (cs!"Not a builtin") { aliasSession with masked := true } :=
  C97_refused (demoWorld []) 19 aliasSession ⟨cs!"jobs", []⟩ (cs!"ls") []
    ⟨by decide, by decide, ⟨cs!"ls", by decide +kernel, by decide⟩, by simp, by simp⟩ (by decide) (by decide)

/-! ## C98 -/

/-- C98, the part that holds: if the text given with `-c` ends with `exit` or by replacing the shell, so does
the shell.  Missing: every other text (`C98_zero`). -/
theorem C98_exit_partial (w : World) (n k : Nat) (s : Sh) (argv0 : Str) (rest : List Str) (ins : List SessionIn)
    (hne : argv0 ≠ []) (hopt : ¬ (IsOption argv0 ∧ 'c' ∈ argv0)) (t : Str) (hi : invocation rest = .program t)
    (hp : parse t ≠ none) :
    ∃ s1, Announced s s1 ∧ ∀ s2 s3,
      (do pushContextNew; setArg0; startFiles w n : M Unit) s1 = (.ok (), s2) →
      (∀ c, evalText w n t s2 = (.exit c, s3) → mainM w n k (argv0 :: rest) ins s = (.exit c, s3)) ∧
      ∀ i, evalText w n t s2 = (.execed i, s3) → mainM w n k (argv0 :: rest) ins s = (.execed i, s3) := by
  obtain ⟨s1, h1, -, -, -, -, h2⟩ := C83_program_partial w n k s argv0 rest ins hne hopt t hi hp
  refine ⟨s1, h1, fun s2 s3 h3 => ?_⟩
  have e : mainM w n k (argv0 :: rest) ins s = evalAny w n t s2 := by
    rw [h2]
    have : (do pushContextNew; setArg0; startFiles w n; evalAny w n t : M Unit) =
        ((do pushContextNew; setArg0; startFiles w n : M Unit) >>= fun _ => evalAny w n t) := by
      simp only [bind_assoc]
    rw [this, run_bind_ok h3]
  rw [e]
  unfold evalAny
  refine ⟨fun c hc => ?_, fun i hi => ?_⟩
  · rw [run_bind]; unfold tryE; rw [hc]
  · rw [run_bind]; unfold tryE; rw [hi]

/-- C98 fails for every text that does not end the shell: whatever its status, or an error, the shell ends
regularly, with code 0. -/
theorem C98_zero (w : World) (n k : Nat) (s : Sh) (argv0 : Str) (rest : List Str) (ins : List SessionIn)
    (hne : argv0 ≠ []) (hopt : ¬ (IsOption argv0 ∧ 'c' ∈ argv0)) (t : Str) (hi : invocation rest = .program t)
    (hp : parse t ≠ none) :
    ∃ s1, Announced s s1 ∧ ∀ s2 s3,
      (do pushContextNew; setArg0; startFiles w n : M Unit) s1 = (.ok (), s2) →
      (∀ c, evalText w n t s2 = (.ok c, s3) → mainM w n k (argv0 :: rest) ins s = (.ok (), s3)) ∧
      ∀ m, evalText w n t s2 = (.err m, s3) → mainM w n k (argv0 :: rest) ins s = (.ok (), s3) := by
  obtain ⟨s1, h1, -, -, -, -, h2⟩ := C83_program_partial w n k s argv0 rest ins hne hopt t hi hp
  refine ⟨s1, h1, fun s2 s3 h3 => ?_⟩
  have e : mainM w n k (argv0 :: rest) ins s = evalAny w n t s2 := by
    rw [h2]
    have : (do pushContextNew; setArg0; startFiles w n; evalAny w n t : M Unit) =
        ((do pushContextNew; setArg0; startFiles w n : M Unit) >>= fun _ => evalAny w n t) := by
      simp only [bind_assoc]
    rw [this, run_bind_ok h3]
  rw [e]
  unfold evalAny
  refine ⟨fun c hc => ?_, fun i hi => ?_⟩
  · rw [run_bind_ok (run_tryE_ok hc)]; rfl
  · rw [run_bind_ok (run_tryE_err hi)]; rfl

example (w : World) (s : Sh) : ∃ s1, Announced s s1 ∧ ∀ s2 s3,
      (do pushContextNew; setArg0; startFiles w 9 : M Unit) s1 = (.ok (), s2) →
      (∀ c, evalText w 9 (cs!"exit 4") s2 = (.exit c, s3) →
        mainM w 9 5 [cs!"rsh", cs!"-c", cs!"exit", cs!"4"] [] s = (.exit c, s3)) ∧
      ∀ i, evalText w 9 (cs!"exit 4") s2 = (.execed i, s3) →
        mainM w 9 5 [cs!"rsh", cs!"-c", cs!"exit", cs!"4"] [] s = (.execed i, s3) :=
  C98_exit_partial w 9 5 s (cs!"rsh") [cs!"-c", cs!"exit", cs!"4"] [] (by decide) (by decide) (cs!"exit 4") (by decide)
    (by decide +kernel)

/-- C98 fails: `rsh -c ls`, with `ls` exiting with 3. -/
theorem C98_counterexample :
    startedWith [cs!"rsh", cs!"-c", cs!"ls"] [] [.st (.exited 100 3)] = .ok ∧
    startedWith [cs!"rsh", cs!"-c", cs!"exit 3"] [] = .exit 3 := by decide +kernel

end Rsh

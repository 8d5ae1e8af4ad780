import Verif.Spec.Process
import Verif.Proofs.Disp
import Verif.Proofs.Pipes
import Verif.Props.Pipelines
import Verif.Props.Commands

/-!
# Properties C88-C92: signals at the prompt, the processes of a job, the working directory
-/

namespace Rsh

open Spec

/-! ## C89 -/

theorem shellDisp_atWork : shellDisp = atWork := by
  funext g
  unfold shellDisp atWork freshDisp SIGINT SIGCHLD SIGTSTP SIGPIPE
  by_cases h : g = 2 ∨ g = 17 ∨ g = 20
  · rw [if_pos h, if_pos (by simpa using h)]
  · rw [if_neg h, if_neg (c := g ∈ [2, 17, 20]) (by simpa using h)]

/-- C89: at every prompt the shell has the handlers it set up when it started, or none at all; it never has some
of them only and never any other. -/
theorem C89_handlers_partial (w : World) (s : Sh) (hp : AtPrompt w s) :
    (∀ g, s.disp g = atWork g) ∨ (∀ g, s.disp g = untouched g) := by
  rcases AtPrompt_disp hp with h | h
  · exact .inl fun g => by rw [h, shellDisp_atWork]
  · exact .inr fun g => by rw [h]; rfl

/-- C89 is false: an `exec` that fails takes the handlers away, for the rest of the session. -/
theorem C89_counterexample :
    AtPrompt (demoWorld []) (atPrompt [cs!"ls &"]) ∧ (atPrompt [cs!"ls &"]).disp 2 = .catch ∧
    AtPrompt (demoWorld []) (atPrompt [cs!"exec nope", cs!"ls &"]) ∧
    (atPrompt [cs!"exec nope", cs!"ls &"]).disp 2 = .dfl :=
  ⟨atPrompt_ok (by decide +kernel), by decide +kernel, atPrompt_ok (by decide +kernel), by decide +kernel⟩

/-! ## C88 -/

theorem prompt_disp {w : World} {s : Sh} (hp : AtPrompt w s) {g : Nat} (h2 : g ≠ 2) (h17 : g ≠ 17) (h20 : g ≠ 20) :
    s.disp g = if g = 13 then .ign else .dfl := by
  rcases C89_handlers_partial w s hp with h | h
  · rw [h]; simp [atWork, h2, h17, h20]
  · exact h g

/-- C88: a SIGINT that reaches the shell at the prompt writes a newline and has no other effect, provided
the handler is there and the terminal can be written to. -/
theorem C88_interrupt_partial (w : World) (hw : Resources w) (n : Nat) (s : Sh) (hp : AtPrompt w s)
    (hd : s.disp 2 = .catch) (ht : w.writeOk s.trace (.orig 0) = true) :
    handle w n (.sig 2) s = (.ok (), { s with trace := .print (some (.orig 0)) ['\n'] :: s.trace }) := by
  have hfds := AtPrompt_resources_fds hw hp
  have hf := (AtPrompt_own hp).1
  show deliver w 2 s = _
  unfold deliver
  rw [run_getS_bind, if_neg (by simp [unblockedSignals]), hd]
  show onSigOther w 2 s = _
  unfold onSigOther
  have h0 : s.fds.get 0 = some ⟨.orig 0, false⟩ := by rw [hfds]; rfl
  rw [run_getS_bind, if_neg (by simp [hf]), if_pos (show 2 = SIGINT from rfl), h0]
  show (if w.writeOk s.trace (.orig 0) then emit (.print (some (.orig 0)) ['\n']) else panicM .unwrap : M Unit) s = _
  rw [if_pos ht]
  rfl

/-- C88: a SIGTSTP has no effect, nor has any other signal that does not end a process without a handler. -/
theorem C88_stop (w : World) (n : Nat) (s : Sh) (hp : AtPrompt w s) (g : Nat) (hg : Survivable g) (h17 : g ≠ 17) :
    handle w n (.sig g) s = (.ok (), s) := by
  have hf := (AtPrompt_own hp).1
  show deliver w g s = _
  unfold deliver
  rw [run_getS_bind]
  by_cases hb : s.masked = true ∧ ¬ unblockedSignals.contains g
  · rw [if_pos hb]; rfl
  · rw [if_neg hb]
    have hg2 : g ≠ 2 := by rintro rfl; revert hg; decide
    by_cases h20 : g = 20
    · subst h20
      rcases hd : s.disp 20 with _ | _ | _
      · rfl
      · rfl
      · show onSigOther w 20 s = _
        unfold onSigOther
        rw [run_getS_bind, hf]
        rfl
    · rw [prompt_disp hp hg2 h17 h20]
      by_cases h13 : g = 13
      · subst h13; rfl
      · rw [if_neg h13]
        show (if harmlessSignals.contains g then pure () else exitM (128 + (g : Int)) : M Unit) s = _
        rw [if_pos (by simpa [harmlessSignals, Survivable] using hg)]
        rfl

example : handle (demoWorld []) 20 (.sig 2) (atPrompt [cs!"ls &"]) = (.ok (), { atPrompt [cs!"ls &"] with
    trace := .print (some (.orig 0)) ['\n'] :: (atPrompt [cs!"ls &"]).trace }) :=
  C88_interrupt_partial (demoWorld []) (demo_resources []) 20 (atPrompt [cs!"ls &"]) (atPrompt_ok (by decide +kernel))
    (by decide +kernel) (by unfold demoWorld; rfl)

example : handle (demoWorld []) 20 (.sig 20) (atPrompt [cs!"ls &"]) = (.ok (), atPrompt [cs!"ls &"]) :=
  C88_stop (demoWorld []) 20 _ (atPrompt_ok (by decide +kernel)) 20 (by decide) (by decide)

/-- C88 is false: the shell does not ignore SIGQUIT and SIGTERM, although it is written to
(`C56_install`); every signal it has no handler for and whose default is to end a process ends the shell,
unless it is blocked. The history is not saved. -/
theorem C88_ended (w : World) (n : Nat) (s : Sh) (hp : AtPrompt w s) (hm : s.masked = false) (g : Nat)
    (hg : ¬ Survivable g) (h2 : g ≠ 2) (h13 : g ≠ 13) : handle w n (.sig g) s = (.exit (128 + g), s) := by
  have h17 : g ≠ 17 := by rintro rfl; revert hg; decide
  have h20 : g ≠ 20 := by rintro rfl; revert hg; decide
  show deliver w g s = _
  unfold deliver
  rw [run_getS_bind, if_neg (by simp [hm]), prompt_disp hp h2 h17 h20, if_neg h13]
  show (if harmlessSignals.contains g then pure () else exitM (128 + (g : Int))) s = _
  rw [if_neg (by simpa [harmlessSignals, Survivable] using hg)]
  rfl

example : handle (demoWorld []) 20 (.sig 15) (atPrompt [cs!"ls &"] []) = (.exit (128 + (15 : Nat)), atPrompt [cs!"ls &"]) :=
  C88_ended (demoWorld []) 20 _ (atPrompt_ok (by decide +kernel)) (by decide +kernel) 15 (by decide) (by decide) (by decide)

/-- C88 is false: SIGINT ends the shell if the handlers are gone, and makes it panic if its standard input
cannot be written to. -/
theorem C88_counterexample :
    outcome (handle (demoWorld []) 20 (.sig 2) (atPrompt [cs!"exec nope", cs!"ls &"])).1 = .exit 130 ∧
    outcome (handle { demoWorld [] with writeOk := fun _ _ => false } 20 (.sig 2) (atPrompt [])).1 = .panic .unwrap := by
  decide +kernel

/-! ## C90 -/

theorem launched_disp {w : World} {s : Sh} (hp : AtPrompt w s) {img : ExecImage} (h : Launched s img) (g : Nat) :
    img.disp g = if g = 13 then .ign else .dfl := by
  rw [h.disp]
  by_cases h' : g ∈ [2, 3, 15, 17, 20, 21, 22]
  · have h13 : g ≠ 13 := by rintro rfl; revert h'; decide
    rw [if_neg (fun h => h.2 h'), if_neg h13]
  · have hd : s.disp g = if g = 13 then .ign else .dfl :=
      prompt_disp hp (by rintro rfl; exact h' (by decide)) (by rintro rfl; exact h' (by decide))
        (by rintro rfl; exact h' (by decide))
    rw [hd]
    by_cases h13 : g = 13
    · subst h13; rfl
    · simp [h13]

/-- C90: the programs of a pipeline typed at the prompt are started in the working directory of the shell, with
its environment, with no signal blocked and with the default reaction to every signal but SIGPIPE. -/
theorem C90_fresh_partial (w : World) (hw : Resources w) (n : Nat) (s : Sh) (hp : AtPrompt w s) (p : ExtPipe)
    (hok : ∀ e ∈ p.stages, e.Simple s) (file : Ext → Str)
    (hrun : ∀ e ∈ p.stages, ∀ tr, Runnable w s (tr ++ s.trace) e.name (file e)) :
    ∃ (pids : List Nat) (imgs : List ExecImage), pids.length = p.stages.length ∧
      Happened s (interactiveLine w (n + 1) p.text s).2
        (List.zipWith (fun pid img => .spawn pid (.exec img) []) pids imgs) ∧
      imgs.map ExecImage.path = p.stages.map file ∧
      ∀ img ∈ imgs, img.cwd = s.cwd ∧ img.env = s.env ∧ img.masked = false ∧ ∀ g, g ≠ 13 → img.disp g = .dfl := by
  obtain ⟨pids, imgs, h1, h2, h3, h4⟩ := extPipe_programs hw n hp hok hrun
  refine ⟨pids, imgs, h1, h3, ?_, ?_⟩
  · refine List.ext_getElem (by simp [h2]) fun i hi hi' => ?_
    simp only [List.length_map] at hi hi'
    have := (h4 i _ _ (List.getElem?_eq_getElem hi') (List.getElem?_eq_getElem hi)).1
    simpa using this
  · intro img hm
    obtain ⟨i, hi, e⟩ := List.mem_iff_getElem.1 hm
    obtain ⟨-, -, a3, a4, -⟩ := h4 i _ _ (List.getElem?_eq_getElem (by omega)) (List.getElem?_eq_getElem hi)
    rw [← e]
    exact ⟨a4.cwd, a3, a4.unmasked, fun g hg => by rw [launched_disp hp a4, if_neg hg]⟩

/-- C90 is false: all of them ignore SIGPIPE, so that a program that writes to a pipe nobody reads is not
ended by it. -/
theorem C90_sigpipe (w : World) (hw : Resources w) (n : Nat) (s : Sh) (hp : AtPrompt w s) (p : ExtPipe)
    (hok : ∀ e ∈ p.stages, e.Simple s) (file : Ext → Str)
    (hrun : ∀ e ∈ p.stages, ∀ tr, Runnable w s (tr ++ s.trace) e.name (file e)) :
    ∃ (pids : List Nat) (imgs : List ExecImage), pids.length = p.stages.length ∧ imgs.length = p.stages.length ∧
      Happened s (interactiveLine w (n + 1) p.text s).2
        (List.zipWith (fun pid img => .spawn pid (.exec img) []) pids imgs) ∧
      ∀ img ∈ imgs, img.disp 13 = .ign := by
  obtain ⟨pids, imgs, h1, h2, h3, h4⟩ := extPipe_programs hw n hp hok hrun
  refine ⟨pids, imgs, h1, h2, h3, fun img hm => ?_⟩
  obtain ⟨i, hi, e⟩ := List.mem_iff_getElem.1 hm
  obtain ⟨-, -, a3, a4, -⟩ := h4 i _ _ (List.getElem?_eq_getElem (by omega)) (List.getElem?_eq_getElem hi)
  rw [← e, launched_disp hp a4]
  rfl

/-- A line as in the two theorems. -/
example : ∃ (pids : List Nat) (imgs : List ExecImage), pids.length = (demoPipe true).stages.length ∧
      imgs.length = (demoPipe true).stages.length ∧
      Happened (atPrompt []) (interactiveLine (demoWorld []) (19 + 1) (demoPipe true).text (atPrompt [])).2
        (List.zipWith (fun pid img => .spawn pid (.exec img) []) pids imgs) ∧
      ∀ img ∈ imgs, img.disp 13 = .ign :=
  C90_sigpipe (demoWorld []) (demo_resources []) 19 (atPrompt []) (atPrompt_ok (by decide +kernel)) (demoPipe true)
    (demoPipe_ok true _ (by decide +kernel) (by decide +kernel) (by decide +kernel)) (fun e => cs!"/bin/" ++ e.name)
    fun e he tr => demoPipe_runnable true (by decide +kernel) e he _

/-! ## C91 -/

/-- C91: the programs of a background pipeline leave the shell's process group, those of a foreground pipeline stay
in it. -/
theorem C91_group_partial (w : World) (hw : Resources w) (n : Nat) (s : Sh) (hp : AtPrompt w s) (p : ExtPipe)
    (hok : ∀ e ∈ p.stages, e.Simple s) (file : Ext → Str)
    (hrun : ∀ e ∈ p.stages, ∀ tr, Runnable w s (tr ++ s.trace) e.name (file e)) (group : Nat) :
    ∃ (pids : List Nat) (imgs : List ExecImage), pids.length = p.stages.length ∧ imgs.length = p.stages.length ∧
      Happened s (interactiveLine w (n + 1) p.text s).2
        (List.zipWith (fun pid img => .spawn pid (.exec img) []) pids imgs) ∧
      ∀ (i : Nat) pid img, pids[i]? = some pid → imgs[i]? = some img →
        (p.background = false → groupOf group pid img = group) ∧
        (p.background = true → pid ≠ group → groupOf group pid img ≠ group) := by
  obtain ⟨pids, imgs, h1, h2, h3, h4⟩ := extPipe_programs hw n hp hok hrun
  refine ⟨pids, imgs, h1, h2, h3, fun i pid img _ hi => ?_⟩
  have hl := (List.getElem?_eq_some_iff.1 hi).1
  obtain ⟨-, -, -, -, a5, -⟩ := h4 i _ _ (List.getElem?_eq_getElem (by omega)) hi
  unfold groupOf
  rw [a5]
  exact ⟨fun h => by simp [h], fun h hne => by simpa [h] using hne⟩

/-- C91 is false: the programs of a background pipeline are not in one process group, but each in its own. -/
theorem C91_separate (w : World) (hw : Resources w) (n : Nat) (s : Sh) (hp : AtPrompt w s) (p : ExtPipe)
    (hok : ∀ e ∈ p.stages, e.Simple s) (hb : p.background = true) (file : Ext → Str)
    (hrun : ∀ e ∈ p.stages, ∀ tr, Runnable w s (tr ++ s.trace) e.name (file e)) (group : Nat) :
    ∃ (pids : List Nat) (imgs : List ExecImage), pids.length = p.stages.length ∧ imgs.length = p.stages.length ∧
      Happened s (interactiveLine w (n + 1) p.text s).2
        (List.zipWith (fun pid img => .spawn pid (.exec img) []) pids imgs) ∧
      List.zipWith (groupOf group) pids imgs = pids := by
  obtain ⟨pids, imgs, h1, h2, h3, h4⟩ := extPipe_programs hw n hp hok hrun
  refine ⟨pids, imgs, h1, h2, h3, ?_⟩
  refine List.ext_getElem (by simp [h1, h2]) fun i hi hi' => ?_
  obtain ⟨-, -, -, -, a5, -⟩ := h4 i _ _ (List.getElem?_eq_getElem (by omega)) (List.getElem?_eq_getElem (by omega))
  rw [List.getElem_zipWith]
  unfold groupOf
  rw [a5, if_pos hb]

example : ∃ (pids : List Nat) (imgs : List ExecImage), pids.length = (demoPipe true).stages.length ∧
      imgs.length = (demoPipe true).stages.length ∧
      Happened (atPrompt []) (interactiveLine (demoWorld []) (19 + 1) (demoPipe true).text (atPrompt [])).2
        (List.zipWith (fun pid img => .spawn pid (.exec img) []) pids imgs) ∧
      List.zipWith (groupOf 2) pids imgs = pids :=
  C91_separate (demoWorld []) (demo_resources []) 19 (atPrompt []) (atPrompt_ok (by decide +kernel)) (demoPipe true)
    (demoPipe_ok true _ (by decide +kernel) (by decide +kernel) (by decide +kernel)) rfl (fun e => cs!"/bin/" ++ e.name)
    (fun e he tr => demoPipe_runnable true (by decide +kernel) e he _) 2

/-! ## C92 -/

theorem prompt_println {w : World} (hw : Resources w) {s : Sh} (hp : AtPrompt w s) (t : Str) :
    printlnM t { s with masked := true } =
      (.ok (), { s with masked := true, trace := .print (some (.orig 1)) (t ++ ['\n']) :: s.trace }) := by
  have hfds := AtPrompt_resources_fds hw hp
  have h1 : (s.fds.get 1).map FdE.chan = some (.orig 1) := by rw [hfds]; rfl
  show (Out.ok (), { s with
    masked := true
    trace := .print ((s.fds.get 1).map FdE.chan) (t ++ ['\n']) :: s.trace }) = _
  rw [h1]

/-- C92: `cd DIR` makes the directory the operating system finds under that name the working directory, and
changes nothing else (but see `C92_variable`). -/
theorem C92_cd_partial (w : World) (n : Nat) (s : Sh) (c : Call) (hc : c.Ok s) (hn : c.name = cs!"cd") (dir : Str)
    (hv : c.values.head? = some dir) (d : Str) (hd : w.chdir s.trace s.cwd dir = some d) :
    interactiveLine w (n + 1) c.text s =
      (.ok (), { s with cwd := d, masked := false, trace := .chdir dir :: s.trace }) := by
  rw [Call.line w n hc]
  apply reportM_ok
  rw [callBuiltin_cd _ _ (show (Call.simple c).name = _ from hn)]
  obtain ⟨vs, hv⟩ : ∃ vs, c.values = dir :: vs := by
    rcases h : c.values with _ | ⟨a, as⟩
    · rw [h] at hv; cases hv
    · rw [h] at hv; cases hv; exact ⟨_, rfl⟩
  show bCd w ⟨none, c.name, some ⟨[], c.values⟩⟩ { s with masked := true } = _
  rw [hv]
  unfold bCd
  rw [run_bind_ok (show interruptsOff { s with masked := true } = (.ok (), { s with masked := true }) from rfl),
    run_getS_bind]
  show (match w.chdir s.trace s.cwd dir with
    | none => throwE w.osMsg
    | some d => (do
      modS fun s => { s with cwd := d, trace := .chdir dir :: s.trace }
      interruptsOn) : M Unit) { s with masked := true } = _
  rw [hd]
  rfl

/-- C92: if there is no such directory, `cd` reports that and the working directory stays what it was. -/
theorem C92_cdFails (w : World) (hw : Resources w) (n : Nat) (s : Sh) (hp : AtPrompt w s) (c : Call) (hc : c.Ok s) (hn : c.name = cs!"cd") (dir : Str)
    (hv : c.values.head? = some dir) (hd : w.chdir s.trace s.cwd dir = none) :
    ∃ msg, interactiveLine w (n + 1) c.text s =
      (.ok (), { s with masked := true, trace := .print (some (.orig 1)) msg :: s.trace }) := by
  refine ⟨w.osMsg ++ ['\n'], ?_⟩
  rw [Call.line w n hc, ← prompt_println hw hp]
  apply reportM_err
  rw [callBuiltin_cd _ _ (show (Call.simple c).name = _ from hn)]
  obtain ⟨vs, hv⟩ : ∃ vs, c.values = dir :: vs := by
    rcases h : c.values with _ | ⟨a, as⟩
    · rw [h] at hv; cases hv
    · rw [h] at hv; cases hv; exact ⟨_, rfl⟩
  show bCd w ⟨none, c.name, some ⟨[], c.values⟩⟩ { s with masked := true } = _
  rw [hv]
  unfold bCd
  rw [run_bind_ok (show interruptsOff { s with masked := true } = (.ok (), { s with masked := true }) from rfl),
    run_getS_bind]
  show (match w.chdir s.trace s.cwd dir with
    | none => throwE w.osMsg
    | some d => (do
      modS fun s => { s with cwd := d, trace := .chdir dir :: s.trace }
      interruptsOn) : M Unit) { s with masked := true } = _
  rw [hd]
  rfl

/-- C53, `cd`: after it signals are let through again exactly if it could change the directory. -/
theorem C53_cd (w : World) (hw : Resources w) (n : Nat) (s s' : Sh) (hp : AtPrompt w s) (c : Call) (hc : c.Ok s)
    (hn : c.name = cs!"cd") (dir : Str) (hv : c.values.head? = some dir)
    (h : interactiveLine w (n + 1) c.text s = (.ok (), s')) :
    s'.masked = false ↔ (w.chdir s.trace s.cwd dir).isSome = true := by
  cases hd : w.chdir s.trace s.cwd dir with
  | none =>
    obtain ⟨msg, e⟩ := C92_cdFails w hw n s hp c hc hn dir hv hd
    rw [e] at h
    cases h
    simp
  | some d =>
    rw [C92_cd_partial w n s c hc hn dir hv d hd] at h
    cases h
    simp

/-- C92: `pwd` writes the working directory. -/
theorem C92_pwd (w : World) (hw : Resources w) (n : Nat) (s : Sh) (hp : AtPrompt w s) (c : Call) (hc : c.Ok s)
    (hn : c.name = cs!"pwd") : interactiveLine w (n + 1) c.text s =
      (.ok (), { s with masked := true, trace := .print (some (.orig 1)) (s.cwd ++ ['\n']) :: s.trace }) := by
  rw [Call.line w n hc]
  apply reportM_ok
  rw [callBuiltin_pwd _ _ (show (Call.simple c).name = _ from hn), ← prompt_println hw hp]
  rfl

/-- C92 is false in that `cd` changes no variable, so that `PWD` is not the working directory afterwards. -/
theorem C92_variable (w : World) (n : Nat) (s s' : Sh) (c : Call) (hc : c.Ok s) (hn : c.name = cs!"cd") (dir : Str)
    (hv : c.values.head? = some dir) (hd : w.chdir s.trace s.cwd dir ≠ none)
    (h : interactiveLine w (n + 1) c.text s = (.ok (), s')) :
    (∀ x, valueOf s' x = valueOf s x) ∧ s'.env = s.env := by
  obtain ⟨d, hd⟩ := Option.ne_none_iff_exists'.1 hd
  rw [C92_cd_partial w n s c hc hn dir hv d hd] at h
  cases h
  exact ⟨fun _ => rfl, rfl⟩

/-- Lines as in the theorems on C92. -/
example : let c : Call := ⟨cs!"cd", [word (cs!"/x")]⟩
    c.Ok (atPrompt []) ∧ c.values.head? = some (cs!"/x") ∧ c.text = cs!" cd /x" ∧
    (demoWorld []).chdir (atPrompt []).trace (atPrompt []).cwd (cs!"/x") = some (cs!"/x") ∧
    (demoWorld []).chdir (atPrompt []).trace (atPrompt []).cwd (cs!"/nope") = none ∧
    (atPrompt [cs!"cd /x"]).cwd = cs!"/x" ∧ (atPrompt [cs!"cd /x", cs!"cd /nope"]).cwd = cs!"/x" := by
  refine ⟨⟨by decide, by decide, by decide +kernel, by decide, ?_⟩, by decide +kernel, by decide +kernel, by decide +kernel,
    by decide +kernel, by decide +kernel, by decide +kernel⟩
  intro a ha
  rw [List.mem_singleton.1 ha]
  exact means_word (by decide)

end Rsh

import Verif.Proofs.Reference
import Verif.Props.Sessions

/-!
# Property C161: sessions of external commands
-/

namespace Rsh

open Spec

theorem ExtChain.typed_ok {c : ExtChain} {s : Sh} (h : ∀ p ∈ c.pipes, ∀ e ∈ p.stages, e.Simple s) : c.typed.line.Ok := by
  have hp : ∀ p ∈ c.pipes, ∀ d ∈ p.typed.cmds, d.Ok := by
    intro p hp d hd
    have : d ∈ p.stages.map Ext.tcmd := by simpa [ExtPipe.typed, TPipe.cmds, ExtPipe.stages] using hd
    obtain ⟨e, he, rfl⟩ := List.mem_map.1 this
    exact Ext.tcmd_ok (h p hp e he)
  intro d hd
  simp only [TChain.line, TLine.cmds, ExtChain.typed, List.flatMap_cons, List.flatMap_nil, List.append_nil,
    List.mem_append, List.mem_flatMap, List.mem_map] at hd
  rcases hd with hd | ⟨_, ⟨l, hl, rfl⟩, hd⟩
  · exact hp c.first List.mem_cons_self d hd
  · exact hp l.2 (List.mem_cons_of_mem _ (List.mem_map_of_mem hl)) d hd

theorem ExtLine.typed_ok {l : ExtLine} {s : Sh} (h : ∀ c ∈ l.chains, ∀ p ∈ c.pipes, ∀ e ∈ p.stages, e.Simple s) :
    TLine.Ok { first := l.first.typed, rest := l.rest.map ExtChain.typed } := by
  have hc : ∀ c ∈ l.chains, c.typed.line.Ok := fun c hc => ExtChain.typed_ok (h c hc)
  intro d hd
  simp only [TLine.cmds, List.mem_flatMap, ← List.map_cons] at hd
  obtain ⟨t, ht, hd⟩ := hd
  obtain ⟨c, hm, rfl⟩ := List.mem_map.1 ht
  exact hc c hm d (by simpa [TLine.cmds, TChain.line] using hd)

/-- The shell at the prompt, when there are no jobs; which commands are known; which process is which. -/
structure Spec.RefSetting (w : World) (pid : Nat → Nat) (file : Ext → Str) (s : Sh) (lines : List ExtLine) : Prop where
  prompt : AtPrompt w s
  ps1 : valueOf s (cs!"PS1") ≠ none
  jobs : s.jc.table = []
  res : Resources w
  pids : ∀ tr, w.fork tr = some (pid (forks tr))
  inj : ∀ i j, pid i = pid j → i = j
  foreground : ∀ l ∈ lines, ∀ c ∈ l.chains, ∀ p ∈ c.pipes, p.background = false
  commands : ∀ l ∈ lines, ∀ c ∈ l.chains, ∀ p ∈ c.pipes, ∀ e ∈ p.stages, e.Simple s ∧
    ∀ tr, Runnable w s tr e.name (file e)

theorem play_session {w : World} {pid : Nat → Nat} {file : Ext → Str} {s0 : Sh} {known : Ext → Prop}
    (S : Setting w pid file s0 known) (n : Nat) (code : Nat → Int) {more : List WRes} (hm : .eintr ∉ more)
    (hps : valueOf s0 (cs!"PS1") ≠ none) (lines : List ExtLine) :
    ∀ {s : Sh}, (∀ l ∈ lines, ∀ c ∈ l.chains, AllKnown known c.pipes) → Ran s0 s → s.jc.table = [] →
      s.waits = reports pid code (forks s.trace)
        (play code (forks s.trace) s.exitStatus (lines.flatMap ExtLine.chains)).ran ++ more →
      ∃ s', Visits w (n + 1) s (lines.map fun l => .line l.text) s' ∧
        s'.exitStatus = (play code (forks s.trace) s.exitStatus (lines.flatMap ExtLine.chains)).status ∧
        s'.waits = more ∧ RanPipes file s0 s s' (play code (forks s.trace) s.exitStatus (lines.flatMap ExtLine.chains)).ran := by
  induction lines with
  | nil =>
    intro s _ _ ht hw
    exact ⟨s, .nil, rfl, hw, RanPipes.none ht⟩
  | cons l lines ih =>
    intro s hk hs ht hw
    have hctx : s.ctx = s0.ctx := by unfold Ran at hs; rw [hs]
    obtain ⟨ps, hps1⟩ : ∃ ps, valueOf s (cs!"PS1") = some ps := by
      cases h : valueOf s (cs!"PS1") with
      | none => unfold valueOf at h hps; rw [hctx] at h; exact absurd h hps
      | some ps => exact ⟨ps, rfl⟩
    have hpr := prompt_some hps1
    generalize hs1 : ({ s with trace := .print ((s.fds.get 1).map FdE.chan) ps :: s.trace } : Sh) = s1 at hpr
    have hf1 : forks s1.trace = forks s.trace := by rw [← hs1]; rfl
    have hx1 : execs s1.trace = execs s.trace := by rw [← hs1]; rfl
    have hr1 : Ran s s1 := by rw [← hs1]; rfl
    have ht1 : s1.jc.table = [] := by rw [← hs1]; exact ht
    have hst1 : s1.exitStatus = s.exitStatus := by rw [← hs1]
    have hw1 : s1.waits = s.waits := by rw [← hs1]
    rw [List.flatMap_cons, play_append] at hw ⊢
    simp only [reports_append, List.append_assoc] at hw ⊢
    obtain ⟨s2, r, a1, a2, a3, a4⟩ := play_chains S (evalFuel w n) code (more := reports pid code
        (forks s.trace + programsIn (play code (forks s.trace) s.exitStatus l.chains).ran) (play code
          (forks s.trace + programsIn (play code (forks s.trace) s.exitStatus l.chains).ran)
          (play code (forks s.trace) s.exitStatus l.chains).status (lines.flatMap ExtLine.chains)).ran ++ more)
      (by rw [List.mem_append]; exact fun h => h.elim (reports_noEintr _ _ _ _) hm) l.chains (s := s1) (st0 := -1)
      (hk l List.mem_cons_self) (hs.trans hr1) ht1 hst1 (by rw [hw1, hf1]; exact hw)
    rw [hf1] at a2 a4
    have hd2 : RanPipes file s0 s s2 (play code (forks s.trace) s.exitStatus l.chains).ran := by
      refine ⟨hr1.trans a4.ran, a4.table, ?_, ?_⟩
      · obtain ⟨g, g1, g2⟩ := a4.programs
        exact ⟨g, g1, by rw [g2, hx1]⟩
      · rw [a4.forks, hf1]
    have hf2 := hd2.forks
    obtain ⟨s', b1, b2, b3, b4⟩ := ih (s := s2) (fun l' h => hk l' (List.mem_cons_of_mem _ h)) (hs.trans hd2.ran) hd2.table
      (by rw [a3, hf2, a2])
    rw [hf2, a2] at b2 b4
    refine ⟨s', .cons ?_ b1, b2, b3, hd2.trans b4⟩
    have hok : TLine.Ok { first := l.first.typed, rest := l.rest.map ExtChain.typed } :=
      ExtLine.typed_ok (s := s0) fun c hc p hp e he => S.simple e ((hk l List.mem_cons_self c hc p hp).2 e he)
    show (do prompt; interactiveLine w (n + 1) l.text : M Unit) s = _
    rw [run_bind_ok hpr]
    unfold interactiveLine ExtLine.text
    rw [if_neg (TLine.text_ne hok), parse_tline hok]
    simp only
    have e1 : evalTop w (n + 1) (some (TLine.tree { first := l.first.typed, rest := l.rest.map ExtChain.typed })) s1 =
        (.ok r, s2) := by
      show evalListFrom w (evalFuel w n) (-1) _ s1 = _
      have : TLine.tree { first := l.first.typed, rest := l.rest.map ExtChain.typed } =
          l.chains.map fun c => c.typed.tree := by
        simp [TLine.tree, ExtLine.chains, Function.comp_def]
      rw [this]
      exact a1
    rw [run_bind_ok (run_tryE_ok e1)]
    rfl

/-- C161: lines of pipelines of external commands joined by `&&`, `||` and `;`, typed while there are no jobs: if the
`k`-th process of the session exits with the status `code k`, the pipelines that run are those that run by the usual
rules, in the same order; each program gets its arguments, the environment, the directory and the reactions to signals
of the shell, and the programs of a pipeline are connected; no other process is started.  Each line leads back to the
prompt; in the end the status is the one given by the rules, there are no jobs, and the shell is otherwise as before. -/
theorem C161_session (w : World) (pid : Nat → Nat) (file : Ext → Str) (s : Sh) (lines : List ExtLine)
    (h : RefSetting w pid file s lines) (n : Nat) (code : Nat → Int) (rest : List WRes)
    (hw : s.waits = reports pid code (forks s.trace)
      (play code (forks s.trace) s.exitStatus (lines.flatMap ExtLine.chains)).ran ++ rest) (hr : .eintr ∉ rest) :
    ∃ s', Visits w (n + 1) s (lines.map fun l => .line l.text) s' ∧
      (∀ ins, interactiveLoop w (n + 1) ((lines.map fun l => .line l.text) ++ ins) s = interactiveLoop w (n + 1) ins s') ∧
      s'.exitStatus = (play code (forks s.trace) s.exitStatus (lines.flatMap ExtLine.chains)).status ∧
      (∃ groups, RunsPipes file s (play code (forks s.trace) s.exitStatus (lines.flatMap ExtLine.chains)).ran groups ∧
        execs s'.trace = execs s.trace ++ groups.flatten ∧
        forks s'.trace = forks s.trace + groups.flatten.length) ∧
      s'.jc.table = [] ∧ s'.waits = rest ∧
      s'.ctx = s.ctx ∧ s'.aliases = s.aliases ∧ s'.env = s.env ∧ s'.cwd = s.cwd ∧ s'.fds = s.fds ∧ s'.disp = s.disp := by
  have S : Setting w pid file s fun e => e.Simple s ∧ ∀ tr, Runnable w s tr e.name (file e) := {
    res := h.res
    pids := h.pids
    inj := h.inj
    fds := AtPrompt_resources_fds h.res h.prompt
    held := (AtPrompt_own h.prompt).2.1
    own := (AtPrompt_own h.prompt).2.2
    simple := fun _ h => h.1
    runs := fun _ h => h.2 }
  obtain ⟨s', a1, a2, a3, a4⟩ := play_session S n code hr h.ps1 lines (s := s)
    (fun l hl c hc p hp => ⟨h.foreground l hl c hc p hp, fun e he => h.commands l hl c hc p hp e he⟩) rfl h.jobs hw
  obtain ⟨g, g1, g2⟩ := a4.programs
  have hran := a4.ran
  unfold Ran at hran
  refine ⟨s', a1, loop_visits a1 (by simp [GoesOnAfter]), a2, ⟨g, g1, g2, ?_⟩, a4.table, a3, by rw [hran], by rw [hran],
    by rw [hran], by rw [hran], by rw [hran], by rw [hran]⟩
  have : ∀ {ps : List ExtPipe} {gs : List (List ExecImage)}, RunsPipes file s ps gs → gs.flatten.length = programsIn ps := by
    intro ps gs hg
    induction hg with
    | nil => rfl
    | cons a _ ih =>
      have := congrArg List.length a.programs
      simp only [List.length_map] at this
      simp only [List.flatten_cons, List.length_append, ih, programsIn, List.map_cons, List.sum_cons, this]
  rw [a4.forks, this g1]

/-- A pipeline of one command of plain words. -/
def Spec.one (x : Str) (args : List Str) : ExtPipe := { first := plainExt x args }

/-- Two lines: `make -j && make test || mail x ; date` and `ls | wc && a`. -/
def Spec.demoLines : List ExtLine :=
  [{ first := { first := one (cs!"make") [cs!"-j"], rest := [(.and, one (cs!"make") [cs!"test"]), (.or, one (cs!"mail") [cs!"x"])] }
     rest := [{ first := one (cs!"date") [] }] },
   { first := { first := { first := plainExt (cs!"ls") [], rest := [plainExt (cs!"wc") []] }, rest := [(.and, one (cs!"a") [])] } }]

/-- The second process (`make test`) exits with 2, the fifth (`ls`) with 1, the others with 0. -/
def Spec.demoCode (k : Nat) : Int := if k = 1 then 2 else if k = 4 then 1 else 0

example : demoLines.map ExtLine.text = [cs!" make -j && make test || mail x ; date", cs!" ls | wc && a"] := by decide

/-- By the rules: everything runs but `a`. -/
example : (play demoCode 0 0 (demoLines.flatMap ExtLine.chains)).ran.map (fun p => p.stages.map Ext.argv) =
      [[[cs!"make", cs!"-j"]], [[cs!"make", cs!"test"]], [[cs!"mail", cs!"x"]], [[cs!"date"]], [[cs!"ls"], [cs!"wc"]]] ∧
    (play demoCode 0 0 (demoLines.flatMap ExtLine.chains)).status = 1 := by decide

/-- What the operating system reports in this example. -/
def Spec.demoReports : List WRes :=
  reports (100 + ·) demoCode 0 (play demoCode 0 0 (demoLines.flatMap ExtLine.chains)).ran

example : demoReports = [.st (.exited 100 0), .err, .st (.exited 101 2), .err, .st (.exited 102 0), .err,
    .st (.exited 103 0), .err, .st (.exited 104 1), .st (.exited 105 0), .err] := by decide

theorem demoLines_ordinary : RefSetting (demoWorld []) (100 + ·) (fun e => cs!"/bin/" ++ e.name) (atPrompt [] demoReports)
    demoLines where
  prompt := atPrompt_ok (by decide +kernel)
  ps1 := by decide +kernel
  jobs := by decide +kernel
  res := demo_resources []
  pids _ := rfl
  inj i j h := by simpa using h
  foreground := by decide
  commands l hl c hc p hp e he := by
    have hpath : pathOf (atPrompt [] demoReports) = some (cs!"/bin") := by decide +kernel
    have : e ∈ [plainExt (cs!"make") [cs!"-j"], plainExt (cs!"make") [cs!"test"], plainExt (cs!"mail") [cs!"x"],
        plainExt (cs!"date") [], plainExt (cs!"ls") [], plainExt (cs!"wc") [], plainExt (cs!"a") []] := by
      simp only [demoLines, List.mem_cons, List.not_mem_nil, or_false] at hl
      rcases hl with rfl | rfl <;> simp only [ExtLine.chains, List.mem_cons, List.not_mem_nil, or_false] at hc
      · rcases hc with rfl | rfl <;> simp only [ExtChain.pipes, List.map_cons, List.map_nil, List.mem_cons,
          List.not_mem_nil, or_false] at hp
        · rcases hp with rfl | rfl | rfl <;> simp only [ExtPipe.stages, one, List.mem_cons, List.not_mem_nil, or_false] at he <;>
            subst he <;> simp
        · subst hp
          simp only [ExtPipe.stages, one, List.mem_cons, List.not_mem_nil, or_false] at he
          subst he
          simp
      · subst hc
        simp only [ExtChain.pipes, List.map_cons, List.map_nil, List.mem_cons, List.not_mem_nil, or_false] at hp
        rcases hp with rfl | rfl <;> simp only [ExtPipe.stages, one, List.mem_cons, List.not_mem_nil, or_false] at he
        · rcases he with rfl | rfl <;> simp
        · subst he; simp
    simp only [List.mem_cons, List.not_mem_nil, or_false] at this
    rcases this with rfl | rfl | rfl | rfl | rfl | rfl | rfl <;>
      exact ⟨plainExt_simple (by decide +kernel), demo_runnable hpath (by decide) (by decide)⟩

/-- The hypotheses are met. -/
example : ∃ s', Visits (demoWorld []) (19 + 1) (atPrompt [] demoReports) (demoLines.map fun l => .line l.text) s' ∧
    s'.exitStatus = 1 ∧ s'.waits = [] := by
  have hf : forks (atPrompt [] demoReports).trace = 0 := by decide +kernel
  have hs : (atPrompt [] demoReports).exitStatus = 0 := by decide +kernel
  obtain ⟨s', a1, -, a2, -, -, a3, -⟩ := C161_session _ _ _ _ demoLines demoLines_ordinary 19 demoCode []
    (by rw [hf, hs]; decide +kernel) (by simp)
  exact ⟨s', a1, by rw [a2, hf, hs]; decide, a3⟩

end Rsh

import Verif.Spec.Signals
import Verif.Proofs.Call
import Verif.Proofs.Static
import Verif.Proofs.Jobs
import Verif.Proofs.Quiet
import Verif.Proofs.Prompt
import Verif.Props.Lists

/-!
# Properties C52, C53, C55, C56: signals and resumed jobs
-/

namespace Rsh

open Spec

/-! ## C56 -/

theorem sigAction_wanted (sig : Nat) : sigAction false sig = wanted sig := by
  unfold sigAction wanted SIGINT SIGTSTP SIGQUIT SIGTERM SIGTTOU SIGCHLD
  simp only [Bool.false_eq_true, if_false, List.mem_cons, List.not_mem_nil, or_false]
  by_cases h2 : sig = 2
  · subst h2; rfl
  by_cases h17 : sig = 17
  · subst h17; rfl
  by_cases h20 : sig = 20
  · subst h20; rfl
  by_cases h3 : sig = 3
  · subst h3; rfl
  by_cases h15 : sig = 15
  · subst h15; rfl
  by_cases h22 : sig = 22
  · subst h22; rfl
  simp [h2, h17, h20, h3, h15, h22]

theorem setSignal_run {sig : Nat} (hs : Choosable sig) {s : Sh} (hf : s.forked = false) (hr : Recorded s) :
    ∃ s', setSignal sig s = (.ok (), s') ∧ s' = { s with disp := s'.disp, sigMode := s'.sigMode } ∧
      (s'.disp sig = if s.sigMode sig = some .hardIgn then s.disp sig else wanted sig) ∧
      (∀ x, x ≠ sig → s'.disp x = s.disp x ∧ s'.sigMode x = s.sigMode x) ∧
      (s.sigMode sig = some .hardIgn → s'.sigMode sig = some .hardIgn) ∧
      (s.sigMode sig ≠ some .hardIgn → s'.sigMode sig = some (.act (wanted sig))) := by
  obtain ⟨h1, h2, h3, h4⟩ := hs
  by_cases hh : s.sigMode sig = some .hardIgn
  · refine ⟨s, ?_, rfl, by simp [hh], fun x _ => ⟨rfl, rfl⟩, fun h => h, fun h => absurd hh h⟩
    unfold setSignal
    rw [if_neg (by omega), run_getS_bind]
    simp [hh]
  · by_cases ha : s.sigMode sig = some (.act (wanted sig))
    · refine ⟨s, ?_, rfl, by rw [if_neg hh]; exact hr sig _ ha, fun x _ => ⟨rfl, rfl⟩,
        fun h => absurd h hh, fun _ => ha⟩
      unfold setSignal
      rw [if_neg (by omega), run_getS_bind]
      simp [ha, hf, sigAction_wanted]
    · refine ⟨{ s with sigMode := fun n => if n = sig then some (.act (wanted sig)) else s.sigMode n
                       disp := fun n => if n = sig then wanted sig else s.disp n }, ?_, rfl, by simp [hh], ?_,
        fun h => absurd h hh, fun _ => by simp⟩
      · unfold setSignal
        rw [if_neg (by omega), run_getS_bind]
        simp only [hf, sigAction_wanted]
        rw [if_neg (by simp [hh, ha]), run_modS_bind, if_neg (by omega)]
        simp [modS, hf]
      · intro x hx
        simp [hx]

/-- C56: after installing handlers for some signals, in any order and any number of times, each of them
that was not ignored for good is handled as wanted; all other signals, and the signals ignored for good,
are handled as before. -/
theorem C56_install (sigs : List Nat) (hs : ∀ x ∈ sigs, Choosable x) (s : Sh) (hf : s.forked = false)
    (hr : Recorded s) :
    ∃ s', install sigs s = (.ok (), s') ∧ s' = { s with disp := s'.disp, sigMode := s'.sigMode } ∧ Recorded s' ∧
      (∀ x ∈ sigs, s.sigMode x ≠ some .hardIgn → s'.disp x = wanted x) ∧
      (∀ x, x ∉ sigs ∨ s.sigMode x = some .hardIgn → s'.disp x = s.disp x ∧ s'.sigMode x = s.sigMode x) := by
  induction sigs generalizing s with
  | nil => exact ⟨s, rfl, rfl, hr, by simp, fun x _ => ⟨rfl, rfl⟩⟩
  | cons sig sigs ih =>
    obtain ⟨s1, e1, p1, d1, o1, i1, m1⟩ := setSignal_run (hs sig List.mem_cons_self) hf hr
    have hr1 : Recorded s1 := by
      intro x a h
      by_cases hx : x = sig
      · subst hx
        by_cases hh : s.sigMode x = some .hardIgn
        · rw [i1 hh] at h; cases h
        · rw [m1 hh] at h
          cases h
          rw [d1, if_neg hh]
      · rw [(o1 x hx).2] at h
        rw [(o1 x hx).1]
        exact hr x a h
    have hf1 : s1.forked = false := by rw [p1]; exact hf
    have hh : ∀ x, s1.sigMode x = some .hardIgn ↔ s.sigMode x = some .hardIgn := by
      intro x
      by_cases hx : x = sig
      · subst hx
        constructor
        · intro h
          apply Classical.byContradiction
          intro h'
          rw [m1 h'] at h
          cases h
        · exact i1
      · rw [(o1 x hx).2]
    obtain ⟨s2, e2, p2, r2, d2, o2⟩ := ih (fun x hx => hs x (List.mem_cons_of_mem _ hx)) s1 hf1 hr1
    refine ⟨s2, ?_, ?_, r2, ?_, ?_⟩
    · unfold install
      rw [run_bind_ok e1, e2]
    · rw [p2, p1]
    · intro x hx hn
      by_cases hm : x ∈ sigs
      · exact d2 x hm (fun h => hn ((hh x).1 h))
      · have hx : x = sig := by simpa [hm] using hx
        subst hx
        rw [(o2 x (.inl hm)).1, d1, if_neg hn]
    · intro x hx
      have hx2 : x ∉ sigs ∨ s1.sigMode x = some .hardIgn := by
        rcases hx with hx | hx
        · exact .inl (fun h => hx (List.mem_cons_of_mem _ h))
        · exact .inr ((hh x).2 hx)
      rw [(o2 x hx2).1, (o2 x hx2).2]
      by_cases he : x = sig
      · subst he
        rcases hx with hx | hx
        · exact absurd List.mem_cons_self hx
        · refine ⟨by rw [d1, if_pos hx], by rw [i1 hx, hx]⟩
      · exact o1 x he

/-- C56: installing a handler again changes nothing. -/
theorem C56_again (sig : Nat) (hs : Choosable sig) (s s' : Sh) (hf : s.forked = false) (hr : Recorded s)
    (h : setSignal sig s = (.ok (), s')) : setSignal sig s' = (.ok (), s') := by
  obtain ⟨s1, e1, p1, d1, o1, i1, m1⟩ := setSignal_run hs hf hr
  rw [h] at e1
  cases e1
  have hf1 : s'.forked = false := by rw [p1]; exact hf
  obtain ⟨h1, h2, h3, h4⟩ := hs
  unfold setSignal
  rw [if_neg (by omega), run_getS_bind, hf1]
  simp only [sigAction_wanted]
  rw [if_pos]
  · rfl
  · by_cases hh : s.sigMode sig = some .hardIgn
    · exact .inl (i1 hh)
    · exact .inr (m1 hh)

/-- The hypotheses of `C56_install` hold when the shell starts; this is what `main` then does. -/
example : Recorded (demoShell []) ∧ (∀ x ∈ [SIGCHLD, SIGTSTP, SIGINT], Choosable x) ∧
    (install [SIGCHLD, SIGTSTP, SIGINT] (demoShell [])).2.disp 2 = .catch ∧
    (install [3, 15, 22, 13] (demoShell [])).2.disp 15 = .ign ∧
    (install [3, 15, 22, 13] (demoShell [])).2.disp 13 = .dfl := by
  refine ⟨?_, ?_, by decide +kernel, by decide +kernel, by decide +kernel⟩
  · intro sig a h
    have : (demoShell []).sigMode = fun _ => none := by rfl
    rw [this] at h
    cases h
  · unfold Choosable; decide

/-! ## C53 -/

theorem evalPipeline_unmasked (w : World) (rec : List AndOr → M Int) {p : Pipeline} (hp : NoBuiltin p) {s s' : Sh}
    {st : Int} (h : evalPipeline w rec p s = (.ok st, s')) : s'.masked = false := by
  obtain ⟨c, rest, hc, hb⟩ := hp
  unfold evalPipeline at h
  obtain ⟨_, s0, _, h⟩ := bind_ok_iff.1 h
  obtain ⟨procs, s1, h1, h⟩ := bind_ok_iff.1 h
  have hne : procs.isEmpty = false := by
    rw [hc] at h1
    unfold evalCommands at h1
    obtain ⟨o, s2, h2, h1⟩ := bind_ok_iff.1 h1
    have h2 : evalSimple w rec c s0 = (.ok o, s2) := h2
    unfold evalSimple at h2
    rw [if_neg (by rw [isBuiltin_iff]; exact hb)] at h2
    obtain ⟨c', s3, _, h2⟩ := bind_ok_iff.1 h2
    obtain ⟨argv, s4, _, h2⟩ := bind_ok_iff.1 h2
    simp only [run_pure, Prod.mk.injEq, Out.ok.injEq] at h2
    rw [← h2.1] at h1
    obtain ⟨r, s5, _, h1⟩ := bind_ok_iff.1 h1
    simp only [run_pure, Prod.mk.injEq, Out.ok.injEq] at h1
    rw [← h1.1]
    rfl
  rw [hne] at h
  simp only [Bool.false_eq_true, if_false] at h
  have fin : ∀ (procs : List (Process × SimpleCommand)) (s1 : Sh), (do
      let jobId ← createJobM (procs.map Prod.fst) p.background
      forkLoop w rec p.background jobId procs.length procs 0 (-1, -1) (-1)
      afterFork w p.background jobId procs.length
      interruptsOn
      let s ← getS
      pure s.exitStatus : M Int) s1 = (.ok st, s') → s'.masked = false := by
    intro procs s1 h
    obtain ⟨_, s2, _, h⟩ := bind_ok_iff.1 h
    obtain ⟨_, s3, _, h⟩ := bind_ok_iff.1 h
    obtain ⟨_, s4, _, h⟩ := bind_ok_iff.1 h
    unfold interruptsOn at h
    simp only [run_modS_bind, run_getS_bind, run_pure, Prod.mk.injEq] at h
    rw [← h.2]
  by_cases hbg : p.background = true
  · rw [if_pos hbg] at h
    exact fin procs s1 h
  · rw [if_neg hbg] at h
    obtain ⟨procs', s2, _, h⟩ := bind_ok_iff.1 h
    exact fin procs' s2 h

theorem evalAndOr_unmasked (w : World) (rec : List AndOr → M Int) {s s' : Sh} {st : Int} :
    ∀ (a : AndOr), (∀ p ∈ pipelinesOf a, NoBuiltin p) → evalAndOr w rec a s = (.ok st, s') → s'.masked = false
  | .mk none c p, hp, h => by
    unfold evalAndOr at h
    exact evalPipeline_unmasked w rec (hp p (by simp [pipelinesOf])) h
  | .mk (some l) c p, hp, h => by
    unfold evalAndOr at h
    obtain ⟨st1, s1, h1, h⟩ := bind_ok_iff.1 h
    have m1 : s1.masked = false :=
      evalAndOr_unmasked w rec l (fun q hq => hp q (by simp [pipelinesOf, hq])) h1
    have hl := hp p (by simp [pipelinesOf])
    cases c with
    | none => cases h
    | some op =>
      cases op <;> simp only at h <;> split at h
      all_goals first
        | (simp only [run_pure, Prod.mk.injEq] at h; rw [← h.2]; exact m1)
        | exact evalPipeline_unmasked w rec hl h

/-- C53, as far as it holds: if the last chain of a text consists of pipelines that begin with a program
or a function, no signal is blocked after it, whatever is before.  Not so after a builtin. -/
theorem C53_external_partial (w : World) (n : Nat) (t : Str) (l : List AndOr) (a : AndOr)
    (ht : parse t = some (some (l ++ [a]))) (ha : ∀ p ∈ pipelinesOf a, NoBuiltin p) (s s' : Sh) (st : Int)
    (h : evalText w n t s = (.ok st, s')) : s'.masked = false := by
  unfold evalText at h
  rw [ht] at h
  cases n with
  | zero => cases h
  | succ n =>
    replace h : evalListFrom w (evalFuel w n) (-1) (l ++ [a]) s = (.ok st, s') := h
    clear ht
    generalize (-1 : Int) = st0 at h
    induction l generalizing s st0 with
    | nil =>
      unfold evalListFrom at h
      obtain ⟨st1, s1, h1, h⟩ := bind_ok_iff.1 h
      unfold evalListFrom at h
      simp only [run_pure, Prod.mk.injEq] at h
      rw [← h.2]
      exact evalAndOr_unmasked w _ a ha h1
    | cons b l ih =>
      rw [List.cons_append] at h
      unfold evalListFrom at h
      obtain ⟨st1, s1, h1, h⟩ := bind_ok_iff.1 h
      exact ih s1 st1 h

/-- The signal mask is left as it was. -/
def SameMask (s s' : Sh) : Prop := s'.masked = s.masked

theorem SameMask.frame : BFrame SameMask (fun _ _ => True) where
  refl _ := rfl
  trans h1 h2 := h2.trans h1
  rq _ := trivial
  rqq _ _ := trivial
  trace _ _ _ := rfl
  exitStatus _ _ := rfl
  setEnv _ _ _ := rfl
  aliases _ _ := rfl
  addVar _ _ _ _ := rfl
  addVarPos _ _ _ _ _ := rfl
  addFunction _ _ _ := rfl
  removeVar _ _ := rfl
  removeFunction _ _ := rfl
  removeContext _ _ := rfl
  addVarReadonly _ _ _ _ := rfl
  setVarReadonly _ _ _ _ := rfl
  envVar _ _ _ _ _ _ := rfl
  envFun _ _ _ _ _ := rfl

/-- **C53** fails for every builtin but `cd`, `fg`, `bg` and `exec`, and those that evaluate other commands: whatever its arguments,
if the shell comes back to the prompt the signals are still blocked. -/
theorem C53_builtin (w : World) (n : Nat) (s s' : Sh) (c : Call) (hc : c.Ok s)
    (hn : c.name ∉ [cs!"cd", cs!"fg", cs!"bg", cs!"eval", cs!"source", cs!".", cs!"exec"])
    (hx : c.name = cs!"export" → c.values.head? ≠ some (cs!"context"))
    (h : interactiveLine w (n + 1) c.text s = (.ok (), s')) : s'.masked = true := by
  have F := SameMask.frame
  have key : Keeps SameMask (fun _ _ => True) (callBuiltin w (evalFuel w n) (Call.simple c)) := by
    have hname : (Call.simple c).name = c.name := rfl
    simp only [List.mem_cons, List.not_mem_nil, or_false, not_or] at hn
    unfold callBuiltin
    rw [hname, if_neg hn.1, if_neg (show ¬ (c.name = cs!"fg" ∨ c.name = cs!"bg") by simp [hn.2.1, hn.2.2.1]),
      if_neg hn.2.2.2.1, if_neg hn.2.2.2.2.2.2, if_neg (show ¬ (c.name = cs!"." ∨ c.name = cs!"source") by
        rintro (e | e)
        · exact hn.2.2.2.2.2.1 e
        · exact hn.2.2.2.2.1 e)]
    refine .ite (F.bExit _) <| .ite (F.bReturn _) <| .ite F.bJobs <|
      .ite (F.bAlias _) <| .ite (F.bUnalias _) ?_
    by_cases he : c.name = cs!"export"
    · rw [if_pos he]
      have hx := hx he
      rw [show c.values = (Call.simple c).words from rfl] at hx
      unfold bExport
      have h1 := F.printEnv
      split
      · exact .bind F.toSeq (.getS F.toSeq) fun s => h1 _
      · next x xs hw =>
        rw [hw] at hx
        rw [if_neg (show ¬ x = cs!"context" from fun e => hx (by rw [e]; rfl))]
        exact .ite (.bind F.toSeq (.getS F.toSeq) fun s => h1 _) (F.exportAll _)
    · rw [if_neg he]
      exact .ite (F.bUnset _) <| .ite F.bPwd <| .ite (F.bReadonly _) <| .ite (F.bAssign _) (.throwE F.toSeq _)
  rw [Call.line w n hc] at h
  have hk := key { s with masked := true }
  rcases hm : callBuiltin w (evalFuel w n) (Call.simple c) { s with masked := true } with ⟨o, s1⟩
  rw [hm] at hk
  cases o with
  | ok u => rw [reportM_ok hm] at h; cases h; exact hk
  | err e => rw [reportM_err hm] at h; cases h; exact hk
  | _ => 
    unfold reportM at h
    rw [run_bind, run_tryE, hm] at h
    cases h

/-- The hypotheses of `C53_builtin` are met by `alias x=y`. -/
example : (interactiveLine (demoWorld []) 20 (cs!"alias 'x=y'") (atPrompt [])).2.masked = true := by
  have h : outcome (interactiveLine (demoWorld []) 20 (cs!"alias 'x=y'") (atPrompt [])).1 = .ok := by decide +kernel
  obtain ⟨a, ha⟩ := outcome_ok h
  exact C53_builtin (demoWorld []) 19 (atPrompt []) _ { name := cs!"alias", args := [(.single (cs!"x=y"), cs!"x=y")] }
    ⟨by decide, by decide, by decide +kernel, by decide, by decide⟩ (by decide) (by decide) (Prod.ext ha rfl)

/-- C53 fails: after any builtin but `cd`, `fg` and `bg`, signals stay blocked at the prompt. -/
theorem C53_counterexample :
    (demo []).masked = false ∧ (demo [cs!"pwd"]).masked = true ∧ (demo [cs!"X=1"]).masked = true ∧
      (demo [cs!"f () { a; }"]).masked = true ∧ (demo [cs!"cd /home"]).masked = false ∧
      outcome (demoOut [cs!"pwd"]) = .ok := by decide +kernel

theorem wordPipe_ok {x : Str} (h : PlainWord x) : (wordPipe x).first.Ok :=
  ⟨by simp [wordPipe], by simp [wordPipe], by
    intro t ht
    simp only [wordPipe, Option.some.injEq] at ht
    subst ht
    exact h, by simp [wordPipe], by simp [wordPipe]⟩

/-- The hypotheses of `C53_external_partial` are met by `pwd ; a && b`. -/
example : let l : TLine := ⟨⟨wordPipe (cs!"pwd"), []⟩, [⟨wordPipe (cs!"a"), [(.and, wordPipe (cs!"b"))]⟩]⟩
    (∃ l' a, parse l.text = some (some (l' ++ [a])) ∧ ∀ p ∈ pipelinesOf a, NoBuiltin p) ∧
    outcome (evalText (demoWorld []) 20 l.text (demoShell [.st (.exited 100 0), .err, .st (.exited 101 0)])).1 = .ok := by
  refine ⟨⟨[_], _, parse_tline ?_, ?_⟩, by decide +kernel⟩
  · intro c hc
    simp only [TLine.cmds, TPipe.cmds, List.flatMap_cons, List.flatMap_nil, List.mem_append, List.mem_cons,
      List.append_nil] at hc
    rcases hc with (rfl | hc) | (rfl | hc) | rfl | hc
    · exact wordPipe_ok (by decide)
    · cases hc
    · exact wordPipe_ok (by decide)
    · cases hc
    · exact wordPipe_ok (by decide)
    · cases hc
  · intro p hp
    simp only [TChain.tree, List.foldl_cons, List.foldl_nil, pipelinesOf, List.cons_append, List.nil_append,
      List.mem_cons, List.not_mem_nil, or_false] at hp
    rcases hp with rfl | rfl
    · exact ⟨_, _, rfl, by decide⟩
    · exact ⟨_, _, rfl, by decide⟩

/-! ## C55 -/

theorem getJob_modJob (jc : JobControl) (id k : Nat) (f : Job → Job) :
    (jc.modJob id f).getJob k = if k = id then (jc.getJob k).map f else jc.getJob k :=
  lookup_map_if k id f jc.table

theorem modJob_modJob (jc : JobControl) (id : Nat) (f g : Job → Job) :
    (jc.modJob id f).modJob id g = jc.modJob id (fun j => g (f j)) := by
  unfold JobControl.modJob
  simp only [List.map_map]
  congr 1
  apply List.map_congr_left
  intro p _
  simp only [Function.comp]
  by_cases h : p.1 = id <;> simp [h]

/-- The handler when a child of the given job has reported. -/
theorem onSigchld_run (w : World) {s : Sh} (hp : AtPrompt w s) {st : WStatus} {pid : Int} {rest : List WRes}
    (hw : s.waits = .st st :: rest) (hst : Terminated pid st ∨ ∃ sg, st = .stopped pid sg) {id : Nat} {j : Job}
    {p : Process} (hj : s.jc.getJob id = some j) (hps : j.processes = [p]) (hpid : p.pid = pid)
    (hl : s.jc.pids.lookup pid = some id) (hb : j.background = true) :
    ∃ s', onSigchld w s = (.ok (), s') ∧ s'.jc = (s.jc.modJob id fun j =>
      { j with processes := setStatusFirst pid st j.processes, stopStatus := st, state := .finished }).deleteJob id ∧
      Happened s s' [] := by
  have hown : j.jobId = id := by
    have ht := (tableInv w).atPrompt hp
    exact ht.own (id, j) ((tGet_iff ht.sorted).1 hj)
  have hg : s.jc.getJobPid pid = some j := by
    unfold JobControl.getJobPid
    rw [hl]
    exact hj
  have hf := (AtPrompt_own hp).1
  let s1 : Sh := { s with gotSigchld := true, waits := rest, trace := .waited (.st st) :: s.trace }
  let s2 : Sh := { s1 with jc := s.jc.modJob id fun j => { j with processes := setStatusFirst pid st j.processes } }
  have hj2 : s2.jc.getJob id = some { j with processes := setStatusFirst pid st j.processes } := by
    show (s.jc.modJob id _).getJob id = _
    rw [getJob_modJob, if_pos rfl, hj]
    rfl
  have hlen : (setStatusFirst pid st j.processes).length = 1 := by
    rw [hps]
    unfold setStatusFirst
    rw [if_pos hpid]
    rfl
  -- the part after the optional message
  have hwait : ∀ tr : List Event, waitForJobSigchld w id st { s2 with trace := tr } = (.ok st, { s2 with
      trace := tr, masked := false, jc := (s.jc.modJob id fun j =>
        { j with processes := setStatusFirst pid st j.processes, stopStatus := st, state := .finished }).deleteJob id }) := by
    intro tr
    unfold waitForJobSigchld
    rw [run_getS_bind]
    show (unwrapM _ (s2.jc.getJob id) >>= _) _ = _
    rw [hj2, unwrapM_some, run_pure_bind, if_pos hlen]
    unfold deleteJobM modJc interruptsOff interruptsOn
    simp only [run_modS_bind, bind_assoc, run_pure]
    show (Out.ok st, { s2 with trace := tr, masked := false, jc :=
        ((s.jc.modJob id fun j => { j with processes := setStatusFirst pid st j.processes }).modJob id
          fun j => { j with stopStatus := st, state := .finished }).deleteJob id }) = _
    rw [modJob_modJob]
  have hgo : ∀ msg, ∃ s', sigChldWith.go w pid st msg s1 = (.ok (), s') ∧ s'.jc = (s.jc.modJob id fun j =>
      { j with processes := setStatusFirst pid st j.processes, stopStatus := st, state := .finished }).deleteJob id ∧
      Happened s s' [] := by
    intro msg
    unfold sigChldWith.go
    rw [run_getS_bind, show s1.jc.getJobPid pid = some j from hg]
    simp only [hown, hb, if_true]
    unfold modJc
    rw [run_modS_bind]
    cases msg with
    | none =>
      refine ⟨_, run_bind_ok (hwait s1.trace) _, rfl, [.waited (.st st)], ?_, rfl⟩
      intro e he
      simp only [List.mem_cons, List.not_mem_nil, or_false] at he
      subst he
      trivial
    | some m =>
      simp only
      unfold printM
      rw [run_modS_bind]
      refine ⟨_, run_bind_ok (hwait _) _, rfl, [_, .waited (.st st)], ?_, rfl⟩
      intro e he
      simp only [List.mem_cons, List.not_mem_nil, or_false] at he
      rcases he with rfl | rfl <;> trivial
  have hgo' : ∃ msg, sigChldWith w (.st st) = sigChldWith.go w pid st msg := by
    rcases hst with (⟨c, rfl⟩ | ⟨sg, co, rfl⟩) | ⟨sg, rfl⟩
    · exact ⟨none, rfl⟩
    · exact ⟨some (cs!") terminated by signal"), rfl⟩
    · exact ⟨some (cs!") stopped by signal"), rfl⟩
  obtain ⟨msg, hm⟩ := hgo'
  obtain ⟨s', h1, h2, h3⟩ := hgo msg
  refine ⟨s', ?_, h2, h3⟩
  unfold onSigchld
  rw [run_getS_bind, hf, hw]
  simp only [Bool.false_eq_true, if_false, run_modS_bind]
  have hwp : waitpidM { s with gotSigchld := true } = (.ok (.st st), s1) := by
    unfold waitpidM
    simp only [hw]
    rfl
  rw [run_bind_ok hwp, hm, h1]

theorem lookup_own {w : World} (hw : FreshPids w) {s : Sh} (hp : AtPrompt w s) {id : Nat} {j : Job} {p : Process}
    (hj : s.jc.getJob id = some j) (hm : p ∈ j.processes) (hne : p.pid ≠ -1) : s.jc.pids.lookup p.pid = some id :=
  ((pidInv w hw).atPrompt hp).1 id j ((tGet_iff ((tableInv w).atPrompt hp).sorted).1 hj) p hm hne

theorem getJob_deleteJob_ne (jc : JobControl) {id k : Nat} (h : k ≠ id) :
    (jc.deleteJob id).getJob k = jc.getJob k := by
  unfold JobControl.deleteJob
  cases tGet id jc.table with
  | none => rfl
  | some job =>
    simp only
    split
    · show tGet k (tRemove id jc.table) = _
      rw [tGet_tRemove, if_neg h]; rfl
    · split
      · show tGet k (tInsert id _ (tRemove id jc.table)) = _
        rw [tGet_tInsert, if_neg h, tGet_tRemove, if_neg h]; rfl
      · rw [getJob_updateNextId]
        show tGet k (tRemove id jc.table) = _
        rw [tGet_tRemove, if_neg h]; rfl

/-- SIGCHLD reaches its handler. -/
theorem deliver_chld (w : World) {s : Sh} (hm : s.masked = false) (hc : s.disp SIGCHLD = .catch) :
    deliver w SIGCHLD s = onSigchld w s := by
  unfold deliver
  rw [run_getS_bind, if_neg (by simp [hm]), hc]
  rfl

/-- C55: when the only process of a background job has terminated and SIGCHLD arrives at the prompt (not blocked,
and its handler is installed), that job is removed and its process forgotten; all other jobs stay as they are.
Nothing else happens. -/
theorem C55_terminated (w : World) (hw : FreshPids w) (s : Sh) (hp : AtPrompt w s) (hm : s.masked = false)
    (hc : s.disp SIGCHLD = .catch) (st : WStatus) (pid : Int)
    (rest : List WRes) (hws : s.waits = .st st :: rest) (hst : Terminated pid st) (id : Nat) (j : Job) (p : Process)
    (hj : s.jc.getJob id = some j) (hps : j.processes = [p]) (hpid : p.pid = pid) (hpos : 0 < pid)
    (hb : j.background = true) :
    ∃ s', deliver w SIGCHLD s = (.ok (), s') ∧ s'.jc.getJob id = none ∧ s'.jc.pids.lookup pid = none ∧
      s'.jc.isBackgroundJob id = false ∧ (∀ k, k ≠ id → s'.jc.getJob k = s.jc.getJob k) ∧ Happened s s' [] := by
  have hl := lookup_own hw hp hj (p := p) (by simp [hps]) (by omega)
  rw [hpid] at hl
  obtain ⟨s', h1, h2, h3⟩ := onSigchld_run w hp hws (.inl hst) hj hps hpid hl hb
  rw [← deliver_chld w hm hc] at h1
  have hns : st.isStopped = false := by
    rcases hst with ⟨c, rfl⟩ | ⟨sg, co, rfl⟩ <;> rfl
  have hdel : (s.jc.modJob id fun j => { j with
        processes := setStatusFirst pid st j.processes, stopStatus := st, state := .finished }).deleteJob id =
      JobControl.updateNextId { s.jc with
        table := tRemove id (s.jc.modJob id fun j => { j with
          processes := setStatusFirst pid st j.processes, stopStatus := st, state := .finished }).table
        pids := pidRemove pid s.jc.pids
        bg := s.jc.bg.filter (· ≠ id) } := by
    have hg := getJob_modJob s.jc id id fun j => { j with
        processes := setStatusFirst pid st j.processes, stopStatus := st, state := .finished }
    rw [if_pos rfl, hj] at hg
    unfold JobControl.deleteJob
    rw [show tGet id (s.jc.modJob id fun j => { j with
        processes := setStatusFirst pid st j.processes, stopStatus := st, state := .finished }).table = _ from hg]
    simp only [Option.map_some, hps]
    have hsf : setStatusFirst pid st [p] = [{ p with status := some st }] := by
      unfold setStatusFirst
      rw [if_pos hpid]
    have hn : ∀ J : Job, J.processes.head? = some { p with status := some st } → JobControl.noteStopped J = J := by
      intro J hJ
      simp [JobControl.noteStopped, hJ, hns]
    rw [hsf, if_neg (by simp), hn _ rfl, if_neg (by simp [hns])]
    simp only [JobControl.forgetPids, List.foldl_cons, List.foldl_nil, hb, hpid, if_true]
    rfl
  refine ⟨s', h1, ?_, ?_, ?_, ?_, h3⟩
  · rw [h2, hdel, getJob_updateNextId]
    show tGet id (tRemove id _) = none
    rw [tGet_tRemove, if_pos rfl]
  · rw [h2, hdel, pids_updateNextId]
    show (pidRemove pid _).lookup pid = none
    rw [lookup_pidRemove, if_pos rfl]
  · rw [h2, hdel]
    have : ∀ jc : JobControl, jc.updateNextId.bg = jc.bg := by
      intro jc
      unfold JobControl.updateNextId
      split <;> rfl
    unfold JobControl.isBackgroundJob
    rw [this]
    simp
  · intro k hk
    rw [h2, getJob_deleteJob_ne _ hk, getJob_modJob, if_neg hk]

/-- C55: when it has been stopped, the job is kept, marked as stopped; all other jobs stay as they are.
Nothing else happens. -/
theorem C55_stopped (w : World) (hw : FreshPids w) (s : Sh) (hp : AtPrompt w s) (hm : s.masked = false)
    (hc : s.disp SIGCHLD = .catch) (pid : Int) (sg : Nat)
    (rest : List WRes) (hws : s.waits = .st (.stopped pid sg) :: rest) (id : Nat) (j : Job) (p : Process)
    (hj : s.jc.getJob id = some j) (hps : j.processes = [p]) (hpid : p.pid = pid) (hpos : 0 < pid)
    (hb : j.background = true) :
    ∃ s', deliver w SIGCHLD s = (.ok (), s') ∧
      s'.jc.getJob id = some { j with processes := [{ p with status := some (.stopped pid sg) }],
                                      stopStatus := .stopped pid sg, state := .stopped } ∧
      s'.jc.pids = s.jc.pids ∧ s'.jc.bg = s.jc.bg ∧
      (∀ k, k ≠ id → s'.jc.getJob k = s.jc.getJob k) ∧ Happened s s' [] := by
  have hl := lookup_own hw hp hj (p := p) (by simp [hps]) (by omega)
  rw [hpid] at hl
  obtain ⟨s', h1, h2, h3⟩ := onSigchld_run w hp hws (.inr ⟨sg, rfl⟩) hj hps hpid hl hb
  rw [← deliver_chld w hm hc] at h1
  have hsf : setStatusFirst pid (.stopped pid sg) [p] = [{ p with status := some (.stopped pid sg) }] := by
    unfold setStatusFirst
    rw [if_pos hpid]
  have hdel : (s.jc.modJob id fun j => { j with
        processes := setStatusFirst pid (.stopped pid sg) j.processes
        stopStatus := .stopped pid sg, state := .finished }).deleteJob id =
      { s.jc with
        table := tInsert id { j with processes := [{ p with status := some (.stopped pid sg) }],
                                     stopStatus := .stopped pid sg, state := .stopped }
          (tRemove id (s.jc.modJob id fun j => { j with
            processes := setStatusFirst pid (.stopped pid sg) j.processes
            stopStatus := .stopped pid sg, state := .finished }).table) } := by
    have hg := getJob_modJob s.jc id id fun j => { j with
        processes := setStatusFirst pid (.stopped pid sg) j.processes
        stopStatus := .stopped pid sg, state := .finished }
    rw [if_pos rfl, hj] at hg
    unfold JobControl.deleteJob
    rw [show tGet id (s.jc.modJob id fun j => { j with
        processes := setStatusFirst pid (.stopped pid sg) j.processes
        stopStatus := .stopped pid sg, state := .finished }).table = _ from hg]
    simp only [Option.map_some, hps, hsf, JobControl.noteStopped, List.head?_cons, List.length_cons, List.length_nil]
    rfl
  refine ⟨s', h1, ?_, ?_, ?_, ?_, h3⟩
  · rw [h2, hdel]
    show tGet id (tInsert id _ _) = _
    rw [tGet_tInsert, if_pos rfl]
  · rw [h2, hdel]
  · rw [h2, hdel]
  · intro k hk
    rw [h2, getJob_deleteJob_ne _ hk, getJob_modJob, if_neg hk]

/-- The hypotheses of `C55_terminated` and `C55_stopped` are met by a shell with two background jobs. -/
example : let s := atPrompt [cs!"a &", cs!"b &"]
    promptOk [cs!"a &", cs!"b &"] = true ∧ s.masked = false ∧ s.disp SIGCHLD = .catch ∧
    (s.jc.getJob 1).map (fun j => (j.processes.map Process.pid, j.background)) = some ([100], true) ∧
    (s.jc.getJob 2).map (fun j => (j.processes.map Process.pid, j.background)) = some ([101], true) := by
  decide +kernel

/-- C55, the rest of "only that job": a report about a foreground job (one that has stopped) or about a process of no job removes nothing.  Of the job only the status of the process
is noted. -/
theorem C55_others (w : World) (s : Sh) (hp : AtPrompt w s) (hm : s.masked = false)
    (hc : s.disp SIGCHLD = .catch) (st : WStatus) (pid : Int) (rest : List WRes) (hws : s.waits = .st st :: rest)
    (hst : Terminated pid st ∨ ∃ sg, st = .stopped pid sg)
    (hb : ∀ j, s.jc.getJobPid pid = some j → j.background = false) :
    ∃ s', deliver w SIGCHLD s = (.ok (), s') ∧ Happened s s' [] ∧ s'.jc.pids = s.jc.pids ∧ s'.jc.bg = s.jc.bg ∧
      ∀ k, match s.jc.getJob k with
        | none => s'.jc.getJob k = none
        | some j => ∃ ps, s'.jc.getJob k = some { j with processes := ps } ∧
          ps.map (fun p => { p with status := none }) = j.processes.map (fun p => { p with status := none }) ∧
          ((∀ p ∈ j.processes, p.pid ≠ pid) → ps = j.processes) := by
  have hf := (AtPrompt_own hp).1
  let s1 : Sh := { s with gotSigchld := true, waits := rest, trace := .waited (.st st) :: s.trace }
  have hgo' : ∃ msg, sigChldWith w (.st st) = sigChldWith.go w pid st msg := by
    rcases hst with (⟨c, rfl⟩ | ⟨sg, co, rfl⟩) | ⟨sg, rfl⟩
    · exact ⟨none, rfl⟩
    · exact ⟨some (cs!") terminated by signal"), rfl⟩
    · exact ⟨some (cs!") stopped by signal"), rfl⟩
  obtain ⟨msg, hmsg⟩ := hgo'
  have hrun : deliver w SIGCHLD s = sigChldWith.go w pid st msg s1 := by
    rw [deliver_chld w hm hc]
    unfold onSigchld
    rw [run_getS_bind, hf, hws]
    simp only [Bool.false_eq_true, if_false, run_modS_bind]
    have hwp : waitpidM { s with gotSigchld := true } = (.ok (.st st), s1) := by
      unfold waitpidM
      simp only [hws]
      rfl
    rw [run_bind_ok hwp, hmsg]
  have hq : Happened s s1 [] := ⟨[.waited (.st st)], by simp [Quiet], rfl⟩
  have key : ∀ l : List Process, (setStatusFirst pid st l).map (fun p => { p with status := none }) =
      l.map (fun p => { p with status := none }) ∧ ((∀ p ∈ l, p.pid ≠ pid) → setStatusFirst pid st l = l) := by
    intro l
    induction l with
    | nil => exact ⟨rfl, fun _ => rfl⟩
    | cons a l ih =>
      unfold setStatusFirst
      by_cases ha : a.pid = pid
      · rw [if_pos ha]
        exact ⟨rfl, fun h => absurd ha (h a (by simp))⟩
      · rw [if_neg ha]
        exact ⟨by rw [List.map_cons, ih.1, List.map_cons], fun h => by rw [ih.2 fun p hp => h p (by simp [hp])]⟩
  rw [hrun]
  unfold sigChldWith.go
  rw [run_getS_bind]
  cases hg : s.jc.getJobPid pid with
  | none =>
    refine ⟨s1, rfl, hq, rfl, rfl, fun k => ?_⟩
    show match s.jc.getJob k with
      | none => s.jc.getJob k = none
      | some j => ∃ ps, s.jc.getJob k = some { j with processes := ps } ∧ _
    cases hk : s.jc.getJob k with
    | none => rfl
    | some j => exact ⟨j.processes, rfl, rfl, fun _ => rfl⟩
  | some j =>
    simp only [hb j hg, Bool.false_eq_true, if_false]
    unfold modJc
    rw [run_modS_bind]
    refine ⟨_, rfl, hq, rfl, rfl, fun k => ?_⟩
    show match s.jc.getJob k with
      | none => (s.jc.modJob j.jobId _).getJob k = none
      | some i => ∃ ps, (s.jc.modJob j.jobId _).getJob k = some { i with processes := ps } ∧ _
    rw [getJob_modJob]
    cases hk : s.jc.getJob k with
    | none => by_cases h : k = j.jobId <;> simp [h]
    | some i =>
      by_cases h : k = j.jobId
      · rw [if_pos h]
        exact ⟨setStatusFirst pid st i.processes, rfl, key _⟩
      · rw [if_neg h]
        exact ⟨i.processes, rfl, rfl, fun _ => rfl⟩


/-- A job that has stopped in the foreground: still there, and not a background job. -/
example : let s := atPrompt [cs!"a"] [.st (.stopped 100 20)]
    promptOk [cs!"a"] [.st (.stopped 100 20)] = true ∧ s.masked = false ∧ s.disp SIGCHLD = .catch ∧
    (s.jc.getJobPid 100).map (fun j => (j.jobId, j.background)) = some (1, false) := by
  decide +kernel

/-! ## C52 -/

theorem parseU32_natStr {n : Nat} (h : n ≤ 4294967295) : parseU32 (natStr n) = some n := by
  have key : ∀ d : Str, d = natStr n → parseU32 d = some n := by
    intro d hd
    unfold parseU32 parseUnsigned
    split
    · have : isDigit10 '+' = true := natStr_digit (n := n) (by rw [← hd]; simp)
      exact absurd this (by decide)
    · rw [hd, parseDigits_natStr]
      simp [h]
  exact key _ rfl

theorem fgbgId_jid {id : Nat} (h : id ≤ 4294967295) (name : Str) (vs : List Str) (s : Sh) :
    fgbgId ⟨none, name, some ⟨[], ('%' :: natStr id) :: vs⟩⟩ s = (.ok (id, .jid), s) := by
  unfold fgbgId
  simp only [wordAt, List.getElem?_cons_zero, unwrapM_some, run_pure_bind, parseU32_natStr h, run_pure]

theorem fgbgId_pid {pid : Nat} (h : pid ≤ 4294967295) (name : Str) (vs : List Str) (s : Sh) :
    fgbgId ⟨none, name, some ⟨[], natStr pid :: vs⟩⟩ s = (.ok (pid, .pid), s) := by
  have key : ∀ d : Str, d = natStr pid →
      fgbgId ⟨none, name, some ⟨[], d :: vs⟩⟩ s = (.ok (pid, .pid), s) := by
    intro d hd
    unfold fgbgId
    simp only [wordAt, List.getElem?_cons_zero, unwrapM_some, run_pure_bind]
    split
    · exact absurd hd.symm (natStr_ne_nil pid)
    · have : isDigit10 '%' = true := natStr_digit (n := pid) (by rw [← hd]; simp)
      exact absurd this (by decide)
    · rw [hd, parseU32_natStr h]
      rfl
  exact key _ rfl

theorem asI32_small {n : Nat} (h : n ≤ 2147483647) : asI32 n = (n : Int) := by
  unfold asI32
  rw [Nat.mod_eq_of_lt (by omega)]
  simp only
  rw [if_pos (by omega)]

/-- Which job an argument of `fg` and `bg` names. -/
theorem names_find {s s1 : Sh} (hjc : s1.jc = s.jc) {x : Str} {id : Nat} {j : Job} (hn : Names s x id)
    (hj : s.jc.getJob id = some j) (name : Str) (vs : List Str) {β : Type} (k : Job → M β) :
    (do
      let (id, ty) ← fgbgId ⟨none, name, some ⟨[], x :: vs⟩⟩
      let j ← findJob id ty
      k j : M β) s1 = k j s1 := by
  rcases hn with ⟨rfl, hid⟩ | ⟨pid, rfl, hle, hl⟩
  · rw [run_bind_ok (fgbgId_jid hid name vs s1)]
    simp only
    unfold findJob
    simp only [bind_assoc, run_getS_bind, hjc, hj, run_pure_bind]
  · rw [run_bind_ok (fgbgId_pid (by omega) name vs s1)]
    simp only
    have : s1.jc.getJobPid (asI32 pid) = some j := by
      unfold JobControl.getJobPid
      rw [asI32_small hle, hjc, hl]
      exact hj
    unfold findJob
    simp only [bind_assoc, run_getS_bind, this, run_pure_bind]

theorem namesNone_find {s s1 : Sh} (hjc : s1.jc = s.jc) {x : Str} (hn : NamesNone s x)
    (name : Str) (vs : List Str) {β : Type} (k : Job → M β) :
    ∃ e, (do
      let (id, ty) ← fgbgId ⟨none, name, some ⟨[], x :: vs⟩⟩
      let j ← findJob id ty
      k j : M β) s1 = (.err e, s1) := by
  rcases hn with ⟨id, rfl, hid, hj⟩ | ⟨pid, rfl, hle, hl⟩
  · refine ⟨cs!"No job with that jid", ?_⟩
    rw [run_bind_ok (fgbgId_jid hid name vs s1)]
    simp only
    unfold findJob
    simp only [bind_assoc, run_getS_bind, hjc, hj, run_throwE_bind]
  · refine ⟨cs!"No job with that pid", ?_⟩
    rw [run_bind_ok (fgbgId_pid (by omega) name vs s1)]
    simp only
    have : s1.jc.getJobPid (asI32 pid) = none := by
      unfold JobControl.getJobPid
      rw [asI32_small hle, hjc]
      rcases h : s.jc.pids.lookup (pid : Int) with _ | id
      · rfl
      · exact hl id h
    unfold findJob
    simp only [bind_assoc, run_getS_bind, this, run_throwE_bind]

theorem contAll_run (w : World) (ps : List Process) (hk : ∀ tr, ∀ p ∈ ps, w.killOk tr p.pid = true) (s : Sh) :
    contAll w ps s = (.ok (), { s with trace := (ps.map fun p => Event.kill p.pid).reverse ++ s.trace }) := by
  induction ps generalizing s with
  | nil => rfl
  | cons p ps ih =>
    unfold contAll
    rw [run_getS_bind, if_pos (hk _ p List.mem_cons_self)]
    unfold emit
    rw [run_modS_bind, ih fun tr q hq => hk tr q (List.mem_cons_of_mem _ hq)]
    simp

theorem resume_run (w : World) {s : Sh} (hheld : s.held = []) (j : Job) (b : Bool)
    (hk : ∀ tr, ∀ p ∈ j.processes, w.killOk tr p.pid = true) :
    ∃ e, Quiet e ∧ resume w j b s = (.ok (), { s with
      jc := s.jc.modJob j.jobId fun j => { j with state := .running, background := b }
      trace := e :: ((j.processes.map fun p => Event.kill p.pid).reverse ++ s.trace) }) := by
  refine ⟨.print ((s.fds.get 1).map FdE.chan) (cs!"[" ++ natStr j.jobId ++ cs!"] " ++
    Job.show { j with state := .running, background := b } ++ ['\n']), trivial, ?_⟩
  unfold resume
  rw [run_getS_bind, if_neg (by rw [hheld]; simp)]
  unfold modJc
  rw [run_modS_bind, run_bind_ok (contAll_run w _ hk _)]
  rfl

/-- C52, `bg`: a job named by its id or by the pid of one of its processes gets one SIGCONT for each of its
processes and no other process gets a signal; the job is running in the background, all other jobs are as
before, and no signal is blocked. -/
theorem C52_bg_partial (w : World) (n : Nat) (s : Sh) (hp : AtPrompt w s) (c : Call) (hc : c.Ok s)
    (hname : c.name = cs!"bg") (x : Str) (vs : List Str) (hx : c.values = x :: vs) (id : Nat) (hn : Names s x id)
    (j : Job) (hj : s.jc.getJob id = some j) (hk : ∀ tr, ∀ p ∈ j.processes, w.killOk tr p.pid = true) :
    ∃ s', interactiveLine w (n + 1) c.text s = (.ok (), s') ∧
      s'.jc.getJob id = some { j with state := .running, background := true } ∧
      (∀ k, k ≠ id → s'.jc.getJob k = s.jc.getJob k) ∧ s'.masked = false ∧
      Happened s s' (j.processes.map fun p => .kill p.pid) := by
  have hown : j.jobId = id := by
    have ht := (tableInv w).atPrompt hp
    exact ht.own (id, j) ((tGet_iff ht.sorted).1 hj)
  obtain ⟨e, he, hr⟩ := resume_run w (s := { s with masked := true }) (AtPrompt_own hp).2.1 j true hk
  have hrun := names_find (s1 := { s with masked := true }) rfl hn hj c.name vs
    (fun j => do
      if c.name = cs!"fg" then
        resume w j false
        let _ ← waitForJob w j.jobId
      else
        resume w j true
      interruptsOn : Job → M Unit)
  have hlast : (do
      if c.name = cs!"fg" then
        resume w j false
        let _ ← waitForJob w j.jobId
      else
        resume w j true
      interruptsOn : M Unit) { s with masked := true } = (.ok (), { s with
        masked := false
        jc := s.jc.modJob j.jobId fun j => { j with state := .running, background := true }
        trace := e :: ((j.processes.map fun p => Event.kill p.pid).reverse ++ s.trace) }) := by
    rw [if_neg (by rw [hname]; decide), run_bind_ok hr]
    rfl
  rw [hlast] at hrun
  refine ⟨{ s with
        masked := false
        jc := s.jc.modJob j.jobId fun j => { j with state := .running, background := true }
        trace := e :: ((j.processes.map fun p => Event.kill p.pid).reverse ++ s.trace) },
    ?_, ?_, ?_, rfl, [e], by simpa using he, rfl⟩
  · rw [Call.line w n hc]
    refine reportM_ok ?_
    rw [callBuiltin_bg w _ (show (Call.simple c).name = cs!"bg" from hname)]
    unfold bFgBg Call.simple interruptsOff
    rw [hx, run_modS_bind]
    exact hrun
  · show (s.jc.modJob j.jobId _).getJob id = _
    rw [hown, getJob_modJob, if_pos rfl, hj, ← hown]
    rfl
  · intro k hk
    show (s.jc.modJob j.jobId _).getJob k = _
    rw [hown, getJob_modJob, if_neg hk]

/-- `fg` up to the point where the job is waited for. -/
theorem fg_line (w : World) (n : Nat) (s : Sh) (hp : AtPrompt w s) (c : Call) (hc : c.Ok s)
    (hname : c.name = cs!"fg") (x : Str) (vs : List Str) (hx : c.values = x :: vs) (id : Nat) (hn : Names s x id)
    (j : Job) (hj : s.jc.getJob id = some j) (hk : ∀ tr, ∀ p ∈ j.processes, w.killOk tr p.pid = true) :
    ∃ e, Quiet e ∧ interactiveLine w (n + 1) c.text s =
      reportM (do let _ ← waitForJob w id; interruptsOn : M Unit) { s with
        masked := true
        jc := s.jc.modJob id fun j => { j with state := .running, background := false }
        trace := e :: ((j.processes.map fun p => Event.kill p.pid).reverse ++ s.trace) } := by
  have hown : j.jobId = id := by
    have ht := (tableInv w).atPrompt hp
    exact ht.own (id, j) ((tGet_iff ht.sorted).1 hj)
  obtain ⟨e, he, hr⟩ := resume_run w (s := { s with masked := true }) (AtPrompt_own hp).2.1 j false hk
  have hrun := names_find (s1 := { s with masked := true }) rfl hn hj c.name vs
    (fun j => do
      if c.name = cs!"fg" then
        resume w j false
        let _ ← waitForJob w j.jobId
      else
        resume w j true
      interruptsOn : Job → M Unit)
  refine ⟨e, he, ?_⟩
  rw [Call.line w n hc]
  have h1 : callBuiltin w (evalFuel w n) (Call.simple c) { s with masked := true } =
      (do let _ ← waitForJob w id; interruptsOn : M Unit) { s with
        masked := true
        jc := s.jc.modJob j.jobId fun j => { j with state := .running, background := false }
        trace := e :: ((j.processes.map fun p => Event.kill p.pid).reverse ++ s.trace) } := by
    rw [callBuiltin_fg w _ (show (Call.simple c).name = cs!"fg" from hname)]
    unfold bFgBg Call.simple
    rw [hx]
    unfold interruptsOff
    rw [run_modS_bind]
    refine hrun.trans ?_
    rw [if_pos hname, run_bind_ok hr, hown]
  rw [hown] at h1
  unfold reportM
  rw [run_bind, run_bind, run_tryE, run_tryE, h1]

/-- C52, `fg`: the job gets the same signals and is marked as running in the foreground, all other jobs
being as before (`s1`); then the shell waits for it and does nothing else. -/
theorem C52_fg_partial (w : World) (n : Nat) (s : Sh) (hp : AtPrompt w s) (c : Call) (hc : c.Ok s)
    (hname : c.name = cs!"fg") (x : Str) (vs : List Str) (hx : c.values = x :: vs) (id : Nat) (hn : Names s x id)
    (j : Job) (hj : s.jc.getJob id = some j) (hk : ∀ tr, ∀ p ∈ j.processes, w.killOk tr p.pid = true) :
    ∃ s1, s1.jc.getJob id = some { j with state := .running, background := false } ∧
      (∀ k, k ≠ id → s1.jc.getJob k = s.jc.getJob k) ∧
      Happened s s1 (j.processes.map fun p => .kill p.pid) ∧
      (∀ st s2, waitForJob w id s1 = (.ok st, s2) →
        interactiveLine w (n + 1) c.text s = (.ok (), { s2 with masked := false })) ∧
      Happened s (interactiveLine w (n + 1) c.text s).2 (j.processes.map fun p => .kill p.pid) := by
  obtain ⟨e, he, hline⟩ := fg_line w n s hp c hc hname x vs hx id hn j hj hk
  have hq : Silent { s with
        masked := true
        jc := s.jc.modJob id fun j => { j with state := .running, background := false }
        trace := e :: ((j.processes.map fun p => Event.kill p.pid).reverse ++ s.trace) }
      (interactiveLine w (n + 1) c.text s).2 := by
    rw [hline]
    have hk : Keeps Silent Silent (do let _ ← waitForJob w id; interruptsOn : M Unit) :=
      .bind Silent.seq (silent_waitForJob w id) fun _ => silent_modS fun _ => rfl
    unfold reportM
    refine silent_post (Keeps.bind Silent.seq (.tryE hk) (fun r => ?_) _)
    cases r with
    | ok _ => exact .pure Silent.seq _
    | error e => exact silent_printM _
  refine ⟨{ s with
        masked := true
        jc := s.jc.modJob id fun j => { j with state := .running, background := false }
        trace := e :: ((j.processes.map fun p => Event.kill p.pid).reverse ++ s.trace) },
    ?_, ?_, ⟨[e], by simpa using he, rfl⟩, ?_, ?_⟩
  · show (s.jc.modJob id _).getJob id = _
    rw [getJob_modJob, if_pos rfl, hj]
    rfl
  · intro k hk
    show (s.jc.modJob id _).getJob k = _
    rw [getJob_modJob, if_neg hk]
  · intro st s2 h2
    rw [hline]
    refine reportM_ok ?_
    rw [run_bind_ok h2]
    rfl
  · obtain ⟨l, hl, hlq⟩ := hq
    refine ⟨l ++ [e], ?_, by rw [hl, List.append_assoc]; rfl⟩
    intro e' he'
    rcases List.mem_append.1 he' with h | h
    · exact hlq e' h
    · have : e' = e := by simpa using h
      rw [this]
      exact he

/-- C52: an argument that is a job id or pid of no job leaves all jobs as they are, sends no signal, and
is reported. -/
theorem C52_unknown (w : World) (n : Nat) (s : Sh) (c : Call) (hc : c.Ok s)
    (hname : c.name = cs!"fg" ∨ c.name = cs!"bg") (x : Str) (vs : List Str) (hx : c.values = x :: vs)
    (hn : NamesNone s x) :
    ∃ ch msg s', interactiveLine w (n + 1) c.text s = (.ok (), s') ∧ s'.jc = s.jc ∧
      s'.trace = .print ch msg :: s.trace := by
  obtain ⟨e, hrun⟩ := namesNone_find (s1 := { s with masked := true }) rfl hn c.name vs
    (fun j => do
      if c.name = cs!"fg" then
        resume w j false
        let _ ← waitForJob w j.jobId
      else
        resume w j true
      interruptsOn : Job → M Unit)
  have hb : callBuiltin w (evalFuel w n) (Call.simple c) { s with masked := true } =
      (.err e, { s with masked := true }) := by
    have : callBuiltin w (evalFuel w n) (Call.simple c) = bFgBg w (Call.simple c) := by
      rcases hname with h | h
      · exact callBuiltin_fg w _ h
      · exact callBuiltin_bg w _ h
    rw [this]
    unfold bFgBg Call.simple interruptsOff
    rw [hx, run_modS_bind]
    exact hrun
  refine ⟨(s.fds.get 1).map FdE.chan, e ++ ['\n'],
    { s with masked := true, trace := .print ((s.fds.get 1).map FdE.chan) (e ++ ['\n']) :: s.trace }, ?_, rfl, rfl⟩
  rw [Call.line w n hc, reportM_err hb]
  rfl

/-- C52 fails when a process of the job is gone: the shell crashes.  Here the job is `a | b`, stopped and
then half dead. -/
theorem C52_counterexample :
    (typeLines { demoWorld [] with killOk := fun _ pid => pid ≠ 101 } [cs!"a | b"]
      (demoShell [.st (.stopped 100 20), .st (.exited 101 0)])).2.jc.getJob 1 ≠ none ∧
    outcome (typeLines { demoWorld [] with killOk := fun _ pid => pid ≠ 101 } [cs!"a | b", cs!"bg %1"]
      (demoShell [.st (.stopped 100 20), .st (.exited 101 0)])).1 = .panic .unwrap := by decide +kernel

/-- The hypotheses of `C52_bg_partial` and `C52_unknown` are met after a job was stopped. -/
example : let s := atPrompt [cs!"a x"] [.st (.stopped 100 20)]
    AtPrompt (demoWorld []) s ∧ (⟨cs!"bg", [word (cs!"%1")]⟩ : Call).Ok s ∧ Names s (cs!"%1") 1 ∧
    Names s (cs!"100") 1 ∧ (s.jc.getJob 1).map Job.state = some .stopped ∧ NamesNone s (cs!"%7") ∧
    NamesNone s (cs!"101") := by
  refine ⟨atPrompt_ok (by decide +kernel), ⟨by decide, by decide, by decide +kernel, by decide, ?_⟩,
    .inl ⟨by decide, by omega⟩, .inr ⟨100, by decide, by omega, by decide +kernel⟩, by decide +kernel,
    .inl ⟨7, by decide, by omega, ?_⟩, .inr ⟨101, by decide, by omega, ?_⟩⟩
  · intro a ha
    simp only [List.mem_singleton] at ha
    subst ha
    exact means_word (by decide)
  · have : ((atPrompt [cs!"a x"] [.st (.stopped 100 20)]).jc.getJob 7).isNone = true := by decide +kernel
    simpa using this
  · intro id h
    have : (atPrompt [cs!"a x"] [.st (.stopped 100 20)]).jc.pids.lookup (101 : Int) = none := by decide +kernel
    have h2 := this.symm.trans h
    cases h2

/-- And this is what `bg` and `fg` then do. -/
example : let kills := fun s : Sh => s.trace.filterMap fun e => match e with | .kill p => some p | _ => none
    kills (demo [cs!"a | b", cs!"bg %1"] [.st (.stopped 100 20), .st (.stopped 101 20)]) = [101, 100] ∧
    kills (demo [cs!"a", cs!"fg 100"] [.st (.stopped 100 20), .err, .st (.exited 100 4)]) = [100] := by
  decide +kernel

end Rsh

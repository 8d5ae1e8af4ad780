import Verif.Props.Interleave
import Verif.Props.Signals

/-!
# Property C126: signal handlers act as wholes
-/

namespace Rsh

open Spec

namespace Interleave

/-- The stack of calls with what the program still has to do and the job the handler on top is about to delete. -/
inductive Abs : Bool → List Call1 → List Op → Option Nat → Prop where
  | none {m} : Abs m [] [] none
  | main {m t} : Abs m [.main t] t none
  | access {m t} : Abs m [.access, .main t] t none
  | start {m id t} : Abs m [.del id .start, .main t] (.delete id :: t) none
  | masked {id t} : Abs true [.del id .masked, .main t] (.delete id :: t) none
  | borrowed {id t} : Abs true [.del id .borrowed, .main t] (.delete id :: t) none
  | deleted {id t} : Abs true [.del id .deleted, .main t] t none
  | unmasked {m id t} : Abs m [.del id .unmasked, .main t] t none
  | leaving {m r ops} : Abs false r ops none → Abs m (.leaving false :: r) ops none
  | hstart {r ops id} : Abs false r ops none → Abs true (.del id .start :: .leaving false :: r) ops (some id)
  | hmasked {r ops id} : Abs false r ops none → Abs true (.del id .masked :: .leaving false :: r) ops (some id)
  | hborrowed {r ops id} : Abs false r ops none → Abs true (.del id .borrowed :: .leaving false :: r) ops (some id)
  | hdeleted {r ops id} : Abs false r ops none → Abs true (.del id .deleted :: .leaving false :: r) ops none
  | hunmasked {m r ops id} : Abs false r ops none → Abs m (.del id .unmasked :: .leaving false :: r) ops none
  | handler {r ops} : Abs false r ops none → Abs true (.handler false :: r) ops none

theorem Abs.open {cs : List Call1} {ops : List Op} {p : Option Nat} (h : Abs false cs ops p) : p = .none := by
  cases h <;> rfl

/-- The job table when the handler on top has done its deletion. -/
def settled : Option Nat → JobControl → JobControl
  | .none, jc => jc
  | some id, jc => jc.deleteJob id

/-- The report a step takes. -/
def takes : WRes → Did → List WStatus
  | .st st, .reaped _ => [st]
  | _, _ => []

/-- The step `c` to `c'` fits what is done one by one. -/
def Fits (ops : List Op) (p : Option Nat) (jc : JobControl) (sts : List WStatus) (c' : Conf) : Prop :=
  ∃ ops' p', Abs c'.masked c'.calls ops' p' ∧ TableOk c'.jc ∧
    ∀ rest jcF, OneByOne ops' rest (settled p' c'.jc) jcF → OneByOne ops (sts ++ rest) (settled p jc) jcF

/-- The handler waits for the rest of a job, and nothing else happens any more. -/
def Stuck (c : Conf) : Prop := c.masked = true ∧ ∃ rest, c.calls = .waiting :: rest

theorem whole_none {jc : JobControl} {pid : Int} {st : WStatus} {msg : Option Str}
    (hw : ∀ w, sigChldWith w (.st st) = sigChldWith.go w pid st msg) (hj : jc.getJobPid pid = .none) : Whole st jc jc := by
  intro w s e
  refine ⟨s, ?_, e⟩
  rw [hw]
  unfold sigChldWith.go
  rw [run_getS_bind, e, hj]
  rfl

theorem whole_fg {jc : JobControl} {pid : Int} {st : WStatus} {msg : Option Str} {j : Job}
    (hw : ∀ w, sigChldWith w (.st st) = sigChldWith.go w pid st msg) (hj : jc.getJobPid pid = some j)
    (hb : j.background = false) :
    Whole st jc (jc.modJob j.jobId fun j => { j with processes := setStatusFirst pid st j.processes }) := by
  intro w s e
  rw [hw]
  unfold sigChldWith.go
  rw [run_getS_bind, e, hj]
  simp only [hb, Bool.false_eq_true, if_false]
  exact ⟨{ s with jc := s.jc.modJob j.jobId fun j => { j with processes := setStatusFirst pid st j.processes } }, rfl,
    by simp [e]⟩

theorem setStatusFirst_length (pid : Int) (st : WStatus) (ps : List Process) :
    (setStatusFirst pid st ps).length = ps.length := by
  induction ps with
  | nil => rfl
  | cons p ps ih =>
    unfold setStatusFirst
    split <;> simp [ih]

theorem whole_bg {jc : JobControl} {pid : Int} {st : WStatus} {msg : Option Str} {j : Job}
    (hw : ∀ w, sigChldWith w (.st st) = sigChldWith.go w pid st msg) (hj : jc.getJobPid pid = some j)
    (hg : jc.getJob j.jobId = some j) (hb : j.background = true) (h1 : j.processes.length = 1) :
    Whole st jc (((jc.modJob j.jobId fun j => { j with processes := setStatusFirst pid st j.processes }).modJob j.jobId
      fun j => { j with stopStatus := st, state := .finished }).deleteJob j.jobId) := by
  have key : ∀ (w : World) (s : Sh),
      s.jc = (jc.modJob j.jobId fun j => { j with processes := setStatusFirst pid st j.processes }) →
      ∃ s', waitForJobSigchld w j.jobId st s = (.ok st, s') ∧ s'.jc = (((jc.modJob j.jobId fun j =>
        { j with processes := setStatusFirst pid st j.processes }).modJob j.jobId
          fun j => { j with stopStatus := st, state := .finished }).deleteJob j.jobId) := by
    intro w s e
    unfold waitForJobSigchld
    rw [run_getS_bind, e, getJob_modJob, if_pos rfl, hg]
    simp only [Option.map_some, unwrapM_some, run_pure_bind, setStatusFirst_length, h1, if_true]
    refine ⟨_, rfl, ?_⟩
    simp [e]
  intro w s e
  rw [hw]
  unfold sigChldWith.go
  rw [run_getS_bind, e, hj]
  simp only [hb, if_true]
  cases msg with
  | none =>
    obtain ⟨s', e1, e2⟩ := key w { s with jc := s.jc.modJob j.jobId fun j => { j with processes := setStatusFirst pid st j.processes } }
      (by simp [e])
    refine ⟨s', ?_, e2⟩
    show (do let _ ← waitForJobSigchld w j.jobId st; pure () : M Unit) { s with jc := s.jc.modJob j.jobId fun j => { j with processes := setStatusFirst pid st j.processes } } = _
    rw [run_bind, e1]
    rfl
  | some m =>
    obtain ⟨s', e1, e2⟩ := key w (printM (cs!"Job [" ++ natStr j.jobId ++ cs!"] (" ++ intStr pid ++ m) { s with
      jc := s.jc.modJob j.jobId fun j => { j with processes := setStatusFirst pid st j.processes } }).2
      (by simp [e, printM, modS])
    refine ⟨s', ?_, e2⟩
    show (do let _ ← waitForJobSigchld w j.jobId st; pure () : M Unit) (printM (cs!"Job [" ++ natStr j.jobId ++ cs!"] (" ++ intStr pid ++ m) { s with
      jc := s.jc.modJob j.jobId fun j => { j with processes := setStatusFirst pid st j.processes } }).2 = _
    rw [run_bind, e1]
    rfl

theorem own_job {jc : JobControl} (hf : TableOk jc) {pid : Int} {j : Job} (hj : jc.getJobPid pid = some j) :
    jc.getJob j.jobId = some j := by
  unfold JobControl.getJobPid at hj
  cases hk : jc.pids.lookup pid with
  | none => rw [hk] at hj; cases hj
  | some id =>
    rw [hk] at hj
    have hg : tGet id jc.table = some j := hj
    have := hf.own _ (lookup_mem hg)
    simp only at this
    rw [this]
    exact hg

theorem runConf_snd (ch : Choice) (chs : List Choice) (c : Conf) :
    (runConf (ch :: chs) c).2 = (confStep ch c).2.bind fun c' => (runConf chs c').2 := by
  rw [runConf]
  rcases confStep ch c with ⟨d, _ | c'⟩ <;> rfl

theorem reapStep_fits {c c' : Conf} {pid : Int} {st : WStatus} {ops : List Op} {rest : List Call1} (msg : Option Str)
    (hm : c.masked = true) (ha : Abs false rest ops .none) (hf : TableOk c.jc) (hs : reapStep pid st c false rest = some c')
    (hw : ∀ w, sigChldWith w (.st st) = sigChldWith.go w pid st msg) :
    Stuck c' ∨ Fits ops .none c.jc [st] c' := by
  unfold reapStep at hs
  by_cases hl : c.loan = .excl
  · rw [if_pos hl] at hs; cases hs
  rw [if_neg hl] at hs
  cases hj : c.jc.getJobPid pid with
  | none =>
    rw [hj] at hs
    cases hs
    exact .inr ⟨ops, .none, .leaving ha, hf, fun _ _ h => .handler (whole_none hw hj) h⟩
  | some j =>
    rw [hj] at hs
    have hown : c.jc.getJob j.jobId = some j := own_job hf hj
    have hf1 := hf.modJob j.jobId (fun j => { j with processes := setStatusFirst pid st j.processes }) (fun _ => rfl)
    simp only at hs
    by_cases hb : j.background = false
    · rw [if_pos hb] at hs
      cases hs
      exact .inr ⟨ops, .none, .leaving ha, hf1, fun _ _ h => .handler (whole_fg hw hj hb) h⟩
    · rw [if_neg hb] at hs
      by_cases h1 : j.processes.length = 1
      · rw [if_pos h1] at hs
        cases hs
        refine .inr ⟨ops, some j.jobId, ?_,
          hf1.modJob _ (fun j => { j with stopStatus := st, state := .finished }) (fun _ => rfl), fun _ _ h =>
          .handler (whole_bg hw hj hown (by simpa using hb) h1) h⟩
        show Abs c.masked _ _ _
        rw [hm]
        exact .hstart ha
      · rw [if_neg h1] at hs
        cases hs
        exact .inl ⟨rfl, _, rfl⟩

theorem goStep_fits {c c' : Conf} {ops : List Op} {p : Option Nat} (ha : Abs c.masked c.calls ops p) (hf : TableOk c.jc)
    {r : WRes} (hs : (goStep r c).2 = some c') :
    Stuck c' ∨ Fits ops p c.jc (takes r (goStep r c).1) c' := by
  obtain ⟨jc, loan, masked, pending, calls⟩ := c
  simp only at ha hf
  unfold goStep at hs ⊢
  by_cases hp : (pending && !masked) = true
  · rw [if_pos hp] at hs ⊢
    cases hs
    simp only [Bool.and_eq_true, Bool.not_eq_true'] at hp
    obtain ⟨-, rfl⟩ := hp
    obtain rfl := ha.open
    cases r <;> exact .inr ⟨ops, .none, .handler ha, hf, fun _ _ h => h⟩
  rw [if_neg hp] at hs ⊢
  cases ha with
  | none => cases hs; right; cases r <;> exact ⟨[], .none, .none, hf, fun _ _ h => h⟩
  | main =>
    cases ops with
    | nil => cases hs; right; cases r <;> exact ⟨[], .none, .none, hf, fun _ _ h => h⟩
    | cons op t =>
      cases op with
      | off => cases hs; right; cases r <;> exact ⟨t, .none, .main, hf, fun _ _ h => .other (by simp) h⟩
      | on => cases hs; right; cases r <;> exact ⟨t, .none, .main, hf, fun _ _ h => .other (by simp) h⟩
      | read =>
        simp only at hs
        split at hs <;> cases hs
        right; cases r <;> exact ⟨t, .none, .access, hf, fun _ _ h => .other (by simp) h⟩
      | write =>
        simp only at hs
        split at hs <;> cases hs
        right; cases r <;> exact ⟨t, .none, .access, hf, fun _ _ h => .other (by simp) h⟩
      | delete id => cases hs; right; cases r <;> exact ⟨_, .none, .start, hf, fun _ _ h => h⟩
  | access => cases hs; right; cases r <;> exact ⟨ops, .none, .main, hf, fun _ _ h => h⟩
  | start => cases hs; right; cases r <;> exact ⟨_, .none, .masked, hf, fun _ _ h => h⟩
  | masked =>
    simp only at hs
    split at hs <;> cases hs
    right; cases r <;> exact ⟨_, .none, .borrowed, hf, fun _ _ h => h⟩
  | borrowed => cases hs; right; cases r <;> exact ⟨_, .none, .deleted, hf.deleteJob _, fun _ _ h => .delete h⟩
  | deleted => cases hs; right; cases r <;> exact ⟨_, .none, .unmasked, hf, fun _ _ h => h⟩
  | unmasked => cases hs; right; cases r <;> exact ⟨_, .none, .main, hf, fun _ _ h => h⟩
  | leaving h => cases hs; right; cases r <;> exact ⟨_, .none, h, hf, fun _ _ h => h⟩
  | hstart h => cases hs; right; cases r <;> exact ⟨_, _, .hmasked h, hf, fun _ _ h => h⟩
  | hmasked h =>
    simp only at hs
    split at hs <;> cases hs
    right; cases r <;> exact ⟨_, _, .hborrowed h, hf, fun _ _ h => h⟩
  | hborrowed h => cases hs; right; cases r <;> exact ⟨_, _, .hdeleted h, hf.deleteJob _, fun _ _ h => h⟩
  | hdeleted h => cases hs; right; cases r <;> exact ⟨_, _, .hunmasked h, hf, fun _ _ h => h⟩
  | hunmasked h => cases hs; right; cases r <;> exact ⟨_, _, .leaving h, hf, fun _ _ h => h⟩
  | handler h =>
    cases r with
    | st s =>
      cases s with
      | exited pid code => exact reapStep_fits none (c := ⟨jc, loan, true, pending, _⟩) rfl h hf hs (fun _ => rfl)
      | signaled pid sg co => exact reapStep_fits (some _) (c := ⟨jc, loan, true, pending, _⟩) rfl h hf hs (fun _ => rfl)
      | stopped pid sg => exact reapStep_fits (some _) (c := ⟨jc, loan, true, pending, _⟩) rfl h hf hs (fun _ => rfl)
      | _ => cases hs; exact .inr ⟨_, _, .leaving h, hf, fun _ _ h => h⟩
    | _ => cases hs; exact .inr ⟨_, _, .leaving h, hf, fun _ _ h => h⟩

theorem stuck_run (chs : List Choice) : ∀ {c c' : Conf}, Stuck c → (runConf chs c).2 = some c' → c'.calls ≠ [] := by
  induction chs with
  | nil =>
    intro c c' h hr
    cases hr
    obtain ⟨-, rest, e⟩ := h
    rw [e]
    simp
  | cons ch chs ih =>
    intro c c' h hr
    have hst : ∃ d c1, confStep ch c = (d, some c1) ∧ Stuck c1 := by
      obtain ⟨hm, rest, e⟩ := h
      cases ch with
      | child => exact ⟨_, _, rfl, hm, rest, e⟩
      | go r =>
        refine ⟨.other, c, ?_, hm, rest, e⟩
        show goStep r c = _
        unfold goStep
        rw [if_neg (by simp [hm]), e]
    obtain ⟨d, c1, e1, h1⟩ := hst
    unfold runConf at hr
    rw [e1] at hr
    exact ih h1 hr

theorem run_fits (chs : List Choice) : ∀ {c c' : Conf} {ops : List Op} {p : Option Nat}, Abs c.masked c.calls ops p →
    TableOk c.jc → (runConf chs c).2 = some c' → c'.calls = [] →
    OneByOne ops (taken chs (runConf chs c).1) (settled p c.jc) c'.jc := by
  induction chs with
  | nil =>
    intro c c' ops p ha hf hr he
    cases hr
    have key : ∀ m cs, Abs m cs ops p → cs = [] → OneByOne ops [] (settled p c.jc) c.jc := by
      intro m cs h e
      subst e
      cases h
      exact .done
    exact key _ _ ha he
  | cons ch chs ih =>
    intro c c' ops p ha hf hr he
    rcases hc : confStep ch c with ⟨d, _ | c1⟩
    · unfold runConf at hr
      rw [hc] at hr
      cases hr
    unfold runConf at hr ⊢
    rw [hc] at hr ⊢
    simp only at hr ⊢
    cases ch with
    | child =>
      cases hc
      exact ih (c := { c with pending := true }) ha hf hr he
    | go r =>
      have h2 : (goStep r c).2 = some c1 := by rw [show goStep r c = _ from hc]
      rcases goStep_fits ha hf h2 with h | ⟨ops', p', a1, a2, a3⟩
      · exact absurd he (stuck_run chs h hr)
      · have h1 : (goStep r c).1 = d := by rw [show goStep r c = _ from hc]
        rw [h1] at a3
        have := a3 _ _ (ih a1 a2 hr he)
        have ht : taken (.go r :: chs) (d :: (runConf chs c1).1) = takes r d ++ taken chs (runConf chs c1).1 := by
          cases r <;> cases d <;> rfl
        rw [ht]
        exact this

end Interleave

open Interleave

/-- C126: whatever jobs there are, whatever a program does with the shell's data and wherever signals arrive: if the shell
comes to the end of the program, the job table is as if every access of the program and every run of the handler
that took a report had happened as a whole, one after the other, in the order of the program and of the reports. -/
theorem C126_wholes (jc : JobControl) (hjc : TableOk jc) (ops : List Op) (chs : List Choice) (c : Conf)
    (hr : (runConf chs (startConf jc ops)).2 = some c) (he : c.calls = []) :
    OneByOne ops (taken chs (runConf chs (startConf jc ops)).1) jc c.jc :=
  run_fits chs (p := none) (c := startConf jc ops) .main hjc hr he

/-- C126: a signal that arrives when signals are let in and the shell's data is not in use, and is followed by no other, is
handled as a whole: a few steps later the interrupted calls go on where they were, signals are let in, and only
the job table has changed, as by the handler.  The exception is a job in the background with several processes. -/
theorem C126_returns (c : Conf) (r : WRes) (hjc : TableOk c.jc) (hl : c.loan = .free) (hm : c.masked = false)
    (hp : c.pending = true)
    (hw : ∀ st pid j, r = .st st → st.pid? = some pid → c.jc.getJobPid pid = some j → j.background = true →
      j.processes.length = 1) :
    ∃ k jc', (runConf (List.replicate k (.go r)) c).2 = some { c with pending := false, jc := jc' } ∧
      (∀ st, r = .st st → Whole st c.jc jc') ∧ ((∀ st, r ≠ .st st) → jc' = c.jc) := by
  obtain ⟨jc, loan, masked, pending, calls⟩ := c
  simp only at hl hm hp hjc hw
  subst hl hm hp
  have key : ∀ (pid : Int) (st : WStatus) (msg : Option Str), r = .st st → st.pid? = some pid →
      (∀ w, sigChldWith w (.st st) = sigChldWith.go w pid st msg) →
      (∀ c saved rest, c.masked = true → c.calls = .handler saved :: rest →
        (goStep r c).2 = reapStep pid st c saved rest) →
      ∃ k jc', (runConf (List.replicate k (.go r)) ⟨jc, .free, false, true, calls⟩).2 =
          some ⟨jc', .free, false, false, calls⟩ ∧ Whole st jc jc' := by
    intro pid st msg hr hpid hg hgo
    have h2 : ∀ k, (runConf (List.replicate (k + 2) (.go r)) ⟨jc, .free, false, true, calls⟩).2 =
        (reapStep pid st ⟨jc, .free, true, false, .handler false :: calls⟩ false calls).bind
          fun c' => (runConf (List.replicate k (.go r)) c').2 := by
      intro k
      rw [List.replicate_succ, runConf_snd, show confStep (.go r) ⟨jc, .free, false, true, calls⟩ =
        (.handler, some ⟨jc, .free, true, false, .handler false :: calls⟩) from rfl]
      rw [Option.bind_some, List.replicate_succ, runConf_snd]
      rw [show (confStep (.go r) ⟨jc, .free, true, false, .handler false :: calls⟩).2 = _ from
        hgo ⟨jc, .free, true, false, .handler false :: calls⟩ false calls rfl rfl]
    cases hj : jc.getJobPid pid with
    | none =>
      refine ⟨3, jc, ?_, whole_none hg hj⟩
      rw [h2 1]
      unfold reapStep
      simp only [hj]
      rfl
    | some j =>
      by_cases hb : j.background = false
      · refine ⟨3, _, ?_, whole_fg hg hj hb⟩
        rw [h2 1]
        unfold reapStep
        simp only [hj, hb, if_true]
        rfl
      · have hb' : j.background = true := by simpa using hb
        have h1 := hw st pid j hr hpid hj hb'
        have hown : jc.getJob j.jobId = some j := own_job hjc hj
        refine ⟨8, _, ?_, whole_bg hg hj hown hb' h1⟩
        rw [h2 6]
        unfold reapStep
        simp only [hj, if_neg hb, h1, if_true]
        rfl
  cases r with
  | err => exact ⟨3, jc, rfl, nofun, fun _ => rfl⟩
  | eintr => exact ⟨3, jc, rfl, nofun, fun _ => rfl⟩
  | st s =>
    cases s with
    | other p => exact ⟨3, jc, rfl, by rintro _ ⟨⟩ w s e; exact ⟨s, rfl, e⟩, fun h => absurd rfl (h _)⟩
    | stillAlive => exact ⟨3, jc, rfl, by rintro _ ⟨⟩ w s e; exact ⟨s, rfl, e⟩, fun h => absurd rfl (h _)⟩
    | exited pid code =>
      obtain ⟨k, jc', e1, e2⟩ := key pid _ none rfl rfl (fun _ => rfl) (by
        intro c saved rest h1 h2; unfold goStep; rw [if_neg (by simp [h1]), h2])
      exact ⟨k, jc', e1, by rintro _ ⟨⟩; exact e2, fun h => absurd rfl (h _)⟩
    | signaled pid sg co =>
      obtain ⟨k, jc', e1, e2⟩ := key pid _ (some _) rfl rfl (fun _ => rfl) (by
        intro c saved rest h1 h2; unfold goStep; rw [if_neg (by simp [h1]), h2])
      exact ⟨k, jc', e1, by rintro _ ⟨⟩; exact e2, fun h => absurd rfl (h _)⟩
    | stopped pid sg =>
      obtain ⟨k, jc', e1, e2⟩ := key pid _ (some _) rfl rfl (fun _ => rfl) (by
        intro c saved rest h1 h2; unfold goStep; rw [if_neg (by simp [h1]), h2])
      exact ⟨k, jc', e1, by rintro _ ⟨⟩; exact e2, fun h => absurd rfl (h _)⟩

/-- The hypotheses of C126 are met: the end of a background job is reported before a deletion of another, and there is
nothing to report in the midst of it. -/
example :
    let chs : List Choice := .child :: List.replicate 11 (.go (.st (.exited 7 0))) ++ [.child] ++ List.replicate 11 (.go .err)
    let run := runConf chs (startConf (oneJob 1 7) [.delete 3])
    TableOk (oneJob 1 7) ∧ run.2.map Conf.calls = some [] ∧ taken chs run.1 = [.exited 7 0] :=
  ⟨⟨by decide, by decide, by decide⟩, by decide +kernel, by decide +kernel⟩

example : (oneJob 1 7).getJobPid 7 ≠ none ∧ ((oneJob 1 7).getJobPid 7).map (fun j => (j.background, j.processes.length)) =
    some (true, 1) := by
  decide +kernel

end Rsh

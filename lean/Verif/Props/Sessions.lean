import Verif.Spec.Sessions
import Verif.Props.Commands
import Verif.Props.Lists
import Verif.Props.Pipelines
import Verif.Props.Words
import Verif.Props.Context
import Verif.Props.Crash
import Verif.Proofs.Prompt

/-!
# Property C86: sessions
-/

namespace Rsh

open Spec

/-! ## The history file -/

/-- The history file stays the same. -/
def SameHistory (s s' : Sh) : Prop := s'.historyLoc = s.historyLoc

namespace SameHistory

theorem seq : Seq SameHistory (fun _ _ => True) where
  refl _ := rfl
  trans h1 h2 := Eq.trans h2 h1
  rq _ := trivial
  rqq _ _ := trivial

theorem frame (w : World) : Frame w (fun _ => True) SameHistory (fun _ _ => True) where
  toSeq := seq
  trace _ _ _ := rfl
  masked _ _ := rfl
  handlers _ := rfl
  createJob _ _ _ _ := rfl
  deleteJob _ _ := rfl
  resumeJob _ _ _ := rfl
  scan _ _ _ _ _ := rfl
  waited _ _ _ _ := rfl
  gotSigchld _ _ := rfl
  exitStatus _ _ := rfl
  subst rec x _ := fun s => by
    have h := evalSubshell_expands w rec x s
    rcases hr : evalSubshell w rec x s with ⟨o, s'⟩
    rw [hr] at h
    cases o with
    | ok a => obtain ⟨np, tr, rfl⟩ := h; exact rfl
    | err a => obtain ⟨np, tr, rfl⟩ := h; exact rfl
    | _ => trivial
  fork rec b id procs _ := fork_of seq (w := w) (rec := rec) (fun _ _ _ => rfl)
    (fun _ _ _ => rfl) (fun _ _ _ _ _ _ _ => rfl) b id procs.length procs 0 (-1, -1) (-1)
  setEnv _ _ _ := rfl
  aliases _ _ := rfl
  cwd _ _ _ _ := rfl
  addVar _ _ _ _ := rfl
  addVarPos _ _ _ _ _ := rfl
  addFunction _ _ _ := rfl
  removeVar _ _ := rfl
  removeFunction _ _ := rfl
  removeContext _ _ := rfl
  addVarReadonly _ _ _ _ := rfl
  setVarReadonly _ _ _ _ := rfl
  envVar _ _ _ _ _ _ := rfl
  envFun _ _ _ _ _ := rfl
  nameSelf _ _ _ _ := rfl
  func _ c h := func_of seq (fun _ _ => rfl) h.2 c
  ctxFile _ file ns h := ctxFile_of seq (fun _ _ => rfl) (fun _ _ _ => rfl) h.2 file ns

end SameHistory

theorem AtPrompt_history {w : World} {s : Sh} (h : AtPrompt w s) : s.historyLoc = cs!"history.txt" := by
  have F := SameHistory.frame w
  have S := SameHistory.seq
  induction h with
  | start h =>
    unfold startUp at h
    simp only [bind_ok_iff] at h
    obtain ⟨_, _, _, _, _, _, _, _, _, _, _, _, _, _, _, _, _, _, _, _, _, _, _, _, h⟩ := h
    rw [← (Prod.mk.inj h).2]
  | line _ h ih => exact ((Keeps.bind S F.prompt fun _ => F.interactiveLine (fun _ => trivial) _ _).ok h).trans ih
  | interrupted _ h ih => exact (F.prompt.ok h).trans ih
  | sig _ h ih => exact ((F.deliver (fun _ _ _ _ => rfl) (fun _ _ _ => rfl) F.waitForJob _).ok h).trans ih
  | waits _ ih => exact ih

/-! ## Prompts -/

theorem prompt_some {s : Sh} {p : Str} (h : valueOf s (cs!"PS1") = some p) :
    prompt s = (.ok (), { s with trace := .print ((s.fds.get 1).map FdE.chan) p :: s.trace }) := by
  unfold prompt expandVar
  unfold valueOf at h
  simp only [reduceCtorEq, if_false, run_getS_bind, bind_assoc, run_pure_bind, h, unwrapM_some]
  rfl

theorem prompt_none {s : Sh} (h : valueOf s (cs!"PS1") = none) : prompt s = (.panic .unwrap, s) := by
  unfold prompt expandVar
  unfold valueOf at h
  simp only [reduceCtorEq, if_false, run_getS_bind, bind_assoc, run_pure_bind, h]
  rfl

/-- A line never ends with an error: errors are reported. -/
theorem interactiveLine_noErr (w : World) (n : Nat) (l : Str) (s : Sh) (e : Str) :
    (interactiveLine w n l s).1 ≠ .err e := by
  unfold interactiveLine
  split
  · intro h; cases h
  · cases parse l with
    | none => intro h; cases h
    | some cc =>
      simp only
      rw [run_bind, run_tryE]
      rcases evalTop w n _ s with ⟨o, s1⟩
      cases o <;> intro h <;> cases h

theorem handle_prompt {w : World} {n : Nat} {s s1 : Sh} {i : SessionIn} (hp : AtPrompt w s)
    (h : handle w n i s = (.ok (), s1)) : AtPrompt w s1 := by
  cases i with
  | line l => exact .line hp h
  | interrupted => exact .interrupted hp h
  | sig g => exact .sig hp h
  | eof => cases h; exact hp
  | rlError => cases h; exact hp

theorem Visits.atPrompt {w : World} {n : Nat} {s s' : Sh} {ins : List SessionIn} (h : Visits w n s ins s')
    (hp : AtPrompt w s) : AtPrompt w s' := by
  induction h with
  | nil => exact hp
  | cons h _ ih => exact ih (handle_prompt hp h)

/-! The signal handler never ends with an error either. -/

theorem noErr_interruptsOn : NoErr interruptsOn := .modS _
theorem noErr_interruptsOff : NoErr interruptsOff := .modS _

theorem noErr_waitpidM : NoErr waitpidM := by
  intro s e s' h
  unfold waitpidM at h
  split at h <;> cases h

theorem noErr_waitRetry (n : Nat) : NoErr (waitRetry n) := by
  induction n with
  | zero => exact .hangM
  | succ n ih =>
    unfold waitRetry
    refine .bind noErr_waitpidM fun r => ?_
    cases r with
    | eintr => exact ih
    | _ => exact .pure _

theorem noErr_formatStatus (w : World) (st : WStatus) : NoErr (formatStatus w st) := by
  unfold formatStatus
  refine .bind .getS fun s => ?_
  have hl : ∀ (pid : Int) (tail : Str), NoErr (match s.jc.getJobPid pid with
      | none => pure none
      | some j => do
        let ps4 ← (do unwrapM .unwrap (← expandVar .none (cs!"PS4")))
        pure (some (cs!"[" ++ natStr j.jobId ++ cs!"] " ++ ps4 ++ cs!"\t\t" ++ j.show ++ ' ' :: tail)) : M (Option Str)) := by
    intro pid tail
    split
    · exact .pure _
    · exact .bind (.bind (.ite (.panicM _) (.bind .getS fun _ => .pure _)) fun _ => .unwrapM _ _) fun _ => .pure _
  cases st with
  | signaled => exact hl _ _
  | stopped => exact hl _ _
  | _ => exact .pure _

theorem noErr_waitOne (w : World) (id : Nat) : NoErr (waitOne w id) := by
  unfold waitOne
  refine .bind noErr_interruptsOff fun _ => .bind (.bind (.modS _) fun _ => .bind .getS fun _ => noErr_waitRetry _) fun r => ?_
  cases r with
  | err => exact .pure _
  | eintr => exact .pure _
  | st st =>
    refine .ite (.bind noErr_interruptsOn fun _ => .pure _) (.bind .getS fun _ => .bind (.unwrapM _ _) fun r =>
      .bind (.modS _) fun _ => .bind noErr_interruptsOn fun _ => ?_)
    split
    · refine .bind (noErr_formatStatus w st) fun o => ?_
      cases o with
      | none => exact .pure _
      | some l => exact .bind (.modS _) fun _ => .pure _
    · exact .pure _

theorem noErr_doWaitLoop (w : World) (id : Nat) : ∀ (n : Nat) (b : Bool), NoErr (doWaitLoop w id n b) := by
  intro n
  induction n with
  | zero => intro b; exact .hangM
  | succ n ih =>
    intro b
    unfold doWaitLoop
    refine .bind .getS fun s => .ite (.bind noErr_interruptsOff fun _ => .bind (.modS _) fun _ => noErr_interruptsOn)
      (.bind (noErr_waitOne w id) fun r => ?_)
    cases r with
    | some => exact ih _
    | _ => exact .pure _

theorem noErr_deleteJobM (id : Nat) : NoErr (deleteJobM id) :=
  .bind noErr_interruptsOff fun _ => .bind (.modS _) fun _ => noErr_interruptsOn

theorem noErr_waitForJob (w : World) (id : Nat) : NoErr (waitForJob w id) := by
  unfold waitForJob doWait
  refine .bind (.bind .getS fun _ => .bind (.unwrapM _ _) fun _ => .ite (.pure _) (noErr_doWaitLoop w id _ _)) fun _ =>
    .bind .getS fun _ => .bind (.unwrapM _ _) fun j => ?_
  refine .ite (.bind ?_ fun _ => .pure _) (.pure _)
  exact noErr_deleteJobM _

theorem noErr_onSigchld (w : World) : NoErr (onSigchld w) := by
  unfold onSigchld
  refine .bind .getS fun s => .ite (.pure _) (.bind (.modS _) fun _ => ?_)
  split
  · exact .pure _
  refine .bind noErr_waitpidM fun r => ?_
  have hgo : ∀ pid st msg, NoErr (sigChldWith.go w pid st msg) := by
    intro pid st msg
    unfold sigChldWith.go
    refine .bind .getS fun s => ?_
    split
    · exact .pure _
    refine .bind (.modS _) fun _ => .ite ?_ (.pure _)
    have : ∀ id st, NoErr (waitForJobSigchld w id st) := by
      intro id st
      unfold waitForJobSigchld
      refine .bind .getS fun _ => .bind (.unwrapM _ _) fun j => .ite (.bind (.modS _) fun _ => .bind ?_ fun _ => .pure _)
        (.bind noErr_interruptsOff fun _ => .bind (noErr_waitForJob w id) fun _ => .bind noErr_interruptsOn fun _ => .pure _)
      exact noErr_deleteJobM _
    split
    · exact .bind (.modS _) fun _ => .bind (this _ _) fun _ => .pure _
    · exact .bind (this _ _) fun _ => .pure _
  unfold sigChldWith
  split
  · exact hgo _ _ _
  · exact hgo _ _ _
  · exact hgo _ _ _
  · exact .pure _

theorem noErr_deliver (w : World) (g : Nat) : NoErr (deliver w g) := by
  have h : NoErr (onSigOther w g) := by
    unfold onSigOther
    refine .bind .getS fun s => .ite (.pure _) (.ite ?_ (.pure _))
    split
    · exact .panicM _
    · exact .ite (.modS _) (.panicM _)
  unfold deliver
  refine .bind .getS fun s => .ite (.pure _) ?_
  split
  · exact .pure _
  · exact .ite (noErr_onSigchld w) h
  · exact .ite (.pure _) (fun _ _ _ h => by cases h)

theorem handle_cases (w : World) (n : Nat) (i : SessionIn) (s : Sh) :
    (∃ s1, handle w n i s = (.ok (), s1)) ∨ Ended (handle w n i s).1 := by
  have key : ∀ r : Out Unit × Sh, (∀ e, r.1 ≠ .err e) → (∃ s1, r = (.ok (), s1)) ∨ Ended r.1 := by
    rintro ⟨o, s1⟩ h
    cases o with
    | ok a => exact .inl ⟨s1, rfl⟩
    | err e => exact absurd rfl (h e)
    | _ => exact .inr ⟨by simp, h⟩
  apply key
  have hpr : ∀ s e, (prompt s).1 ≠ .err e := by
    intro s e
    cases h : valueOf s (cs!"PS1") with
    | none => rw [prompt_none h]; simp
    | some p => rw [prompt_some h]; simp
  cases i with
  | line l =>
    intro e
    show ((do prompt; interactiveLine w n l : M Unit) s).1 ≠ _
    cases h : valueOf s (cs!"PS1") with
    | none => rw [run_bind_panic (prompt_none h)]; simp
    | some p => rw [run_bind_ok (prompt_some h)]; exact interactiveLine_noErr w n l _ e
  | interrupted => exact hpr s
  | sig g =>
    intro e h
    exact noErr_deliver w g s e (deliver w g s).2 (by rw [← h]; rfl)
  | eof => intro e h; cases h
  | rlError => intro e h; cases h

theorem loop_handle (w : World) (n : Nat) (i : SessionIn) (hi : GoesOnAfter i) (ins : List SessionIn) :
    interactiveLoop w n (i :: ins) = handle w n i >>= fun _ => interactiveLoop w n ins := by
  cases i with
  | line l =>
    show (do let p ← (do unwrapM .unwrap (← expandVar .none (cs!"PS1"))); printM p; interactiveLine w n l; interactiveLoop w n ins) = _
    unfold handle prompt
    simp only [bind_assoc]
  | interrupted =>
    show (do let p ← (do unwrapM .unwrap (← expandVar .none (cs!"PS1"))); printM p; interactiveLoop w n ins) = _
    unfold handle prompt
    simp only [bind_assoc]
  | sig g => rfl
  | eof => exact hi.elim
  | rlError => exact hi.elim

theorem loop_visits {w : World} {n : Nat} {s s' : Sh} {ins : List SessionIn} (h : Visits w n s ins s')
    (hi : ∀ i ∈ ins, GoesOnAfter i) (rest : List SessionIn) :
    interactiveLoop w n (ins ++ rest) s = interactiveLoop w n rest s' := by
  induction h with
  | nil => rfl
  | cons h _ ih =>
    rw [List.cons_append, loop_handle w n _ (hi _ List.mem_cons_self), run_bind_ok h]
    exact ih fun i h => hi i (List.mem_cons_of_mem _ h)

/-- The session after the last input. -/
theorem C86_end (w : World) (n : Nat) (s : Sh) (hp : AtPrompt w s) (rest : List SessionIn) (ps1 : Str)
    (hps : valueOf s (cs!"PS1") = some ps1) (hsave : ∀ tr, w.saveOk tr (cs!"history.txt") = true) :
    ∃ ch, interactiveLoop w n (.eof :: rest) s = (.ok (), { s with
      trace := .saveHistory (cs!"history.txt") :: .print ch ps1 :: s.trace }) := by
  refine ⟨(s.fds.get 1).map FdE.chan, ?_⟩
  show (do let p ← (do unwrapM .unwrap (← expandVar .none (cs!"PS1"))); printM p; saveHistory w : M Unit) s = _
  have e : (do let p ← (do unwrapM .unwrap (← expandVar .none (cs!"PS1"))); printM p; saveHistory w : M Unit) =
      (prompt >>= fun _ => saveHistory w) := by
    unfold prompt
    simp only [bind_assoc]
  rw [e, run_bind_ok (prompt_some hps)]
  unfold saveHistory
  rw [run_getS_bind]
  simp only [AtPrompt_history hp, hsave, if_true]
  rfl

/-- **C86**: a session goes through its inputs one by one; each leads back to the prompt, unless it is one
that ends the shell for good, and an error is never one that does.  (What is missing: that only `exit` and
`exec` end the shell, which is false.) -/
theorem C86_session_partial (w : World) (n : Nat) (s : Sh) (hp : AtPrompt w s) (ins : List SessionIn)
    (hi : ∀ i ∈ ins, GoesOnAfter i) (rest : List SessionIn) :
    (∃ s', Visits w n s ins s' ∧ AtPrompt w s' ∧
      interactiveLoop w n (ins ++ rest) s = interactiveLoop w n rest s') ∨
    ∃ pre i post s1, ins = pre ++ i :: post ∧ Visits w n s pre s1 ∧ Ended (handle w n i s1).1 ∧
      interactiveLoop w n (ins ++ rest) s = handle w n i s1 := by
  induction ins generalizing s with
  | nil => exact .inl ⟨s, .nil, hp, rfl⟩
  | cons i ins ih =>
    have hi' := fun j hj => hi j (List.mem_cons_of_mem _ hj)
    rw [List.cons_append, loop_handle w n i (hi i List.mem_cons_self)]
    rcases handle_cases w n i s with ⟨s1, h⟩ | h
    · rw [run_bind_ok h]
      rcases ih s1 (handle_prompt hp h) hi' with ⟨s', h1, h2, h3⟩ | ⟨pre, j, post, s2, h1, h2, h3, h4⟩
      · exact .inl ⟨s', .cons h h1, h2, h3⟩
      · exact .inr ⟨i :: pre, j, post, s2, by rw [h1]; rfl, .cons h h2, h3, h4⟩
    · refine .inr ⟨[], i, ins, s, rfl, .nil, h, ?_⟩
      rw [run_bind]
      generalize handle w n i s = r at h
      obtain ⟨o, s1⟩ := r
      cases o with
      | ok a => exact absurd rfl h.1
      | err e => exact absurd rfl (h.2 e)
      | _ => rfl

/-- A line that is not the end of the shell for good when each of its pipelines, typed alone, is not. -/
theorem C86_composed (w : World) (n : Nat) (s : Sh) (l : TLine) (hl : l.Ok)
    (h : (interactiveLine w (n + 1) l.text s).1 ≠ .ok ()) :
    ∃ p ∈ l.pipes, ∃ s1, interactiveLine w (n + 1) p.line.text s1 = interactiveLine w (n + 1) l.text s := by
  have hline : ∀ (l : TLine), l.Ok → ∀ s, interactiveLine w (n + 1) l.text s =
      (do match ← tryE (evalText w (n + 1) l.text) with
          | .ok _ => pure ()
          | .error e => printlnM e : M Unit) s := by
    intro l hl s
    unfold interactiveLine evalText
    rw [if_neg (TLine.text_ne hl), parse_tline hl]
    rfl
  have hchain : ∀ c ∈ l.first :: l.rest, ∀ s o s1, evalText w (n + 1) c.line.text s = (o, s1) → (∀ st, o ≠ .ok st) →
      ∃ p ∈ c.first :: c.rest.map Prod.snd, ∃ s0, evalText w (n + 1) p.line.text s0 = (o, s1) := by
    intro c hc s o s1 he ho
    have hcok : c.line.Ok := fun d hd => hl d (by
      unfold TLine.cmds
      exact List.mem_flatMap.2 ⟨c, hc, by simpa [TChain.line, TLine.cmds] using hd⟩)
    obtain ⟨ran, hch⟩ := C57_chain w n s c hcok
    rw [he] at hch
    have key : ∀ c r ran, Chained (fun p => evalText w (n + 1) p.line.text) s c r ran → (∀ st, r.1 ≠ .ok st) →
        ∃ p ∈ c.first :: c.rest.map Prod.snd, ∃ s0, evalText w (n + 1) p.line.text s0 = r := by
      intro c r ran h ho
      induction h with
      | one => exact ⟨_, List.mem_cons_self, _, rfl⟩
      | skip _ _ => exact absurd rfl (ho _)
      | @next c op p st s1 ran _ _ _ => exact ⟨p, by simp [TChain.snoc], _, rfl⟩
      | stop _ _ ih =>
        obtain ⟨p, hp, h⟩ := ih ho
        refine ⟨p, ?_, h⟩
        simp only [TChain.snoc, List.map_append]
        rcases List.mem_cons.1 hp with rfl | hp
        · exact List.mem_cons_self
        · exact List.mem_cons_of_mem _ (List.mem_append_left _ hp)
    exact key c _ ran hch ho
  have hlist : ∀ c cs s r, Listed (fun c => evalText w (n + 1) c.line.text) c cs s r → (∀ st, r.1 ≠ .ok st) →
      ∃ c' ∈ c :: cs, ∃ s0, evalText w (n + 1) c'.line.text s0 = r := by
    intro c cs s r hr ho
    induction hr with
    | one => exact ⟨_, List.mem_cons_self, _, rfl⟩
    | next _ _ ih =>
      obtain ⟨c', h1, h2⟩ := ih ho
      exact ⟨c', List.mem_cons_of_mem _ h1, h2⟩
    | stop h _ => exact ⟨_, List.mem_cons_self, _, h⟩
  rw [hline l hl s] at h ⊢
  rcases hr : evalText w (n + 1) l.text s with ⟨o, s1⟩
  have ho : ∀ st, o ≠ .ok st := by
    rintro st rfl
    rw [run_bind_ok (run_tryE_ok hr)] at h
    exact h rfl
  obtain ⟨c, hc, s2, h2⟩ := hlist _ _ _ _ (C58_list w n s l hl) (by rw [hr]; exact ho)
  rw [hr] at h2
  obtain ⟨p, hp, s3, h3⟩ := hchain c hc s2 o s1 h2 ho
  have hpm : p ∈ l.pipes := List.mem_flatMap.2 ⟨c, hc, hp⟩
  refine ⟨p, hpm, s3, ?_⟩
  have hpok : p.line.Ok := by
    intro d hd
    have hd : d ∈ p.cmds := by simpa [TPipe.line, TLine.cmds] using hd
    refine hl d (List.mem_flatMap.2 ⟨c, hc, ?_⟩)
    rcases List.mem_cons.1 hp with rfl | hp
    · exact List.mem_append_left _ hd
    · obtain ⟨q, hq, rfl⟩ := List.mem_map.1 hp
      exact List.mem_append_right _ (List.mem_flatMap.2 ⟨q, hq, hd⟩)
  rw [hline p.line hpok, run_bind, run_bind, run_tryE, run_tryE, h3, hr]

/-- **C86**, for single lines: lines the shell copes with lead back to the prompt. -/
theorem C86_survives_partial (w : World) (hw : Resources w) (n : Nat) (s : Sh) (hp : AtPrompt w s) (ps1 : Str)
    (hps : valueOf s (cs!"PS1") = some ps1) (l : Str) (hl : Tame s l) :
    ∃ s', handle w (n + 1) (.line l) s = (.ok (), s') ∧ AtPrompt w s' := by
  suffices h : (interactiveLine w (n + 1) l { s with
      trace := .print ((s.fds.get 1).map FdE.chan) ps1 :: s.trace }).1 = .ok () by
    rcases hr : interactiveLine w (n + 1) l { s with
      trace := .print ((s.fds.get 1).map FdE.chan) ps1 :: s.trace } with ⟨o, s'⟩
    rw [hr] at h
    obtain rfl : o = .ok () := h
    have e : handle w (n + 1) (.line l) s = (.ok (), s') := by
      show (do prompt; interactiveLine w (n + 1) l : M Unit) s = _
      rw [run_bind_ok (prompt_some hps), hr]
    exact ⟨s', e, handle_prompt hp e⟩
  have hp' := AtPrompt.interrupted hp (prompt_some hps)
  generalize hs' : ({ s with trace := .print ((s.fds.get 1).map FdE.chan) ps1 :: s.trace } : Sh) = s' at hp'
  have ht : Tame s' l := by
    rw [← hs']
    cases hl with
    | empty => exact .empty
    | syntaxError h => exact .syntaxError h
    | builtin hc h h1 h2 =>
      refine .builtin ⟨hc.builtin, hc.named, hc.alias, hc.typed, hc.means⟩ ?_ h1 h2
      generalize Call.name _ = nm at h
      generalize Call.values _ = vs at h
      cases h with
      | pwd => exact .pwd
      | cd => exact .cd
      | exit => exact .exit
      | exitWith h => exact .exitWith h
      | «return» => exact .return
      | returnWith h => exact .returnWith h
      | jobs h => exact .jobs h
      | alias => exact .alias
      | unalias => exact .unalias
      | exportNone => exact .exportNone
      | «export» h1 h2 h3 => exact .export h1 h2 h3
      | unset h => exact .unset h
      | unsetNone => exact .unsetNone
      | readonlyNone => exact .readonlyNone
      | execNone => exact .execNone
      | exec h1 h2 h3 => exact .exec h1 h2 h3
      | sourceNone => exact .sourceNone
    | assign h1 h2 h3 h4 h5 => exact .assign h1 h2 h3 h4 h5
    | background h1 h2 =>
      exact .background (fun e he => ⟨⟨(h1 e he).ok.plain, (h1 e he).ok.external, (h1 e he).ok.alias,
        (h1 e he).ok.function, (h1 e he).ok.args, (h1 e he).ok.nul, (h1 e he).ok.assign⟩, (h1 e he).typed,
        (h1 e he).args, (h1 e he).pre, (h1 e he).redirs⟩) h2
  clear hs' hl
  cases ht with
  | empty => rfl
  | syntaxError h =>
    obtain ⟨ch, msg, h⟩ := C15_syntaxError w (n + 1) l s' h
    rw [h]
  | builtin hc h h1 h2 =>
    rw [Call.line w n hc]
    exact (survives_report (copes_fine w n s' hp' _ h)).2 (by simp [h1, h2])
  | assign h1 h2 h3 h4 h5 =>
    obtain ⟨s2, h, -⟩ := C22_plain_partial w n s' _ _ h1 h2 h3 h4 (AtPrompt_good hp').nonempty h5
    rw [h]
  | background h1 h2 =>
    obtain ⟨_, s2, _, _, _, h, -⟩ := C65_background w hw n s' hp' _ h1 h2
    rw [h]

/-- **C86**, for builtins: every builtin that `C78_exact_partial` decides, with any arguments that do not crash it, leads
back to the prompt, unless it is `exit` or `exec`.  (`s1` is the state after the prompt has been shown.) -/
theorem C86_builtins_partial (w : World) (n : Nat) (s s1 : Sh) (hp : AtPrompt w s) (hs1 : prompt s = (.ok (), s1))
    (c : Call) (hc : c.Ok s1) (hd : Decided w s1 c.name c.values) (hx : ¬ Crashes w s1 c.name c.values)
    (h1 : c.name ≠ cs!"exit") (h2 : c.name ≠ cs!"exec") :
    ∃ s', handle w (n + 1) (.line c.text) s = (.ok (), s') ∧ AtPrompt w s' := by
  have h := ((C78_exact_partial w n s1 (.interrupted hp hs1) c hc hd).2 hx).2 h1 h2
  rcases hr : interactiveLine w (n + 1) c.text s1 with ⟨o, s'⟩
  rw [hr] at h
  obtain rfl : o = .ok () := h
  have e : handle w (n + 1) (.line c.text) s = (.ok (), s') := by
    show (do prompt; interactiveLine w (n + 1) c.text : M Unit) s = _
    rw [run_bind_ok hs1, hr]
  exact ⟨s', e, handle_prompt hp e⟩

example : Decided (demoWorld []) (demoShell []) (cs!"cd") [cs!"nowhere"] ∧ ¬ Crashes (demoWorld []) (demoShell []) (cs!"cd") [cs!"nowhere"] := by
  refine ⟨.inl (by decide), fun h => ?_⟩
  generalize hv : [cs!"nowhere"] = vs at h
  crashCases h
  cases hv

/-- **C86**, for foreground pipelines: if its processes exit, the prompt comes back. -/
theorem C86_foreground_partial (w : World) (hw : Resources w) (n : Nat) (s : Sh) (hp : AtPrompt w s) (ps1 : Str)
    (hps : valueOf s (cs!"PS1") = some ps1) (p : ExtPipe)
    (hok : ∀ e ∈ p.stages, e.Simple s) (hfg : p.background = false) (ht : s.jc.table = []) :
    ∃ (kid : Kid) (kids : List Kid) (ch : Option Chan),
      Happened s (handle w (n + 1) (.line p.text) s).2 (.print ch ps1 :: (kid :: kids).map Kid.event) ∧
      ∀ code, AllExit s.waits kid.1 (kids.map Prod.fst) code →
        ∃ s', handle w (n + 1) (.line p.text) s = (.ok (), s') ∧ AtPrompt w s' := by
  have hp' := AtPrompt.interrupted hp (prompt_some hps)
  obtain ⟨kid, kids, -, h0, h⟩ := pipeline_finished w hw n _ hp' p (fun e he => ⟨⟨(hok e he).ok.plain, (hok e he).ok.external,
    (hok e he).ok.alias, (hok e he).ok.function, (hok e he).ok.args, (hok e he).ok.nul, (hok e he).ok.assign⟩,
    (hok e he).typed, (hok e he).args, (hok e he).pre, (hok e he).redirs⟩) hfg ht
  refine ⟨kid, kids, (s.fds.get 1).map FdE.chan, ?_, fun code hc => ?_⟩
  · have e : handle w (n + 1) (.line p.text) s = interactiveLine w (n + 1) p.text { s with
        trace := .print ((s.fds.get 1).map FdE.chan) ps1 :: s.trace } := by
      show (do prompt; interactiveLine w (n + 1) p.text : M Unit) s = _
      rw [run_bind_ok (prompt_some hps)]
    rw [e]
    obtain ⟨l, h1, h2⟩ := h0
    exact ⟨l, h1, by rw [h2]; simp⟩
  obtain ⟨s', h1, -⟩ := h code hc
  have e : handle w (n + 1) (.line p.text) s = (.ok (), s') := by
    show (do prompt; interactiveLine w (n + 1) p.text : M Unit) s = _
    rw [run_bind_ok (prompt_some hps), h1]
  exact ⟨s', e, handle_prompt hp e⟩

/-- The lines of a session and how it ends. -/
def demoLoop (ls : List Str) : Out Unit × Sh :=
  interactiveLoop (demoWorld []) 20 (ls.map .line ++ [.eof]) (atPrompt [])

/-- A session of lines that the shell copes with. -/
example : outcome (demoLoop [cs!"cd /x", cs!"|", cs!"", cs!"X=a", cs!"pwd", cs!"b &"]).1 = .ok := by decide +kernel

/-- The hypotheses are met by lines of every kind. -/
example : Tame (atPrompt []) [] ∧ Tame (atPrompt []) (cs!"a | ; b") ∧
    Tame (atPrompt []) (⟨cs!"cd", [word (cs!"/x")]⟩ : Call).text ∧
    Tame (atPrompt []) (assignment (cs!"X") (.plain (cs!"a"))).line.text ∧
    Tame (atPrompt []) (ExtPipe.mk (plainExt (cs!"a") []) [plainExt (cs!"b") [cs!"-c"]] true).text ∧
    valueOf (atPrompt []) (cs!"PS1") = some (cs!"$ ") := by
  refine ⟨.empty, .syntaxError (by decide +kernel), .builtin ⟨by decide, by decide, by decide +kernel, by decide, ?_⟩ .cd
    (by decide) (by decide), .assign (by decide) ⟨by decide, by decide, unqualified_iff.2 rfl, rfl⟩ (by decide) (by decide +kernel) ?_,
    .background ?_ rfl, by decide +kernel⟩
  · intro a ha
    rw [List.mem_singleton.1 ha]
    exact means_word (by decide)
  · have h : (atPrompt []).ctx.getVar (cs!"X") = none := by
      have : ((atPrompt []).ctx.getVar (cs!"X")).isNone = true := by decide +kernel
      simpa using this
    intro b hb
    rw [h] at hb; cases hb
  · intro e he
    simp only [ExtPipe.stages, List.mem_cons, List.not_mem_nil, or_false] at he
    rcases he with rfl | rfl
    · exact plainExt_simple (by decide +kernel)
    · exact plainExt_simple (by decide +kernel)

/-- **C86** is false as stated: `cd` without a directory ends the shell, and so does the prompt after
`unset PS1`. -/
theorem C86_counterexample :
    outcome (demoLoop [cs!"cd"]).1 = .panic .index ∧ outcome (demoLoop [cs!"unset PS1"]).1 = .panic .unwrap := by
  decide +kernel

end Rsh

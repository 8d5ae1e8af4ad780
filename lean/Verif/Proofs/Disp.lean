import Verif.Proofs.Static
import Verif.Proofs.Prompt

/-!
# Signal dispositions during a session
-/

namespace Rsh

open Spec

/-- What `remove_handlers` makes of the dispositions. -/
def resetDisp (d : Nat → Disp) : Nat → Disp := fun n => if handledSignals.contains n then .dfl else d n

theorem resetDisp_reset (d : Nat → Disp) : resetDisp (resetDisp d) = resetDisp d := by
  funext n
  unfold resetDisp
  split <;> rfl

/-- Dispositions are only ever reset. -/
structure SigRel (s s' : Sh) : Prop where
  mode : s'.sigMode = s.sigMode
  disp : s'.disp = s.disp ∨ s'.disp = resetDisp s.disp

namespace SigRel

theorem same {s s' : Sh} (h1 : s'.sigMode = s.sigMode) (h2 : s'.disp = s.disp) : SigRel s s' := ⟨h1, .inl h2⟩

theorem seq : Seq SigRel (fun _ _ => True) where
  refl _ := same rfl rfl
  trans h1 h2 := by
    refine ⟨h2.mode.trans h1.mode, ?_⟩
    rcases h1.disp with h | h <;> rcases h2.disp with h' | h'
    · exact .inl (h'.trans h)
    · exact .inr (by rw [h', h])
    · exact .inr (h'.trans h)
    · exact .inr (by rw [h', h, resetDisp_reset])
  rq _ := trivial
  rqq _ _ := trivial

theorem frame (w : World) : Frame w (fun _ => True) SigRel (fun _ _ => True) where
  toSeq := seq
  trace _ _ _ := same rfl rfl
  masked _ _ := same rfl rfl
  handlers _ := ⟨rfl, .inr rfl⟩
  createJob _ _ _ _ := same rfl rfl
  deleteJob _ _ := same rfl rfl
  resumeJob _ _ _ := same rfl rfl
  scan _ _ _ _ _ := same rfl rfl
  waited _ _ _ _ := same rfl rfl
  gotSigchld _ _ := same rfl rfl
  exitStatus _ _ := same rfl rfl
  subst rec x _ := fun s => by
    have h := evalSubshell_expands w rec x s
    rcases hr : evalSubshell w rec x s with ⟨o, s'⟩
    rw [hr] at h
    cases o with
    | ok a => obtain ⟨np, tr, rfl⟩ := h; exact same rfl rfl
    | err a => obtain ⟨np, tr, rfl⟩ := h; exact same rfl rfl
    | _ => trivial
  fork rec b id procs _ := fork_of seq (w := w) (rec := rec) (fun _ _ _ => same rfl rfl)
    (fun _ _ _ => same rfl rfl) (fun _ _ _ _ _ _ _ => same rfl rfl) b id procs.length procs 0 (-1, -1) (-1)
  setEnv _ _ _ := same rfl rfl
  aliases _ _ := same rfl rfl
  cwd _ _ _ _ := same rfl rfl
  addVar _ _ _ _ := same rfl rfl
  addVarPos _ _ _ _ _ := same rfl rfl
  addFunction _ _ _ := same rfl rfl
  removeVar _ _ := same rfl rfl
  removeFunction _ _ := same rfl rfl
  removeContext _ _ := same rfl rfl
  addVarReadonly _ _ _ _ := same rfl rfl
  setVarReadonly _ _ _ _ := same rfl rfl
  envVar _ _ _ _ _ _ := same rfl rfl
  envFun _ _ _ _ _ := same rfl rfl
  nameSelf _ _ _ _ := same rfl rfl
  func _ c h := func_of seq (fun _ _ => same rfl rfl) h.2 c
  ctxFile _ file ns h := ctxFile_of seq (fun _ _ => same rfl rfl) (fun _ _ _ => same rfl rfl) h.2 file ns

end SigRel

/-- The dispositions of a process that was just started. -/
def freshDisp : Nat → Disp := fun n => if n = SIGPIPE then .ign else .dfl

/-- The dispositions once the shell has installed its handlers. -/
def shellDisp : Nat → Disp := fun n =>
  if n = SIGINT ∨ n = SIGCHLD ∨ n = SIGTSTP then .catch else freshDisp n

theorem resetDisp_fresh : resetDisp freshDisp = freshDisp := by
  funext n
  unfold resetDisp
  split
  · rename_i h
    have h : n ∈ handledSignals := by simpa using h
    simp only [handledSignals, List.mem_cons, List.not_mem_nil, or_false] at h
    rcases h with rfl | rfl | rfl | rfl | rfl | rfl | rfl <;> rfl
  · rfl

theorem resetDisp_shell : resetDisp shellDisp = freshDisp := by
  rw [← resetDisp_fresh]
  funext n
  unfold resetDisp
  split
  · rfl
  · rename_i h
    unfold shellDisp
    rw [if_neg]
    rintro (rfl | rfl | rfl) <;> exact h rfl

/-- Before the handlers are installed. -/
theorem preStart_sig {w : World} {n : Nat} {args : List Str} :
    Keeps SigRel (fun _ _ => True) (do
      let _ ← parseArgs w args
      pushContextNew
      setArg0
      readStartup w n (cs!"~/.rshrc")
      readStartup w n (cs!"~/.profile") : M Unit) := by
  have F := SigRel.frame w
  have S := SigRel.seq
  have harg : ∀ as st, Keeps SigRel (fun _ _ => True) (argLoop as st) := by
    intro as
    induction as with
    | nil => exact fun _ => .pure S _
    | cons a as ih =>
      intro st
      unfold argLoop
      refine .bind S (F.printlnM _) fun _ => ?_
      have h1 : ∀ a, Keeps SigRel (fun _ _ => True) (setScriptName a) := fun a => .modS fun s => .same rfl rfl
      have h2 : ∀ a i, Keeps SigRel (fun _ _ => True) (setInputArgs a i) := fun a i => F.addVarAt _ _
      split
      · exact .panicM S _
      · refine .ite (.ite (.pure S _) (ih _)) (.ite (.bind S (h1 _) fun _ => ih _)
          (.ite (.bind S (h2 _ _) fun _ => ih _) (.ite (.bind S (h1 _) fun _ => ih _) (ih _))))
  have hr := F.readStartup (fun _ => trivial) n
  refine .bind S ?_ fun _ => .bind S (.modS fun s => .same rfl rfl) fun _ =>
    .bind S (.bind S (.getS S) fun _ => F.addVarAt _ _) fun _ => .bind S (hr _) fun _ => hr _
  unfold parseArgs
  refine .ite (.pure S _) (.bind S (harg _ _) fun st => .ite (.bind S (.modS fun s => .same rfl rfl)
    fun _ => .bind S (F.printlnM _) fun _ => .pure S _) (.pure S _))

/-- Before the handlers are installed, the process is not a child. -/
theorem setSignal_fresh {s : Sh} (g : Nat) (hg : 0 < g ∧ g ≤ 31 ∧ g ≠ 9 ∧ g ≠ 19) (hm : s.sigMode g = none) :
    ∃ m, setSignal g s = (.ok (), { s with sigMode := m, disp := fun n => if n = g then sigAction s.forked g else s.disp n }) ∧
      ∀ k, k ≠ g → m k = s.sigMode k := by
  unfold setSignal
  rw [if_neg (by omega), run_getS_bind]
  simp only [hm, reduceCtorEq, or_self, if_false]
  rw [run_modS_bind, if_neg (by omega)]
  refine ⟨if s.forked then s.sigMode else fun n => if n = g then some (.act (sigAction s.forked g)) else s.sigMode n,
    rfl, fun k hk => ?_⟩
  split
  · rfl
  · simp [hk]

/-- At every prompt the shell either has its handlers or (after an `exec` that failed) none of them; nothing else
ever changes. -/
theorem AtPrompt_disp {w : World} {s : Sh} (h : AtPrompt w s) : s.disp = shellDisp ∨ s.disp = freshDisp := by
  have F := SigRel.frame w
  have S := SigRel.seq
  have step : ∀ {s s' : Sh}, SigRel s s' → (s.disp = shellDisp ∨ s.disp = freshDisp) →
      s'.disp = shellDisp ∨ s'.disp = freshDisp := by
    intro s s' h hs
    rcases h.disp with h | h
    · rw [h]; exact hs
    · rw [h]
      rcases hs with hs | hs
      · exact .inr (by rw [hs, resetDisp_shell])
      · exact .inr (by rw [hs, resetDisp_fresh])
  induction h with
  | @start root ppid pid cwd env waits n args s h =>
    have hown := AtPrompt_own (.start h)
    have e : startUp w n args = ((do
        let _ ← parseArgs w args
        pushContextNew
        setArg0
        readStartup w n (cs!"~/.rshrc")
        readStartup w n (cs!"~/.profile") : M Unit) >>= fun _ => do
      setSignal SIGCHLD
      setSignal SIGTSTP
      setSignal SIGINT
      modS fun s => { s with historyLoc := cs!"history.txt" }) := by
      unfold startUp
      simp only [bind_assoc]
    rw [e] at h
    obtain ⟨_, s1, h1, h2⟩ := bind_ok_iff.1 h
    have hr := preStart_sig.ok h1
    have hm : ∀ g, s1.sigMode g = none := by
      intro g
      rw [hr.mode]
      rfl
    have hd : s1.disp = freshDisp := by
      rcases hr.disp with h | h
      · exact h
      · rw [h]; exact resetDisp_fresh
    obtain ⟨m1, e1, k1⟩ := setSignal_fresh (s := s1) SIGCHLD (by decide) (hm _)
    rw [run_bind_ok e1] at h2
    obtain ⟨m2, e2, k2⟩ := setSignal_fresh (s := { s1 with
        sigMode := m1, disp := fun n => if n = SIGCHLD then sigAction s1.forked SIGCHLD else s1.disp n }) SIGTSTP
      (by decide) ((k1 _ (by decide)).trans (hm _))
    rw [run_bind_ok e2] at h2
    obtain ⟨m3, e3, k3⟩ := setSignal_fresh (s := { s1 with
        sigMode := m2, disp := fun n => if n = SIGTSTP then sigAction s1.forked SIGTSTP else
          if n = SIGCHLD then sigAction s1.forked SIGCHLD else s1.disp n }) SIGINT
      (by decide) ((k2 _ (by decide)).trans ((k1 _ (by decide)).trans (hm _)))
    rw [run_bind_ok e3] at h2
    have hs := (Prod.mk.inj h2).2
    have hf : s1.forked = false := by
      have := hown.1
      rw [← hs] at this
      exact this
    left
    rw [← hs]
    funext g
    show (if g = SIGINT then sigAction s1.forked SIGINT else if g = SIGTSTP then sigAction s1.forked SIGTSTP else
          if g = SIGCHLD then sigAction s1.forked SIGCHLD else s1.disp g) = _
    rw [hf, hd]
    unfold shellDisp
    by_cases h1 : g = SIGINT
    · subst h1; rfl
    · by_cases h2 : g = SIGTSTP
      · subst h2; rfl
      · by_cases h3 : g = SIGCHLD
        · subst h3; rfl
        · simp [h1, h2, h3]
  | line _ h ih => exact step ((Keeps.bind S F.prompt fun _ => F.interactiveLine (fun _ => trivial) _ _).ok h) ih
  | interrupted _ h ih => exact step (F.prompt.ok h) ih
  | sig _ h ih =>
    exact step ((F.deliver (fun _ _ _ _ => .same rfl rfl) (fun _ _ _ => .same rfl rfl) F.waitForJob _).ok h) ih
  | waits _ ih => exact ih

end Rsh

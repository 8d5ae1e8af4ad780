import Verif.Props.Substitutions
import Verif.Props.Process

/-!
# Property C142: signals from the keyboard during a command substitution
-/

namespace Rsh

open Spec

theorem substSignal_dead {w : World} {g : Nat} {s : Sh} (hg : g = 2 ∨ g = 20) (hd : s.disp g = .catch) :
    (substSignal w (some g) s).1 = .panic .unwrap := by
  have hb : ¬ (s.masked = true ∧ ¬ unblockedSignals.contains g = true) := by
    rcases hg with rfl | rfl <;> simp [unblockedSignals]
  unfold substSignal
  simp only
  rw [run_getS_bind, if_neg hb, hd]
  show ((onSigOther w g >>= fun _ => panicM .unwrap : M Unit) s).1 = _
  rw [run_bind]
  have : (∃ s', onSigOther w g s = (.ok (), s')) ∨ ∃ s', onSigOther w g s = (.panic .unwrap, s') := by
    unfold onSigOther
    rw [run_getS_bind]
    by_cases hf : s.forked = true
    · rw [if_pos hf]; exact .inl ⟨_, rfl⟩
    · rw [if_neg hf]
      by_cases h2 : g = SIGINT
      · rw [if_pos h2]
        cases s.fds.get 0 with
        | none => exact .inr ⟨_, rfl⟩
        | some e =>
          by_cases ho : w.writeOk s.trace e.chan = true
          · simp only [if_pos ho]; exact .inl ⟨_, rfl⟩
          · simp only [if_neg ho]; exact .inr ⟨_, rfl⟩
      · rw [if_neg h2]; exact .inl ⟨_, rfl⟩
  rcases this with ⟨s', h⟩ | ⟨s', h⟩ <;> rw [h] <;> rfl

theorem substSignal_killed {w : World} {s : Sh} (hd : s.disp 2 = .dfl) :
    (substSignal w (some 2) s).1 = .exit 130 := by
  unfold substSignal
  simp only
  rw [run_getS_bind, if_neg (by simp [unblockedSignals]), hd]
  rfl

/-- A substitution during which a signal arrives that ends the shell. -/
theorem evalSubshell_halt {w : World} (hw : Resources w) (tick : Bool) (n : Nat) {s : Sh} {text : Str} {p : CompleteCommand}
    (hparse : parse text = some p) (hfds : s.fds = stdTable) (hm : s.masked = true) {o : Out Int} {s1 : Sh}
    (hrun : evalText w n text (copyOf w s) = (o, s1)) {e : ChildEnd} (hend : CopyEnds o s1 e ∨ o = .hang ∧ e = .hang)
    {evs : List Event} (hevs : s1.trace = evs.reverse ++ (copyOf w s).trace) {z : Halt}
    (hz : (substSignal w (w.substSig (.subst e evs :: s.trace)) { s with
      fds := (3, ⟨.pipeR s.nextPipe, false⟩) :: stdTable
      nextPipe := s.nextPipe + 1
      trace := .subst e evs :: s.trace }).1 = z.out) :
    (evalSubshell w (evalFuel w n) (substitution tick text) s).1 = z.out := by
  have hpipe : pipeM w s = (.ok (some (3, 4)), { s with
      fds := (4, ⟨.pipeW s.nextPipe, false⟩) :: (3, ⟨.pipeR s.nextPipe, false⟩) :: stdTable
      nextPipe := s.nextPipe + 1 }) := by
    unfold pipeM
    rw [if_pos (hw.pipe _), hfds]
    rfl
  have hf : ∃ p, w.fork s.trace = some p := by
    rcases hq : w.fork s.trace with _ | p
    · exact absurd hq (hw.fork _)
    · exact ⟨p, rfl⟩
  obtain ⟨q, hq⟩ := hf
  unfold evalSubshell
  rw [substText_subst]
  simp only
  rw [hparse, unwrapM_some, run_pure_bind, run_getS_bind]
  rw [run_bind_ok (a := (3, 4)) (by rw [run_bind_ok hpipe]; rfl)]
  simp only
  rw [run_getS_bind, hq, unwrapM_some, run_pure_bind, run_bind_ok (substChild_any n hparse hm hrun hend hevs)]
  simp only
  rw [subst_wait w _ s.nextPipe s]
  exact halt_bind hz _

/-- **C142** is false: an interrupt from the keyboard (SIGINT) that arrives while the shell waits for a command
substitution, whatever its text does, is the end of the shell, always: it panics, or, if a failed `exec` has taken the
handlers away, is killed. -/
theorem C142_interrupt (w : World) (hw : Resources w) (n : Nat) (s : Sh) (hp : AtPrompt w s) (l : QuotedLine) (hok : l.Ok s)
    (p : CompleteCommand) (hparse : parse l.cmd = some p) (o : Out Int) (s1 : Sh)
    (hrun : evalText w (n + 1) l.cmd (copyOf w s) = (o, s1)) (e : ChildEnd) (hend : CopyEnds o s1 e ∨ o = .hang ∧ e = .hang)
    (evs : List Event) (hevs : s1.trace = evs.reverse ++ (copyOf w s).trace)
    (hs : w.substSig (.subst e evs :: s.trace) = some 2) :
    (interactiveLine w (n + 2) l.text s).1 = .panic .unwrap ∨ (interactiveLine w (n + 2) l.text s).1 = .exit 130 := by
  have hfds : s.fds = stdTable := AtPrompt_resources_fds hw hp
  have hsub := fun z => evalSubshell_halt (z := z) hw l.tick (n + 1) (s := { s with masked := true }) hparse hfds rfl hrun
    hend hevs
  have hd : s.disp 2 = .catch ∨ s.disp 2 = .dfl := by
    rcases AtPrompt_disp hp with h | h <;> rw [h]
    · exact .inl rfl
    · exact .inr rfl
  rcases hd with hd | hd
  · refine .inl (quoted_halt (z := .panic .unwrap) w n s l hok (hsub _ ?_))
    show (substSignal w (w.substSig (.subst e evs :: s.trace)) _).1 = _
    rw [hs]
    exact substSignal_dead (.inl rfl) hd
  · refine .inr (quoted_halt (z := .exit 130) w n s l hok (hsub _ ?_))
    show (substSignal w (w.substSig (.subst e evs :: s.trace)) _).1 = _
    rw [hs]
    exact substSignal_killed hd

/-- **C142** is false for the stop key (SIGTSTP), too, as long as the handlers are there. -/
theorem C142_stop (w : World) (hw : Resources w) (n : Nat) (s : Sh) (hp : AtPrompt w s) (hd : s.disp 20 = .catch)
    (l : QuotedLine) (hok : l.Ok s)
    (p : CompleteCommand) (hparse : parse l.cmd = some p) (o : Out Int) (s1 : Sh)
    (hrun : evalText w (n + 1) l.cmd (copyOf w s) = (o, s1)) (e : ChildEnd) (hend : CopyEnds o s1 e ∨ o = .hang ∧ e = .hang)
    (evs : List Event) (hevs : s1.trace = evs.reverse ++ (copyOf w s).trace)
    (hs : w.substSig (.subst e evs :: s.trace) = some 20) :
    (interactiveLine w (n + 2) l.text s).1 = .panic .unwrap := by
  have hfds : s.fds = stdTable := AtPrompt_resources_fds hw hp
  refine quoted_halt (z := .panic .unwrap) w n s l hok (evalSubshell_halt (z := .panic .unwrap) hw l.tick (n + 1)
    (s := { s with masked := true }) hparse hfds rfl hrun hend hevs ?_)
  show (substSignal w (w.substSig (.subst e evs :: s.trace)) _).1 = _
  rw [hs]
  exact substSignal_dead (.inr rfl) hd

/-- **C142**, the part that holds: every signal that can be blocked, but SIGINT and SIGTSTP, is held back while
the shell waits for a command substitution; the line is carried out. -/
theorem C142_held_partial (w : World) (hw : Resources w)
    (hsig : ∀ tr g, w.substSig tr = some g → g ≠ 2 ∧ g ≠ 9 ∧ g ≠ 19 ∧ g ≠ 20) (n : Nat) (s : Sh) (hp : AtPrompt w s)
    (l : QuotedLine) (hok : l.Ok s) (p : CompleteCommand) (hparse : parse l.cmd = some p) (file' : Str)
    (hrun' : ∀ tr, Runnable w s (tr ++ s.trace) l.name file') (o : Out Int) (s1 : Sh)
    (hrun : evalText w (n + 1) l.cmd (copyOf w s) = (o, s1)) (e : ChildEnd) (hend : CopyEnds o s1 e) (evs : List Event)
    (hevs : s1.trace = evs.reverse ++ (copyOf w s).trace) (out : Str)
    (hout : Delivers w (.pipeW s.nextPipe) [.subst e evs] out) (hfit : blen out ≤ w.pipeCap) (v0 v : Str) (htr : Trimmed out v0)
    (hv : v = l.pre ++ (v0 ++ l.post)) (vs : List Str) (hbec : Becomes v vs) (hnul : ∀ x ∈ vs, '\x00' ∉ x)
    (hbt : v.head? ≠ some '`') (hds : ∀ t, v ≠ '$' :: '(' :: t) :
    ∃ pid' img', Happened s (interactiveLine w (n + 2) l.text s).2 [.subst e evs, .spawn pid' (.exec img') []] ∧
      img'.argv = l.argv vs := by
  obtain ⟨pid', img', h1, -, h2, -⟩ := C25_any_partial w hw (fun tr g h => by simpa using hsig tr g h) n s hp l hok p hparse
    file' hrun' o s1 hrun e hend evs hevs out hout hfit v0 v htr hv vs hbec hnul hbt hds
  exact ⟨pid', img', h1, h2⟩

/-- A session with a signal during a command substitution. -/
def disturbed (g : Nat) : World := { demoWorld [] with substSig := fun _ => some g }

/-- A session in such a world, at the prompt, after the lines `ls`. -/
def disturbedPrompt (g : Nat) (ls : List Str) : Out Unit × Sh :=
  (do startUp (disturbed g) 5 []; session (disturbed g) ls : M Unit)
    (initSh false 1 2 (cs!"/") [(cs!"PATH", cs!"/bin"), (cs!"HOME", cs!"/home")] [])

theorem disturbed_atPrompt {g : Nat} {ls : List Str} (h : outcome (disturbedPrompt g ls).1 = .ok) :
    AtPrompt (disturbed g) (disturbedPrompt g ls).2 := by
  obtain ⟨a, ha⟩ := outcome_ok h
  unfold disturbedPrompt at ha ⊢
  obtain ⟨b, s1, h1, h2⟩ := bind_ok_iff.1 (Prod.ext ha rfl)
  exact session_atPrompt (.start h1) ls h2

/-- **C142** is false: reachable sessions that end with the line `a "$(b c)"`. -/
theorem C142_counterexample :
    AtPrompt (disturbed 2) (disturbedPrompt 2 []).2 ∧ AtPrompt (disturbed 20) (disturbedPrompt 20 []).2 ∧
    AtPrompt (disturbed 2) (disturbedPrompt 2 [cs!"exec nope"]).2 ∧
    outcome (typeLines (disturbed 2) [cs!"a \"$(b c)\""] (disturbedPrompt 2 []).2).1 = .panic .unwrap ∧
    outcome (typeLines (disturbed 20) [cs!"a \"$(b c)\""] (disturbedPrompt 20 []).2).1 = .panic .unwrap ∧
    outcome (typeLines (disturbed 2) [cs!"a \"$(b c)\""] (disturbedPrompt 2 [cs!"exec nope"]).2).1 = .exit 130 :=
  ⟨disturbed_atPrompt (by decide +kernel), disturbed_atPrompt (by decide +kernel), disturbed_atPrompt (by decide +kernel),
    by decide +kernel, by decide +kernel, by decide +kernel⟩

/-- Other signals are held back. -/
example : started (typeLines (disturbed 15) [cs!"a \"$(b c)\""] (demoShell [])).2.trace = [[cs!"a", cs!"c"]] ∧
    started (typeLines (disturbed 17) [cs!"a \"$(b c)\""] (demoShell [])).2.trace = [[cs!"a", cs!"c"]] ∧
    (∀ tr g, (disturbed 15).substSig tr = some g → g ≠ 2 ∧ g ≠ 9 ∧ g ≠ 19 ∧ g ≠ 20) :=
  ⟨by decide +kernel, by decide +kernel, fun tr g h => by cases h; decide⟩

end Rsh

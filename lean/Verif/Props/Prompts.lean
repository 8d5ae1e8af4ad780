import Verif.Props.Sessions

/-!
# Property C117: prompts and the end of a session
-/

namespace Rsh

open Spec

theorem saveHistory_at {w : World} {s : Sh} (hh : s.historyLoc = cs!"history.txt") (hf : s.fds = stdTable) :
    saveHistory w s = (.ok (), did s (lastAct w s)) := by
  unfold saveHistory lastAct
  rw [run_getS_bind, hh]
  split
  · rfl
  · show (Out.ok (), { s with trace := .eprint ((s.fds.get 2).map FdE.chan) _ :: s.trace }) = _
    rw [show (s.fds.get 2).map FdE.chan = some (.orig 2) by rw [hf]; rfl]; rfl

/-- **C117**: before every input the shell shows the value `PS1` has at that moment on its standard output; an
interrupt only leads to the next prompt; at the end of the input, and after an error of the line editor, which is
reported, the shell writes its history to `history.txt`, or says that it cannot, and ends. -/
theorem C117_prompt (w : World) (hw : Resources w) (n : Nat) (s : Sh) (hp : AtPrompt w s) (ps1 : Str)
    (hps : valueOf s (cs!"PS1") = some ps1) (ins : List SessionIn) :
    (∀ l, interactiveLoop w n (.line l :: ins) s =
      (do interactiveLine w n l; interactiveLoop w n ins : M Unit) (did s (shown ps1))) ∧
    interactiveLoop w n (.interrupted :: ins) s = interactiveLoop w n ins (did s (shown ps1)) ∧
    (let s1 := did s (shown ps1)
     interactiveLoop w n (.eof :: ins) s = (.ok (), did s1 (lastAct w s1))) ∧
    (let s1 := did (did s (shown ps1)) (.print (some (.orig 1)) (cs!"Readline Error: " ++ w.osMsg ++ cs!"\n"))
     interactiveLoop w n (.rlError :: ins) s = (.ok (), did s1 (lastAct w s1))) := by
  have hf := AtPrompt_resources_fds hw hp
  have hh := AtPrompt_history hp
  have h1 : (s.fds.get 1).map FdE.chan = some (.orig 1) := by rw [hf]; rfl
  have hpr : prompt s = (.ok (), did s (shown ps1)) := by
    rw [prompt_some hps, h1]; rfl
  refine ⟨fun l => ?_, ?_, ?_, ?_⟩
  · rw [loop_handle w n _ (by trivial)]
    show ((do prompt; interactiveLine w n l : M Unit) >>= fun _ => interactiveLoop w n ins) s = _
    rw [bind_assoc, run_bind_ok hpr]
  · rw [loop_handle w n _ (by trivial)]
    exact run_bind_ok hpr _
  · show (do let p ← (do unwrapM .unwrap (← expandVar .none (cs!"PS1"))); printM p; saveHistory w : M Unit) s = _
    have e : (do let p ← (do unwrapM .unwrap (← expandVar .none (cs!"PS1"))); printM p; saveHistory w : M Unit) =
        (prompt >>= fun _ => saveHistory w) := by
      unfold prompt
      simp only [bind_assoc]
    rw [e, run_bind_ok hpr]
    exact saveHistory_at hh hf
  · show (do let p ← (do unwrapM .unwrap (← expandVar .none (cs!"PS1"))); printM p
             printlnM (cs!"Readline Error: " ++ w.osMsg); saveHistory w : M Unit) s = _
    have e : (do let p ← (do unwrapM .unwrap (← expandVar .none (cs!"PS1"))); printM p
                 printlnM (cs!"Readline Error: " ++ w.osMsg); saveHistory w : M Unit) =
        (prompt >>= fun _ => printlnM (cs!"Readline Error: " ++ w.osMsg) >>= fun _ => saveHistory w) := by
      unfold prompt
      simp only [bind_assoc]
    rw [e, run_bind_ok hpr]
    have hl : printlnM (cs!"Readline Error: " ++ w.osMsg) (did s (shown ps1)) =
        (.ok (), did (did s (shown ps1)) (.print (some (.orig 1)) (cs!"Readline Error: " ++ w.osMsg ++ cs!"\n"))) := by
      show (Out.ok (), did (did s (shown ps1)) (.print ((s.fds.get 1).map FdE.chan) _)) = _
      rw [h1]
    rw [run_bind_ok hl]
    exact saveHistory_at hh hf

/-- **C117** for whole sessions: when the inputs `ins` have led back to a prompt, and then the input ends, the shell
shows `PS1` once more, writes its history, and `main` returns. -/
theorem C117_end (w : World) (hw : Resources w) (n : Nat) (s s' : Sh) (hp : AtPrompt w s) (ins : List SessionIn)
    (hi : ∀ i ∈ ins, GoesOnAfter i) (hv : Visits w n s ins s') (ps1 : Str) (hps : valueOf s' (cs!"PS1") = some ps1)
    (rest : List SessionIn) :
    interactiveLoop w n (ins ++ .eof :: rest) s =
      (.ok (), did (did s' (shown ps1)) (lastAct w (did s' (shown ps1)))) := by
  have hp' : AtPrompt w s' := by
    clear hps
    induction hv with
    | nil => exact hp
    | cons h _ ih => exact ih (handle_prompt hp h) fun i hi' => hi i (List.mem_cons_of_mem _ hi')
  rw [loop_visits hv hi]
  exact (C117_prompt w hw n s' hp' ps1 hps rest).2.2.1

/-- A session: the prompt is changed, an interrupt, an empty line, the end of the input. -/
def demoPrompts : List SessionIn := [.line (cs!"PS1='? '"), .interrupted, .line []]

example : let r := interactiveLoop (demoWorld []) 20 (demoPrompts ++ [.eof]) (atPrompt [] [])
    printed r.2.trace = [(some (.orig 1), cs!"$ "), (some (.orig 1), cs!"? "), (some (.orig 1), cs!"? "),
      (some (.orig 1), cs!"? ")] := by
  decide +kernel

end Rsh

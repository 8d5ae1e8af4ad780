import Verif.Spec.StartFiles
import Verif.Props.Sessions
import Verif.Props.Directory

/-!
# C138: the history file
-/

namespace Rsh

open Spec

theorem savesOf_append (a b : List Event) : savesOf (a ++ b) = savesOf b ++ savesOf a := by
  simp [savesOf]

/-- The history was not written. -/
def Unsaved (s s' : Sh) : Prop := savesOf s'.trace = savesOf s.trace

/-- The history was not written, or written at the very end. -/
def SavedLast (s s' : Sh) : Prop :=
  Unsaved s s' ∨ ∃ loc evs, s'.trace = .saveHistory loc :: evs ∧ savesOf evs = savesOf s.trace

namespace Unsaved

theorem seq : Seq Unsaved SavedLast where
  refl _ := rfl
  trans h1 h2 := h2.trans h1
  rq := .inl
  rqq := by
    rintro a b c h1 (h2 | ⟨loc, evs, h2, h3⟩)
    · exact .inl (h2.trans h1)
    · exact .inr ⟨loc, evs, h2, h3.trans h1⟩

theorem same {s s' : Sh} (h : s'.trace = s.trace) : Unsaved s s' := by
  unfold Unsaved; rw [h]

theorem event {s s' : Sh} {e : Event} (he : ∀ p, e ≠ .saveHistory p) (h : s'.trace = e :: s.trace) : Unsaved s s' := by
  unfold Unsaved
  rw [h, show e :: s.trace = [e] ++ s.trace from rfl, savesOf_append]
  cases e <;> simp_all [savesOf]

theorem common {s s' : Sh} {e : Event} (he : Common e = true) (h : s'.trace = e :: s.trace) : Unsaved s s' :=
  event (fun p hp => by rw [hp] at he; cases he) h

theorem frame (w : World) : Frame w (fun _ => True) Unsaved SavedLast where
  toSeq := seq
  trace _ _ h := common (Ordinary.common h) rfl
  saved _ loc := .inr ⟨loc, _, rfl, rfl⟩
  masked _ _ := same rfl
  handlers _ := same rfl
  createJob _ _ _ _ := same rfl
  deleteJob _ _ := same rfl
  resumeJob _ _ _ := same rfl
  scan _ _ _ _ _ := same rfl
  waited _ r _ _ := common (e := .waited r) rfl rfl
  gotSigchld _ _ := same rfl
  exitStatus _ _ := same rfl
  subst _ x _ := subst_of seq (fun _ _ _ => same rfl) (fun _ _ h => common h rfl) x
  fork _ b id procs _ := fork_of seq (fun _ _ _ => same rfl) (fun _ _ h => common h rfl)
    (fun _ _ _ pid e evs _ => common (e := .spawn pid e evs) rfl rfl) b id _ procs 0 _ _
  setEnv _ _ _ := same rfl
  aliases _ _ := same rfl
  cwd _ _ p _ := event (e := .chdir p) (fun _ h => by cases h) rfl
  addVar _ _ _ _ := same rfl
  addVarPos _ _ _ _ _ := same rfl
  addFunction _ _ _ := same rfl
  removeVar _ _ := same rfl
  removeFunction _ _ := same rfl
  removeContext _ _ := same rfl
  addVarReadonly _ _ _ _ := same rfl
  setVarReadonly _ _ _ _ := same rfl
  envVar _ _ _ _ _ _ := same rfl
  envFun _ _ _ _ _ := same rfl
  nameSelf _ _ _ _ := same rfl
  func _ c h := func_of seq (fun _ _ => same rfl) h.2 c
  ctxFile _ file ns h := ctxFile_of seq (fun _ _ => same rfl) (fun _ _ h => common h rfl) h.2 file ns

theorem starts : StartSteps Unsaved where
  mark _ _ _ _ := same rfl
  fin _ _ _ := same rfl
  mode _ _ := same rfl
  disp _ _ := same rfl
  hist _ _ := same rfl
  push _ := same rfl
  script _ _ := same rfl
  quiet _ := same rfl

end Unsaved

/-- No prompt has been reached by a shell that has written its history. -/
theorem AtPrompt_unsaved {w : World} {s : Sh} (hp : AtPrompt w s) : savesOf s.trace = [] := by
  obtain ⟨root, ppid, pid, cwd, env, waits, h⟩ := (Unsaved.frame w).atPrompt
    (fun _ _ => .same rfl) (fun _ _ _ => .same rfl) (fun _ _ => .same rfl) (fun _ _ => .same rfl) (fun _ _ => .same rfl)
    (fun _ _ => .same rfl) (fun _ _ => .same rfl) hp
  exact h

/-- C138, at most once and last: in no run whatsoever is the history written more than once by the shell process itself, and nothing
follows the writing. -/
theorem C138_once (w : World) (n k : Nat) (root : Bool) (ppid pid : Nat) (cwd : Str) (env : AMap Str) (waits : List WRes)
    (args : List Str) (ins : List SessionIn) (s : Sh) (o : Out Unit)
    (hr : mainM w n k args ins (initSh root ppid pid cwd env waits) = (o, s)) :
    savesOf s.trace = [] ∨ ∃ loc evs, s.trace = .saveHistory loc :: evs ∧ savesOf evs = [] := by
  have h := (Unsaved.frame w).mainEnd (E := SavedLast) (fun _ => trivial) Unsaved.starts
    ⟨.inl, Unsaved.seq.rqq, fun _ loc => .inr ⟨loc, _, rfl, rfl⟩⟩ n k args ins (initSh root ppid pid cwd env waits)
  rw [hr] at h
  have h : SavedLast (initSh root ppid pid cwd env waits) s := by cases o <;> exact h
  exact h

/-- C138, the part that holds: where a session ends with the end of its input or with `exit`, the history is written once, to `history.txt` in the
directory the shell is then in.  Missing: sessions that end in another way, and that the directory is always the same
(`C138_counterexample`). -/
theorem C138_written_partial (w : World) (n : Nat) (s : Sh) (hp : AtPrompt w s)
    (hsave : ∀ tr, w.saveOk tr (cs!"history.txt") = true) :
    (∀ ps1 rest, valueOf s (cs!"PS1") = some ps1 → ∃ s', interactiveLoop w n (.eof :: rest) s = (.ok (), s') ∧
      savesOf s'.trace = [cs!"history.txt"] ∧ s'.cwd = s.cwd) ∧
    ∀ (c : Call) (l : TLine) (code : Int), c.Ok s → c.name = cs!"exit" → c.Begins l →
      ((c.args = [] ∧ code = s.exitStatus) ∨ (c.values.head? = some (intStr code) ∧ Code code)) →
      ∃ s', interactiveLine w (n + 1) l.text s = (.exit code, s') ∧ savesOf s'.trace = [cs!"history.txt"] := by
  have hu := AtPrompt_unsaved hp
  refine ⟨fun ps1 rest hps => ?_, fun c l code hc hn hl hcode => ?_⟩
  · obtain ⟨ch, h⟩ := C86_end w n s hp rest ps1 hps hsave
    refine ⟨_, h, ?_, rfl⟩
    simp only
    rw [show (.saveHistory (cs!"history.txt") :: .print ch ps1 :: s.trace : List Event) =
      [.saveHistory (cs!"history.txt"), .print ch ps1] ++ s.trace from rfl, savesOf_append, hu]
    rfl
  · have hh := AtPrompt_history hp
    obtain ⟨s', h, -, ht⟩ := C75_exit w n s c hc hn l hl code hcode
    refine ⟨s', h, ?_⟩
    rw [ht, hh, if_pos (hsave _), show (.saveHistory (cs!"history.txt") :: s.trace : List Event) =
      [.saveHistory (cs!"history.txt")] ++ s.trace from rfl, savesOf_append, hu]
    rfl

example : promptOk [cs!"cd /tmp"] = true ∧ (valueOf (atPrompt [cs!"cd /tmp"]) (cs!"PS1")).isSome = true ∧
    (∀ tr, (demoWorld []).saveOk tr (cs!"history.txt") = true) := by
  refine ⟨by decide +kernel, by decide +kernel, fun _ => rfl⟩

/-- A session of the demo world. -/
def demoRun (ins : List SessionIn) : Out Unit × Sh :=
  mainM (demoWorld []) 20 5 [cs!"rsh"] ins (initSh false 1 2 (cs!"/") [(cs!"PATH", cs!"/bin"), (cs!"PS1", cs!"$ ")] [])

/-- C138 fails: after `cd` the file is another one; a session that crashes, is replaced by a program or is terminated does not
write it at all; and a process started for a substitution writes it as well. -/
theorem C138_counterexample :
    (outcome (demoRun [.line (cs!"cd /tmp")]).1 = .ok ∧ (demoRun [.line (cs!"cd /tmp")]).2.cwd = cs!"/tmp" ∧
      savesOf (demoRun [.line (cs!"cd /tmp")]).2.trace = [cs!"history.txt"]) ∧
    ((demoRun []).2.cwd = cs!"/" ∧ savesOf (demoRun []).2.trace = [cs!"history.txt"]) ∧
    (∀ i ∈ [SessionIn.line (cs!"fg x"), .line (cs!"exec ls"), .sig 15],
      outcome (demoRun [i]).1 ≠ .ok ∧ savesOf (demoRun [i]).2.trace = []) ∧
    (demoRun [.line (cs!"alias \"x=`exit`\"")]).2.trace.filterMap (fun
      | .subst _ evs => some (savesOf evs)
      | _ => none) = [[cs!"history.txt"]] := by
  decide +kernel

end Rsh

import Verif.Proofs.Kills
import Verif.Proofs.Prompt

/-!
# Signals go to processes the shell has started
-/

namespace Rsh

open Spec

theorem safe_kills {X : List Int} {m : M α} (hm : KSafe X m) {s : Sh} (h1 : s.trace = []) (h2 : s.jc.table = []) :
    onlyKnown X (m s).2.trace.reverse := by
  obtain ⟨new, hn, hp⟩ := (hm [] s ⟨[], h1, by
    show onlyKnown _ []
    unfold onlyKnown; trivial⟩ (fun q hq => by rw [h2] at hq; cases hq)).1
  rw [hn, List.append_nil]
  exact hp

/-- C121, where creating processes and pipes never fails: in every run of the shell, `fg` and `bg` and whatever else
the shell or a forked copy of it does send signals to no process but those that it, or the shell it is a copy of, has
started before. -/
theorem C121_known_partial (w : World) (hr : Resources w) (n k : Nat) (args : List Str) (ins : List SessionIn)
    (root : Bool) (ppid pid : Nat) (cwd : Str) (env : AMap Str) (waits : List WRes) :
    onlyKnown [] (mainM w n k args ins (initSh root ppid pid cwd env waits)).2.trace.reverse :=
  safe_kills (.mainM (.inr hr) n k args ins) rfl rfl

/-- C121, without that assumption: the only other addressee is `-1`, which stands for all processes. -/
theorem C121_any (w : World) (n k : Nat) (args : List Str) (ins : List SessionIn)
    (root : Bool) (ppid pid : Nat) (cwd : Str) (env : AMap Str) (waits : List WRes) :
    onlyKnown [-1] (mainM w n k args ins (initSh root ppid pid cwd env waits)).2.trace.reverse :=
  safe_kills (.mainM (.inl (by simp)) n k args ins) rfl rfl

/-- The signals sent by the shell itself, oldest first. -/
def Spec.killed (s : Sh) : List Int :=
  s.trace.reverse.filterMap fun e => match e with
    | .kill p => some p
    | _ => none

/-- C121 fails when the process for a background command cannot be created: the command is a job all the same, and `bg`
of it sends the signal to every process there is. -/
theorem C121_counterexample :
    killed (typeLines { demoWorld [] with fork := fun _ => none } [cs!"ls &", cs!"bg %1"] (demoShell [])).2 = [-1] := by
  decide +kernel

/-- The hypothesis of `C121_known_partial` is met, and signals are sent: here to two processes of a stopped pipeline. -/
example : Resources (demoWorld []) ∧
    killed (demo [cs!"a | b", cs!"bg %1"] [.st (.stopped 100 20), .st (.stopped 101 20)]) = [100, 101] :=
  ⟨demo_resources [], by decide +kernel⟩

/-- `onlyKnown` refuses a signal to a process that is started later, or by a child. -/
example : ¬ onlyKnown [] [.kill 100, .spawn 100 (.exit 0) []] ∧
    ¬ onlyKnown [] [.spawn 100 (.exit 0) [.spawn 101 (.exit 0) []], .kill 101] ∧
    onlyKnown [] [.spawn 100 (.exit 0) [], .spawn 101 (.exit 0) [.kill 100], .kill 101] := by
  simp [onlyKnown, onlyKnown1]

/-- C52 fails for a number that is no pid: a job is registered under the pid -1 before it has a process, and stays so;
4294967295 means -1. -/
theorem C52_noPid :
    killed (demo [cs!"ls &", cs!"bg 4294967295"] []) = [100] ∧
    ((demo [cs!"ls &"] []).jc.getJob 1).map (fun j => j.processes.map Process.pid) = some [100] := by
  decide +kernel

end Rsh

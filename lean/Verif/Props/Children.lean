import Verif.Proofs.Started
import Verif.Spec.Demo

/-!
# Forked copies of the shell never go on as shells
-/

namespace Rsh

open Spec

theorem safe_returned {E : Par} {m : M α} (hm : Safe E m) {s : Sh} (h1 : E.env s.env)
    (h2 : ∀ g, g ∉ handledSignals → s.disp g = E.disp g) :
    ∃ new, (m s).2.trace = new ++ s.trace ∧ ChildEnd.returned ∉ ends new := by
  obtain ⟨new, hn, hp⟩ := (hm s.trace s ⟨⟨[], rfl, fun _ hi => nomatch hi⟩, h1, h2⟩).1.trace
  refine ⟨new, hn, fun hi => ?_⟩
  obtain ⟨e, he, hi⟩ := mem_ends.1 hi
  exact (hp e he).ends hi

/-- Nothing asked of the environment. -/
def anyPar (disp : Nat → Disp) : Par where
  env _ := True
  disp := disp
  closed _ _ _ _ _ _ _ _ := trivial

/-- C119: in every run of the shell (interactive, of a script or of `rsh -c`), no process it forks, for a member of a
pipeline or for a substitution, and down to the children of children, comes to the end of its code: each turns into a
program, exits, crashes, or never ends. -/
theorem C119_children (w : World) (n k : Nat) (args : List Str) (ins : List SessionIn) (root : Bool)
    (ppid pid : Nat) (cwd : Str) (env : AMap Str) (waits : List WRes) :
    ∀ e ∈ ends (mainM w n k args ins (initSh root ppid pid cwd env waits)).2.trace, e ≠ .returned := by
  obtain ⟨new, hn, h⟩ := safe_returned (E := anyPar (initSh root ppid pid cwd env waits).disp)
    (Safe.mainM (w := w) n k args ins) (s := initSh root ppid pid cwd env waits) trivial (fun _ _ => rfl)
  rw [hn]
  rintro e he rfl
  exact h (by simpa [initSh] using he)

/-- C119, from any moment of a session on, whatever state the shell is in. -/
theorem C119_session (w : World) (n : Nat) (s : Sh) (ins : List SessionIn) :
    ∃ new, (interactiveLoop w n ins s).2.trace = new ++ s.trace ∧ ∀ e ∈ ends new, e ≠ .returned := by
  obtain ⟨new, hn, h⟩ := safe_returned (E := anyPar s.disp) (Safe.interactiveLoop (w := w) n ins) (s := s) trivial
    (fun _ _ => rfl)
  exact ⟨new, hn, fun e he he' => h (he' ▸ he)⟩

/-- A number for each way to end. -/
def Spec.endKind : ChildEnd → Nat
  | .exec _ => 0
  | .exit c => 1 + c.toNat
  | .panic _ => 100
  | .hang => 101
  | .returned => 102

/-- A line whose substitution exits after its program, and a function in the background: five children in all. -/
example : (ends (demo [cs!"ls \"$(cat b)\""] [.st (.exited 100 0), .st (.exited 101 0)]).trace).map endKind =
    [0, 1, 0] := by decide +kernel

example : (ends (demo [cs!"f() { ls; }", cs!"f &"] [.st (.exited 100 0)]).trace).map endKind = [1, 0] := by
  decide +kernel

end Rsh

import Verif.Spec.Builtin
import Verif.Spec.Jobs
import Verif.Spec.Session

/-!
# Signals and resumed jobs
-/

namespace Rsh.Spec

open Rsh

/-- What an interactive shell does with a signal: INT (2), TSTP (20) and CHLD (17) are caught, QUIT (3),
TERM (15) and TTOU (22) ignored, all others left alone. -/
def wanted (sig : Nat) : Disp :=
  if sig ∈ [2, 17, 20] then .catch else if sig ∈ [3, 15, 22] then .ign else .dfl

/-- A signal whose handling a process may choose. -/
def Choosable (sig : Nat) : Prop := 1 ≤ sig ∧ sig ≤ 31 ∧ sig ≠ 9 ∧ sig ≠ 19

/-- The shell knows how its signals are handled. -/
def Recorded (s : Sh) : Prop := ∀ sig a, s.sigMode sig = some (.act a) → s.disp sig = a

/-- Install the handlers of some signals, in turn. -/
def install : List Nat → M Unit
  | [] => pure ()
  | x :: xs => do
    setSignal x
    install xs

/-- `x` names job `id`: `%id`, or the pid of one of its processes. -/
def Names (s : Sh) (x : Str) (id : Nat) : Prop :=
  (x = '%' :: natStr id ∧ id ≤ 4294967295) ∨
  ∃ pid : Nat, x = natStr pid ∧ pid ≤ 2147483647 ∧ s.jc.pids.lookup (pid : Int) = some id

/-- `x` is a number or `%` and a number, but names no job. -/
def NamesNone (s : Sh) (x : Str) : Prop :=
  (∃ id : Nat, x = '%' :: natStr id ∧ id ≤ 4294967295 ∧ s.jc.getJob id = none) ∨
  ∃ pid : Nat, x = natStr pid ∧ pid ≤ 2147483647 ∧
    ∀ id, s.jc.pids.lookup (pid : Int) = some id → s.jc.getJob id = none

/-- A status with which a process terminates. -/
def Terminated (pid : Int) (st : WStatus) : Prop := (∃ c, st = .exited pid c) ∨ ∃ sg co, st = .signaled pid sg co

/-- The pipelines of a chain. -/
def pipelinesOf : AndOr → List Pipeline
  | .mk none _ p => [p]
  | .mk (some l) _ p => pipelinesOf l ++ [p]

/-- A pipeline that does not begin with a builtin, but with a program or function. -/
def NoBuiltin (p : Pipeline) : Prop := ∃ c rest, p.seq = .simple c :: rest ∧ c.name ∉ builtins

end Rsh.Spec

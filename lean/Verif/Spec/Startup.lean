import Verif.Spec.Session
import Verif.Spec.Lists

/-!
# Starting the shell
-/

namespace Rsh.Spec

open Rsh

/-- What the arguments of the shell ask for. -/
inductive Invocation where
  | interactive
  | program (text : Str)
  | script (name : Str) (params : List Str)
deriving DecidableEq, Repr

/-- An argument that begins with `-`. -/
def IsOption (a : Str) : Prop := ∃ t, a = '-' :: t

instance (a : Str) : Decidable (IsOption a) :=
  match a with
  | [] => isFalse (by rintro ⟨_, h⟩; cases h)
  | c :: t => if h : c = '-' then isTrue ⟨t, by rw [h]⟩ else isFalse (by rintro ⟨_, e⟩; cases e; exact h rfl)

/-- The meaning of the arguments after the name of the shell itself: the first option with a `c` asks for
the rest as a program, the first argument that is no option for a script. -/
def invocation : List Str → Invocation
  | [] => .interactive
  | a :: as =>
    if IsOption a then
      if 'c' ∈ a then .program (List.intercalate [' '] as) else invocation as
    else .script a as

/-- The shell reads its two start-up files. -/
def startFiles (w : World) (n : Nat) : M Unit := do
  readStartup w n (cs!"~/.rshrc")
  readStartup w n (cs!"~/.profile")

/-- The rest of an interactive session. -/
def interact (w : World) (n : Nat) (ins : List SessionIn) : M Unit := do
  setSignal SIGCHLD
  setSignal SIGTSTP
  setSignal SIGINT
  modS fun s => { s with historyLoc := cs!"history.txt" }
  interactiveLoop w n ins

/-- Evaluate a text, whatever its status or error. -/
def evalAny (w : World) (n : Nat) (t : Str) : M Unit := do
  let _ ← tryE (evalText w n t)
  pure ()

/-- `ls` are the lines of a text, each with its newline. -/
inductive LinesOf : Str → List Str → Prop where
  | nil : LinesOf [] []
  | last {l} : l ≠ [] → '\n' ∉ l → LinesOf l [l]
  | cons {l t ls} : '\n' ∉ l → LinesOf t ls → LinesOf (l ++ '\n' :: t) ((l ++ ['\n']) :: ls)

/-- Evaluate lines one after another. -/
def evalLines (w : World) (n : Nat) : List Str → M Unit
  | [] => pure ()
  | l :: ls => do
    evalAny w n l
    evalLines w n ls

end Rsh.Spec

import Verif.Spec.Line
import Verif.Spec.Demo

/-!
# Alias definitions
-/

namespace Rsh.Spec

open Rsh

/-- Type some lines, one after the other. -/
def typeAll (w : World) (n : Nat) : List Str → M Unit
  | [] => pure ()
  | l :: ls => do
    interactiveLine w n l
    typeAll w n ls

/-- `alias n=v`, `unalias n`, `unalias -a`. -/
inductive AliasOp where
  | set (n : Str) (v : Typed)
  | unset (n : Str)
  | clear
deriving DecidableEq

/-- As it is typed. -/
def AliasOp.cmd : AliasOp → TCmd
  | .set n v =>
    { name := some (.plain (cs!"alias"))
      after := [.assign n v] }
  | .unset n =>
    { name := some (.plain (cs!"unalias"))
      after := [.arg (.plain n)] }
  | .clear =>
    { name := some (.plain (cs!"unalias"))
      after := [.arg (.plain (cs!"-a"))] }

/-- The value without the quotes around it. -/
def bare : Typed → Str
  | .single t => t
  | .double t => t
  | t => t.text

/-- The text `p` occurs in `s`. -/
def Occurs (p s : Str) : Prop := ∃ a b, s = a ++ p ++ b

/-- The definitions that work: no `=` and no `-p` in them, no `-a` in a name to remove, and the two
commands themselves are not redefined. -/
def AliasOp.Ok : AliasOp → Prop
  | .set n v => PlainWord n ∧ v.Ok ∧ '=' ∉ v.text ∧ ¬ Occurs (cs!"-p") (n ++ '=' :: v.text) ∧
      n ≠ cs!"alias" ∧ n ≠ cs!"unalias"
  | .unset n => PlainWord n ∧ ¬ Occurs (cs!"-a") n
  | .clear => True

/-- The value of the alias `x` after some operations, the last one first in the list; `old` are the
values before them. -/
def aliasAfter (old : Str → Option Str) (x : Str) : List AliasOp → Option Str
  | [] => old x
  | .set n v :: t => if n = x then some (bare v) else aliasAfter old x t
  | .unset n :: t => if n = x then none else aliasAfter old x t
  | .clear :: _ => none

end Rsh.Spec

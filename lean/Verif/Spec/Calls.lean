import Verif.Spec.CtxOps
import Verif.Model.Main

/-!
# Vocabulary for the statements about function calls
-/

namespace Rsh.Spec

open Rsh

/-- An argument the shell can bind to `$i` as it is: no `=`, no outer quotes, not `&`, and together
with the position not more than 19 digits. -/
structure PlainArg (i : Nat) (a : Str) : Prop where
  noEq : '=' ∉ a
  notAmp : a ≠ ['&']
  noQuotes : ∀ q ∈ quotes, ∀ t : Str, a ≠ q :: (t ++ [q])
  notLone : ¬ LoneQuote a
  digits : (natStr i).length + (a.filter isDigit10).length ≤ 19

/-- The arguments of a call together with the function's own name as number 0. -/
def callArgs (c : SimpleCommand) : List Str := c.name :: c.words

/-- No file that can be read and parsed evaluates to an error. -/
def NoFileFails (w : World) : Prop :=
  ∀ n tr p t cc, w.readFile tr p = .text t → parse t = some cc →
    ∀ s e s', evalTop w n cc s ≠ (.err e, s')

end Rsh.Spec

import Verif.Spec.Calls
import Verif.Spec.Crash

/-!
# What a positional parameter holds
-/

namespace Rsh.Spec

open Rsh

/-- The words of a call that are bound: those before the first `&`. -/
def boundWords (ws : List Str) : List Str := ws.takeWhile (· ≠ ['&'])

/-- `u` is what a parameter keeps of the argument `a`: the text before its first `=`, without outer quotes; nothing
is left of a single quotation mark. -/
def Keeps33 (a u : Str) : Prop :=
  ∃ b, (b = a ∧ '=' ∉ a ∨ '=' ∉ b ∧ ∃ t, a = b ++ '=' :: t) ∧
    (LoneQuote b ∧ u = [] ∨ ¬ LoneQuote b ∧ Unquoted b u)

/-- The digits of the position and those of the argument make up a number of at most 64 bits. -/
def FitsWord (i : Nat) (a : Str) : Prop := Storable (natStr i ++ '=' :: a)

end Rsh.Spec

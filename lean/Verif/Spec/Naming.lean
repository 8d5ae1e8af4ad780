import Verif.Spec.External
import Verif.Spec.Line
import Verif.Spec.Splitting

/-!
# A command whose name is the value of a variable
-/

namespace Rsh.Spec

open Rsh

/-- A command line `$var args`, where the value of `var` is cut into `name` and `front`. -/
structure NamedLine where
  var : Str
  value : Str
  name : Str
  front : List Str := []
  args : List (Typed × Str) := []

/-- The line, as it is typed. -/
def NamedLine.cmd (l : NamedLine) : TCmd :=
  { name := some (.var l.var), after := l.args.map fun a => .arg a.1 }

/-- What the program gets. -/
def NamedLine.argv (l : NamedLine) : List Str := l.name :: (l.front ++ l.args.map Prod.snd)

/-- The value of the variable is cut as said, at blanks of one byte; no piece begins with a quote, and the
first is no function. -/
structure NamedLine.Ok (l : NamedLine) (s : Sh) : Prop where
  typed : Typed.Ok (.var l.var)
  value : valueOf s l.var = some l.value
  pieces : Pieces l.value (l.name :: l.front)
  narrow : ∀ c, OuterBlank l.value c → c.utf8Size = 1
  quotes : ∀ p ∈ l.value :: l.name :: l.front, p.head? ≠ some '"' ∧ p.head? ≠ some '\''
  alias : s.aliases.get ('$' :: l.var) = none
  function : s.ctx.isFunction l.name = false
  args : ∀ a ∈ l.args, a.1.Ok ∧ a.1.Means (valueOf s) a.2
  nul : ∀ x ∈ l.argv, '\x00' ∉ x

end Rsh.Spec

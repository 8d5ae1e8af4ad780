import Verif.Spec.Line
import Verif.Spec.Alias
import Verif.Spec.CtxOps

/-!
# Files of assignments as namespaces
-/

namespace Rsh.Spec

open Rsh

/-- A line `x=t ; y=u ; …` of one or more assignments. -/
def assignments (a : Str × Typed) (as : List (Str × Typed)) : TLine where
  first := { first := { first := assignment a.1 a.2 } }
  rest := as.map fun b => { first := { first := assignment b.1 b.2 } }

/-- An assignment of a text without `=` and `$` to a variable. -/
structure SimpleAssign (a : Str × Typed) : Prop where
  word : PlainWord a.1
  name : Name a.1
  typed : a.2.Ok
  noEq : '=' ∉ a.2.text
  noDollar : '$' ∉ a.2.text

/-- The value a sequence of assignments leaves to a name. -/
def lastValue : List (Str × Typed) → Str → Option Str
  | [], _ => none
  | a :: as, x => (lastValue as x).or (if a.1 = x then some (bare a.2) else none)

/-- The line `export context ns=file`. -/
def exportContextLine (ns file : Str) : TCmd where
  name := some (.plain (cs!"export"))
  after := [.arg (.plain (cs!"context")), .assign ns (.plain file)]

end Rsh.Spec

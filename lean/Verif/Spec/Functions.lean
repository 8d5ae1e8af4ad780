import Verif.Spec.Builtin
import Verif.Spec.Calls

/-!
# Function calls as a user types them
-/

namespace Rsh.Spec

open Rsh

/-- The command calls a function with the given body, and its words stand for the given texts. -/
structure FunCall (c : Call) (s : Sh) (body : List AndOr) : Prop where
  external : c.name ∉ builtins
  word : PlainWord c.name
  alias : s.aliases.get c.name = none
  typed : ∀ a ∈ c.args, a.1.Ok
  means : ∀ a ∈ c.args, a.1.Means (valueOf s) a.2
  nul : ∀ v ∈ c.name :: c.values, '\x00' ∉ v
  function : ∃ io, s.ctx.getFunction c.name = some ⟨.braceGroup body, io⟩

/-- Its arguments can be bound to the positional parameters. -/
structure Bindables (c : Call) (s : Sh) : Prop where
  plain : ∀ i a, (c.name :: c.values)[i]? = some a → PlainArg i a
  free : ∀ i, i ≤ c.values.length → ∀ b, s.ctx.getVar (natStr i) = some b → b.readonly = false

/-- The call `s1` begins: a new context, `$0` the name and `$i` the arguments. -/
structure Entered (c : Call) (s s1 : Sh) : Prop where
  only : s1 = { s with masked := true, ctx := s1.ctx }
  stack : s1.ctx.stack = s.ctx.next :: s.ctx.stack
  params : ∀ i a, (c.name :: c.values)[i]? = some a → valueOf s1 (natStr i) = some a

/-- How a chain goes on in which the first pipeline is `return`: the other pipelines joined by `||` are
skipped. -/
def AllOr (c : TChain) : Prop := ∀ l ∈ c.rest, l.1 = .or

/-- What `return` does in this shell: nothing but setting the last status, if it has an argument. -/
def Returns (c : Call) (s s1 : Sh) : Prop :=
  c.name = cs!"return" ∧
  ((c.values = [] ∧ s1 = { s with masked := true }) ∨
   ∃ n, Code n ∧ c.values.head? = some (intStr n) ∧ s1 = { s with masked := true, exitStatus := n })

end Rsh.Spec

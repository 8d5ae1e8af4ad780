import Verif.Spec.Context
import Verif.Model.Context

/-!
# Sequences of operations on contexts
-/

namespace Rsh.Spec

open Rsh

/-- The operations of the context manager that plain assignments, function definitions and calls, and
`export context` perform, and marking a variable read-only. -/
inductive CtxOp where
  | assign (set : Str)
  | push
  | pop
  | define (name : Str) (body : FunctionBody)
  | undefine (name : Str)
  | name (ns : Str) (id : Nat)
  | unname (ns : Str)
  | mark (name : Str)

/-- Perform one operation; `none` when it panics. -/
def CtxOp.run (m : CtxMgr) : CtxOp → Option CtxMgr
  | .assign set => m.addVar set
  | .push => some m.pushNew
  | .pop => m.pop.map Prod.snd
  | .define n b => some (m.addFunction n b).1
  | .undefine n => some (m.removeFunction n)
  | .name ns id => some (m.addContext ns id)
  | .unname ns => some (m.removeContext ns)
  | .mark x => m.setVarReadonly x

/-- Perform a sequence of operations. -/
def runOps (m : CtxMgr) : List CtxOp → Option CtxMgr
  | [] => some m
  | o :: os => (o.run m).bind fun m' => runOps m' os

/-- Does the operation change what `ns` refers to? -/
def CtxOp.renames (ns : Str) : CtxOp → Bool
  | .name ns' _ => ns' == ns
  | .unname ns' => ns' == ns
  | _ => false

/-- Operations that set no variable except numbered ones: those of function definitions, calls and returns. -/
def CtxOp.Benign : CtxOp → Prop
  | .assign set => (CtxMgr.setName set).head?.any isDigit10 = true
  | .push => True
  | .pop => True
  | .define _ _ => True
  | _ => False

/-- Contexts as they are in a running shell: the stack is not empty, has no context twice, and
every context in use has been created; no function is read-only. -/
structure Good (m : CtxMgr) : Prop where
  nonempty : m.stack ≠ []
  nodup : m.stack.Nodup
  stackLt : ∀ i ∈ m.stack, i < m.next
  exportedLt : ∀ p ∈ m.exported, p.2 < m.next
  noRo : ∀ i, (m.heap i).roFuncs = []

end Rsh.Spec

import Verif.Model.Context

/-!
# Operations on the functions of one context
-/

namespace Rsh.Spec

open Rsh

/-- What can be done to the functions of a context. -/
inductive FuncOp where
  | define (name : Str) (body : FunctionBody)
  | remove (name : Str)
  | protect (name : Str)

/-- Perform an operation; the second component says whether the definition was refused. -/
def FuncOp.run (c : Ctx) : FuncOp → Ctx × Bool
  | .define name body => c.addFunction name body
  | .remove name => (c.removeFunction name, false)
  | .protect name => (c.makeReadonlyFunc name, false)

/-- Perform operations one after the other. -/
def runFuncOps (c : Ctx) : List FuncOp → Ctx
  | [] => c
  | o :: os => runFuncOps (o.run c).1 os

/-- What is known of one name. -/
inductive FuncState where
  | absent
  | defined (body : FunctionBody)
  | readonly (body : FunctionBody)

/-- What an operation makes of the name `n`. -/
def FuncState.step (n : Str) (st : FuncState) : FuncOp → FuncState
  | .define name body =>
    if name = n then
      match st with
      | .readonly b => .readonly b
      | _ => .defined body
    else st
  | .remove name => if name = n then .absent else st
  | .protect name =>
    if name = n then
      match st with
      | .defined b => .readonly b
      | st => st
    else st

/-- What operations make of the name `n`, in a new context. -/
def funcState (n : Str) (os : List FuncOp) : FuncState := os.foldl (FuncState.step n) .absent

end Rsh.Spec

import Verif.Model.State

/-!
# Vocabulary for the statements about variables, functions and contexts
-/

namespace Rsh.Spec

open Rsh

/-- The first hit from the innermost context outwards. -/
def Innermost (has : Nat → Option α) (stack : List Nat) : Option α → Prop
  | some v => ∃ pre id post, stack = pre ++ id :: post ∧ (∀ i ∈ pre, has i = none) ∧ has id = some v
  | none => ∀ i ∈ stack, has i = none

/-- The variable `x` of context `i`. -/
def varIn (m : CtxMgr) (x : Str) (i : Nat) : Option Var := (m.heap i).vars.lookup x

/-- The function `x` of context `i`. -/
def funcIn (m : CtxMgr) (x : Str) (i : Nat) : Option FunctionBody := (m.heap i).funcs.lookup x

/-- A name that contains no `::`. -/
def Unqualified (x : Str) : Prop := ∀ a b : Str, x ≠ a ++ ':' :: ':' :: b

/-- A name that can be assigned to: not empty, no `=`, no `::`, does not begin with a digit. -/
def Name (x : Str) : Prop :=
  x ≠ [] ∧ '=' ∉ x ∧ Unqualified x ∧ x.head?.all (fun c => !isDigit10 c) = true

/-- The two quote characters. -/
def quotes : List Char := ['"', '\'']

/-- `u` is `v` without one pair of matching outer quotes, or `v` itself when there is none. -/
def Unquoted (v u : Str) : Prop :=
  (∃ q ∈ quotes, v = q :: (u ++ [q])) ∨ ((∀ q ∈ quotes, ∀ t : Str, v ≠ q :: (t ++ [q])) ∧ u = v)

/-- A text that is just one quote character. -/
def LoneQuote (v : Str) : Prop := ∃ q ∈ quotes, v = [q]

end Rsh.Spec

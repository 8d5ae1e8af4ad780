import Verif.Spec.Functions

/-!
# Functions that call each other without end
-/

namespace Rsh.Spec

open Rsh

/-- The pipeline of a list `a && b || c` that runs first. -/
def firstOf : AndOr → Pipeline
  | .mk none _ p => p
  | .mk (some l) _ _ => firstOf l

/-- The first thing these commands do is to call `g` without arguments. -/
def FirstCalls (body : List AndOr) (g : Str) : Prop :=
  ∃ a as bang, body = a :: as ∧ firstOf a = .mk bang [.simple ⟨none, g, none⟩] false

/-- Functions with plain names, hidden neither by an alias nor by a builtin; the first thing each does is to
call one of them. -/
structure Ring (fs : List Str) (s : Sh) : Prop where
  word : ∀ f ∈ fs, PlainWord f
  external : ∀ f ∈ fs, f ∉ builtins
  alias : ∀ f ∈ fs, s.aliases.get f = none
  name : ∀ f ∈ fs, '\x00' ∉ f ∧ PlainArg 0 f
  body : ∀ f ∈ fs, ∃ l io, s.ctx.getFunction f = some ⟨.braceGroup l, io⟩ ∧ ∃ g ∈ fs, FirstCalls l g

end Rsh.Spec

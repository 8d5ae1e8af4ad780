import Verif.Model.Str

/-!
# Splitting a text at blanks outside quotes
-/

namespace Rsh.Spec

open Rsh

/-- The quote that is open after `t`, when `q` was open before it.  A quote character inside the other
kind of quotes is an ordinary character. -/
def openQuote : Option Char → Str → Option Char
  | q, [] => q
  | none, c :: t => openQuote (if c = '\'' ∨ c = '"' then some c else none) t
  | some d, c :: t => openQuote (if c = d then none else some d) t

/-- Somewhere in `t` the blank `c` stands outside quotes. -/
def OuterBlank (t : Str) (c : Char) : Prop :=
  ∃ a b, t = a ++ c :: b ∧ isWs c = true ∧ openQuote none a = none

/-- `ps` are the pieces of a text: what stands between its blanks outside quotes.  Nothing follows a
blank at the end. -/
inductive Pieces : Str → List Str → Prop where
  | nil : Pieces [] []
  | last {p : Str} : p ≠ [] → (∀ c, ¬ OuterBlank p c) → Pieces p [p]
  | cons {p : Str} {c : Char} {t : Str} {ps : List Str} : (∀ d, ¬ OuterBlank p d) → openQuote none p = none →
      isWs c = true → Pieces t ps → Pieces (p ++ c :: t) (p :: ps)

end Rsh.Spec

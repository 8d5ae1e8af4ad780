import Verif.Model.Lexer

/-!
# Vocabulary for the statements about the lexer

Independent of the lexer's own helper functions.
-/

namespace Rsh.Spec

open Rsh

/-- Blank: white space other than newline. -/
def Blank (c : Char) : Prop := isWs c = true ∧ c ≠ '\n'

instance (c : Char) : Decidable (Blank c) := inferInstanceAs (Decidable (_ ∧ _))

/-- The characters with a meaning of their own to the shell. -/
def special : List Char :=
  [';', '&', '|', '(', ')', '{', '}', '<', '>', '!', '$', '`', '*', '=', '#', '"', '\'']

/-- The reserved words. -/
def reserved : List Str :=
  [cs!"for", cs!"in", cs!"while", cs!"if", cs!"then", cs!"else", cs!"elif", cs!"fi", cs!"do",
   cs!"done", cs!"case", cs!"esac"]

/-- A plain word: not empty, no white space, no special character, not reserved. -/
def PlainWord (w : Str) : Prop :=
  w ≠ [] ∧ (∀ c ∈ w, isWs c = false ∧ c ∉ special) ∧ w ∉ reserved

instance (w : Str) : Decidable (PlainWord w) := inferInstanceAs (Decidable (_ ∧ _ ∧ _))

/-- A line of words: each preceded by a run of blanks (non-empty, except for the first), and a
trailing run. -/
def line : List (Str × Str) → Str → Str
  | [], trail => trail
  | (b, w) :: l, trail => b ++ w ++ line l trail

/-- The lexer after `k` calls of `next`. -/
def after : Nat → Lexer → Lexer
  | 0, lx => lx
  | k + 1, lx => after k lx.next.2

/-- The tokens a lexer still delivers, as a parser would consume them; `none` on an error. -/
def remaining (lx : Lexer) : Option (List Token) := tokensOf (itemsAux (lx.rest.length + 2) lx)

/-- Start offset of an item. -/
def start : Item → Nat
  | .tok a _ _ => a
  | .err a _ _ => a
  | .panic => 0

/-- End offset of an item. -/
def stop : Item → Nat
  | .tok _ _ b => b
  | .err _ _ b => b
  | .panic => 0

end Rsh.Spec

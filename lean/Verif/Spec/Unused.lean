import Verif.Model.Unused
import Verif.Spec.Blanks

/-!
# Splitting commands and removing quotes, for the functions nothing calls
-/

namespace Rsh.Spec

open Rsh

/-- Words joined by single spaces. -/
def spaced : List Str → Str
  | [] => []
  | [w] => w
  | w :: v :: ws => w ++ ' ' :: spaced (v :: ws)

/-- The words a text without single quotes stands for: those between its blanks, where a phrase in double quotes, of two or
more words and without a blank before the closing quote, stays together. -/
inductive Splits : Str → List Str → Prop where
  | plain {t ws} : WordsOf t ws → '"' ∉ t → Splits t ws
  | phrase {t pre a mid b post} : WordsOf t (pre ++ (('"' :: a) :: (mid ++ [b ++ ['"']])) ++ post) →
      (∀ x ∈ pre ++ post ++ (a :: b :: mid), '"' ∉ x) → b ≠ [] →
      Splits t (pre ++ (spaced (('"' :: a) :: (mid ++ [b ++ ['"']])) :: post))

/-- The words an argument stands for: one with a single quote is left as it is. -/
inductive ArgSplits : Str → List Str → Prop where
  | single {t} : '\'' ∈ t → ArgSplits t [t]
  | split {t ws} : '\'' ∉ t → Splits t ws → ArgSplits t ws

/-- What is left of a word when quotes `q` around it are removed. -/
inductive Bared (q : Char) : Str → Str → Prop where
  | quoted {t} : Bared q (q :: (t ++ [q])) t
  | lone : Bared q [q] []
  | other {t} : (t.head? ≠ some q ∨ t.getLast? ≠ some q) → Bared q t t

/-- The word is a command substitution. -/
def Substitutes (t : Str) : Prop :=
  (∃ x, t = '$' :: '(' :: (x ++ [')'])) ∨ (∃ x, t = '`' :: (x ++ ['`'])) ∨ t = ['`']

/-- The assignment has a command substitution at its end. -/
def AssignSubstitutes (t : Str) : Prop :=
  (t.getLast? = some ')' ∧ ∃ a b, t = a ++ '$' :: '(' :: b) ∨ t.getLast? = some '`'

end Rsh.Spec

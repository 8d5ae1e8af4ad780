import Verif.Spec.Lexer

/-!
# Words as a user types them
-/

namespace Rsh.Spec

open Rsh

/-- A word of a command line, as typed. -/
inductive Typed where
  | plain (w : Str)
  | single (text : Str)
  | double (text : Str)
  | var (name : Str)
  | subst (text : Str)
  | backtick (text : Str)
  | mixed (w : Str)
deriving DecidableEq

/-- Its source text. -/
def Typed.text : Typed → Str
  | .plain w => w
  | .single t => '\'' :: (t ++ ['\''])
  | .double t => '"' :: (t ++ ['"'])
  | .var n => '$' :: n
  | .subst t => '$' :: '(' :: (t ++ [')'])
  | .backtick t => '`' :: (t ++ ['`'])
  | .mixed w => w

/-- A word with quotes or `#` in it, but not at its beginning, where they would have a meaning. -/
def MixedWord (w : Str) : Prop :=
  (∃ c ∈ w.head?, isWs c = false ∧ c ∉ special) ∧
  (∀ c ∈ w, isWs c = false ∧ (c ∈ special → c ∈ ['"', '\'', '#'])) ∧ w ∉ reserved

instance (w : Str) : Decidable (MixedWord w) := inferInstanceAs (Decidable (_ ∧ _ ∧ _))

/-- When the text is one word of that form. -/
def Typed.Ok : Typed → Prop
  | .plain w => PlainWord w
  | .single t => '\'' ∉ t
  | .double t => '"' ∉ t
  | .var n => n ≠ [] ∧ ∀ c ∈ n, isWs c = false ∧ c ∉ special
  | .subst t => ')' ∉ t
  | .backtick t => '`' ∉ t
  | .mixed w => MixedWord w

instance : DecidablePred Typed.Ok := fun t => by cases t <;> unfold Typed.Ok <;> infer_instance

/-- A word with no delimiter at its end. -/
def Typed.Open : Typed → Prop
  | .plain _ => True
  | .var _ => True
  | .mixed _ => True
  | _ => False

/-- A word whose first character may be in the middle of a word. -/
def Typed.Joins : Typed → Prop
  | .plain _ => True
  | .single _ => True
  | .double _ => True
  | .mixed _ => True
  | _ => False

instance : DecidablePred Typed.Open := fun t => by cases t <;> unfold Typed.Open <;> infer_instance
instance : DecidablePred Typed.Joins := fun t => by cases t <;> unfold Typed.Joins <;> infer_instance

/-- Each word, with the blanks before it, stands apart from the one before: there is a blank, or the shell takes them for two
words all the same. -/
def Apart : Typed → List (Str × Typed) → Prop
  | _, [] => True
  | t, (b, u) :: l => (b = [] → ¬ (t.Open ∧ u.Joins)) ∧ Apart u l

instance decidableApart : ∀ (t : Typed) (l : List (Str × Typed)), Decidable (Apart t l)
  | _, [] => .isTrue trivial
  | _, (_, u) :: l => @instDecidableAnd _ _ _ (decidableApart u l)

/-- The text of a double-quoted word as the shell leaves it: the character after each `$` is dropped.
`none` if a `$` ends the text. -/
def afterDollars : Str → Option Str
  | [] => some []
  | [c] => if c = '$' then none else some [c]
  | c :: d :: t => if c = '$' then (afterDollars t).map ('$' :: ·) else (afterDollars (d :: t)).map (c :: ·)

/-- The text `v` that reaches the command for a word whose text after expansion of variables is `t`:
quotes at its ends are removed, and in double quotes the character after each `$` is lost.  Command
substitutions in double quotes are not covered. -/
def Arrives (t v : Str) : Prop :=
  if t.head? = some '\'' then v = t.tail.dropLast
  else if t.head? = some '"' then
    afterDollars t.tail.dropLast = some v ∧ '`' ∉ t ∧ ∀ a b, t ≠ a ++ '$' :: '(' :: b
  else v = t

/-- The text after expansion of variables, when these have the values `get`: only a whole word `$name`
is replaced, and only if the variable is set. -/
def expansion (get : Str → Option Str) : Str → Str
  | '$' :: name => (get name).getD ('$' :: name)
  | t => t

/-- The text `v` that reaches the command for a word, when variables have the values `get`. -/
def Typed.Means (get : Str → Option Str) (t : Typed) (v : Str) : Prop := Arrives (expansion get t.text) v

/-- What reaches the command for a list of words. -/
inductive Arrive (get : Str → Option Str) : List Str → List Str → Prop where
  | nil : Arrive get [] []
  | cons {t v ts vs} : Arrives (expansion get t) v → Arrive get ts vs → Arrive get (t :: ts) (v :: vs)

/-- The names the shell handles itself; the empty name is that of a line of assignments. -/
def builtins : List Str :=
  [cs!"cd", cs!"exit", cs!"return", cs!"jobs", cs!"fg", cs!"bg", cs!"alias", cs!"unalias",
   cs!"export", cs!"eval", cs!"unset", cs!"pwd", cs!"readonly", cs!"exec", cs!".", cs!"source", []]

end Rsh.Spec

import Verif.Model.Expand
import Verif.Model.Lexer

/-!
# Functions nothing calls

Functions of src/ast.rs and src/lexer.rs that are compiled but not used by the shell.
-/

namespace Rsh

/-! ## Splitting at blanks (src/ast.rs:421-491) -/

/-- Loop of src/ast.rs:425-441; `q` is `in_quotes`, `i` is `index`.  `none` is the panic of the index. -/
def recombineGo : List Str → List Str → Bool → Nat → Option (List Str)
  | [], acc, _, _ => some acc
  | w :: ws, acc, q, i =>
    if startsWith ['"'] w then recombineGo ws (acc ++ [w]) true i
    else if q then
      if i < acc.length then recombineGo ws (acc.modify i fun x => x ++ ' ' :: w) (!endsWith ['"'] w) i
      else none
    else recombineGo ws (acc ++ [w]) false (i + 1)

/-- src/ast.rs:421-443 `recombine_double_quotes`. -/
def recombine (ws : List Str) : Option (List Str) := recombineGo ws [] false 0

/-- src/ast.rs:451-458 and 475-482: the words of a text (the log message is left out). -/
def blankPieces (t : Str) : Option (List Str) :=
  if hasChar '"' t then recombine (splitWs t) else some (splitWs t)

/-- src/ast.rs:470-485: the words of the arguments. -/
def argPieces : List Str → Option (List Str)
  | [] => some []
  | w :: ws =>
    (if hasChar '\'' w then some [w] else blankPieces w).bind fun a => (argPieces ws).map fun b => a ++ b

/-- src/ast.rs:446-491 `remove_whitespace`; `none` is a panic (`remove(0)` of nothing, or the index). -/
def removeWhitespace (c : SimpleCommand) : Option SimpleCommand :=
  if hasChar '\'' c.name then some c
  else
    match blankPieces c.name with
    | none => none
    | some [] => none
    | some (n :: ws) =>
      match c.suffix with
      | none => some { c with name := n, suffix := some ⟨[], ws⟩ }
      | some sf => (argPieces sf.word).map fun as => { c with name := n, suffix := some { sf with word := ws ++ as } }

/-! ## Substitutions (src/ast.rs:500-550) -/

/-- src/ast.rs:513, 536: the word is a substitution. -/
def isSubst (w : Str) : Bool :=
  (startsWith (cs!"$(") w && endsWith [')'] w) || (startsWith ['`'] w && endsWith ['`'] w)

/-- The body of the loop of src/ast.rs:503-511. -/
def substAssign (w : World) (rec : List AndOr → M Int) (a : Str) : M Str :=
  if (hasSub (cs!"$(") a && endsWith [')'] a) || (hasSub ['`'] a && endsWith ['`'] a) then
    match splitOn '=' a with
    | x :: v :: _ => do
      let v ← evalSubshell w rec v
      pure (x ++ '=' :: v)
    | _ => panicM .unwrap
  else pure a

/-- Apply to each, in order. -/
def eachM (f : Str → M Str) : List Str → M (List Str)
  | [] => pure []
  | a :: as => do
    let b ← f a
    let bs ← eachM f as
    pure (b :: bs)

/-- src/ast.rs:513-515, 536-538. -/
def substWord (w : World) (rec : List AndOr → M Int) (a : Str) : M Str :=
  if isSubst a then evalSubshell w rec a else pure a

/-- src/ast.rs:502-512. -/
def substPrefix (w : World) (rec : List AndOr → M Int) : Option Prefix → M (Option Prefix)
  | none => pure none
  | some p => do
    let as ← eachM (substAssign w rec) p.assignment
    pure (some { p with assignment := as })

/-- src/ast.rs:500-550 `expand_subshells`. -/
def expandSubshells (w : World) (rec : List AndOr → M Int) (c : SimpleCommand) : M SimpleCommand := do
  let pre ← substPrefix w rec c.pre
  let name ← substWord w rec c.name
  match c.suffix with
  | none => pure { c with pre, name }
  | some sf => do
    let ws ← eachM (substWord w rec) sf.word
    pure { c with pre, name, suffix := some { sf with word := ws } }

/-! ## Quotes (src/ast.rs:707-732) -/

/-- src/ast.rs:708-710 and its siblings. -/
def cutIf (w : World) (rec : List AndOr → M Int) (q : Char) (a : Str) : M Str :=
  if startsWith [q] a && endsWith [q] a then cutQuotes w rec a else pure a

/-- src/ast.rs:707-719 `remove_double_quotes` (`q` is `"`) and 720-732 `remove_single_quotes` (`q` is `'`). -/
def removeQuotes (w : World) (rec : List AndOr → M Int) (q : Char) (c : SimpleCommand) : M SimpleCommand := do
  let name ← cutIf w rec q c.name
  match c.suffix with
  | none => pure { c with name }
  | some sf => do
    let ws ← eachM (cutIf w rec q) sf.word
    pure { c with name, suffix := some { sf with word := ws } }

/-! ## The lexer -/

/-- src/lexer.rs:292-310 `take_until_seen_twice`: a character that terminates is counted but not consumed, so that the next
round counts it again. `fuel` bounds the rounds. -/
def takeUntilTwice (input : Str) (start : Nat) (term : Char → Bool) :
    (fuel : Nat) → (rest : Str) → (pos stop count : Nat) → Option Str × Nat × Str × Nat
  | _, [], pos, stop, _ => (sliceB input start stop, stop, [], pos)
  | 0, rest, pos, stop, _ => (sliceB input start stop, stop, rest, pos)
  | fuel + 1, c :: cs, pos, stop, count =>
    if count = 2 then (sliceB input start stop, stop, c :: cs, pos)
    else if term c then takeUntilTwice input start term fuel (c :: cs) pos stop (count + 1)
    else takeUntilTwice input start term fuel cs (pos + c.utf8Size) (pos + c.utf8Size) count

end Rsh

import Verif.Model.Grammar
import Verif.Spec.Lexer

/-!
# Vocabulary for the statements about the grammar
-/

namespace Rsh.Spec

open Rsh

/-- One step of an and-or chain: the operator, whether a newline follows it, and the pipeline,
given by its commands (each with its tokens). -/
structure Link where
  op : CondExec
  nl : Bool
  first : List Token × Command
  others : List (List Token × Command)

/-- The tokens of an operator. -/
def opTokens (op : CondExec) (nl : Bool) : List Token :=
  (match op with | .and => Token.and | .or => Token.or) :: (if nl then [Token.newlineList] else [])

/-- Commands joined by `|`. -/
def pipeTokens (c : List Token × Command) (cs : List (List Token × Command)) : List Token :=
  c.1 ++ (cs.flatMap fun d => Token.pipe :: d.1)

/-- The pipeline of some commands. -/
def pipeOf (c : List Token × Command) (cs : List (List Token × Command)) : Pipeline :=
  .mk false (c.2 :: cs.map Prod.snd) false

/-- `c1 | c2 … op1 c3 | … op2 …`. -/
def chainTokens (c : List Token × Command) (cs : List (List Token × Command)) (l : List Link) :
    List Token :=
  pipeTokens c cs ++ l.flatMap fun k => opTokens k.op k.nl ++ pipeTokens k.first k.others

/-- The left-nested tree of a chain. -/
def chainTree (c : List Token × Command) (cs : List (List Token × Command)) (l : List Link) : AndOr :=
  l.foldl (fun t k => .mk (some t) (some k.op) (pipeOf k.first k.others)) (.mk none none (pipeOf c cs))

/-- Braces nest and parentheses occur only as `()`: `d` counts the open braces. -/
def balanced : Nat → List Token → Bool
  | d, [] => d == 0
  | d, .lbrace :: ts => balanced (d + 1) ts
  | 0, .rbrace :: _ => false
  | d + 1, .rbrace :: ts => balanced d ts
  | d, .lparen :: .rparen :: ts => balanced d ts
  | _, .lparen :: _ => false
  | _, .rparen :: _ => false
  | d, _ :: ts => balanced d ts

/-- The tokens of the reserved words. -/
def reservedTokens : List Token :=
  [.kFor, .kIn, .kWhile, .kUntil, .kIf, .kThen, .kElse, .kElif, .kFi, .kDo, .kDone, .kCase, .kEsac]

/-- A token a command (or negated pipeline) can begin with. -/
def beginsCommand : Token → Bool
  | .word _ | .subshell _ | .number _ | .less | .great | .dgreat | .lbrace | .bang => true
  | _ => false

/-- Token lists in which no `&` is directly followed by the beginning of a command. -/
def noAmpCommand : List Token → Bool
  | .amp :: t :: ts => !beginsCommand t && noAmpCommand (t :: ts)
  | _ :: ts => noAmpCommand ts
  | [] => true

end Rsh.Spec

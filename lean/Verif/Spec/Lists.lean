import Verif.Spec.Line
import Verif.Spec.Demo

/-!
# Lists and chains of commands

What a line with several pipelines does is said in terms of what each pipeline does when it is typed as
a line of its own.
-/

namespace Rsh.Spec

open Rsh

/-- A line of one pipeline. -/
def TPipe.line (p : TPipe) : TLine := { first := { first := p } }

/-- A line of one chain. -/
def TChain.line (c : TChain) : TLine := { first := c }

/-- Evaluate a text and give its status; a text that does not parse is an error. -/
def evalText (w : World) (n : Nat) (t : Str) : M Int :=
  match parse t with
  | none => throwE (w.parseMsg t)
  | some cc => evalTop w n cc

/-- Does the pipeline after this operator run, when what precedes has the given status? -/
def GoesOn : CondExec → Int → Prop
  | .and, st => st = 0
  | .or, st => st ≠ 0

/-- A chain with one pipeline more. -/
def TChain.snoc (c : TChain) (op : CondExec) (p : TPipe) : TChain := { c with rest := c.rest ++ [(op, p)] }

/-- How a chain ends, and which of its pipelines were run, if `alone` tells how each one ends. -/
inductive Chained (alone : TPipe → M Int) (s : Sh) : TChain → Out Int × Sh → List TPipe → Prop where
  | one {p} : Chained alone s { first := p } (alone p s) [p]
  | skip {c op p st s1 ran} : Chained alone s c (.ok st, s1) ran → ¬ GoesOn op st →
    Chained alone s (c.snoc op p) (.ok st, s1) ran
  | next {c op p st s1 ran} : Chained alone s c (.ok st, s1) ran → GoesOn op st →
    Chained alone s (c.snoc op p) (alone p s1) (ran ++ [p])
  | stop {c op p o s1 ran} : Chained alone s c (o, s1) ran → (∀ st, o ≠ .ok st) →
    Chained alone s (c.snoc op p) (o, s1) ran

/-- How a list of chains ends, if `alone` tells how each one ends. -/
inductive Listed (alone : TChain → M Int) : TChain → List TChain → Sh → Out Int × Sh → Prop where
  | one {c s} : Listed alone c [] s (alone c s)
  | next {c c' cs s st s1 r} : alone c s = (.ok st, s1) → Listed alone c' cs s1 r → Listed alone c (c' :: cs) s r
  | stop {c c' cs s o s1} : alone c s = (o, s1) → (∀ st, o ≠ .ok st) → Listed alone c (c' :: cs) s (o, s1)

end Rsh.Spec

import Verif.Spec.Line

/-!
# Lines with any blanks, or none, between their words and operators
-/

namespace Rsh.Spec

open Rsh

/-- An operator. -/
inductive Op where
  | semi | pipe | or | amp | and | bang | less | great | dgreat | eq
deriving DecidableEq

/-- Its text. -/
def Op.text : Op → Str
  | .semi => cs!";"
  | .pipe => cs!"|"
  | .or => cs!"||"
  | .amp => cs!"&"
  | .and => cs!"&&"
  | .bang => cs!"!"
  | .less => cs!"<"
  | .great => cs!">"
  | .dgreat => cs!">>"
  | .eq => cs!"="

/-- A word or an operator; a number stands immediately before its operator. -/
inductive Sym where
  | word (t : Typed)
  | op (o : Op)
  | num (n : Int) (o : Op)
deriving DecidableEq

/-- Its text. -/
def Sym.text : Sym → Str
  | .word t => t.text
  | .op o => o.text
  | .num n o => intStr n ++ o.text

/-- A word is typed properly, a number has 32 bits and is before a redirection. -/
def Sym.Ok : Sym → Prop
  | .word t => t.Ok
  | .op _ => True
  | .num n o => -2147483648 ≤ n ∧ n ≤ 2147483647 ∧ (o = .less ∨ o = .great ∨ o = .dgreat)

/-- The word may be taken for the number of a descriptor. -/
def Numeral (w : Str) : Prop := ∀ c ∈ w, c ∈ (cs!"+-0123456789")

/-- Do the two operators mean something else without a blank between them? -/
def OpFuse : Op → Op → Prop
  | .pipe, o => o = .pipe ∨ o = .or
  | .amp, o => o = .amp ∨ o = .and
  | .less, o => o = .less ∨ o = .amp ∨ o = .and
  | .great, o => o = .great ∨ o = .dgreat ∨ o = .amp ∨ o = .and
  | _, _ => False

/-- Do the two mean something else without a blank between them? -/
def Fuse : Sym → Sym → Prop
  | .word t, .word u => t.Open ∧ u.Joins
  | .word t, .op .less => Numeral t.text
  | .word t, .op .great => Numeral t.text
  | .word t, .op .dgreat => Numeral t.text
  | .word t, .num _ _ => t.Open
  | .op o, .op o' => OpFuse o o'
  | .num _ o, .op o' => OpFuse o o'
  | _, _ => False

/-- Words and operators, each after some blanks; blanks are needed only between two that fuse. -/
inductive Layout : List (Str × Sym) → Prop
  | nil : Layout []
  | one {b x} : (∀ c ∈ b, Blank c) → x.Ok → Layout [(b, x)]
  | cons {b x b' x' l} : (∀ c ∈ b, Blank c) → x.Ok → (b' = [] → ¬ Fuse x x') → Layout ((b', x') :: l) →
      Layout ((b, x) :: (b', x') :: l)

/-- The text of a line with such a layout, and something at its end. -/
def laidOut (l : List (Str × Sym)) (trail : Str) : Str := line (l.map fun p => (p.1, p.2.text)) trail

/-- The end of a line: blanks, and after blanks perhaps a comment; perhaps the newline. -/
inductive LineEnd : Str → Prop
  | blanks {b} : (∀ c ∈ b, Blank c) → LineEnd b
  | newline {b} : (∀ c ∈ b, Blank c) → LineEnd (b ++ ['\n'])
  | comment {b t} : b ≠ [] → (∀ c ∈ b, Blank c) → '\n' ∉ t → LineEnd (b ++ '#' :: t)
  | commentNewline {b t} : b ≠ [] → (∀ c ∈ b, Blank c) → '\n' ∉ t → LineEnd (b ++ '#' :: (t ++ ['\n']))

/-- The operator of a redirection. -/
def opSym : RedirectType → Option Op
  | .input => some .less
  | .output => some .great
  | .append => some .dgreat
  | .clobber => none

/-- The words and operators of a part of a command. -/
def Part.syms : Part → List Sym
  | .arg t => [.word t]
  | .assign x t => [.word (.plain x), .op .eq, .word t]
  | .redir none op t => (opSym op).toList.map .op ++ [.word t]
  | .redir (some n) op t => (opSym op).toList.map (.num n) ++ [.word t]

/-- Those of a command. -/
def TCmd.syms (c : TCmd) : List Sym :=
  c.before.flatMap Part.syms ++ (c.name.toList.map Sym.word ++ c.after.flatMap Part.syms)

/-- Those of a pipeline. -/
def TPipe.syms (p : TPipe) : List Sym :=
  (if p.bang then [.op .bang] else []) ++ (p.first.syms ++ (p.rest.flatMap (fun c => .op .pipe :: c.syms) ++
    (if p.background then [.op .amp] else [])))

/-- Those of a chain. -/
def TChain.syms (c : TChain) : List Sym :=
  c.first.syms ++ c.rest.flatMap fun l =>
    .op (match l.1 with | .and => .and | .or => .or) :: l.2.syms

/-- Those of a line. -/
def TLine.syms (l : TLine) : List Sym :=
  l.first.syms ++ l.rest.flatMap fun c => .op .semi :: c.syms

end Rsh.Spec

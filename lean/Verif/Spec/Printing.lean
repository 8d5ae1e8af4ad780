import Verif.Model.Parser
import Verif.Spec.Lexer

/-!
# Programs written out from their trees

`programText` writes a program on one line, with single spaces and `;` between the commands; `Program` says which
trees are trees of programs.
-/

namespace Rsh.Spec

open Rsh

/-- A character that can be inside a word: neither white space nor one of the operators. -/
def WordChar (c : Char) : Prop :=
  isWs c = false ∧ c ∉ [';', '&', '|', '(', ')', '{', '}', '<', '>', '!', '$', '`', '*', '=']

instance (c : Char) : Decidable (WordChar c) := inferInstanceAs (Decidable (_ ∧ _))

/-- The texts that are one word. -/
inductive OneWord : Str → Prop
  | plain {c w} : (∀ d ∈ c :: w, WordChar d) → c ∉ ['#', '"', '\''] → c :: w ∉ reserved → OneWord (c :: w)
  | dollar {w} : (∀ d ∈ w, WordChar d) → OneWord ('$' :: w)
  | quoted {q t} : q ∈ ['"', '\'', '`'] → q ∉ t → OneWord (q :: (t ++ [q]))
  | subst {t} : ')' ∉ t → OneWord ('$' :: '(' :: (t ++ [')']))

/-- The texts that are a quotation or command substitution without its end. -/
inductive Unclosed : Str → Prop
  | quoted {q t} : q ∈ ['"', '\'', '`'] → q ∉ t → Unclosed (q :: t)
  | subst {t} : ')' ∉ t → Unclosed ('$' :: '(' :: t)

/-! ## Trees of programs -/

/-- `NAME=VALUE`. -/
def Assigns (a : Str) : Prop := ∃ x v, OneWord x ∧ OneWord v ∧ a = x ++ '=' :: v

/-- A redirection to or from a file. -/
inductive Redirects : IoRedirect → Prop
  | mk {n ty f} : (∀ k, n = some k → -2147483648 ≤ k ∧ k ≤ 2147483647) → ty ≠ .clobber → OneWord f →
      Redirects ⟨n, some ⟨ty, f⟩, none⟩

/-- What may come before the name of a command. -/
structure Prefixes (p : Prefix) : Prop where
  redirects : ∀ r ∈ p.ioRedirect, Redirects r
  assigns : ∀ a ∈ p.assignment, Assigns a
  some : p.ioRedirect ≠ [] ∨ p.assignment ≠ []

/-- What may come after the name of a command. -/
structure Suffixes (p : Suffix) : Prop where
  redirects : ∀ r ∈ p.ioRedirect, Redirects r
  words : ∀ a ∈ p.word, OneWord a ∨ Assigns a
  some : p.ioRedirect ≠ [] ∨ p.word ≠ []

/-- A simple command. -/
structure Simple (c : SimpleCommand) : Prop where
  pre : ∀ p, c.pre = some p → Prefixes p
  suffix : ∀ p, c.suffix = some p → Suffixes p
  name : OneWord c.name ∨ (c.name = [] ∧ c.pre ≠ none ∧ c.suffix = none)

mutual
/-- Pipelines joined by `&&` and `||`. -/
inductive Chain : AndOr → Prop
  | one {p} : Pipe p → Chain (.mk none none p)
  | more {l o p} : Chain l → Pipe p → Chain (.mk (some l) (some o) p)
/-- A pipeline; it is not both negated and in the background. -/
inductive Pipe : Pipeline → Prop
  | mk {bang cs bg} : Cmds cs → (bang = true → bg = false) → Pipe (.mk bang cs bg)
/-- One or more commands. -/
inductive Cmds : List Command → Prop
  | one {c} : Cmd c → Cmds [c]
  | more {c cs} : Cmd c → Cmds cs → Cmds (c :: cs)
/-- A command. -/
inductive Cmd : Command → Prop
  | simple {c} : Simple c → Cmd (.simple c)
  | group {l} : Program l → Cmd (.compound (.braceGroup l) none)
  | func {f l} : OneWord f → Program l → Cmd (.funcDef f (.mk (.braceGroup l) none))
  | funcRedir {f l r rs} : OneWord f → Program l → (∀ x ∈ r :: rs, Redirects x) →
      Cmd (.funcDef f (.mk (.braceGroup l) (some (r :: rs))))
/-- One or more chains. -/
inductive Program : List AndOr → Prop
  | one {a} : Chain a → Program [a]
  | more {a as} : Chain a → Program as → Program (a :: as)
end

/-! ## Their texts -/

/-- The operator of a redirection. -/
def redirText : RedirectType → Str
  | .input => cs!"<"
  | .output => cs!">"
  | .append => cs!">>"
  | .clobber => cs!">|"

/-- A redirection: the operator, after its number, and the file. -/
def redirLexemes (r : IoRedirect) : List Str :=
  match r.ioFile with
  | none => []
  | some f => [(match r.ioNumber with | none => [] | some n => intStr n) ++ redirText f.ty, f.filename]

/-- A simple command: redirections first. -/
def simpleLexemes (c : SimpleCommand) : List Str :=
  (match c.pre with | none => [] | some p => p.ioRedirect.flatMap redirLexemes ++ p.assignment) ++
  ((if c.name = [] then [] else [c.name]) ++
  (match c.suffix with | none => [] | some p => p.ioRedirect.flatMap redirLexemes ++ p.word))

mutual
/-- The words and operators of a chain. -/
def chainLexemes : AndOr → List Str
  | .mk none _ p => pipeLexemes p
  | .mk (some l) o p => chainLexemes l ++ ((if o = some .and then cs!"&&" else cs!"||") :: pipeLexemes p)
/-- Those of a pipeline. -/
def pipeLexemes : Pipeline → List Str
  | .mk bang cs bg =>
    (if bang then [cs!"!"] else []) ++ (cmdsLexemes cs ++ (if bg then [cs!"&"] else []))
/-- Those of its commands. -/
def cmdsLexemes : List Command → List Str
  | [] => []
  | [c] => cmdLexemes c
  | c :: c' :: cs => cmdLexemes c ++ (cs!"|" :: cmdsLexemes (c' :: cs))
/-- Those of a command. -/
def cmdLexemes : Command → List Str
  | .simple c => simpleLexemes c
  | .compound c _ => groupLexemes c
  | .funcDef f b => f :: cs!"(" :: cs!")" :: bodyLexemes b
/-- Those of a group. -/
def groupLexemes : CompoundCommand → List Str
  | .braceGroup l => cs!"{" :: (programLexemes l ++ [cs!"}"])
  | .unsupported => []
/-- Those of the body of a function. -/
def bodyLexemes : FunctionBody → List Str
  | .mk c rs => groupLexemes c ++ (rs.getD []).flatMap redirLexemes
/-- Those of a list. -/
def programLexemes : List AndOr → List Str
  | [] => []
  | [a] => chainLexemes a
  | a :: b :: as => chainLexemes a ++ (cs!";" :: programLexemes (b :: as))
end

/-- The text of a program. -/
def programText (l : List AndOr) : Str := (programLexemes l).flatMap fun x => ' ' :: x

end Rsh.Spec

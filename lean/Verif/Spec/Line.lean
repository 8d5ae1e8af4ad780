import Verif.Model.Parser
import Verif.Spec.Words

/-!
# Command lines as a user types them

Blanks are single spaces around every word and operator.
-/

namespace Rsh.Spec

open Rsh

/-- A part of a simple command. -/
inductive Part where
  | arg (t : Typed)
  | assign (x : Str) (t : Typed)
  | redir (num : Option Int) (op : RedirectType) (file : Typed)
deriving DecidableEq

/-- The text of a redirection operator. -/
def opText : RedirectType → Str
  | .input => cs!"<"
  | .output => cs!">"
  | .append => cs!">>"
  | .clobber => cs!">|"

/-- Its text. -/
def Part.text : Part → Str
  | .arg t => t.text
  | .assign x t => x ++ '=' :: t.text
  | .redir none op t => opText op ++ t.text
  | .redir (some n) op t => intStr n ++ (opText op ++ t.text)

/-- Its parts are words of the given forms, and a number has 32 bits. -/
def Part.Ok : Part → Prop
  | .arg t => t.Ok
  | .assign x t => PlainWord x ∧ t.Ok
  | .redir none op t => op ≠ .clobber ∧ t.Ok
  | .redir (some n) op t => op ≠ .clobber ∧ t.Ok ∧ -2147483648 ≤ n ∧ n ≤ 2147483647

instance : DecidablePred Part.Ok := fun t => by
  rcases t with t | ⟨x, t⟩ | ⟨_ | n, op, t⟩ <;> unfold Part.Ok <;> infer_instance

/-- The redirections among some parts. -/
def redirsOf : List Part → List IoRedirect
  | [] => []
  | .redir num op t :: ps => ⟨num, some ⟨op, t.text⟩, none⟩ :: redirsOf ps
  | _ :: ps => redirsOf ps

/-- The words among some parts. -/
def wordsOf : List Part → List Str
  | [] => []
  | .arg t :: ps => t.text :: wordsOf ps
  | .assign x t :: ps => (x ++ '=' :: t.text) :: wordsOf ps
  | _ :: ps => wordsOf ps

/-- A simple command: assignments and redirections, a name, arguments and redirections. -/
structure TCmd where
  before : List Part := []
  name : Option Typed
  after : List Part := []
deriving DecidableEq

/-- It is typed properly. -/
structure TCmd.Ok (c : TCmd) : Prop where
  before : ∀ p ∈ c.before, p.Ok
  noArg : ∀ t, .arg t ∉ c.before
  name : ∀ t, c.name = some t → t.Ok
  after : ∀ p ∈ c.after, p.Ok
  some : c.name = none → c.before ≠ [] ∧ c.after = []

/-- Its words and operators. -/
def TCmd.lexemes (c : TCmd) : List Str :=
  c.before.map Part.text ++ (c.name.toList.map Typed.text ++ c.after.map Part.text)

/-- The command it stands for. -/
def TCmd.command (c : TCmd) : SimpleCommand where
  pre := if c.before = [] then none else some ⟨redirsOf c.before, wordsOf c.before⟩
  name := (c.name.map Typed.text).getD []
  suffix := if c.after = [] then none else some ⟨redirsOf c.after, wordsOf c.after⟩

/-- A pipeline. -/
structure TPipe where
  bang : Bool := false
  first : TCmd
  rest : List TCmd := []
  background : Bool := false
deriving DecidableEq

/-- Its commands. -/
def TPipe.cmds (p : TPipe) : List TCmd := p.first :: p.rest

/-- Its words and operators. -/
def TPipe.lexemes (p : TPipe) : List Str :=
  (if p.bang then [cs!"!"] else []) ++ (p.first.lexemes ++ (p.rest.flatMap (fun c => cs!"|" :: c.lexemes) ++
    (if p.background then [cs!"&"] else [])))

/-- The pipeline it stands for: a negated one is never in the background. -/
def TPipe.pipeline (p : TPipe) : Pipeline :=
  .mk p.bang (p.cmds.map fun c => .simple c.command) (!p.bang && p.background)

/-- Pipelines joined by `&&` and `||`. -/
structure TChain where
  first : TPipe
  rest : List (CondExec × TPipe) := []
deriving DecidableEq

/-- Its words and operators. -/
def TChain.lexemes (c : TChain) : List Str :=
  c.first.lexemes ++ c.rest.flatMap fun l =>
    (match l.1 with | .and => cs!"&&" | .or => cs!"||") :: l.2.lexemes

/-- The tree it stands for. -/
def TChain.tree (c : TChain) : AndOr :=
  c.rest.foldl (fun t l => .mk (some t) (some l.1) l.2.pipeline) (.mk none none c.first.pipeline)

/-- A line of chains separated by `;`. -/
structure TLine where
  first : TChain
  rest : List TChain := []
deriving DecidableEq

/-- Its words and operators. -/
def TLine.lexemes (l : TLine) : List Str :=
  l.first.lexemes ++ l.rest.flatMap fun c => cs!";" :: c.lexemes

/-- Its simple commands. -/
def TLine.cmds (l : TLine) : List TCmd :=
  (l.first :: l.rest).flatMap fun c => c.first.cmds ++ c.rest.flatMap fun p => p.2.cmds

/-- Its text: the words and operators with single spaces between them. -/
def TLine.text (l : TLine) : Str := line (l.lexemes.map fun x => ([' '], x)) []

/-- The list it stands for. -/
def TLine.tree (l : TLine) : List AndOr := (l.first :: l.rest).map TChain.tree

/-- It is typed properly. -/
def TLine.Ok (l : TLine) : Prop := ∀ c ∈ l.cmds, c.Ok

/-- A line of one simple command. -/
def TCmd.line (c : TCmd) : TLine := { first := { first := { first := c } } }

/-- A command that assigns one value. -/
def assignment (x : Str) (t : Typed) : TCmd := { before := [.assign x t], name := none }

end Rsh.Spec

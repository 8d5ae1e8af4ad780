import Verif.Model.Lexer

/-!
# Model of the syntax trees of src/ast.rs (lines 13-205 and 770-815)
-/

namespace Rsh

/-- src/ast.rs:36-40. -/
inductive CondExec where
  | and | or
deriving DecidableEq, Repr

/-- src/ast.rs:793-799. -/
inductive RedirectType where
  | input | output | append | clobber
deriving DecidableEq, Repr

/-- src/ast.rs:801-805. -/
structure IoFile where
  ty : RedirectType
  filename : Str
deriving DecidableEq, Repr

/-- src/ast.rs:786-791 (`io_here`, always `None` in the grammar, is kept as an optional text). -/
structure IoRedirect where
  ioNumber : Option Int
  ioFile : Option IoFile
  ioHere : Option Str
deriving DecidableEq, Repr

/-- src/ast.rs:770-774. -/
structure Prefix where
  ioRedirect : List IoRedirect
  assignment : List Str
deriving DecidableEq, Repr

/-- src/ast.rs:776-780. -/
structure Suffix where
  ioRedirect : List IoRedirect
  word : List Str
deriving DecidableEq, Repr

/-- src/ast.rs:193-198. -/
structure SimpleCommand where
  pre : Option Prefix
  name : Str
  suffix : Option Suffix
deriving DecidableEq, Repr

mutual
/-- src/ast.rs:42-47. -/
inductive AndOr where
  | mk (andOr : Option AndOr) (cond : Option CondExec) (pipeline : Pipeline)
/-- src/ast.rs:49-57. -/
inductive Pipeline where
  | mk (bang : Bool) (seq : List Command) (background : Bool)
/-- src/ast.rs:76-81. -/
inductive Command where
  | simple (c : SimpleCommand)
  | compound (c : CompoundCommand) (r : Option (List IoRedirect))
  | funcDef (name : Str) (body : FunctionBody)
/-- src/ast.rs:83-92.  The grammar only builds `BraceGroup`; the other six variants, which
src/grammar.lalrpop never constructs and src/eval.rs:594 answers with `unimplemented!()`, are
collapsed into `unsupported`. -/
inductive CompoundCommand where
  | braceGroup (list : List AndOr)
  | unsupported
/-- src/ast.rs:181-185. -/
inductive FunctionBody where
  | mk (cc : CompoundCommand) (redirects : Option (List IoRedirect))
end

instance : Inhabited Pipeline := ⟨.mk false [] false⟩
instance : Inhabited AndOr := ⟨.mk none none default⟩

namespace AndOr
/-- Field `and_or`. -/
def left : AndOr → Option AndOr | mk l _ _ => l
/-- Field `conditional_exec`. -/
def cond : AndOr → Option CondExec | mk _ c _ => c
/-- Field `pipeline`. -/
def pipeline : AndOr → Pipeline | mk _ _ p => p
end AndOr

namespace Pipeline
/-- Field `bang`. -/
def bang : Pipeline → Bool | mk b _ _ => b
/-- Field `pipe_sequence`. -/
def seq : Pipeline → List Command | mk _ s _ => s
/-- Field `background`. -/
def background : Pipeline → Bool | mk _ _ b => b
end Pipeline

namespace FunctionBody
/-- Field `compound_command`. -/
def cc : FunctionBody → CompoundCommand | mk c _ => c
/-- Field `redirect_list`. -/
def redirects : FunctionBody → Option (List IoRedirect) | mk _ r => r
end FunctionBody

/-- src/ast.rs:13-16 `CompleteCommand { list }`. -/
abbrev CompleteCommand := Option (List AndOr)

end Rsh

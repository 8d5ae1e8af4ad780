import Verif.Model.Grammar

/-!
# An executable parser for src/grammar.lalrpop

The generated LR(1) parser is modelled by a recursive-descent parser.  Its agreement with the
derivation relation `Derives` (soundness and completeness, for token lists of the shape the lexer
produces) is proved in Verif/Proofs/Parser.lean, so the evaluator model may use it as
`CompleteCommandParser::parse`.
-/

namespace Rsh

open Token

/-- A parser consumes a prefix of the token list; `none` is a syntax error. -/
abbrev P (α : Type) := List Token → Option (α × List Token)

/-- One element of a simple command: what `Prefix` and `Suffix` are made of
(src/grammar.lalrpop:148-162). -/
inductive Elem where
  | redir (r : IoRedirect)
  | assign (w : Str)
  | word (w : Str)
  | sub (w : Str)
deriving DecidableEq, Repr

/-- src/grammar.lalrpop:199-202 `Word`. -/
def pWord : Token → Option Str
  | .word s => some s
  | .subshell s => some s
  | _ => none

/-- The redirection operators of src/grammar.lalrpop:169-173. -/
def redirOp : Token → Option RedirectType
  | .less => some .input
  | .great => some .output
  | .dgreat => some .append
  | _ => none

/-- The maximal run of redirections, assignments and words at the front of the token list
(src/grammar.lalrpop:148-187). -/
def pElems : P (List Elem)
  | .word v :: .eq :: t :: rest =>
    (pWord t).bind fun w => (pElems rest).map fun (es, r) => (.assign (v ++ '=' :: w) :: es, r)
  | [.word _, .eq] => none
  | .word v :: rest => (pElems rest).map fun (es, r) => (.word v :: es, r)
  | .subshell v :: rest => (pElems rest).map fun (es, r) => (.sub v :: es, r)
  | .number n :: o :: t :: rest =>
    (redirOp o).bind fun ty => (pWord t).bind fun w =>
      (pElems rest).map fun (es, r) => (.redir ⟨some n, some ⟨ty, w⟩, none⟩ :: es, r)
  | .number _ :: _ => none
  | .less :: t :: rest =>
    (pWord t).bind fun w => (pElems rest).map fun (es, r) =>
      (.redir ⟨none, some ⟨.input, w⟩, none⟩ :: es, r)
  | .great :: t :: rest =>
    (pWord t).bind fun w => (pElems rest).map fun (es, r) =>
      (.redir ⟨none, some ⟨.output, w⟩, none⟩ :: es, r)
  | .dgreat :: t :: rest =>
    (pWord t).bind fun w => (pElems rest).map fun (es, r) =>
      (.redir ⟨none, some ⟨.append, w⟩, none⟩ :: es, r)
  | [.less] => none
  | [.great] => none
  | [.dgreat] => none
  | ts => some ([], ts)

/-- Is the element a redirection or assignment (a possible `Prefix` element)? -/
def Elem.isPre : Elem → Bool
  | .redir _ => true
  | .assign _ => true
  | _ => false

/-- Redirections among the elements, in order. -/
def elemRedirs : List Elem → List IoRedirect
  | [] => []
  | .redir r :: es => r :: elemRedirs es
  | _ :: es => elemRedirs es

/-- Assignments among the elements, in order. -/
def elemAssigns : List Elem → List Str
  | [] => []
  | .assign w :: es => w :: elemAssigns es
  | _ :: es => elemAssigns es

/-- The words of a suffix: words and (re-joined) assignments, in order. -/
def elemWords : List Elem → List Str
  | [] => []
  | .assign w :: es => w :: elemWords es
  | .word w :: es => w :: elemWords es
  | .sub w :: es => w :: elemWords es
  | .redir _ :: es => elemWords es

/-- src/grammar.lalrpop:148-153: a non-empty run of prefix elements. -/
def mkPre : List Elem → Option Prefix
  | [] => none
  | es => some ⟨elemRedirs es, elemAssigns es⟩

/-- src/grammar.lalrpop:155-162; the first element may not be a `Subshell` token. -/
def mkSuf : List Elem → Option (Option Suffix)
  | [] => some none
  | .sub _ :: _ => none
  | es => some (some ⟨elemRedirs es, elemWords es⟩)

/-- src/grammar.lalrpop:140-146 `SimpleCommand`, from its elements. -/
def mkSimple (es : List Elem) : Option SimpleCommand :=
  let p := es.takeWhile Elem.isPre
  match es.dropWhile Elem.isPre with
  | [] => if p = [] then none else some ⟨mkPre p, [], none⟩
  | .word w :: s => (mkSuf s).map fun s' => ⟨mkPre p, w, s'⟩
  | .sub w :: s => (mkSuf s).map fun s' => ⟨mkPre p, w, s'⟩
  | _ :: _ => none

/-- src/grammar.lalrpop:140-146. -/
def pSimple : P SimpleCommand := fun ts =>
  (pElems ts).bind fun (es, r) => (mkSimple es).map fun c => (c, r)

/-- src/grammar.lalrpop:175-178 and 134-137: the optional redirect list after a function body. -/
def pRedirs : P (List IoRedirect)
  | .number n :: o :: t :: rest =>
    (redirOp o).bind fun ty => (pWord t).bind fun w =>
      (pRedirs rest).map fun (es, r) => (⟨some n, some ⟨ty, w⟩, none⟩ :: es, r)
  | .number _ :: _ => none
  | .less :: t :: rest =>
    (pWord t).bind fun w => (pRedirs rest).map fun (es, r) =>
      (⟨none, some ⟨.input, w⟩, none⟩ :: es, r)
  | .great :: t :: rest =>
    (pWord t).bind fun w => (pRedirs rest).map fun (es, r) =>
      (⟨none, some ⟨.output, w⟩, none⟩ :: es, r)
  | .dgreat :: t :: rest =>
    (pWord t).bind fun w => (pRedirs rest).map fun (es, r) =>
      (⟨none, some ⟨.append, w⟩, none⟩ :: es, r)
  | [.less] => none
  | [.great] => none
  | [.dgreat] => none
  | ts => some ([], ts)

/-- `item (op item)*`; the left-recursive rules `List`, `AndOr`, `PipelineSeq` and `Term` all have
this shape.  `fuel` bounds the number of operators. -/
def pTail (item : P α) (op : P β) : Nat → P (List (β × α))
  | 0, _ => none
  | n + 1, ts =>
    match op ts with
    | none => some ([], ts)
    | some (b, ts1) =>
      (item ts1).bind fun (a, ts2) =>
        (pTail item op n ts2).map fun (l, ts3) => ((b, a) :: l, ts3)

/-- See `pTail`. -/
def pChain (item : P α) (op : P β) : P (α × List (β × α)) := fun ts =>
  (item ts).bind fun (a, ts1) =>
    (pTail item op (ts1.length + 1) ts1).map fun (l, ts2) => ((a, l), ts2)

/-- The `|` of src/grammar.lalrpop:86. -/
def pPipeOp : P Unit
  | .pipe :: ts => some ((), ts)
  | _ => none

/-- The operators of src/grammar.lalrpop:71-74 with their optional newline. -/
def pAndOrOp : P CondExec
  | .and :: .newlineList :: ts => some (.and, ts)
  | .and :: ts => some (.and, ts)
  | .or :: .newlineList :: ts => some (.or, ts)
  | .or :: ts => some (.or, ts)
  | _ => none

/-- Tokens of `CmdSepOp` and `Separator` (src/grammar.lalrpop:204-222). -/
def isSepTok : Token → Bool
  | .semi => true
  | .newlineList => true
  | .eof => true
  | _ => false

/-- The separator run between two and-or lists: the maximal run of separator tokens, provided
something other than `}` follows. -/
def pSepOp : P (List Token) := fun ts =>
  match ts.takeWhile isSepTok, ts.dropWhile isSepTok with
  | [], _ => none
  | _ :: _, [] => none
  | _ :: _, .rbrace :: _ => none
  | s, r => some (s, r)

/-- src/grammar.lalrpop:204-207. -/
def isCmdSepOp (s : List Token) : Bool := s = [.semi] || s = [.newlineList]

/-- src/grammar.lalrpop:212-222. -/
def isSeparator (s : List Token) : Bool :=
  s = [.semi] || s = [.semi, .newlineList, .newlineList] ||
  s = [.semi, .newlineList, .newlineList, .eof] || s = [.newlineList] || s = [.eof] ||
  s = [.newlineList, .eof] || s = [.newlineList, .newlineList] ||
  s = [.newlineList, .newlineList, .eof] || s = [.semi, .eof]

/-- src/grammar.lalrpop:84-87. -/
def pPipeSeq (cmd : P Command) : P (List Command) := fun ts =>
  (pChain cmd pPipeOp ts).map fun ((c, l), r) => (c :: l.map Prod.snd, r)

/-- src/grammar.lalrpop:77-82. -/
def pPipeline (cmd : P Command) : P Pipeline
  | .bang :: ts =>
    (pPipeSeq cmd ts).map fun
      | (s, .amp :: r) => (.mk true s false, r)
      | (s, r) => (.mk true s false, r)
  | ts =>
    (pPipeSeq cmd ts).map fun
      | (s, .amp :: r) => (.mk false s true, r)
      | (s, r) => (.mk false s false, r)

/-- Build the left-nested tree of src/grammar.lalrpop:69-75. -/
def foldAndOr (x : AndOr) : List (CondExec × Pipeline) → AndOr
  | [] => x
  | (op, p) :: l => foldAndOr (.mk (some x) (some op) p) l

/-- src/grammar.lalrpop:69-75. -/
def pAndOr (cmd : P Command) : P AndOr := fun ts =>
  (pChain (pPipeline cmd) pAndOrOp ts).map fun ((p, l), r) => (foldAndOr (.mk none none p) l, r)

/-- And-or lists with the separator runs between them. -/
def pSeq (cmd : P Command) : P (AndOr × List (List Token × AndOr)) := pChain (pAndOr cmd) pSepOp

/-- src/grammar.lalrpop:96-122: a brace group, after its `{`. -/
def pBrace (cmd : P Command) : P CompoundCommand := fun ts =>
  let ts1 := match ts with
    | .newlineList :: r => r
    | r => r
  (pSeq cmd ts1).bind fun ((a, l), r) =>
    let s := r.takeWhile isSepTok
    match r.dropWhile isSepTok with
    | .rbrace :: r' =>
      if l.all (fun x => isSeparator x.1) && (s = [] || isSeparator s) then
        some (.braceGroup (a :: l.map Prod.snd), r')
      else none
    | _ => none

/-- src/grammar.lalrpop:134-137, after the `{`. -/
def pFuncBody (cmd : P Command) : P FunctionBody := fun ts =>
  (pBrace cmd ts).bind fun (c, r) =>
    (pRedirs r).map fun
      | ([], r') => (.mk c none, r')
      | (l, r') => (.mk c (some l), r')

/-- src/grammar.lalrpop:89-94 `Command`; the fuel bounds the nesting depth of braces. -/
def pCommand : Nat → P Command
  | 0, _ => none
  | n + 1, .lbrace :: ts => (pBrace (pCommand n) ts).map fun (c, r) => (.compound c none, r)
  | n + 1, .word f :: .lparen :: .rparen :: .newlineList :: .lbrace :: ts =>
    (pFuncBody (pCommand n) ts).map fun (b, r) => (.funcDef f b, r)
  | n + 1, .word f :: .lparen :: .rparen :: .lbrace :: ts =>
    (pFuncBody (pCommand n) ts).map fun (b, r) => (.funcDef f b, r)
  | _ + 1, ts => (pSimple ts).map fun (c, r) => (.simple c, r)

/-- src/grammar.lalrpop:60-67 with the optional final separator of line 55: a list, whose own
separators are single `;` or newline tokens, up to the end of the input. -/
def pListEnd (ts : List Token) : Option (List AndOr × List Token) :=
  (pSeq (pCommand (ts.length + 1)) ts).bind fun ((a, l), r) =>
    if l.all (fun x => isCmdSepOp x.1) then some (a :: l.map Prod.snd, r) else none

/-- src/grammar.lalrpop:53-58 `CompleteCommand` on a whole token list. -/
def parseTokens (ts : List Token) : Option CompleteCommand :=
  match ts.takeWhile isSepTok, ts.dropWhile isSepTok with
  | [], r =>
    (pListEnd r).bind fun (l, r') => if r' = [] || isSeparator r' then some (some l) else none
  | s, [] => if isSeparator s then some none else none
  | s, r =>
    if isSeparator s then
      (pListEnd r).bind fun (l, r') => if r' = [] then some (some l) else none
    else none

/-- `CompleteCommandParser::new().parse(input, Lexer::new(input))` (src/main.rs:214 and the other
call sites): `none` is `Err(_)`. -/
def parse (input : Str) : Option CompleteCommand := (lex input).bind parseTokens

end Rsh

import Verif.Model.Ast

/-!
# The grammar of src/grammar.lalrpop as a derivation relation

`Derives n ts v`: nonterminal `n` derives exactly the token list `ts` with semantic value `v`.
Every constructor is one production, in the order of the file; left recursion is kept.
The LALRPOP-generated LR(1) automaton itself is not modelled: it is trusted to accept exactly
the derivable token lists and to return the value of the derivation.
-/

namespace Rsh

/-- Values of one element of a command prefix/suffix are described by the four nonterminals that
can occur there; see `Derives` below.  Nonterminals of src/grammar.lalrpop:53-222. -/
inductive NT where
  | completeCommand | list | andOr | pipeline | pipelineSeq | command | compoundCommand
  | subshell | term | compoundList | braceGroup | functionName | functionDefinition | functionBody
  | simpleCommand | pre | suf | ioRedirect | ioFile | redirectList | assignment
  | cmdName | cmdWord | word | cmdSepOp | cmdBackgroundOp | separator
deriving DecidableEq

/-- The Rust types written after each nonterminal in src/grammar.lalrpop.  `BraceGroup`,
`CompoundList` and `Term` are newtypes around the vector of and-or lists; a function definition
is its name and body. The strings computed for separators are dropped (nothing uses them). -/
@[reducible] def Val : NT → Type
  | .completeCommand => CompleteCommand
  | .list | .term | .compoundList | .braceGroup => List AndOr
  | .andOr => AndOr
  | .pipeline => Pipeline
  | .pipelineSeq => List Command
  | .command => Command
  | .compoundCommand => CompoundCommand
  | .functionDefinition => Str × FunctionBody
  | .functionBody => FunctionBody
  | .simpleCommand => SimpleCommand
  | .pre => Prefix
  | .suf => Suffix
  | .ioRedirect => IoRedirect
  | .ioFile => IoFile
  | .redirectList => List IoRedirect
  | .subshell | .functionName | .assignment | .cmdName | .cmdWord | .word => Str
  | .cmdSepOp | .cmdBackgroundOp | .separator => Unit

open Token in
/-- src/grammar.lalrpop:53-222. -/
inductive Derives : (n : NT) → List Token → Val n → Prop where
  -- 53-58
  | ccSepList {a b l} : Derives .separator a () → Derives .list b l →
      Derives .completeCommand (a ++ b) (some l)
  | ccListSep {a b l} : Derives .list a l → Derives .separator b () →
      Derives .completeCommand (a ++ b) (some l)
  | ccList {a l} : Derives .list a l → Derives .completeCommand a (some l)
  | ccSep {a} : Derives .separator a () → Derives .completeCommand a none
  -- 60-67
  | listSnoc {a b c l x} : Derives .list a l → Derives .cmdSepOp b () → Derives .andOr c x →
      Derives .list (a ++ b ++ c) (l ++ [x])
  | listOne {a x} : Derives .andOr a x → Derives .list a [x]
  -- 69-75
  | aoOne {a p} : Derives .pipeline a p → Derives .andOr a (.mk none none p)
  | aoAnd {a b x p} : Derives .andOr a x → Derives .pipeline b p →
      Derives .andOr (a ++ [Token.and] ++ b) (.mk (some x) (some .and) p)
  | aoAndNl {a b x p} : Derives .andOr a x → Derives .pipeline b p →
      Derives .andOr (a ++ [Token.and, newlineList] ++ b) (.mk (some x) (some .and) p)
  | aoOr {a b x p} : Derives .andOr a x → Derives .pipeline b p →
      Derives .andOr (a ++ [Token.or] ++ b) (.mk (some x) (some .or) p)
  | aoOrNl {a b x p} : Derives .andOr a x → Derives .pipeline b p →
      Derives .andOr (a ++ [Token.or, newlineList] ++ b) (.mk (some x) (some .or) p)
  -- 77-82
  | plSeq {a s} : Derives .pipelineSeq a s → Derives .pipeline a (.mk false s false)
  | plBang {a s} : Derives .pipelineSeq a s → Derives .pipeline ([bang] ++ a) (.mk true s false)
  | plBg {a b s} : Derives .pipelineSeq a s → Derives .cmdBackgroundOp b () →
      Derives .pipeline (a ++ b) (.mk false s true)
  | plBangBg {a b s} : Derives .pipelineSeq a s → Derives .cmdBackgroundOp b () →
      Derives .pipeline ([bang] ++ a ++ b) (.mk true s false)
  -- 84-87
  | psOne {a c} : Derives .command a c → Derives .pipelineSeq a [c]
  | psSnoc {a b s c} : Derives .pipelineSeq a s → Derives .command b c →
      Derives .pipelineSeq (a ++ [pipe] ++ b) (s ++ [c])
  -- 89-94
  | cmdSimple {a c} : Derives .simpleCommand a c → Derives .command a (.simple c)
  | cmdFunc {a n b} : Derives .functionDefinition a (n, b) → Derives .command a (.funcDef n b)
  | cmdCompound {a c} : Derives .compoundCommand a c → Derives .command a (.compound c none)
  -- 96-98
  | ccBrace {a l} : Derives .braceGroup a l → Derives .compoundCommand a (.braceGroup l)
  -- 100-102
  | subshell {s} : Derives .subshell [.subshell s] s
  -- 104-111
  | termSnoc {a b c l x} : Derives .term a l → Derives .separator b () → Derives .andOr c x →
      Derives .term (a ++ b ++ c) (l ++ [x])
  | termOne {a x} : Derives .andOr a x → Derives .term a [x]
  -- 113-118
  | clTerm {a l} : Derives .term a l → Derives .compoundList a l
  | clNlTerm {a l} : Derives .term a l → Derives .compoundList ([newlineList] ++ a) l
  | clTermSep {a b l} : Derives .term a l → Derives .separator b () →
      Derives .compoundList (a ++ b) l
  | clNlTermSep {a b l} : Derives .term a l → Derives .separator b () →
      Derives .compoundList ([newlineList] ++ a ++ b) l
  -- 120-122
  | brace {a l} : Derives .compoundList a l → Derives .braceGroup ([lbrace] ++ a ++ [rbrace]) l
  -- 124-127
  | functionName {s} : Derives .functionName [.word s] s
  -- 129-132
  | fdNl {a c n b} : Derives .functionName a n → Derives .functionBody c b →
      Derives .functionDefinition (a ++ [lparen, rparen, newlineList] ++ c) (n, b)
  | fd {a c n b} : Derives .functionName a n → Derives .functionBody c b →
      Derives .functionDefinition (a ++ [lparen, rparen] ++ c) (n, b)
  -- 134-137
  | fbody {a c} : Derives .compoundCommand a c → Derives .functionBody a (.mk c none)
  | fbodyRedir {a b c r} : Derives .compoundCommand a c → Derives .redirectList b r →
      Derives .functionBody (a ++ b) (.mk c (some r))
  -- 140-146
  | scPreWordSuf {a b c p w s} : Derives .pre a p → Derives .cmdWord b w → Derives .suf c s →
      Derives .simpleCommand (a ++ b ++ c) ⟨some p, w, some s⟩
  | scPreWord {a b p w} : Derives .pre a p → Derives .cmdWord b w →
      Derives .simpleCommand (a ++ b) ⟨some p, w, none⟩
  | scNameSuf {a b w s} : Derives .cmdName a w → Derives .suf b s →
      Derives .simpleCommand (a ++ b) ⟨none, w, some s⟩
  | scName {a w} : Derives .cmdName a w → Derives .simpleCommand a ⟨none, w, none⟩
  | scPre {a p} : Derives .pre a p → Derives .simpleCommand a ⟨some p, [], none⟩
  -- 148-153
  | preRedir {a r} : Derives .ioRedirect a r → Derives .pre a ⟨[r], []⟩
  | preSnocRedir {a b p r} : Derives .pre a p → Derives .ioRedirect b r →
      Derives .pre (a ++ b) ⟨p.ioRedirect ++ [r], p.assignment⟩
  | preAssign {a w} : Derives .assignment a w → Derives .pre a ⟨[], [w]⟩
  | preSnocAssign {a b p w} : Derives .pre a p → Derives .assignment b w →
      Derives .pre (a ++ b) ⟨p.ioRedirect, p.assignment ++ [w]⟩
  -- 155-162
  | sufRedir {a r} : Derives .ioRedirect a r → Derives .suf a ⟨[r], []⟩
  | sufSnocRedir {a b s r} : Derives .suf a s → Derives .ioRedirect b r →
      Derives .suf (a ++ b) ⟨s.ioRedirect ++ [r], s.word⟩
  | sufWord {w} : Derives .suf [.word w] ⟨[], [w]⟩
  | sufSnocWord {a b s w} : Derives .suf a s → Derives .word b w →
      Derives .suf (a ++ b) ⟨s.ioRedirect, s.word ++ [w]⟩
  | sufAssign {a w} : Derives .assignment a w → Derives .suf a ⟨[], [w]⟩
  | sufSnocAssign {a b s w} : Derives .suf a s → Derives .assignment b w →
      Derives .suf (a ++ b) ⟨s.ioRedirect, s.word ++ [w]⟩
  -- 164-167
  | redir {a f} : Derives .ioFile a f → Derives .ioRedirect a ⟨none, some f, none⟩
  | redirNum {a f n} : Derives .ioFile a f →
      Derives .ioRedirect ([.number n] ++ a) ⟨some n, some f, none⟩
  -- 169-173
  | fileIn {a w} : Derives .word a w → Derives .ioFile ([less] ++ a) ⟨.input, w⟩
  | fileOut {a w} : Derives .word a w → Derives .ioFile ([great] ++ a) ⟨.output, w⟩
  | fileApp {a w} : Derives .word a w → Derives .ioFile ([dgreat] ++ a) ⟨.append, w⟩
  -- 175-178
  | rlOne {a r} : Derives .ioRedirect a r → Derives .redirectList a [r]
  | rlSnoc {a b l r} : Derives .redirectList a l → Derives .ioRedirect b r →
      Derives .redirectList (a ++ b) (l ++ [r])
  -- 180-187
  | assign {a v w} : Derives .word a w → Derives .assignment ([.word v, eq] ++ a) (v ++ '=' :: w)
  -- 189-202
  | cmdNameWord {s} : Derives .cmdName [.word s] s
  | cmdNameSub {a s} : Derives .subshell a s → Derives .cmdName a s
  | cmdWordWord {s} : Derives .cmdWord [.word s] s
  | cmdWordSub {a s} : Derives .subshell a s → Derives .cmdWord a s
  | wordWord {s} : Derives .word [.word s] s
  | wordSub {a s} : Derives .subshell a s → Derives .word a s
  -- 204-210
  | sepOpSemi : Derives .cmdSepOp [semi] ()
  | sepOpNl : Derives .cmdSepOp [newlineList] ()
  | bgOp : Derives .cmdBackgroundOp [amp] ()
  -- 212-222
  | sepSemi : Derives .separator [semi] ()
  | sepSemiNlNl : Derives .separator [semi, newlineList, newlineList] ()
  | sepSemiNlNlEof : Derives .separator [semi, newlineList, newlineList, eof] ()
  | sepNl : Derives .separator [newlineList] ()
  | sepEof : Derives .separator [eof] ()
  | sepNlEof : Derives .separator [newlineList, eof] ()
  | sepNlNl : Derives .separator [newlineList, newlineList] ()
  | sepNlNlEof : Derives .separator [newlineList, newlineList, eof] ()
  | sepSemiEof : Derives .separator [semi, eof] ()

end Rsh

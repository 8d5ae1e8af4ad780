import Verif.Model.Str

/-!
# Model of src/lexer.rs
-/

namespace Rsh

/-- src/lexer.rs:24-70 `enum Token`. `RawFd` (i32) is `Int`. -/
inductive Token where
  | space | tab | newline | newlineList | comment | semi | pipe | backtick | dollar
  | lparen | rparen | lbrace | rbrace
  | great | less | dgreat | dless | greatAnd | lessAnd
  | amp | eq | and | or | bang
  | kFor | kIn | kWhile | kUntil | kIf | kThen | kElse | kElif | kFi | kDo | kDone | kCase | kEsac
  | eof
  | subshell (s : Str)
  | number (n : Int)
  | word (s : Str)
deriving DecidableEq, Repr

/-- What one call of `Lexer::next` can yield: `Ok((start, token, end))`,
`Err(UnrecognizedChar(start, chr, end))` (src/lexer.rs:6-12), or a panic of one of the
`&self.input[start..end]` slices. -/
inductive Item where
  | tok (start : Nat) (t : Token) (stop : Nat)
  | err (start : Nat) (c : Char) (stop : Nat)
  | panic
deriving DecidableEq, Repr

/-- src/lexer.rs:124-130 `struct Lexer`.  `lookahead` and the `CharIndices` iterator are
represented together: `rest` is the lookahead character followed by what the iterator still
has to deliver, `pos` the byte offset of its head. -/
structure Lexer where
  sendEof : Bool
  input : Str
  rest : Str
  pos : Nat
deriving Repr

/-- src/lexer.rs:133-143 `Lexer::new`. -/
def Lexer.new (input : Str) : Lexer := { sendEof := false, input, rest := input, pos := 0 }

/-- src/lexer.rs:407-412 `is_word_continue`. -/
def isWordContinue (c : Char) : Bool :=
  if c = ';' ∨ c = '&' ∨ c = '|' ∨ c = '(' ∨ c = ')' ∨ c = '{' ∨ c = '}' ∨ c = '<' ∨ c = '>' ∨
     c = '!' ∨ c = '$' ∨ c = '`' ∨ c = '*' ∨ c = '=' then false
  else !isWs c

/-- src/lexer.rs:397-405 `is_word_start`.  The explicit characters of the first arm are
letters, digits, `_` and the two quotes. -/
def isWordStart (c : Char) : Bool :=
  if ('a' ≤ c ∧ c ≤ 'z') ∨ ('A' ≤ c ∧ c ≤ 'Z') ∨ c = '_' ∨ ('0' ≤ c ∧ c ≤ '9') ∨ c = '"' ∨ c = '\''
  then true
  else isWordContinue c

/-- src/lexer.rs:263-275 `take_until` (and 312-317 `take_while`, with the negated test): advance
while the lookahead does not satisfy `term`.  Result: the slice (`none`: panic), the end offset,
and the remaining input with its offset. -/
def takeUntil (input : Str) (start : Nat) (term : Char → Bool) :
    (rest : Str) → (pos stop : Nat) → Option Str × Nat × Str × Nat
  | [], pos, stop => (sliceB input start stop, stop, [], pos)
  | c :: cs, pos, stop =>
    if term c then (sliceB input start stop, stop, c :: cs, pos)
    else takeUntil input start term cs (pos + c.utf8Size) (pos + c.utf8Size)

/-- src/lexer.rs:277-291 `take_until_alt`: as `take_until`, but the terminating character is
consumed and included. -/
def takeUntilAlt (input : Str) (start : Nat) (term : Char → Bool) :
    (rest : Str) → (pos stop : Nat) → Option Str × Nat × Str × Nat
  | [], pos, stop => (sliceB input start stop, stop, [], pos)
  | c :: cs, pos, _stop =>
    if term c then
      (sliceB input start (pos + c.utf8Size), pos + c.utf8Size, cs, pos + c.utf8Size)
    else takeUntilAlt input start term cs (pos + c.utf8Size) (pos + c.utf8Size)

/-- src/lexer.rs:383-393 `num_or_word`; `look` is the lookahead character. -/
def numOrWord (look : Option Char) (w : Str) : Token :=
  match look with
  | some c =>
    if c = '<' ∨ c = '>' then
      match parseI32 w with
      | some n => .number n
      | none => .word w
    else .word w
  | none => .word w

/-- src/lexer.rs:363-377, the keyword table of `word`. -/
def wordToken (look : Option Char) (w : Str) : Token :=
  if w = cs!"for" then .kFor
  else if w = cs!"in" then .kIn
  else if w = cs!"while" then .kWhile
  else if w = cs!"if" then .kIf
  else if w = cs!"then" then .kThen
  else if w = cs!"else" then .kElse
  else if w = cs!"elif" then .kElif
  else if w = cs!"fi" then .kFi
  else if w = cs!"do" then .kDo
  else if w = cs!"done" then .kDone
  else if w = cs!"case" then .kCase
  else if w = cs!"esac" then .kEsac
  else numOrWord look w

/-- Package the result of a `take_*` function as an item; a failed slice is a panic. -/
def mkItem (start : Nat) (lx : Lexer) (tk : Str → Token) :
    Option Str × Nat × Str × Nat → Option Item × Lexer
  | (some w, stop, rest, pos) => (some (.tok start (tk w) stop), { lx with rest, pos })
  | (none, _, rest, pos) => (some .panic, { lx with rest, pos })

/-- src/lexer.rs:359-381 `word`, called after its first character has been consumed (`stop` is
the end of that character; `lx` is positioned after it). -/
def lexWord (lx : Lexer) (start stop : Nat) : Option Item × Lexer :=
  let r := takeUntil lx.input start (fun c => !isWordContinue c) lx.rest lx.pos stop
  mkItem start lx (wordToken r.2.2.1.head?) r

/-- src/lexer.rs:319-346 `single_quote`, `double_quote` and `subshell`: a `Word` running to and
including the first closing delimiter. -/
def lexDelim (lx : Lexer) (close : Char) (start stop : Nat) : Option Item × Lexer :=
  mkItem start lx .word (takeUntilAlt lx.input start (fun c => c = close) lx.rest lx.pos stop)

/-- src/lexer.rs:348-357 `newline_list`: skip following newlines (each is one byte). -/
def skipNewlines : Str → Nat → Str × Nat
  | '\n' :: cs, pos => skipNewlines cs (pos + 1)
  | rest, pos => (rest, pos)

/-- src/lexer.rs:190-195: skip to the end of the line (the newline is not consumed). -/
def skipComment : Str → Nat → Str × Nat
  | [], pos => ([], pos)
  | c :: cs, pos => if c = '\n' then (c :: cs, pos) else skipComment cs (pos + c.utf8Size)

/-- src/lexer.rs:157-163 and its siblings 165-173: a one- or two-character operator.  The `end`
of the two-character token is the end of its first character, as in the code. -/
def lexPair (lx : Lexer) (start stop : Nat) (alts : List (Char × Token)) (single : Token) :
    Option Item × Lexer :=
  match lx.rest with
  | c :: cs =>
    match alts.lookup c with
    | some t => (some (.tok start t stop), { lx with rest := cs, pos := lx.pos + c.utf8Size })
    | none => (some (.tok start single stop), lx)
  | [] => (some (.tok start single stop), lx)

/-- src/lexer.rs:146-249 `Iterator::next`.  `fuel` bounds the number of skipped blanks and
comments (the `while`/`continue` loop and the recursive call at line 196); `Lexer.next` below
supplies one more than the number of remaining characters. -/
def nextAux : Nat → Lexer → Option Item × Lexer
  | 0, lx => (none, lx)
  | fuel + 1, lx =>
    match lx.rest with
    | [] =>
      if !lx.sendEof then (some (.tok 0 .eof 0), { lx with sendEof := true }) else (none, lx)
    | c :: cs =>
      let start := lx.pos
      let stop := start + c.utf8Size
      let lx1 : Lexer := { lx with rest := cs, pos := stop }
      if c = '\n' then
        let r := skipNewlines cs stop
        (some (.tok start .newlineList stop), { lx1 with rest := r.1, pos := r.2 })
      else if c = ';' then (some (.tok start .semi stop), lx1)
      else if c = '|' then lexPair lx1 start stop [('|', .or)] .pipe
      else if c = '&' then lexPair lx1 start stop [('&', .and)] .amp
      else if c = '`' then lexDelim lx1 '`' start stop
      else if c = '$' then
        match cs.head? with
        | some '(' => lexDelim lx1 ')' start stop
        | some '{' => (some (.tok start .dollar stop), lx1)
        | _ => lexWord lx1 start stop
      else if c = '#' then
        let r := skipComment cs stop
        nextAux fuel { lx1 with rest := r.1, pos := r.2 }
      else if c = '(' then (some (.tok start .lparen stop), lx1)
      else if c = ')' then (some (.tok start .rparen stop), lx1)
      else if c = '{' then (some (.tok start .lbrace stop), lx1)
      else if c = '}' then (some (.tok start .rbrace stop), lx1)
      else if c = '>' then lexPair lx1 start stop [('>', .dgreat), ('&', .greatAnd)] .great
      else if c = '<' then lexPair lx1 start stop [('<', .dless), ('&', .lessAnd)] .less
      else if c = '=' then (some (.tok start .eq stop), lx1)
      else if c = '"' then lexDelim lx1 '"' start stop
      else if c = '\'' then lexDelim lx1 '\'' start stop
      else if c = '!' then (some (.tok start .bang stop), lx1)
      else if isWordStart c then lexWord lx1 start stop
      else if isWs c then nextAux fuel lx1
      else (some (.err start c stop), lx1)

/-- src/lexer.rs:149 `next`, with enough fuel for every input. -/
def Lexer.next (lx : Lexer) : Option Item × Lexer := nextAux (lx.rest.length + 1) lx

/-- All items the iterator yields within `n` calls. -/
def itemsAux : Nat → Lexer → List Item
  | 0, _ => []
  | n + 1, lx =>
    match lx.next with
    | (none, _) => []
    | (some it, lx') => it :: itemsAux n lx'

/-- Every item the lexer yields for `input`, until the iterator returns `None`
(`input.length + 2` calls always suffice: `Rsh.items_complete` in Verif/Props/Lexer.lean). -/
def items (input : Str) : List Item := itemsAux (input.length + 2) (Lexer.new input)

/-- The token stream handed to the LALRPOP parser, without positions; `none` when the lexer
reports an error (LALRPOP then returns `Err`) or panics. -/
def tokensOf : List Item → Option (List Token)
  | [] => some []
  | .tok _ t _ :: is => (tokensOf is).map (t :: ·)
  | .err .. :: _ => none
  | .panic :: _ => none

/-- Tokens of a source text. -/
def lex (input : Str) : Option (List Token) := tokensOf (items input)

end Rsh

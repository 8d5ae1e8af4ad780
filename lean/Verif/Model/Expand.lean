import Verif.Model.Fd

/-!
# Model of the word expansion of src/ast.rs (lines 207-419 and 552-768)

`rec` is the evaluator used for the text of a command substitution.
-/

namespace Rsh

/-- `crate::eval::eval` on a parsed command (src/eval.rs:45-55). -/
def evalCC (rec : List AndOr → M Int) : CompleteCommand → M Int
  | some list => rec list
  | none => pure 0

/-! ## Splitting (src/ast.rs:200-249) -/

/-- src/ast.rs:200-205. -/
inductive QuoteType where
  | none | single | double
deriving DecidableEq

/-- Loop of src/ast.rs:218-242 over the remaining characters; `i` is the byte index, `start` the
start of the current piece.  Pieces are byte slices, so `none` is a panic. -/
def splitQtsAux (whole : Str) : Str → (i start : Nat) → QuoteType → Option (List Str)
  | [], _, start, _ =>
    if start < blen whole then (sliceFromB whole start).map ([·]) else some []
  | c :: cs, i, start, .none =>
    if c = '\'' then splitQtsAux whole cs (i + c.utf8Size) start .single
    else if c = '"' then splitQtsAux whole cs (i + c.utf8Size) start .double
    else if isWs c then
      (sliceB whole start i).bind fun p =>
        (splitQtsAux whole cs (i + c.utf8Size) (i + 1) .none).map (p :: ·)
    else splitQtsAux whole cs (i + c.utf8Size) start .none
  | c :: cs, i, start, .single =>
    splitQtsAux whole cs (i + c.utf8Size) start (if c = '\'' then .none else .single)
  | c :: cs, i, start, .double =>
    splitQtsAux whole cs (i + c.utf8Size) start (if c = '"' then .none else .double)

/-- src/ast.rs:211-248 `split_whitespace_ig_qts`. -/
def splitQts (s : Str) : Option (List Str) := splitQtsAux s s 0 0 .none

/-! ## Aliases (src/shell.rs:173-188, src/ast.rs:253-279) -/

/-- src/shell.rs:173-188; the outer `none` is the `unwrap` panic for a blank alias value.
`Some((cmd, None))` and `Some((cmd, Some(args)))` are merged: no arguments is `[]`. -/
def lookupAlias (aliases : AMap Str) (cmd : Str) : Option (Option (Str × List Str)) :=
  match aliases.get cmd with
  | none => some none
  | some v =>
    match splitWs v with
    | [] => none
    | c :: args => some (some (c, args))

/-- src/ast.rs:253-279. -/
def applyAlias (c : SimpleCommand) (name : Str) (args : List Str) : SimpleCommand :=
  match c.suffix with
  | some sf => { c with name, suffix := some { sf with word := sf.word ++ args } }
  | none => { c with name, suffix := some ⟨[], args⟩ }

/-- src/ast.rs:253-279 `alias_lookup`. -/
def aliasLookup (c : SimpleCommand) : M SimpleCommand := do
  let s ← getS
  match ← unwrapM .unwrap (lookupAlias s.aliases c.name) with
  | none => pure c
  | some (name, args) => pure (applyAlias c name args)

/-! ## Variables (src/ast.rs:281-338) -/

/-- src/ast.rs:285-298: one prefix assignment; `none` is the `unwrap` panic. -/
def expandAssign (m : CtxMgr) (word : Str) : Option Str :=
  if hasSub ['$'] word then
    match splitOn '=' word with
    | n :: v :: _ =>
      some (n ++ '=' :: (match (m.getVar v).map Var.value with
        | some x => x
        | none => v))
    | _ => none
  else some word

/-- src/ast.rs:302-310 and 316-325: a word starting with `$`. -/
def expandWord (m : CtxMgr) (word : Str) : Str :=
  match word with
  | '$' :: name =>
    match (m.getVar name).map Var.value with
    | some x => x
    | none => word
  | _ => word

/-- src/ast.rs:281-338 `expand_vars` as a function of the context manager. -/
def expandVarsIn (m : CtxMgr) (c : SimpleCommand) : Option SimpleCommand :=
  let pre := match c.pre with
    | none => some none
    | some p => (p.assignment.mapM (expandAssign m)).map fun as => some { p with assignment := as }
  pre.map fun pre =>
    { pre, name := expandWord m c.name,
      suffix := c.suffix.map fun sf => { sf with word := sf.word.map (expandWord m) } }

/-- src/ast.rs:281-338. -/
def expandVars (c : SimpleCommand) : M SimpleCommand := do
  let s ← getS
  unwrapM .unwrap (expandVarsIn s.ctx c)

/-! ## Command substitution (src/ast.rs:341-419) -/

/-- Take characters up to and including the delimiter. -/
def takeThrough (d : Char) : Str → Str × Str
  | [] => ([], [])
  | c :: cs => if c = d then ([c], cs) else let (a, b) := takeThrough d cs; (c :: a, b)

/-- src/ast.rs:341-372 `create_subshell`: the collected text and the remaining characters; `none`
is the panic "Unexpected EOF". -/
def createSubshell (chr : Char) (chars : Str) : Option (Str × Str) :=
  if chr = '$' then
    match chars with
    | [] => none
    | c :: cs =>
      if c = '(' then
        let (a, b) := takeThrough ')' cs
        some (chr :: c :: a, b)
      else some ([chr], cs)
  else
    let (a, b) := takeThrough '`' chars
    some (chr :: a, b)

/-- src/ast.rs:376-389: the command text inside `$(…)` or backticks; `none` when the word is
neither. -/
def substText (s : Str) : Option Str :=
  if startsWith (cs!"$(") s then some (s.drop 2).dropLast
  else if startsWith ['`'] s then some (s.drop 1).dropLast
  else none

/-- The code of the child of a command substitution (src/ast.rs:411-416). -/
def substChild (rec : List AndOr → M Int) (cc : CompleteCommand) (r wr : Int) : M Unit := do
  dup2U wr 1
  dup2U wr 2
  closeU wr
  closeU r
  let _ ← tryE (evalCC rec cc)
  exitM 0

/-- src/trap.rs:180-218 `on_sig` for the other signals: nothing in a forked child. What `set_got_sig` and
`set_pending_signal` record is never read. On SIGINT a newline is written to descriptor 0; `on_sigint`
(281-299) clears the signal mask, but the kernel restores it when the handler returns. -/
def onSigOther (w : World) (sig : Nat) : M Unit := do
  let s ← getS
  if s.forked then pure ()
  else if sig = SIGINT then
    match s.fds.get 0 with
    | none => panicM .unwrap
    | some e =>
      if w.writeOk s.trace e.chan then emit (.print (some e.chan) ['\n']) else panicM .unwrap
  else pure ()

/-- Signals whose default is to do nothing to the process (SIGCHLD, SIGCONT, SIGURG, SIGWINCH) or to stop it
until it is continued (SIGSTOP, SIGTSTP, SIGTTIN, SIGTTOU). -/
def harmlessSignals : List Nat := [17, 18, 19, 20, 21, 22, 23, 28]

/-- SIGINT, SIGKILL, SIGSTOP and SIGTSTP. -/
def unblockedSignals : List Nat := [2, 9, 19, 20]

/-- A signal arrives while the shell waits for the process of a command substitution (`waitpid` at
src/ast.rs:403). The handlers are installed without `SA_RESTART` (src/trap.rs:395-399), so the wait fails with
`EINTR`, which is unwrapped. (The mask is set there; a `SIGCHLD` that is let in is not followed further.) -/
def substSignal (w : World) : Option Nat → M Unit
  | none => pure ()
  | some g => do
    let s ← getS
    if s.masked = true ∧ ¬ unblockedSignals.contains g then pure ()
    else match s.disp g with
      | .ign => pure ()
      | .catch => do
        onSigOther w g
        panicM .unwrap
      | .dfl => if harmlessSignals.contains g then pure () else exitM (128 + (g : Int))

/-- src/ast.rs:374-419 `eval_subshell`.  The parent waits for the child before reading, so the
wait never returns when the child (or what it started) fills the pipe.  `FORKED` is not set in
this child.  The second `close` of `pip.0` (the drop of `file`) has no effect. -/
def evalSubshell (w : World) (rec : List AndOr → M Int) (s : Str) : M Str :=
  match substText s with
  | none => pure s
  | some text => do
    let cc ← unwrapM .unwrap (parse text)
    let st ← getS
    let id := st.nextPipe
    let (r, wr) ← (do unwrapM .unwrap (← pipeM w))
    let st ← getS
    let _ ← unwrapM .explicit (w.fork st.trace)
    let (e, evs) ← runChild w (substChild rec cc r wr)
    emit (.subst e evs)
    closeU wr
    let st ← getS
    substSignal w (w.substSig st.trace)
    let out := outTo1 w (.pipeW id) (.subst e evs)
    match e with
    | .hang => hangM
    | _ =>
      if w.pipeCap < blen out then hangM
      else
        closeU r
        pure (trimWs out)

/-! ## Quotes (src/ast.rs:552-580, 627-644) -/

/-- Loop of src/ast.rs:562-573; `fuel` bounds the characters left. -/
def cutLoop (w : World) (rec : List AndOr → M Int) : Nat → Str → M Str
  | 0, _ => pure []
  | _ + 1, [] => pure []
  | n + 1, chr :: cs =>
    if chr = '$' ∨ chr = '`' then do
      let (sub, rest) ← unwrapM .explicit (createSubshell chr cs)
      let a ← evalSubshell w rec sub
      let b ← cutLoop w rec n rest
      pure (a ++ b)
    else do
      let b ← cutLoop w rec n cs
      pure (chr :: b)

/-- src/ast.rs:552-580 `cut_quotes`. -/
def cutQuotes (w : World) (rec : List AndOr → M Int) (word : Str) : M Str :=
  let inner := word.tail.dropLast
  if word.head? = some '"' then cutLoop w rec (inner.length + 1) inner else pure inner

/-- src/ast.rs:627-644 `eval_double_quotes`. -/
def evalDoubleQuotes (w : World) (rec : List AndOr → M Int) (word : Str) : M (List Str) :=
  if !hasSub (cs!"$(") word && !hasSub ['`'] word then do
    let nw ← cutQuotes w rec word
    pure [nw]
  else do
    let nw ← cutQuotes w rec word
    let ev ← evalSubshell w rec nw
    if hasSub [' '] ev then pure (splitWs ev) else pure [ev]

/-- The loop of src/ast.rs:590-597 over the pieces of the name. -/
def evalNameWords (w : World) (rec : List AndOr → M Int) : List Str → M (List Str)
  | [] => pure []
  | p :: ps => do
    let a ← if startsWith ['"'] p then evalDoubleQuotes w rec p else pure [p]
    let b ← evalNameWords w rec ps
    pure (a ++ b)

/-- The loop of src/ast.rs:609-621 over the suffix words. -/
def evalSuffixWords (w : World) (rec : List AndOr → M Int) : List Str → M (List Str)
  | [] => pure []
  | p :: ps => do
    let a ← if startsWith ['"'] p then evalDoubleQuotes w rec p
      else if startsWith ['\''] p then do
        let x ← cutQuotes w rec p
        pure [x]
      else pure [p]
    let b ← evalSuffixWords w rec ps
    pure (a ++ b)

/-- src/ast.rs:582-625 `eval`. -/
def evalWords (w : World) (rec : List AndOr → M Int) (c : SimpleCommand) : M SimpleCommand :=
  if c.name = [] then pure c
  else do
    let name ← if startsWith ['\''] c.name then cutQuotes w rec c.name else pure c.name
    let pieces ← unwrapM .utf8 (splitQts name)
    match ← evalNameWords w rec pieces with
    | [] => panicM .index
    | n :: words =>
      match c.suffix with
      | none => pure { c with name := n, suffix := some ⟨[], words⟩ }
      | some sf =>
        if sf.word.isEmpty then pure { c with name := n, suffix := some ⟨[], words⟩ }
        else do
          let ws ← evalSuffixWords w rec sf.word
          pure { c with name := n, suffix := some { sf with word := words ++ ws } }

/-- src/ast.rs:736-747 `argv`; `none` is the panic on a NUL byte. -/
def argvOf (c : SimpleCommand) : Option (List Str) :=
  let l := c.name :: (match c.suffix with
    | some sf => sf.word
    | none => [])
  if l.any (hasChar '\x00') then none else some l

/-- The three expansion steps of src/eval.rs:354-356 and 468-470. -/
def expandCommand (w : World) (rec : List AndOr → M Int) (c : SimpleCommand) :
    M SimpleCommand := do
  let c1 ← aliasLookup c
  let c2 ← expandVars c1
  evalWords w rec c2

end Rsh

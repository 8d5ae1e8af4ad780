import Verif.Model.State

/-!
# Model of src/context.rs (context manager) and its wrappers in src/shell.rs
-/

namespace Rsh

namespace Ctx

/-- src/context.rs:448-450. -/
def getVar (c : Ctx) (name : Str) : Option Var := c.vars.get name
/-- src/context.rs:452-454. -/
def removeVar (c : Ctx) (name : Str) : Ctx := { c with vars := c.vars.erase name }
/-- src/context.rs:457-459. -/
def getFunction (c : Ctx) (name : Str) : Option FunctionBody := c.funcs.get name
/-- src/context.rs:461-464. -/
def removeFunction (c : Ctx) (name : Str) : Ctx :=
  { c with funcs := c.funcs.erase name, roFuncs := c.roFuncs.filter (· ≠ name) }
/-- src/context.rs:613-615 (`ContextUtils<Var>`). -/
def addVarStruct (c : Ctx) (name : Str) (v : Var) : Ctx := { c with vars := c.vars.insert name v }

end Ctx

/-- src/context.rs:520-525: name and value of a `set` string; the value is the second
`=`-separated component. -/
def splitSet (set : Str) : Str × Str :=
  if hasChar '=' set then
    match splitOn '=' set with
    | n :: v :: _ => (n, v)
    | _ => (set, [])
  else (set, [])

/-- src/context.rs:529-536: the computed `key` is not used, but computing it panics on an empty
string, and on a string that starts with a digit when all its digits together overflow `usize`. -/
def keyOk (set : Str) : Bool :=
  match set with
  | [] => false
  | c :: _ => if isDigit10 c then (parseUsize (set.filter isDigit10)).isSome else true

/-- src/context.rs:519-540 `add_var(&str)`; `none` is a panic. -/
def Ctx.addSet (c : Ctx) (set : Str) : Option Ctx :=
  let (n, v) := splitSet set
  if keyOk set then some (c.addVarStruct n { value := trimQuotes v }) else none

/-- src/context.rs:542-564 `add_var_readonly(&str)`. -/
def Ctx.addSetReadonly (c : Ctx) (set : Str) : Option Ctx :=
  let (n, v) := splitSet set
  if keyOk set then some (c.addVarStruct n { value := trimQuotes v, readonly := true }) else none

/-- src/context.rs:467-473; the second component is whether the readonly message is printed. -/
def Ctx.addFunction (c : Ctx) (name : Str) (body : FunctionBody) : Ctx × Bool :=
  if c.roFuncs.contains name then (c, true)
  else ({ c with funcs := c.funcs.insert name body }, false)

/-- src/context.rs:475-479 `make_readonly_func` (nothing calls it). -/
def Ctx.makeReadonlyFunc (c : Ctx) (name : Str) : Ctx :=
  if (c.funcs.get name).isSome then
    { c with funcs := c.funcs.erase name, roFuncs := name :: c.roFuncs.filter (· ≠ name) }
  else c

/-- The `ns::name` split used throughout src/context.rs (e.g. 117-120): `none` when there is no
`::`. -/
def splitNs (name : Str) : Option (Str × Str) :=
  if hasSub (cs!"::") name then
    match splitColons name with
    | ns :: v :: _ => some (ns, v)
    | _ => none
  else none

namespace CtxMgr

/-- Replace a context in place (the effect of `borrow_mut()` on a shared cell). -/
def setCtx (m : CtxMgr) (id : Nat) (c : Ctx) : CtxMgr :=
  { m with heap := fun i => if i = id then c else m.heap i }

/-- src/context.rs:76-78. -/
def pushNew (m : CtxMgr) : CtxMgr :=
  { m with heap := fun i => if i = m.next then {} else m.heap i,
           next := m.next + 1, stack := m.next :: m.stack }

/-- src/context.rs:83-88; `none` is the panic on the last context. -/
def pop (m : CtxMgr) : Option (Nat × CtxMgr) :=
  match m.stack with
  | id :: b :: rest => some (id, { m with stack := b :: rest })
  | _ => none

/-- src/context.rs:91-93. -/
def current (m : CtxMgr) : Option Nat := m.stack.head?
/-- src/context.rs:99-101 (context 0). -/
def envCtx (m : CtxMgr) : Option Nat := m.stack.getLast?
/-- src/context.rs:104-106. -/
def addContext (m : CtxMgr) (name : Str) (id : Nat) : CtxMgr :=
  { m with exported := m.exported.insert name id }
/-- src/context.rs:94-96. -/
def removeContext (m : CtxMgr) (name : Str) : CtxMgr := { m with exported := m.exported.erase name }
/-- src/context.rs:109-111. -/
def byName (m : CtxMgr) (name : Str) : Option Nat := m.exported.get name

/-- The search `for context in self.context_stack.iter().rev()`: the first context, from the
innermost, in which `p` holds. -/
def findCtx (m : CtxMgr) (p : Ctx → Bool) : Option Nat := m.stack.find? (fun id => p (m.heap id))

/-- src/context.rs:116-135. -/
def getVar (m : CtxMgr) (name : Str) : Option Var :=
  match splitNs name with
  | some (ns, v) => (m.byName ns).bind fun id => (m.heap id).getVar v
  | none => m.stack.findSome? fun id => (m.heap id).getVar name

/-- src/context.rs:139-156. -/
def removeVar (m : CtxMgr) (name : Str) : CtxMgr :=
  match splitNs name with
  | some (ns, v) =>
    match m.byName ns with
    | some id => m.setCtx id ((m.heap id).removeVar v)
    | none => m
  | none =>
    match m.findCtx (fun c => (c.getVar name).isSome) with
    | some id => m.setCtx id ((m.heap id).removeVar name)
    | none => m

/-- src/context.rs:162-181. -/
def getFunction (m : CtxMgr) (name : Str) : Option FunctionBody :=
  match splitNs name with
  | some (ns, v) => (m.byName ns).bind fun id => (m.heap id).getFunction v
  | none => m.stack.findSome? fun id => (m.heap id).getFunction name

/-- src/context.rs:185-202. -/
def removeFunction (m : CtxMgr) (name : Str) : CtxMgr :=
  match splitNs name with
  | some (ns, v) =>
    match m.byName ns with
    | some id => m.setCtx id ((m.heap id).removeFunction v)
    | none => m
  | none =>
    match m.findCtx (fun c => (c.getFunction name).isSome) with
    | some id => m.setCtx id ((m.heap id).removeFunction name)
    | none => m

/-- src/context.rs:205-224. -/
def isFunction (m : CtxMgr) (name : Str) : Bool :=
  match splitNs name with
  | some (ns, v) =>
    match m.byName ns with
    | some id => ((m.heap id).getFunction v).isSome
    | none => false
  | none => m.stack.any fun id => ((m.heap id).getFunction name).isSome

/-- src/context.rs:228-236; the flag says whether the readonly message was printed.  An empty
stack (which never occurs) leaves the manager unchanged. -/
def addFunction (m : CtxMgr) (name : Str) (body : FunctionBody) : CtxMgr × Bool :=
  match m.findCtx (fun c => (c.getFunction name).isSome) with
  | some id => let (c, b) := (m.heap id).addFunction name body; (m.setCtx id c, b)
  | none =>
    match m.current with
    | some id => let (c, b) := (m.heap id).addFunction name body; (m.setCtx id c, b)
    | none => (m, false)

/-- First component of `set.split("=")`. -/
def setName (set : Str) : Str := (splitOn '=' set).headD []

/-- src/context.rs:239-253; `none` is a panic. -/
def addVar (m : CtxMgr) (set : Str) : Option CtxMgr :=
  let name := setName set
  match m.findCtx (fun c => (c.getVar name).isSome) with
  | some id =>
    match (m.heap id).getVar name with
    | some v => if v.readonly then some m else ((m.heap id).addSet set).map (m.setCtx id)
    | none => some m
  | none => m.current.bind fun id => ((m.heap id).addSet set).map (m.setCtx id)

/-- src/context.rs:254-274. -/
def addVarReadonly (m : CtxMgr) (set : Str) : Option CtxMgr :=
  match splitNs set with
  | some (ns, v) =>
    match m.byName ns with
    | some id => ((m.heap id).addSetReadonly v).map (m.setCtx id)
    | none => some m
  | none =>
    let name := setName set
    match m.findCtx (fun c => (c.getVar name).isSome) with
    | some id => ((m.heap id).addSetReadonly set).map (m.setCtx id)
    | none => m.current.bind fun id => ((m.heap id).addSetReadonly set).map (m.setCtx id)

/-- Set the readonly flag of one binding (`….unwrap().borrow_mut().readonly = true`). -/
def markReadonly (m : CtxMgr) (id : Nat) (name : Str) : Option CtxMgr :=
  ((m.heap id).getVar name).map fun v =>
    m.setCtx id ((m.heap id).addVarStruct name { v with readonly := true })

/-- src/context.rs:276-294; `none` is the `unwrap` panic for an undefined variable. -/
def setVarReadonly (m : CtxMgr) (name : Str) : Option CtxMgr :=
  match splitNs name with
  | some (ns, v) =>
    match m.byName ns with
    | some id => m.markReadonly id v
    | none => some m
  | none =>
    match m.findCtx (fun c => (c.getVar name).isSome) with
    | some id => m.markReadonly id name
    | none => m.current.bind fun id => m.markReadonly id name

/-- Context number `pos` counted from the bottom of the stack. -/
def atPos (m : CtxMgr) (pos : Nat) : Option Nat := m.stack.reverse[pos]?

/-- src/context.rs:297-299; `none`: index or `add_var` panic. -/
def addVarPos (m : CtxMgr) (set : Str) (pos : Nat) : Option CtxMgr :=
  (m.atPos pos).bind fun id => ((m.heap id).addSet set).map (m.setCtx id)

/-- The loop of src/context.rs:302-313. -/
def searchPath (isFile : Str → Bool) (cmd : Str) : List Str → Option Str
  | [] => none
  | d :: ds =>
    let p := d ++ '/' :: cmd
    if isFile p then some p else searchPath isFile cmd ds

/-- src/context.rs:302-313; the outer `none` is the `unwrap` panic for an unset `PATH`. -/
def lookupCommand (m : CtxMgr) (isFile : Str → Bool) (cmd : Str) : Option (Option Str) :=
  m.envCtx.bind fun id => ((m.heap id).getVar (cs!"PATH")).map fun v =>
    searchPath isFile cmd (splitOn ':' v.value)

/-- Names of the readonly variables of a context. -/
def roNames (c : Ctx) : List Str := (c.vars.filter (fun p => p.2.readonly)).map Prod.fst

/-- src/context.rs:332-349, names only (the `BTreeMap` merges equal names). -/
def allReadonlyVars (m : CtxMgr) : List Str :=
  (m.stack.flatMap fun id => roNames (m.heap id)) ++
  (m.exported.flatMap fun p => roNames (m.heap p.2))

/-- src/context.rs:350-360. -/
def allReadonlyVarsOf (m : CtxMgr) (ns : Str) : List Str :=
  match m.byName ns with
  | some id => roNames (m.heap id)
  | none => []

/-- src/context.rs:371-380 (a set; duplicates are merged there). -/
def allReadonlyFuncs (m : CtxMgr) : List Str :=
  ((m.stack.flatMap fun id => (m.heap id).roFuncs) ++
   (m.exported.flatMap fun p => (m.heap p.2).roFuncs)).eraseDups

/-- src/context.rs:384-417 `Default`: one context holding the defaults overridden by the process
environment. -/
def init (root : Bool) (ppid pid : Nat) (cwd : Str) (env : AMap Str) : CtxMgr :=
  let d0 : AMap Var := []
  let d1 := if (env.get (cs!"PATH")).isNone then
    d0.insert (cs!"PATH")
      { value := cs!"/bin:/usr/local/sbin:/usr/local/bin:/usr/sbin:/usr/bin:/sbin:/bin" } else d0
  let d2 := if (env.get (cs!"PWD")).isNone then d1.insert (cs!"PWD") { value := cwd } else d1
  let d3 := d2.insert (cs!"PS1") { value := if root then cs!"# " else cs!"$ " }
  let d4 := d3.insert (cs!"PS2") { value := cs!"> " }
  let d5 := d4.insert (cs!"PS4") { value := cs!"+ " }
  let d6 := d5.insert (cs!"PPID") { value := natStr ppid }
  let d7 := d6.insert (cs!"PID") { value := natStr pid }
  let vars := env.foldl (fun m p => m.insert p.1 { value := p.2 }) d7
  { heap := fun i => if i = 0 then { vars } else {}, next := 1, stack := [0], exported := [] }

end CtxMgr

/-! ## The wrappers of src/shell.rs -/

/-- Is a `Ref` of the `SHELL` cell alive at the call site?  (Lexically known: only
`shell::display_jobs` keeps one while calling back into src/shell.rs.) -/
inductive Held where
  | none | shared
deriving DecidableEq

/-- src/shell.rs:642-645 with 300-308: `expand_var` takes `borrow_mut()`, which panics while
another borrow is alive. -/
def expandVar (held : Held) (name : Str) : M (Option Str) := do
  if held = .shared then panicM .borrow else
  let s ← getS
  pure ((s.ctx.getVar name).map Var.value)

/-- Install a new context manager. -/
def setCtxMgr (m : CtxMgr) : M Unit := modS fun s => { s with ctx := m }

/-- src/shell.rs:637-640 `add_var_context`. -/
def addVarContext (set : Str) : M Unit := do
  let s ← getS
  let m ← unwrapM .unwrap (s.ctx.addVar set)
  setCtxMgr m

/-- src/shell.rs:620-623 `add_var`. -/
def addVarAt (set : Str) (pos : Nat) : M Unit := do
  let s ← getS
  let m ← unwrapM .unwrap (s.ctx.addVarPos set pos)
  setCtxMgr m

/-- src/shell.rs:589-592. -/
def pushContextNew : M Unit := modS fun s => { s with ctx := s.ctx.pushNew }

/-- src/shell.rs:594-597; panics on the last context. -/
def popContext : M Nat := do
  let s ← getS
  let (id, m) ← unwrapM .explicit s.ctx.pop
  setCtxMgr m
  pure id

/-- src/shell.rs:669-672 (with the message of src/context.rs:469). -/
def addFunctionM (name : Str) (body : FunctionBody) : M Unit := do
  let s ← getS
  let (m, ro) := s.ctx.addFunction name body
  setCtxMgr m
  if ro then eprintlnM (cs!"Can't override readonly function " ++ name) else pure ()

/-- src/shell.rs:537-540 `lookup_command`. -/
def lookupCommandM (w : World) (cmd : Str) : M (Option Str) := do
  let s ← getS
  unwrapM .unwrap (s.ctx.lookupCommand (w.isFile s.trace) cmd)

/-- src/shell.rs:566-572 `set_input_args`. -/
def setInputArgs (arg : Str) (index : Nat) : M Unit := addVarAt (natStr index ++ '=' :: arg) 0

/-- src/shell.rs:661-666 `set_arg_0`. -/
def setArg0 : M Unit := do
  let s ← getS
  addVarAt (cs!"0=" ++ s.scriptName) 1

end Rsh

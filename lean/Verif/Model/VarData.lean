import Verif.Model.Context

/-!
# The variable store of src/var.rs

A store of variables that the shell compiles but no longer uses (src/context.rs replaced it).  Modelled on its own.
-/

namespace Rsh

/-- src/var.rs:13-17 `Var`. -/
structure NVar where
  name : Str
  value : Str
deriving DecidableEq, Repr

/-- src/var.rs:28-33 `ToString`. -/
def NVar.text (v : NVar) : Str := v.name ++ '=' :: v.value

/-- src/var.rs:44-50 `VarData`; the last element of `stack` is the innermost level. -/
structure VarData where
  locals : AMap NVar := []
  stack : List (AMap NVar) := []
  table : AMap NVar := []
deriving DecidableEq, Repr

namespace VarData

/-- src/var.rs:88-90. -/
def currentPos (d : VarData) : Int := (d.stack.length : Int) - 1

/-- src/var.rs:140-142. -/
def pushStack (d : VarData) : VarData := { d with stack := d.stack ++ [[]] }

/-- `self.local_var_stack[i].insert(key, value)`; `none` is the panic of the index. -/
def insertAt (i : Nat) (key : Str) (v : NVar) (st : List (AMap NVar)) : Option (List (AMap NVar)) :=
  if i < st.length then some (st.modify i fun m => m.insert key v) else none

/-- src/var.rs:103-127 the private `add_var`.  A negative position other than -1 becomes a huge index: the comparison with the
length is on `isize`, so it is the first branch that panics. -/
def addVar (d : VarData) (key : Str) (v : NVar) (pos : Int) : Option VarData :=
  if pos = -1 then some { d with locals := d.locals.insert key v }
  else if (d.table.get key).isSome then some { d with table := d.table.insert key v }
  else if pos < d.stack.length then
    if pos < 0 then none
    else (insertAt pos.toNat key v d.stack).map fun st => { d with stack := st }
  else (insertAt pos.toNat key v d.pushStack.stack).map fun st => { d with stack := st }

/-- src/var.rs:129-138: no level has the name. -/
def checkLevels (d : VarData) (key : Str) : Bool := d.stack.reverse.all fun m => (m.get key).isNone

/-- src/var.rs:143-154. -/
def popStack (d : VarData) : VarData :=
  match d.stack.getLast? with
  | none => d
  | some m =>
    let d' := { d with stack := d.stack.dropLast }
    m.foldl (fun d p => if d.checkLevels p.1 then { d with table := d.table.erase p.1 } else d) d'

/-- src/var.rs:156-177 and 179-181 `lookup_var`. -/
def lookupVar (d : VarData) (key : Str) : Option Str :=
  match d.table.get key with
  | some v => some v.value
  | none =>
    match d.locals.get key with
    | some v => some v.value
    | none => d.stack.reverse.findSome? fun m => (m.get key).map NVar.value

/-- src/var.rs:183-200 `lookup_command`; `isFile` is whether `metadata` finds a regular file.  The outer `none` is the
panic of `path` (src/var.rs:99-101) when there is no PATH. -/
def lookupCommand (isFile : Str → Bool) (d : VarData) (cmd : Str) : Option (Option Str) :=
  (d.lookupVar (cs!"PATH")).map fun p => ((splitOn ':' p).map fun dir => dir ++ '/' :: cmd).find? isFile

/-- src/var.rs:242-249 and 269-276: the key for a name or assignment; `none` is a panic (empty, or digits that do not fit in a
`usize`).  `text` is what is looked at, `name` the key otherwise. -/
def keyOf (text name : Str) : Option Str :=
  match text with
  | [] => none
  | c :: _ => if isDigit10 c then (parseUsize (text.filter isDigit10)).map natStr else some name

/-- src/var.rs:232-253 `add_var(&str)`. -/
def addSet (d : VarData) (set : Str) (pos : Int) : Option VarData :=
  let (n, v) := splitSet set
  (keyOf set n).bind fun key => d.addVar key ⟨n, trimQuotes v⟩ pos

/-- src/var.rs:266-280 `add_var((&str, &str))`. -/
def addPair (d : VarData) (name value : Str) (pos : Int) : Option VarData :=
  (keyOf name name).bind fun key => d.addVar key ⟨name, trimQuotes value⟩ pos

/-- src/var.rs:65-82: the names that get a fixed value. -/
def defaults (root : Bool) (ppid pid : Nat) : List (Str × Str) :=
  [(cs!"PS1", if root then cs!"# " else cs!"$ "), (cs!"PS2", cs!"> "), (cs!"PS4", cs!"+ "),
   (cs!"PPID", natStr ppid), (cs!"PID", natStr pid),
   (cs!"PATH", cs!"/bin:/usr/local/sbin:/usr/local/bin:/usr/sbin:/usr/bin:/sbin:/bin")]

/-- `add_var(name, Var::new(name, value), -1)`. -/
def setGlobal (d : VarData) (p : Str × Str) : VarData := { d with locals := d.locals.insert p.1 ⟨p.1, p.2⟩ }

/-- src/var.rs:55-86 `new`, with `convert_env` (src/var.rs:92-97): the store and the new environment. -/
def new (root : Bool) (ppid pid : Nat) (env : AMap Str) : VarData × AMap Str :=
  ((defaults root ppid pid).foldl setGlobal (env.foldl setGlobal {}),
   (defaults root ppid pid).foldl (fun e p => e.insert p.1 p.2) env)

/-- `env::set_var("PATH", …)`; `none` is its panic on a NUL character. -/
def setPath (env : AMap Str) (path : Str) : Option (AMap Str) :=
  if hasChar '\x00' path then none else some (env.insert (cs!"PATH") path)

/-- src/var.rs:217-230 `update_path(&str)`: the new environment. -/
def updatePath (env : AMap Str) (path : Str) : Option (AMap Str) :=
  setPath env (if hasChar '=' path then
    match splitOn '=' path with
    | _ :: v :: _ => v
    | _ => path
  else path)

/-- src/var.rs:259-264 `update_path((&str, &str))`. -/
def updatePathPair (env : AMap Str) (key path : Str) : Option (AMap Str) :=
  if key = cs!"PATH" then setPath env path else some env

end VarData

/-- src/var.rs:283-294 `ImportantVars`. -/
structure ImportantVars where
  home : Str
  pwd : Str
  path : List Str
  history : Str
  ps1 : Str
  ps2 : Str
  ps4 : Str
  ppid : Nat
  pid : Nat
deriving DecidableEq, Repr

namespace ImportantVars

/-- src/var.rs:297-301 `make_into_vars`. -/
def makeIntoVars (i : ImportantVars) : List Str := [cs!"HISTFILE=" ++ i.history]

/-- `[String]::join(":")`. -/
def joinColon : List Str → Str
  | [] => []
  | [w] => w
  | w :: ws => w ++ ':' :: joinColon ws

/-- src/var.rs:303-312 `export_env_vars`: the new environment. -/
def exportEnv (i : ImportantVars) (env : AMap Str) : AMap Str :=
  [(cs!"HOME", i.home), (cs!"PWD", i.pwd), (cs!"PATH", joinColon i.path), (cs!"PS1", i.ps1), (cs!"PS2", i.ps2),
   (cs!"PS4", i.ps4), (cs!"PPID", natStr i.ppid), (cs!"PID", natStr i.pid)].foldl (fun e p => e.insert p.1 p.2) env

/-- src/var.rs:314-317 `set_path`. -/
def setPath (i : ImportantVars) (path : Str) : ImportantVars := { i with path := splitOn ':' path }

/-- src/var.rs:319-324 `set_var`. -/
def setVar (i : ImportantVars) (v : NVar) : ImportantVars :=
  if v.name = cs!"HISTFILE" then { i with history := v.value } else i

/-- src/var.rs:327-348 `default`.  The last entry of the path holds two directories. -/
def default (root : Bool) (ppid pid : Nat) (cwd : Str) (env : AMap Str) : ImportantVars where
  home := (env.get (cs!"HOME")).getD (cs!"/root")
  pwd := cwd
  path := [cs!"/bin", cs!"/usr/local/sbin", cs!"/usr/local/bin", cs!"/usr/sbin", cs!"/usr/bin", cs!"/sbin:/bin"]
  history := []
  ps1 := if root then cs!"# " else cs!"$ "
  ps2 := cs!"> "
  ps4 := cs!"+ "
  ppid := ppid
  pid := pid

end ImportantVars

end Rsh

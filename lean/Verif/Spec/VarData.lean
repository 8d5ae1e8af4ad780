import Verif.Model.VarData
import Verif.Spec.Crash

/-!
# Specification of a store of variables with levels
-/

namespace Rsh.Spec

/-- What is asked of the store, through its public functions. -/
inductive VarOp where
  /-- Add the variable `name` with this value, at a position (-1: global). -/
  | pair (name value : Str) (pos : Int)
  /-- The same, given as `name=value`. -/
  | set (text : Str) (pos : Int)
  | push
  | pop
deriving DecidableEq, Repr

/-- A store: the global variables, and those of each level, the outermost first. -/
structure Scopes where
  globals : Str → Option Str
  levels : List (Str → Option Str)

/-- The map with one value changed. -/
def update (f : Str → Option Str) (k v : Str) : Str → Option Str := fun x => if x = k then some v else f x

/-- Put a value at a position: -1 is global, otherwise it is the number of a level, or of a new one. -/
inductive Put (k v : Str) : Int → Scopes → Scopes → Prop
  | global (s : Scopes) : Put k v (-1) s { s with globals := update s.globals k v }
  | level (g : Str → Option Str) (a b : List (Str → Option Str)) (l : Str → Option Str) :
      Put k v a.length ⟨g, a ++ l :: b⟩ ⟨g, a ++ update l k v :: b⟩
  | fresh (s : Scopes) : Put k v s.levels.length s ⟨s.globals, s.levels ++ [update (fun _ => none) k v]⟩

/-- What is stored for a written value: it loses one pair of outer quotes; a single quote character loses itself. -/
def Stored (v u : Str) : Prop := (LoneQuote v ∧ u = []) ∨ (¬LoneQuote v ∧ Unquoted v u)

/-- The key a variable is stored under: its name, except that a text that begins with a digit stands for the number written by all
the digits in it. -/
inductive Key (text name : Str) : Str → Prop
  | name {c : Char} {t : Str} (h : text = c :: t) (hc : ¬Digit c) : Key text name name
  | number {c : Char} {t : Str} (h : text = c :: t) (hc : Digit c)
      (hn : decimal (text.filter fun c => decide (Digit c)) < 18446744073709551616) :
      Key text name (natStr (decimal (text.filter fun c => decide (Digit c))))

/-- One operation on the store. -/
inductive Step : VarOp → Scopes → Scopes → Prop
  | pair {name value key u : Str} {pos : Int} {s s' : Scopes} (hk : Key name name key)
      (hu : Stored value u) (h : Put key u pos s s') : Step (.pair name value pos) s s'
  | set {name value key u : Str} {pos : Int} {s s' : Scopes} (hn : '=' ∉ name) (hv : '=' ∉ value)
      (hk : Key (name ++ '=' :: value) name key) (hu : Stored value u)
      (h : Put key u pos s s') :
      Step (.set (name ++ '=' :: value) pos) s s'
  | setMore {name value more key u : Str} {pos : Int} {s s' : Scopes} (hn : '=' ∉ name) (hv : '=' ∉ value)
      (hk : Key (name ++ '=' :: value ++ '=' :: more) name key) (hu : Stored value u)
      (h : Put key u pos s s') :
      Step (.set (name ++ '=' :: value ++ '=' :: more) pos) s s'
  | setBare {name key : Str} {pos : Int} {s s' : Scopes} (hn : '=' ∉ name) (hk : Key name name key)
      (h : Put key [] pos s s') : Step (.set name pos) s s'
  | push (s : Scopes) : Step .push s { s with levels := s.levels ++ [fun _ => none] }
  | pop (g : Str → Option Str) (ls : List (Str → Option Str)) (l : Str → Option Str) : Step .pop ⟨g, ls ++ [l]⟩ ⟨g, ls⟩
  | popNone (g : Str → Option Str) : Step .pop ⟨g, []⟩ ⟨g, []⟩

/-- A sequence of operations. -/
inductive Steps : List VarOp → Scopes → Scopes → Prop
  | nil (s : Scopes) : Steps [] s s
  | cons {o : VarOp} {os : List VarOp} {s s1 s' : Scopes} (h : Step o s s1) (hs : Steps os s1 s') : Steps (o :: os) s s'

/-- The value of a variable: that of the global one if there is one, otherwise that of the innermost level that has one. -/
def Scopes.value (s : Scopes) (x : Str) : Option Str :=
  (s.globals x).or (s.levels.reverse.findSome? fun l => l x)

/-- The scopes when the store is made: the environment, and the fixed values. -/
def atStart (root : Bool) (ppid pid : Nat) (env : AMap Str) (x : Str) : Option Str :=
  if x = cs!"PATH" then some (cs!"/bin:/usr/local/sbin:/usr/local/bin:/usr/sbin:/usr/bin:/sbin:/bin")
  else if x = cs!"PID" then some (natStr pid)
  else if x = cs!"PPID" then some (natStr ppid)
  else if x = cs!"PS4" then some (cs!"+ ")
  else if x = cs!"PS2" then some (cs!"> ")
  else if x = cs!"PS1" then some (if root then cs!"# " else cs!"$ ")
  else env.get x

end Rsh.Spec

namespace Rsh

/-- The operation on the model; `none` is a panic. -/
def Spec.VarOp.run : VarOp → VarData → Option VarData
  | .pair n v pos, d => d.addPair n v pos
  | .set t pos, d => d.addSet t pos
  | .push, d => some d.pushStack
  | .pop, d => some d.popStack

/-- A sequence of operations on the model. -/
def varRun : List Spec.VarOp → VarData → Option VarData
  | [], d => some d
  | o :: os, d => (o.run d).bind (varRun os)

end Rsh

import Verif.Spec.Builtin
import Verif.Spec.Process

/-!
# How the words of `exec` are read

The options are looked for in the first word, and then once more in the words that follow, one letter after the other; the
words already read are dropped from the front of the list.  So a command may be taken for an option, see `C81_counterexample`.
-/

namespace Rsh.Spec

open Rsh

/-- What the words of `exec` are taken for. -/
inductive ExecReading where
  /-- A command with the first argument it is to get, its other arguments, and whether its environment is to be empty. -/
  | run (arg0 cmd : Str) (args : List Str) (empty : Bool)
  /-- There is no word left where one is looked for. -/
  | short
  /-- There is no command after the name of `-a`, or nothing at all. -/
  | refused
deriving DecidableEq

/-- The options seen so far. -/
structure ExecSeen where
  empty : Bool := false
  login : Bool := false
  named : Bool := false

/-- The command: `prev` is the word before it. -/
def execCommand (f : ExecSeen) (prev : Str) : List Str → ExecReading
  | [] => .short
  | cmd :: args => .run ((if f.login then ['-'] else []) ++ if f.named then prev else cmd) cmd args f.empty

/-- Any word with an `a` in it is taken for `-a`. -/
def execNamed (f : ExecSeen) (prev : Str) : List Str → ExecReading
  | [] => .short
  | x :: rest =>
    if 'a' ∈ x then
      match rest with
      | name :: cmd :: args => execCommand { f with named := true } name (cmd :: args)
      | _ => .refused
    else execCommand f prev (x :: rest)

/-- Any word with an `l` in it is taken for `-l`. -/
def execLogin (f : ExecSeen) (prev : Str) : List Str → ExecReading
  | [] => .short
  | x :: rest => if 'l' ∈ x then execNamed { f with login := true } x rest else execNamed f prev (x :: rest)

/-- The second time options are looked for: only if there is a `-` in the word. -/
def execMore (f : ExecSeen) (prev : Str) : List Str → ExecReading
  | [] => .short
  | x :: rest =>
    if '-' ∈ x then
      if 'c' ∈ x then execLogin { f with empty := true } x rest else execLogin f prev (x :: rest)
    else execCommand f prev (x :: rest)

/-- The words after `exec`. -/
def execReads : List Str → ExecReading
  | [] => .refused
  | x :: rest =>
    if '-' ∈ x ∧ 'a' ∈ x then
      match rest with
      | name :: cmd :: args => execMore ⟨decide ('c' ∈ x), decide ('l' ∈ x), true⟩ name (cmd :: args)
      | _ => .refused
    else if '-' ∈ x ∧ ('c' ∈ x ∨ 'l' ∈ x) then execMore ⟨decide ('c' ∈ x), decide ('l' ∈ x), false⟩ x rest
    else execMore {} [] (x :: rest)

/-- Calls of `exec` that crash the shell: a word is missing where one is looked for; there is a NUL character in an argument
or in the name of the file; `PATH` is not set. -/
inductive ExecCrashes (w : World) (s : Sh) (ws : List Str) : Prop where
  | short : execReads ws = .short → ExecCrashes w s ws
  | nul {a0 cmd args e a} : execReads ws = .run a0 cmd args e → a ∈ a0 :: args → '\x00' ∈ a → ExecCrashes w s ws
  | path {a0 cmd args e} : execReads ws = .run a0 cmd args e → pathOf s = none → ExecCrashes w s ws
  | file {a0 cmd args e path file} : execReads ws = .run a0 cmd args e → pathOf s = some path →
      FirstOnPath (w.isFile s.trace) path cmd file → '\x00' ∈ file → ExecCrashes w s ws

/-- Calls of `exec` that fail after the handlers of the shell have been taken away, and the message. -/
inductive ExecFails (w : World) (s : Sh) (ws : List Str) : Str → Prop where
  | missing {a0 cmd args e path} : execReads ws = .run a0 cmd args e → (∀ a ∈ a0 :: args, '\x00' ∉ a) →
      pathOf s = some path → (∀ ds, Lists path ds → ∀ d ∈ ds, w.isFile s.trace (d ++ '/' :: cmd) = false) →
      ExecFails w s ws (cmd ++ cs!": Command not found")
  | refused {a0 cmd args e path file} : execReads ws = .run a0 cmd args e → (∀ a ∈ a0 :: args, '\x00' ∉ a) →
      pathOf s = some path → FirstOnPath (w.isFile s.trace) path cmd file → '\x00' ∉ file →
      w.execOk s.trace file = false → ExecFails w s ws (cs!"Failed to execute: " ++ w.osMsg)

/-- How a line `exec …` ends. -/
inductive ExecLine (w : World) (s : Sh) (ws : List Str) : Out Unit × Sh → Prop where
  /-- The program takes the place of the shell. -/
  | replaced {a0 cmd args e file img s'} : execReads ws = .run a0 cmd args e → (∀ a ∈ a0 :: args, '\x00' ∉ a) →
      Runnable w s s.trace cmd file → img.path = file → img.argv = a0 :: args → img.env = (if e then [] else s.env) →
      img.fds = s.fds.filter (fun p => !p.2.cloexec) → img.masked = false → img.cwd = s.cwd →
      (∀ g, img.disp g = untouched g) → s'.trace = s.trace → ExecLine w s ws (.execed img, s')
  /-- The failure is reported; the shell goes on without its handlers. -/
  | failed {msg s'} : ExecFails w s ws msg → (∀ g, s'.disp g = untouched g) →
      s' = { s with
        masked := false
        disp := s'.disp
        trace := .print ((s.fds.get 1).map FdE.chan) (msg ++ ['\n']) :: s.trace } → ExecLine w s ws (.ok (), s')
  /-- The words are refused, and nothing is done. -/
  | refused {msg} : execReads ws = .refused →
      msg = (if ws = [] then cs!"exec needs an argument" else cs!"exec -a needs an argument") →
      ExecLine w s ws (.ok (), { s with
        masked := true
        trace := .print ((s.fds.get 1).map FdE.chan) (msg ++ ['\n']) :: s.trace })
  | crashed {k s'} : ExecCrashes w s ws → ExecLine w s ws (.panic k, s')

end Rsh.Spec

import Verif.Spec.Lists
import Verif.Spec.External

/-!
# Builtin commands as a user types them
-/

namespace Rsh.Spec

open Rsh

/-- A builtin with its arguments, each with the text it stands for. -/
structure Call where
  name : Str
  args : List (Typed × Str) := []

/-- The command. -/
def Call.cmd (c : Call) : TCmd := { name := some (.plain c.name), after := c.args.map fun a => .arg a.1 }

/-- The text of a line with only this command. -/
def Call.text (c : Call) : Str := c.cmd.line.text

/-- What its arguments stand for. -/
def Call.values (c : Call) : List Str := c.args.map Prod.snd

/-- The command is a builtin, and its words stand for the given texts. -/
structure Call.Ok (c : Call) (s : Sh) : Prop where
  builtin : c.name ∈ builtins
  named : c.name ≠ []
  alias : s.aliases.get c.name = none
  typed : ∀ a ∈ c.args, a.1.Ok
  means : ∀ a ∈ c.args, a.1.Means (valueOf s) a.2

/-- A word without special characters, which stands for itself. -/
def word (x : Str) : Typed × Str := (.plain x, x)

/-- A line that begins with this command: more may follow in its pipeline, its chain and its list. -/
def Call.Begins (c : Call) (l : TLine) : Prop := l.Ok ∧ l.first.first.first = c.cmd

/-- A number as `exit` and `return` understand it: 32 bits with sign. -/
def Code (n : Int) : Prop := -2147483648 ≤ n ∧ n ≤ 2147483647

/-- How a line or a builtin ends that evaluates a text, if `r` is how that text ends: the status is
dropped and an error is reported. -/
def Reported (r : Out Int × Sh) (r' : Out Unit × Sh) : Prop :=
  match r with
  | (.ok _, s1) => r' = (.ok (), s1)
  | (.err _, s1) => ∃ msg, r' = printlnM msg s1
  | (.panic k, s1) => r' = (.panic k, s1)
  | (.exit c, s1) => r' = (.exit c, s1)
  | (.execed i, s1) => r' = (.execed i, s1)
  | (.hang, s1) => r' = (.hang, s1)
  | (.deep, s1) => r' = (.deep, s1)

/-- The file `source` reads for a name: a name with a slash is the file itself, any other is searched
for in `PATH` and is the file itself if it is not there. -/
def Sourced (w : World) (s : Sh) (name file : Str) : Prop :=
  ('/' ∈ name ∧ file = name) ∨
  ('/' ∉ name ∧ ∃ path, pathOf s = some path ∧
    (FirstOnPath (w.isFile s.trace) path name file ∨
     ((∀ ds, Lists path ds → ∀ d ∈ ds, w.isFile s.trace (d ++ '/' :: name) = false) ∧ file = name)))

/-- The option letters of `exec`. -/
structure ExecFlags where
  empty : Bool := false
  login : Bool := false
  name : Option Str := none

/-- The words of `exec` with these options. -/
def ExecFlags.words (f : ExecFlags) (cmd : Str) (args : List Str) : List Str :=
  (if f.empty || f.login || f.name.isSome then
    [['-'] ++ (if f.empty then ['c'] else []) ++ (if f.login then ['l'] else []) ++
      (if f.name.isSome then ['a'] else [])] else []) ++
  f.name.toList ++ cmd :: args

/-- The first argument the new program gets. -/
def ExecFlags.arg0 (f : ExecFlags) (cmd : Str) : Str :=
  (if f.login then ['-'] else []) ++ f.name.getD cmd

/-- The words of an `exec` command that are understood as these options, this command and these arguments:
options in one word, or in two words of which the second is `-a`, `-l` or `-c`.  The options are looked for
in more words than there are options, so the command may not have certain letters. -/
inductive ExecWords : List Str → ExecFlags → Str → List Str → Prop where
  | one {f : ExecFlags} {cmd args} : '-' ∉ cmd ∨ 'c' ∉ cmd ∧ 'l' ∉ cmd ∧ 'a' ∉ cmd → ExecWords (f.words cmd args) f cmd args
  | name {f : ExecFlags} {nm cmd args} : f.name = none → f.empty = true ∨ f.login = true →
      ExecWords (f.words (cs!"-a") (nm :: cmd :: args)) { f with name := some nm } cmd args
  | login {f : ExecFlags} {cmd args} : f.name = none → f.empty = true ∨ f.login = true → 'a' ∉ cmd →
      ExecWords (f.words (cs!"-l") (cmd :: args)) { f with login := true } cmd args
  | empty {f : ExecFlags} {cmd args} : f.name = none → f.empty = true ∨ f.login = true → 'l' ∉ cmd → 'a' ∉ cmd →
      ExecWords (f.words (cs!"-c") (cmd :: args)) { f with empty := true } cmd args

/-- Arguments a builtin can cope with, in the state `s`. -/
inductive Copes (s : Sh) : Str → List Str → Prop where
  | pwd {vs} : Copes s (cs!"pwd") vs
  | cd {v vs} : Copes s (cs!"cd") (v :: vs)
  | exit : Copes s (cs!"exit") []
  | exitWith {n vs} : Code n → Copes s (cs!"exit") (intStr n :: vs)
  | return : Copes s (cs!"return") []
  | returnWith {n vs} : Code n → Copes s (cs!"return") (intStr n :: vs)
  | jobs {vs} : s.jc.table = [] → Copes s (cs!"jobs") vs
  | alias {v vs} : Copes s (cs!"alias") (v :: vs)
  | unalias {v vs} : Copes s (cs!"unalias") (v :: vs)
  | exportNone : Copes s (cs!"export") []
  | export {v} : '=' ∉ v → v ≠ cs!"context" → s.ctx.getVar v = none → Copes s (cs!"export") [v]
  | unset {v vs} : ('-' ∈ v → vs ≠ []) → Copes s (cs!"unset") (v :: vs)
  | unsetNone : Copes s (cs!"unset") []
  | readonlyNone : Copes s (cs!"readonly") []
  | execNone : Copes s (cs!"exec") []
  | exec {v vs} : '-' ∉ v → (∀ x ∈ v :: vs, '\x00' ∉ x) →
      (∃ path, pathOf s = some path ∧ '\x00' ∉ path) → Copes s (cs!"exec") (v :: vs)
  | sourceNone : Copes s (cs!"source") []

/-- The shell goes on, or ends as asked. -/
def Survives (o : Out α) : Prop := (∃ a, o = .ok a) ∨ (∃ c, o = .exit c) ∨ ∃ i, o = .execed i

end Rsh.Spec

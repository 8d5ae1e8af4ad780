import Verif.Spec.Pipes

/-!
# A command line with a command substitution
-/

namespace Rsh.Spec

open Rsh

/-- A command substitution, with backticks or with `$(…)`. -/
def substitution (tick : Bool) (t : Str) : Str := if tick then '`' :: (t ++ ['`']) else '$' :: '(' :: (t ++ [')'])

/-- The character that ends it. -/
def substEnd (tick : Bool) : Char := if tick then '`' else ')'

/-- A command line `name args "pre$(cmd)post" args`, or the same with backticks. -/
structure SubstLine where
  tick : Bool := false
  name : Str
  before : List (Typed × Str) := []
  pre : Str := []
  cmd : CmdLine
  post : Str := []
  after : List (Typed × Str) := []

/-- The word with the substitution. -/
def SubstLine.word (l : SubstLine) : Typed := .double (l.pre ++ (substitution l.tick l.cmd.text ++ l.post))

/-- The arguments as typed. -/
def SubstLine.words (l : SubstLine) : List Typed := l.before.map Prod.fst ++ l.word :: l.after.map Prod.fst

/-- The text of the line. -/
def SubstLine.text (l : SubstLine) : Str :=
  line (([], l.name) :: l.words.map fun t => ([' '], t.text)) []

/-- The arguments, when the word with the substitution stands for `vs`. -/
def SubstLine.argv (l : SubstLine) (vs : List Str) : List Str :=
  l.name :: (l.before.map Prod.snd ++ (vs ++ l.after.map Prod.snd))

/-- The arguments a text in double quotes becomes when there was a substitution in it: one, or, if there is a
space in it, one for each of its words. -/
def Becomes (v : Str) (vs : List Str) : Prop := if ' ' ∈ v then WordsOf v vs else vs = [v]

/-- The two commands are external, and the text around the substitution is ordinary. -/
structure SubstLine.Ok (l : SubstLine) (s : Sh) : Prop where
  name : PlainWord l.name ∧ '\x00' ∉ l.name
  external : l.name ∉ builtins
  alias : s.aliases.get l.name = none
  function : s.ctx.isFunction l.name = false
  args : ∀ a ∈ l.before ++ l.after, a.1.Ok ∧ a.1.Means (valueOf s) a.2 ∧ '\x00' ∉ a.2
  around : ∀ c ∈ l.pre ++ l.post, c ≠ '"' ∧ c ≠ '$' ∧ c ≠ '`'
  cmd : l.cmd.Ok s
  text : '"' ∉ l.cmd.text ∧ substEnd l.tick ∉ l.cmd.text

/-- A command line `name args "pre$(cmd)post" args`, or the same with backticks; `cmd` is any text. -/
structure QuotedLine where
  tick : Bool := false
  name : Str
  before : List (Typed × Str) := []
  pre : Str := []
  cmd : Str
  post : Str := []
  after : List (Typed × Str) := []

/-- The word with the substitution. -/
def QuotedLine.word (l : QuotedLine) : Typed := .double (l.pre ++ (substitution l.tick l.cmd ++ l.post))

/-- The arguments as typed. -/
def QuotedLine.words (l : QuotedLine) : List Typed := l.before.map Prod.fst ++ l.word :: l.after.map Prod.fst

/-- The text of the line. -/
def QuotedLine.text (l : QuotedLine) : Str :=
  line (([], l.name) :: l.words.map fun t => ([' '], t.text)) []

/-- The arguments, when the word with the substitution stands for `vs`. -/
def QuotedLine.argv (l : QuotedLine) (vs : List Str) : List Str :=
  l.name :: (l.before.map Prod.snd ++ (vs ++ l.after.map Prod.snd))

/-- The outer command is external, and the text around the substitution is ordinary. -/
structure QuotedLine.Ok (l : QuotedLine) (s : Sh) : Prop where
  name : PlainWord l.name ∧ '\x00' ∉ l.name
  external : l.name ∉ builtins
  alias : s.aliases.get l.name = none
  function : s.ctx.isFunction l.name = false
  args : ∀ a ∈ l.before ++ l.after, a.1.Ok ∧ a.1.Means (valueOf s) a.2 ∧ '\x00' ∉ a.2
  around : ∀ c ∈ l.pre ++ l.post, c ≠ '"' ∧ c ≠ '$' ∧ c ≠ '`'
  text : '"' ∉ l.cmd ∧ substEnd l.tick ∉ l.cmd

/-- The copy of the shell that evaluates a substitution: signals are off, its standard output and standard error are the
end of a new pipe, and it has processes of its own to wait for.  All else is as in the shell. -/
def copyOf (w : World) (s : Sh) : Sh :=
  { s with
    masked := true
    fds := [(2, ⟨.pipeW s.nextPipe, false⟩), (1, ⟨.pipeW s.nextPipe, false⟩), (0, ⟨.orig 0, false⟩)]
    nextPipe := s.nextPipe + 1
    waits := w.childWaits (.born :: s.trace)
    trace := .born :: s.trace }

/-- How the copy ends: with status 0 when the evaluation is over, whatever its status or error; by `exit`; as another
program; or by a crash. -/
inductive CopyEnds : Out Int → Sh → ChildEnd → Prop where
  | ok {st s} : CopyEnds (.ok st) s (.exit 0)
  | err {e s} : CopyEnds (.err e) s (.exit 0)
  | exit {c s} : CopyEnds (.exit c) s (.exit c)
  | exec {img s} : CopyEnds (.execed img) s (.exec img)
  | panic {k s} : CopyEnds (.panic k) s (.panic ((s.fds.get 2).map FdE.chan))

/-- What the end of a process writes to a channel: all the output of a program, or the message of a crash. -/
inductive LastWords (w : World) (ch : Chan) : ChildEnd → Str → Prop where
  | exec {img} : LastWords w ch (.exec img) (w.progOut img ch)
  | panic : LastWords w ch (.panic (some ch)) w.panicMsg
  | elsewhere {to} : to ≠ some ch → LastWords w ch (.panic to) []
  | exit {c} : LastWords w ch (.exit c) []
  | hang : LastWords w ch .hang []
  | returned : LastWords w ch .returned []

/-- What a list of events writes to a channel, by the shell itself (on its standard output or its standard error), by the
processes it starts and by those that these start. -/
inductive Delivers (w : World) (ch : Chan) : List Event → Str → Prop where
  | nil : Delivers w ch [] []
  | print {t es out} : Delivers w ch es out → Delivers w ch (.print (some ch) t :: es) (t ++ out)
  | eprint {t es out} : Delivers w ch es out → Delivers w ch (.eprint (some ch) t :: es) (t ++ out)
  | spawn {pid e evs es o1 o2 out} : Delivers w ch evs o1 → LastWords w ch e o2 → Delivers w ch es out →
      Delivers w ch (.spawn pid e evs :: es) (o1 ++ o2 ++ out)
  | subst {e evs es o1 o2 out} : Delivers w ch evs o1 → LastWords w ch e o2 → Delivers w ch es out →
      Delivers w ch (.subst e evs :: es) (o1 ++ o2 ++ out)
  | other {e es out} : (∀ t, e ≠ .print (some ch) t) → (∀ t, e ≠ .eprint (some ch) t) → (∀ pid d evs, e ≠ .spawn pid d evs) →
      (∀ d evs, e ≠ .subst d evs) → Delivers w ch es out → Delivers w ch (e :: es) out

end Rsh.Spec

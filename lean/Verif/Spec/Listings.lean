import Verif.Spec.Sessions
import Verif.Spec.Alias

/-!
# Listings
-/

namespace Rsh.Spec

open Rsh

/-- The characters with Unicode's property White_Space. -/
def whiteSpace : List Char :=
  ['\t', '\n', '\u000B', '\u000C', '\r', ' ', '\u0085', '\u00A0', '\u1680', '\u2000', '\u2001', '\u2002', '\u2003', '\u2004',
   '\u2005', '\u2006', '\u2007', '\u2008', '\u2009', '\u200A', '\u2028', '\u2029', '\u202F', '\u205F', '\u3000']

/-- The line that shows an alias. -/
def aliasLine (p : Str × Str) : Str := cs!"alias " ++ p.1 ++ cs!"='" ++ p.2 ++ cs!"'"

/-- The line that shows a variable of the environment. -/
def envLine (p : Str × Str) : Str := p.1 ++ '=' :: p.2

/-- The state after some lines were written to standard output, one after the other. -/
def wrote (s : Sh) (ls : List Str) : Sh :=
  ls.foldl (fun s l => did s (.print ((s.fds.get 1).map FdE.chan) (l ++ ['\n']))) s

/-- An alias whose line can be typed: the name is a word, and there is no single quote, `=` or `-p` in it. -/
structure Listable (p : Str × Str) : Prop where
  name : PlainWord p.1
  noAlias : p.1 ≠ cs!"alias" ∧ p.1 ≠ cs!"unalias"
  noQuote : '\'' ∉ p.2
  noEq : '=' ∉ p.2
  noDash : ¬ Occurs (cs!"-p") (aliasLine p)

/-- How `export context ns=file` ends, where `file` has the text `t`, and `s` is the state after it was read: it is
evaluated in a context of its own, which is then dropped and kept under the name. -/
def Imported (w : World) (n : Nat) (ns t : Str) (s : Sh) (r : Out Unit × Sh) : Prop :=
  match evalText w n t { s with ctx := s.ctx.pushNew } with
  | (.ok _, s2) => ∀ i j rest, s2.ctx.stack = i :: j :: rest →
      r = (.ok (), { s2 with ctx := { s2.ctx with stack := j :: rest, exported := s2.ctx.exported.insert ns i } })
  | (.err e, s2) => r = (.ok (), wrote s2 [cs!"Error evaluating file: " ++ e])
  | (.panic k, s2) => r = (.panic k, s2)
  | (.exit c, s2) => r = (.exit c, s2)
  | (.execed i, s2) => r = (.execed i, s2)
  | (.hang, s2) => r = (.hang, s2)
  | (.deep, s2) => r = (.deep, s2)

end Rsh.Spec

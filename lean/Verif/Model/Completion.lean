import Verif.Model.State

/-!
# Model of src/completion.rs
-/

namespace Rsh

/-- `str` comparison: byte order of UTF-8, which is the order of code points. -/
def strLe : Str → Str → Bool
  | [], _ => true
  | _ :: _, [] => false
  | a :: as, b :: bs => if a.toNat < b.toNat then true else if a = b then strLe as bs else false

/-- src/completion.rs:112-123: the entries of one directory.  `none` among them is an entry that cannot be read or whose
name is no text: the `unwrap`s at 113 and 114 panic. -/
def addNames (line : Str) : List Str → List (Option Str) → Option (List Str)
  | entries, [] => some entries
  | _, none :: _ => none
  | entries, some name :: names =>
    if !startsWith line name then addNames line entries names
    else if entries.contains name then addNames line entries names
    else addNames line (entries ++ [name]) names

/-- src/completion.rs:107-124: the loop over the directories; unreadable ones are skipped.
`readDir` is `fs::read_dir`. -/
def addDirs (line : Str) (readDir : Str → Option (List (Option Str))) : List Str → List Str → Option (List Str)
  | entries, [] => some entries
  | entries, d :: ds =>
    match readDir d with
    | none => addDirs line readDir entries ds
    | some names => (addNames line entries names).bind fun entries => addDirs line readDir entries ds

/-- src/completion.rs:99-127 `command_complete`; `none` is a panic. -/
def commandComplete (env : AMap Str) (readDir : Str → Option (List (Option Str))) (line : Str) :
    Option (List Str) :=
  (env.get (cs!"PATH")).bind fun path => addDirs line readDir [] (splitOn ':' path)

/-- src/completion.rs:76-97 `complete`: start position 0 and the sorted matches. -/
def complete (env : AMap Str) (readDir : Str → Option (List (Option Str))) (line : Str) :
    Option (Nat × List Str) :=
  (commandComplete env readDir line).map fun m => (0, m.mergeSort strLe)

end Rsh

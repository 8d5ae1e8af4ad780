import Verif.Spec.Pipes
import Verif.Spec.Lists
import Verif.Spec.Session

/-!
# A reference for lists of external commands

How lines of pipelines joined by `&&`, `||` and `;` are run, if the `k`-th process of the session exits with
the status `code k`: which pipelines run, in which order, and with which status that ends.  The status of a
pipeline is that of its first program.
-/

namespace Rsh.Spec

open Rsh

/-- Pipelines joined by `&&` and `||`. -/
structure ExtChain where
  first : ExtPipe
  rest : List (CondExec × ExtPipe) := []

/-- Chains separated by `;`. -/
structure ExtLine where
  first : ExtChain
  rest : List ExtChain := []

/-- The chains of a line. -/
def ExtLine.chains (l : ExtLine) : List ExtChain := l.first :: l.rest

/-- The pipelines of a chain. -/
def ExtChain.pipes (c : ExtChain) : List ExtPipe := c.first :: c.rest.map Prod.snd

/-- How a pipeline is typed. -/
def ExtPipe.typed (p : ExtPipe) : TPipe :=
  { first := p.first.tcmd, rest := p.rest.map Ext.tcmd, background := p.background }

/-- How a chain is typed. -/
def ExtChain.typed (c : ExtChain) : TChain := { first := c.first.typed, rest := c.rest.map fun l => (l.1, l.2.typed) }

/-- The text of a line. -/
def ExtLine.text (l : ExtLine) : Str := TLine.text { first := l.first.typed, rest := l.rest.map ExtChain.typed }

/-- What has been run, and the last status. -/
structure Played where
  ran : List ExtPipe
  status : Int

/-- The number of programs in some pipelines. -/
def programsIn (ps : List ExtPipe) : Nat := (ps.map fun p => p.stages.length).sum

/-- The rest of a chain when `k` processes have been started and the last status is `st`. -/
def playRest (code : Nat → Int) : Nat → Int → List (CondExec × ExtPipe) → Played
  | _, st, [] => ⟨[], st⟩
  | k, st, (.and, p) :: rs =>
    if st = 0 then ⟨p :: (playRest code (k + p.stages.length) (code k) rs).ran,
      (playRest code (k + p.stages.length) (code k) rs).status⟩
    else playRest code k st rs
  | k, st, (.or, p) :: rs =>
    if st = 0 then playRest code k st rs
    else ⟨p :: (playRest code (k + p.stages.length) (code k) rs).ran,
      (playRest code (k + p.stages.length) (code k) rs).status⟩

/-- A chain. -/
def playChain (code : Nat → Int) (k : Nat) (c : ExtChain) : Played :=
  let d := playRest code (k + c.first.stages.length) (code k) c.rest
  ⟨c.first :: d.ran, d.status⟩

/-- Chains one after the other. -/
def play (code : Nat → Int) : Nat → Int → List ExtChain → Played
  | _, st, [] => ⟨[], st⟩
  | k, _, c :: cs =>
    let d := playChain code k c
    let d' := play code (k + programsIn d.ran) d.status cs
    ⟨d.ran ++ d'.ran, d'.status⟩

/-- What the operating system reports for a pipeline of `m` programs started after `k` other processes: each
exits, the first one first, and then there are no children. -/
def exits (pid : Nat → Nat) (code : Nat → Int) (k m : Nat) : List WRes :=
  (List.range m).map (fun i => .st (.exited (pid (k + i)) (code (k + i)))) ++ [.err]

/-- What it reports for some pipelines, one after the other. -/
def reports (pid : Nat → Nat) (code : Nat → Int) : Nat → List ExtPipe → List WRes
  | _, [] => []
  | k, p :: ps => exits pid code k p.stages.length ++ reports pid code (k + p.stages.length) ps

/-- The programs run by child processes, in order. -/
def execs : List Event → List ExecImage
  | [] => []
  | .spawn _ (.exec img) _ :: t => execs t ++ [img]
  | _ :: t => execs t

/-- The programs are those of the pipeline, started as they should be by a shell in state `s`. -/
structure RunsPipe (file : Ext → Str) (s : Sh) (p : ExtPipe) (imgs : List ExecImage) : Prop where
  programs : imgs.map (fun img => (img.path, img.argv)) = p.stages.map fun e => (file e, e.argv)
  plumbed : Plumbed imgs
  launched : ∀ img ∈ imgs, img.env = s.env ∧ img.ownGroup = false ∧ Launched s img

/-- The same for several pipelines. -/
inductive RunsPipes (file : Ext → Str) (s : Sh) : List ExtPipe → List (List ExecImage) → Prop where
  | nil : RunsPipes file s [] []
  | cons {p ps g gs} : RunsPipe file s p g → RunsPipes file s ps gs → RunsPipes file s (p :: ps) (g :: gs)

end Rsh.Spec

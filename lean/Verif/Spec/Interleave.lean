import Verif.Model.Interleave

/-!
# What a run with signals looks like from outside
-/

namespace Rsh.Spec

open Rsh

/-- No child is reaped by the handler while the shell's data is borrowed: between a `borrow` and the
`release` after it.  `b` tells whether it is borrowed at the start. -/
def Undisturbed : Bool → List Did → Bool
  | _, [] => true
  | _, .borrow _ :: t => Undisturbed true t
  | _, .release :: t => Undisturbed false t
  | b, .reaped _ :: t => !b && Undisturbed b t
  | b, _ :: t => Undisturbed b t

/-- The handler never starts between a `mask` and the `unmask` after it. -/
def Shielded : Bool → List Did → Bool
  | _, [] => true
  | _, .mask :: t => Shielded true t
  | _, .unmask :: t => Shielded false t
  | b, .handler :: t => !b && Shielded b t
  | b, _ :: t => Shielded b t

/-- The program only ever borrows exclusively. -/
def NoRead (ops : List Op) : Prop := Op.read ∉ ops

/-- The job table after the deletions of a program, if nothing interferes. -/
def deletions : List Op → JobControl → JobControl
  | [], jc => jc
  | .delete id :: t, jc => deletions t (jc.deleteJob id)
  | _ :: t, jc => deletions t jc

/-- The reports the handler takes in a run, in their order. -/
def taken : List Choice → List Did → List WStatus
  | .go (.st st) :: chs, .reaped _ :: ds => st :: taken chs ds
  | _ :: chs, _ :: ds => taken chs ds
  | _, _ => []

/-- The handler, run as a whole by any shell with the job table `jc`, makes it `jc'` for the report `st`. -/
def Whole (st : WStatus) (jc jc' : JobControl) : Prop :=
  ∀ w s, s.jc = jc → ∃ s', sigChldWith w (.st st) s = (.ok (), s') ∧ s'.jc = jc'

/-- The operations of a program and the handler for each of a list of reports, each as a whole and one after the
other, in some order: the job table before and after. -/
inductive OneByOne : List Op → List WStatus → JobControl → JobControl → Prop where
  | done {jc} : OneByOne [] [] jc jc
  | other {op ops sts jc jc'} : (∀ id, op ≠ .delete id) → OneByOne ops sts jc jc' → OneByOne (op :: ops) sts jc jc'
  | delete {id ops sts jc jc'} : OneByOne ops sts (jc.deleteJob id) jc' → OneByOne (.delete id :: ops) sts jc jc'
  | handler {st ops sts jc jc1 jc'} : Whole st jc jc1 → OneByOne ops sts jc1 jc' → OneByOne ops (st :: sts) jc jc'

end Rsh.Spec

import Verif.Model.Interleave

/-!
# The interrupt key in the middle of an access to the shell's data

Model/Interleave.lean with SIGINT.  `interrupts_off` does not block it (src/trap.rs:136-145), and its handler
clears the signal mask (`on_sigint`, src/trap.rs:281-299) before it returns.

Simplifications: the handler up to that point is one step and its write to descriptor 0 succeeds; a handler that goes on
waiting for a job (src/jobs.rs:429-432) is not followed, as there.
-/

namespace Rsh

/-- The process between two steps. -/
structure KConf where
  conf : Conf
  /-- SIGINT is blocked: in a handler, before it changes the mask itself. -/
  keyOff : Bool
  /-- A SIGINT is pending. -/
  key : Bool
deriving DecidableEq, Repr

/-- What happens next: a child changes state, the interrupt key is pressed, or the process goes on. -/
inductive KChoice where
  | child
  | key
  | go (r : WRes)
deriving DecidableEq, Repr

/-- Is SIGINT blocked after a step?  A handler starts with all signals blocked (src/trap.rs:395-399); `interrupts_off` and
`interrupts_on` let SIGINT in (src/trap.rs:136-149); when a handler returns, the mask is what it was when the signal was
delivered, and neither handler is ever started with SIGINT blocked. -/
def keyOffAfter (b : Bool) (calls : List Call1) : Did → Bool
  | .handler => true
  | .mask | .unmask => false
  | _ =>
    match calls with
    | .leaving _ :: _ => false
    | _ => b

/-- One step of the process.  A SIGINT that can be delivered is delivered before anything else; its handler
(src/trap.rs:180-218 and 281-299) lets all signals in and is about to return, which will bring the mask back. -/
def keyGo (r : WRes) (k : KConf) : Did × Option KConf :=
  if k.key && !k.keyOff then
    (.other, some { conf := { k.conf with masked := false, calls := .leaving k.conf.masked :: k.conf.calls },
                    keyOff := false, key := false })
  else
    match goStep r k.conf with
    | (d, o) => (d, o.map fun c => { k with conf := c, keyOff := keyOffAfter k.keyOff k.conf.calls d })

/-- One step. -/
def keyStep : KChoice → KConf → Did × Option KConf
  | .child, k => (.signal, some { k with conf := { k.conf with pending := true } })
  | .key, k => (.signal, some { k with key := true })
  | .go r, k => keyGo r k

/-- A run: what was done, and the configuration reached unless the shell crashed. -/
def runKeys : List KChoice → KConf → List Did × Option KConf
  | [], k => ([], some k)
  | ch :: chs, k =>
    match keyStep ch k with
    | (d, none) => ([d], none)
    | (d, some k') =>
      let (ds, o) := runKeys chs k'
      (d :: ds, o)

/-- The program `ops` about to start, with signals let in and nothing pending. -/
def startKeys (jc : JobControl) (ops : List Op) : KConf := { conf := startConf jc ops, keyOff := false, key := false }

end Rsh

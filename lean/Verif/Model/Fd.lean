import Verif.Model.Jobs

/-!
# System calls on descriptors, processes and signals
-/

namespace Rsh

/-- `nix::unistd::pipe()`: the two lowest free descriptors; `none` on error. -/
def pipeM (w : World) : M (Option (Int × Int)) := fun s =>
  if w.pipeOk s.trace then
    let r := s.fds.lowestFree
    let fds1 := s.fds.set r ⟨.pipeR s.nextPipe, false⟩
    let wr := fds1.lowestFree
    (.ok (some (r, wr)),
      { s with fds := fds1.set wr ⟨.pipeW s.nextPipe, false⟩, nextPipe := s.nextPipe + 1 })
  else (.ok none, s)

/-- `nix::unistd::close(fd)`: whether it succeeded. -/
def closeM (fd : Int) : M Bool := fun s =>
  if s.fds.has fd then (.ok true, { s with fds := s.fds.erase fd }) else (.ok false, s)

/-- `close(fd).unwrap()`. -/
def closeU (fd : Int) : M Unit := do
  if ← closeM fd then pure () else panicM .unwrap

/-- `dup2(old, new).unwrap()`: onto itself it does nothing, otherwise the copy is not
close-on-exec. -/
def dup2U (old new : Int) : M Unit := fun s =>
  match s.fds.get old with
  | none => (.panic .unwrap, s)
  | some e =>
    if old = new then (.ok (), s)
    else (.ok (), { s with fds := s.fds.set new { e with cloexec := false } })

/-- `OpenOptions…open(path).unwrap()`: the lowest free descriptor, close-on-exec (Rust opens files
with `O_CLOEXEC`). -/
def openU (w : World) (ty : RedirectType) (path : Str) : M Int := fun s =>
  if w.openOk s.trace ty path then
    let fd := s.fds.lowestFree
    (.ok fd, { s with fds := s.fds.set fd ⟨.file ty path, true⟩
                      trace := .opened ty path :: s.trace })
  else (.panic .unwrap, s)

/-- `env::set_var(key, value)`: panics on an empty key, a key with `=` or NUL, a value with NUL. -/
def setEnv (key value : Str) : M Unit := fun s =>
  if key = [] ∨ hasChar '=' key ∨ hasChar '\x00' key ∨ hasChar '\x00' value then (.panic .explicit, s)
  else (.ok (), { s with env := s.env.insert key value })

/-! ## Signals (src/trap.rs) -/

/-- Signal numbers on Linux. -/
def SIGINT : Nat := 2
/-- Signal number. -/
def SIGQUIT : Nat := 3
/-- Signal number. -/
def SIGPIPE : Nat := 13
/-- Signal number. -/
def SIGTERM : Nat := 15
/-- Signal number. -/
def SIGCHLD : Nat := 17
/-- Signal number. -/
def SIGTSTP : Nat := 20
/-- Signal number. -/
def SIGTTIN : Nat := 21
/-- Signal number. -/
def SIGTTOU : Nat := 22

/-- The seven signals of src/trap.rs:454-460. -/
def handledSignals : List Nat := [SIGINT, SIGQUIT, SIGTERM, SIGTSTP, SIGTTIN, SIGTTOU, SIGCHLD]

/-- src/trap.rs:441-462 `remove_handlers`; `jobs::fork_reset` (src/jobs.rs:708-710) calls only
this. The recorded modes (`signal_mode`) are not touched. -/
def removeHandlers : M Unit := modS fun s =>
  { s with masked := false
           disp := fun n => if handledSignals.contains n then .dfl else s.disp n }

/-- src/trap.rs:317-347: the action for a signal (no trap is ever registered, `rootshell` is
`true`). -/
def sigAction (forked : Bool) (sig : Nat) : Disp :=
  let a : Disp :=
    if forked then .dfl
    else if sig = SIGINT ∨ sig = SIGTSTP then .catch
    else if sig = SIGQUIT ∨ sig = SIGTERM then .ign
    else if sig = SIGTTOU then .ign
    else .dfl
  if sig = SIGCHLD then .catch else a

/-- src/trap.rs:305-405 `set_signal`.  Numbers that are no signal panic at 309; `sigaction` refuses
SIGKILL (9) and SIGSTOP (19), which panics at 403 after the mode has been recorded. -/
def setSignal (sig : Nat) : M Unit := do
  if sig = 0 ∨ 31 < sig then panicM .unwrap else
  let s ← getS
  let a := sigAction s.forked sig
  if s.sigMode sig = some .hardIgn ∨ s.sigMode sig = some (.act a) then pure ()
  else do
    modS fun s => { s with sigMode := if s.forked then s.sigMode
                             else fun n => if n = sig then some (.act a) else s.sigMode n }
    if sig = 9 ∨ sig = 19 then panicM .unwrap
    else modS fun s => { s with disp := fun n => if n = sig then a else s.disp n }

/-! ## Forked children -/

/-- The events added to a trace, oldest first. -/
def newEvents (old new : List Event) : List Event := (new.take (new.length - old.length)).reverse

/-- How the child's process ends, from the outcome of the code it runs; `none` when the nesting
budget was too small.  A child whose code returns has become a second shell. -/
def childEnd (o : Out α) (s : Sh) : Option ChildEnd :=
  match o with
  | .ok _ => some .returned
  | .err _ => some .returned
  | .panic _ => some (.panic ((s.fds.get 2).map FdE.chan))
  | .exit c => some (.exit c)
  | .execed i => some (.exec i)
  | .hang => some .hang
  | .deep => none

/-- The forked copy of the shell, at the start. -/
def childStart (w : World) (s : Sh) : Sh :=
  { s with waits := w.childWaits (.born :: s.trace), trace := .born :: s.trace }

/-- Run `body` in a forked copy of the shell: its end and its events.  The copy shares nothing
with the parent (only descriptors' open files, which are `Chan`s here). -/
def runChild (w : World) (body : M α) : M (ChildEnd × List Event) := fun s =>
  let (o, s1) := body (childStart w s)
  match childEnd o s1 with
  | some e => (.ok (e, newEvents (childStart w s).trace s1.trace), s)
  | none => (.deep, s)

/-- The exec'd image of a process in state `s`: only descriptors without close-on-exec survive, and a
signal with a handler gets its default disposition back. -/
def execImage (s : Sh) (path : Str) (argv : List Str) (env : AMap Str) : ExecImage :=
  { path, argv, env, fds := s.fds.filter (fun p => !p.2.cloexec), masked := s.masked,
    ownGroup := s.ownGroup, cwd := s.cwd,
    disp := fun n => if s.disp n = .catch then .dfl else s.disp n }

mutual
/-- Text that reaches channel `ch` from one event of a process. -/
def outTo1 (w : World) (ch : Chan) : Event → Str
  | .print to t => if to = some ch then t else []
  | .eprint to t => if to = some ch then t else []
  | .spawn _ e evs => outTo w ch evs ++
    (match e with
     | .exec img => w.progOut img ch
     | .panic to => if to = some ch then w.panicMsg else []
     | _ => [])
  | .subst e evs => outTo w ch evs ++
    (match e with
     | .exec img => w.progOut img ch
     | .panic to => if to = some ch then w.panicMsg else []
     | _ => [])
  | _ => []
/-- Text that reaches channel `ch`; concurrent writers are taken in spawn order. -/
def outTo (w : World) (ch : Chan) : List Event → Str
  | [] => []
  | e :: es => outTo1 w ch e ++ outTo w ch es
end

end Rsh

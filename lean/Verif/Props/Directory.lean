import Verif.Proofs.Leaks
import Verif.Spec.Directory
import Verif.Spec.External
import Verif.Spec.Demo
import Verif.Proofs.Main
import Verif.Proofs.Static

/-!
# C128, C129: what commands leave alone
-/

namespace Rsh

open Spec

/-! ## C128 -/

/-- The directory is where the events have led. -/
def InPlace (w : World) (start : Str) (s s' : Sh) : Prop :=
  Walks w start s.trace s.cwd → Walks w start s'.trace s'.cwd

namespace InPlace

variable {w : World} {start : Str}

theorem seq : Seq (InPlace w start) (InPlace w start) where
  refl _ := id
  trans h1 h2 h := h2 (h1 h)
  rq h := h
  rqq h1 h2 h := h2 (h1 h)

theorem same {s s' : Sh} (h1 : s'.trace = s.trace) (h2 : s'.cwd = s.cwd) : InPlace w start s s' := by
  unfold InPlace
  rw [h1, h2]
  exact id

theorem event {s s' : Sh} {e : Event} (he : Common e = true) (h1 : s'.trace = e :: s.trace) (h2 : s'.cwd = s.cwd) :
    InPlace w start s s' := by
  intro h
  rw [h1, h2]
  exact .other h fun p hp => by rw [hp] at he; cases he

theorem saved (s : Sh) (loc : Str) : InPlace w start s { s with trace := .saveHistory loc :: s.trace } :=
  fun h => .other h fun _ h => by cases h

theorem frame : Frame w (fun _ => True) (InPlace w start) (InPlace w start) where
  toSeq := seq
  trace _ _ h := event (Ordinary.common h) rfl rfl
  saved := saved
  masked _ _ := same rfl rfl
  handlers _ := same rfl rfl
  createJob _ _ _ _ := same rfl rfl
  deleteJob _ _ := same rfl rfl
  resumeJob _ _ _ := same rfl rfl
  scan _ _ _ _ _ := same rfl rfl
  waited _ r _ _ := event (e := .waited r) rfl rfl rfl
  gotSigchld _ _ := same rfl rfl
  exitStatus _ _ := same rfl rfl
  subst _ x _ := subst_of seq (fun _ _ _ => same rfl rfl) (fun _ _ h => event h rfl rfl) x
  fork _ b id procs _ := fork_of seq (fun _ _ _ => same rfl rfl) (fun _ _ h => event h rfl rfl)
    (fun _ _ _ pid e evs _ => event (e := .spawn pid e evs) rfl rfl rfl) b id _ procs 0 _ _
  setEnv _ _ _ := same rfl rfl
  aliases _ _ := same rfl rfl
  cwd _ _ _ hd h := .cd h hd
  addVar _ _ _ _ := same rfl rfl
  addVarPos _ _ _ _ _ := same rfl rfl
  addFunction _ _ _ := same rfl rfl
  removeVar _ _ := same rfl rfl
  removeFunction _ _ := same rfl rfl
  removeContext _ _ := same rfl rfl
  addVarReadonly _ _ _ _ := same rfl rfl
  setVarReadonly _ _ _ _ := same rfl rfl
  envVar _ _ _ _ _ _ := same rfl rfl
  envFun _ _ _ _ _ := same rfl rfl
  nameSelf _ _ _ _ := same rfl rfl
  func _ c h := func_of seq (fun _ _ => same rfl rfl) h.2 c
  ctxFile _ file ns h := ctxFile_of seq (fun _ _ => same rfl rfl) (fun _ _ h => event h rfl rfl) h.2 file ns

theorem starts : StartSteps (InPlace w start) where
  mark _ _ _ _ := same rfl rfl
  fin _ _ _ := same rfl rfl
  mode _ _ := same rfl rfl
  disp _ _ := same rfl rfl
  hist _ _ := same rfl rfl
  push _ := same rfl rfl
  script _ _ := same rfl rfl
  quiet _ := same rfl rfl

end InPlace

/-- C128. However the shell is started and whatever it is given, and whether or not the run ends well, its
working directory is the one it was started in, changed by the changes of directory it has itself made, and
each of those succeeded.  (The events of children and substitutions are not among its own events.) -/
theorem C128_directory (w : World) (n k : Nat) (root : Bool) (ppid pid : Nat) (cwd : Str) (env : AMap Str) (waits : List WRes)
    (args : List Str) (ins : List SessionIn) :
    Walks w cwd (mainM w n k args ins (initSh root ppid pid cwd env waits)).2.trace
      (mainM w n k args ins (initSh root ppid pid cwd env waits)).2.cwd := by
  have h := (InPlace.frame (w := w) (start := cwd)).mainM (fun _ => trivial) InPlace.starts InPlace.saved n k args ins
    (initSh root ppid pid cwd env waits)
  rcases hr : mainM w n k args ins (initSh root ppid pid cwd env waits) with ⟨o, s⟩
  rw [hr] at h
  cases o <;> exact h .start

/-- `cd /tmp`, then `cd /nope`, which fails, then a substitution that changes its own directory, then `cd /usr`
in a function. -/
example : (mainM (demoWorld []) 10 5 [cs!"rsh"]
      [.line (cs!"cd /tmp"), .line (cs!"cd /nope"), .line (cs!"alias \"x=`cd /etc`\""), .line (cs!"f() { cd /usr; }"), .line (cs!"f")]
      (initSh false 1 2 (cs!"/") [(cs!"PATH", cs!"/bin")] [])).2.cwd = cs!"/usr" ∧
    (mainM (demoWorld []) 10 5 [cs!"rsh"]
      [.line (cs!"cd /tmp"), .line (cs!"cd /nope"), .line (cs!"alias \"x=`cd /etc`\""), .line (cs!"f() { cd /usr; }"), .line (cs!"f")]
      (initSh false 1 2 (cs!"/") [(cs!"PATH", cs!"/bin")] [])).2.trace.filterMap (fun
        | .chdir p => some p
        | .subst _ evs => some (cs!"…" ++ evs.flatMap fun | .chdir p => p | _ => [])
        | _ => none) = [cs!"/usr", cs!"…/etc", cs!"/tmp"] := by decide +kernel

/-! ## C129 -/

/-- No file was opened. -/
def NoneOpened (s s' : Sh) : Prop := ∃ l, (∀ e ∈ l, ∀ ty p, e ≠ .opened ty p) ∧ s'.trace = l ++ s.trace

namespace NoneOpened

theorem seq : Seq NoneOpened NoneOpened := by
  have tr : ∀ {a b c}, NoneOpened a b → NoneOpened b c → NoneOpened a c := by
    rintro a b c ⟨l1, h1, e1⟩ ⟨l2, h2, e2⟩
    refine ⟨l2 ++ l1, fun e he => ?_, by rw [e2, e1, List.append_assoc]⟩
    rcases List.mem_append.1 he with he | he
    · exact h2 e he
    · exact h1 e he
  exact ⟨fun _ => ⟨[], by simp, rfl⟩, tr, id, tr⟩

theorem same {s s' : Sh} (h : s'.trace = s.trace) : NoneOpened s s' := ⟨[], by simp, h⟩

theorem event {s s' : Sh} {e : Event} (he : ∀ ty p, e ≠ .opened ty p) (h : s'.trace = e :: s.trace) : NoneOpened s s' :=
  ⟨[e], by simpa using he, h⟩

theorem common {s s' : Sh} {e : Event} (he : Common e = true) (h : s'.trace = e :: s.trace) : NoneOpened s s' :=
  event (fun ty p hp => by rw [hp] at he; cases he) h

theorem frame (w : World) : Frame w (fun _ => True) NoneOpened NoneOpened where
  toSeq := seq
  trace _ _ h := common (Ordinary.common h) rfl
  saved _ loc := event (e := .saveHistory loc) (fun _ _ h => by cases h) rfl
  masked _ _ := same rfl
  handlers _ := same rfl
  createJob _ _ _ _ := same rfl
  deleteJob _ _ := same rfl
  resumeJob _ _ _ := same rfl
  scan _ _ _ _ _ := same rfl
  waited _ r _ _ := common (e := .waited r) rfl rfl
  gotSigchld _ _ := same rfl
  exitStatus _ _ := same rfl
  subst _ x _ := subst_of seq (fun _ _ _ => same rfl) (fun _ _ h => common h rfl) x
  fork _ b id procs _ := fork_of seq (fun _ _ _ => same rfl) (fun _ _ h => common h rfl)
    (fun _ _ _ pid e evs _ => common (e := .spawn pid e evs) rfl rfl) b id _ procs 0 _ _
  setEnv _ _ _ := same rfl
  aliases _ _ := same rfl
  cwd _ _ p _ := event (e := .chdir p) (fun _ _ h => by cases h) rfl
  addVar _ _ _ _ := same rfl
  addVarPos _ _ _ _ _ := same rfl
  addFunction _ _ _ := same rfl
  removeVar _ _ := same rfl
  removeFunction _ _ := same rfl
  removeContext _ _ := same rfl
  addVarReadonly _ _ _ _ := same rfl
  setVarReadonly _ _ _ _ := same rfl
  envVar _ _ _ _ _ _ := same rfl
  envFun _ _ _ _ _ := same rfl
  nameSelf _ _ _ _ := same rfl
  func _ c h := func_of seq (fun _ _ => same rfl) h.2 c
  ctxFile _ file ns h := ctxFile_of seq (fun _ _ => same rfl) (fun _ _ h => common h rfl) h.2 file ns

theorem starts : StartSteps NoneOpened where
  mark _ _ _ _ := same rfl
  fin _ _ _ := same rfl
  mode _ _ := same rfl
  disp _ _ := same rfl
  hist _ _ := same rfl
  push _ := same rfl
  script _ _ := same rfl
  quiet _ := same rfl

end NoneOpened

/-- C129, opening: in no run whatsoever does the shell process itself open a file for a redirection. -/
theorem C129_opened (w : World) (n k : Nat) (root : Bool) (ppid pid : Nat) (cwd : Str) (env : AMap Str)
    (waits : List WRes) (args : List Str) (ins : List SessionIn) (ty : RedirectType) (p : Str) :
    Event.opened ty p ∉ (mainM w n k args ins (initSh root ppid pid cwd env waits)).2.trace := by
  have h := (NoneOpened.frame w).mainM (fun _ => trivial) NoneOpened.starts
    (fun _ loc => NoneOpened.event (e := .saveHistory loc) (fun _ _ h => by cases h) rfl) n k args ins
    (initSh root ppid pid cwd env waits)
  rcases hr : mainM w n k args ins (initSh root ppid pid cwd env waits) with ⟨o, s⟩
  rw [hr] at h
  have h' : NoneOpened (initSh root ppid pid cwd env waits) s := by cases o <;> exact h
  obtain ⟨l, h1, h2⟩ := h'
  rw [h2]
  intro hm
  have hm' : Event.opened ty p ∈ l := by
    rcases List.mem_append.1 hm with hm | hm
    · exact hm
    · cases hm
  exact h1 _ hm' ty p rfl

/-- C129, descriptors: if pipes can be created, a run that ends normally ends with the descriptors the shell
began with. -/
theorem C129_streams (w : World) (hw : ∀ tr, w.pipeOk tr = true) (n k : Nat) (root : Bool) (ppid pid : Nat) (cwd : Str)
    (env : AMap Str) (waits : List WRes) (args : List Str) (ins : List SessionIn) (s : Sh)
    (hr : mainM w n k args ins (initSh root ppid pid cwd env waits) = (.ok (), s)) :
    s.fds = (initSh root ppid pid cwd env waits).fds := by
  have h := (Static.frame (p := True) w fun _ => hw).mainM (fun _ => trivial)
    ⟨fun _ _ _ _ => .same rfl rfl rfl rfl, fun _ _ _ => .same rfl rfl rfl rfl, fun _ _ => .same rfl rfl rfl rfl,
      fun _ _ => .same rfl rfl rfl rfl, fun _ _ => .same rfl rfl rfl rfl, fun _ => .same rfl rfl rfl rfl,
      fun _ _ => .same rfl rfl rfl rfl, fun _ => .same rfl rfl rfl rfl⟩ (fun _ _ => .same rfl rfl rfl rfl) n k args ins (initSh root ppid pid cwd env waits)
  rw [hr] at h
  refine h.fds trivial ⟨fun i hi => ?_, rfl⟩
  rcases i with _ | _ | _ | i
  · rfl
  · rfl
  · rfl
  · omega

/-- C129, descriptors, whatever pipes the system refuses: a run that ends normally ends with the three descriptors the
shell began with, and any others it has are reading ends of pipes (`C136_refused_partial`). -/
theorem C129_anyPipes (w : World) (n k : Nat) (root : Bool) (ppid pid : Nat) (cwd : Str)
    (env : AMap Str) (waits : List WRes) (args : List Str) (ins : List SessionIn) (s : Sh)
    (hr : mainM w n k args ins (initSh root ppid pid cwd env waits) = (.ok (), s)) (fd : Int) :
    (fd < 3 → s.fds.get fd = (initSh root ppid pid cwd env waits).fds.get fd) ∧
    (3 ≤ fd → s.fds.get fd = none ∨ ∃ k, s.fds.get fd = some ⟨.pipeR k, false⟩) := by
  have h := (Leaks.frame w).mainM (fun _ => trivial)
    ⟨fun _ _ _ _ => .same rfl, fun _ _ _ => .same rfl, fun _ _ => .same rfl,
      fun _ _ => .same rfl, fun _ _ => .same rfl, fun _ => .same rfl,
      fun _ _ => .same rfl, fun _ => .same rfl⟩ (fun _ _ => .same rfl) n k args ins (initSh root ppid pid cwd env waits)
  rw [hr] at h
  have h : Leaked stdTable s.fds := h stdTable_std
  refine ⟨fun h3 => h.get h3, fun h3 => ?_⟩
  rcases h.get_or fd with e | ⟨-, -, e⟩
  · left
    rw [e]
    exact stdTable_other (by omega) (by omega) (by omega)
  · exact .inr e

/-- Files opened by a process and its children, in a run. -/
example : (mainM (demoWorld []) 10 5 [cs!"rsh"] [.line (cs!"ls -l > f"), .line (cs!"cd /tmp > g")]
      (initSh false 1 2 (cs!"/") [(cs!"PATH", cs!"/bin")] [.st (.exited 100 0)])).2.trace.filterMap (fun
        | .spawn _ _ evs => some (evs.filterMap fun | .opened _ p => some p | _ => none)
        | _ => none) = [[cs!"f"]] := by decide +kernel

end Rsh

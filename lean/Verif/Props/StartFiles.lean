import Verif.Spec.StartFiles
import Verif.Props.Announces

/-!
# C130: start-up files
-/

namespace Rsh

open Spec

theorem readsOf_cons (e : Event) (tr : List Event) : readsOf (e :: tr) = readsOf tr ++ readsOf [e] := by
  simp [readsOf, List.filterMap_append]

theorem readsOf_append (a b : List Event) : readsOf (a ++ b) = readsOf b ++ readsOf a := by
  simp [readsOf, List.filterMap_append]

/-- No file has been read. -/
def Unread (s s' : Sh) : Prop := readsOf s.trace = [] → readsOf s'.trace = []

theorem Unread.seq : Seq Unread Unread where
  refl _ := id
  trans h1 h2 h := h2 (h1 h)
  rq h := h
  rqq h1 h2 h := h2 (h1 h)

theorem Unread.addVarAt (set : Str) (i : Nat) : Keeps Unread Unread (addVarAt set i) := by
  unfold Rsh.addVarAt
  refine .bind seq (.getS seq) fun s => .bind seq (.unwrapM seq _ _) fun m => ?_
  intro s h
  exact h

theorem Unread.printlnM (t : Str) : Keeps Unread Unread (printlnM t) := by
  intro s h
  show readsOf (.print _ _ :: s.trace) = []
  rw [readsOf_cons, h]
  rfl

theorem Unread.argLoop (as : List Str) : ∀ st, Keeps Unread Unread (argLoop as st) := by
  induction as with
  | nil => exact fun _ => .pure seq _
  | cons a as ih =>
    intro st
    unfold Rsh.argLoop
    refine .bind seq (printlnM _) fun _ => ?_
    have h1 : ∀ a, Keeps Unread Unread (setScriptName a) := fun a => .modS fun s h => h
    have h2 : ∀ a i, Keeps Unread Unread (setInputArgs a i) := fun a i => addVarAt _ _
    split
    · exact .panicM seq _
    · refine .ite (.ite (.pure seq _) (ih _)) (.ite (.bind seq (h1 _) fun _ => ih _)
        (.ite (.bind seq (h2 _ _) fun _ => ih _) (.ite (.bind seq (h1 _) fun _ => ih _) (ih _))))

theorem Unread.parseArgs (w : World) (args : List Str) : Keeps Unread Unread (parseArgs w args) := by
  unfold Rsh.parseArgs
  exact .ite (.pure seq _) (.bind seq (argLoop _ _) fun st => .ite (.bind seq (.modS fun s h => h)
    fun _ => .bind seq (printlnM _) fun _ => .pure seq _) (.pure seq _))

/-- What is done with what was read of a start-up file. -/
def startupBody (w : World) (n : Nat) (p : Str) : FileRead → M Unit
  | .missing => pure ()
  | .notUtf8 => printlnM (cs!"Error reading " ++ p ++ cs!": " ++ w.osMsg)
  | .text t =>
    match parse t with
    | none => printlnM (cs!"Error: " ++ w.parseMsg t)
    | some cc => do
      match ← tryE (evalTop w n cc) with
      | .ok _ => pure ()
      | .error _ => panicM .unwrap

theorem readStartup_run (w : World) (n : Nat) (p : Str) (s : Sh) :
    readStartup w n p s = startupBody w n p (w.readFile s.trace p) (did s (.readFile p)) := by
  unfold readStartup
  show (readFileM w p >>= _) s = _
  have e : readFileM w p s = (.ok (w.readFile s.trace p), did s (.readFile p)) := rfl
  rw [run_bind_ok e]
  cases w.readFile s.trace p <;> rfl

/-- C130, what is read first: in every run of the shell, whatever its arguments and its input, the first file it
tries to read is the one whose name is literally `~/.rshrc`. -/
theorem C130_first (w : World) (n k : Nat) (root : Bool) (ppid pid : Nat) (cwd : Str) (env : AMap Str) (waits : List WRes)
    (args : List Str) (ins : List SessionIn) (f : Str) (fs : List Str)
    (h : readsOf (mainM w n k args ins (initSh root ppid pid cwd env waits)).2.trace = f :: fs) : f = cs!"~/.rshrc" := by
  let m1 : M (Option Str) := do
    let i ← parseArgs w args
    pushContextNew
    setArg0
    pure i
  have h1 : Keeps Unread Unread m1 :=
    .bind Unread.seq (Unread.parseArgs w args) fun _ => .bind Unread.seq (.modS fun s h => h) fun _ =>
      .bind Unread.seq (.bind Unread.seq (.getS Unread.seq) fun _ => Unread.addVarAt _ _) fun _ => .pure Unread.seq _
  have F := growsFrame w
  have S := F.toSeq
  have T : StartSteps Grows := ⟨fun _ _ _ _ => .of_eq rfl, fun _ _ _ => .of_eq rfl, fun _ _ => .of_eq rfl,
    fun _ _ => .of_eq rfl, fun _ _ => .of_eq rfl, fun _ => .of_eq rfl, fun _ _ => .of_eq rfl, fun _ => .of_eq rfl⟩
  have hr := F.readStartup (fun _ => trivial) n
  have hs : ∀ g, Keeps Grows Grows (setSignal g) := fun g => setSignal_of S T.mode T.disp g
  have hb : ∀ p r, Keeps Grows Grows (startupBody w n p r) := by
    intro p r
    have h1 := F.evalTop (fun _ => trivial) n
    unfold startupBody
    keeps
  obtain ⟨g, e, hg⟩ : ∃ g : Option Str → M Unit, mainM w n k args ins = (do
      let i ← m1
      readStartup w n (cs!"~/.rshrc")
      g i) ∧ ∀ i, Keeps Grows Grows (g i) := by
    refine ⟨fun input => do
      readStartup w n (cs!"~/.profile")
      let s ← getS
      match input with
      | some i => readFromArgs w n i
      | none =>
        if s.interactive then do
          setSignal SIGCHLD
          setSignal SIGTSTP
          setSignal SIGINT
          modS fun s => { s with historyLoc := cs!"history.txt" }
          interactiveLoop w n ins
        else scriptLoop w n k s.scriptName, ?_, ?_⟩
    · unfold mainM
      simp only [m1, bind_assoc, pure_bind]
      rfl
    · intro i
      refine .bind S (hr _) fun _ => .bind S (.getS S) fun s => ?_
      split
      · exact F.scriptLine (fun _ => trivial) n _
      · exact .ite (.bind S (hs _) fun _ => .bind S (hs _) fun _ => .bind S (hs _) fun _ =>
          .bind S (.modS fun s => T.hist s _) fun _ => F.interactiveLoop (fun _ => trivial) T ⟨id, S.trans, fun _ loc => ⟨[.saveHistory loc], rfl⟩⟩ n ins) (F.scriptLoop (fun _ => trivial) n k _)
  rw [e, run_bind] at h
  have h1 := h1 (initSh root ppid pid cwd env waits)
  rcases hm : m1 (initSh root ppid pid cwd env waits) with ⟨o, s1⟩
  rw [hm] at h h1
  have h2 : readsOf s1.trace = [] := by cases o <;> exact h1 rfl
  cases o with
  | ok i =>
    have h3 : Post Grows Grows (did s1 (.readFile (cs!"~/.rshrc"))) ((readStartup w n (cs!"~/.rshrc") >>= fun _ => g i) s1) :=
      Keeps.bindAt S (m := fun _ => readStartup w n (cs!"~/.rshrc") s1)
        (by rw [readStartup_run]; exact hb _ _ _) fun _ s2 _ => hg i s2
    change readsOf ((readStartup w n (cs!"~/.rshrc") >>= fun _ => g i) s1).2.trace = _ at h
    rcases hf : (readStartup w n (cs!"~/.rshrc") >>= fun _ => g i) s1 with ⟨o, s'⟩
    rw [hf] at h h3
    have h4 : Grows (did s1 (.readFile (cs!"~/.rshrc"))) s' := by cases o <;> exact h3
    obtain ⟨l, hl⟩ := h4
    rw [show (s' : Sh).trace = _ from hl, readsOf_append] at h
    show f = _
    change readsOf (.readFile (cs!"~/.rshrc") :: s1.trace) ++ _ = _ at h
    rw [readsOf_cons, h2] at h
    exact (List.cons.inj h).1.symm
  | _ => rw [h2] at h; cases h

/-- Such a run: both names are read. -/
example : readsOf (mainM (demoWorld []) 10 5 [cs!"rsh"] [.eof] (initSh false 1 2 (cs!"/") [(cs!"PATH", cs!"/bin")] [])).2.trace =
    [cs!"~/.rshrc", cs!"~/.profile"] := by decide +kernel

/-- C130, what is done with a start-up file, if evaluating it does not give an error: it is evaluated in the shell itself,
and a file that is missing or that does not parse does no harm. -/
theorem C130_evaluated_partial (w : World) (n : Nat) (p : Str) (s : Sh)
    (h : ∀ t, w.readFile s.trace p = .text t → parse t ≠ none → ∃ st s', evalText w n t (did s (.readFile p)) = (.ok st, s')) :
    ∃ s', readStartup w n p s = (.ok (), s') ∧ StartsWell w n p s s' := by
  rw [readStartup_run]
  cases hf : w.readFile s.trace p with
  | missing => exact ⟨_, rfl, .missing hf⟩
  | notUtf8 => exact ⟨_, rfl, .unreadable hf⟩
  | text t =>
    cases hp : parse t with
    | none =>
      refine ⟨_, ?_, .syntaxError hf hp⟩
      unfold startupBody
      simp only [hp]
      rfl
    | some cc =>
      obtain ⟨st, s', he⟩ := h t hf (by simp [hp])
      refine ⟨s', ?_, .evaluated hf he⟩
      unfold evalText at he
      simp only [hp] at he
      unfold startupBody
      simp only [hp]
      rw [run_bind, run_tryE, he]
      rfl

/-- Such a file: it is evaluated without an error. -/
example : outcome (evalText (demoWorld []) 10 (cs!"alias l=\"ls -l\"; ls -l")
      (initSh false 1 2 (cs!"/") [(cs!"PATH", cs!"/bin")] [.st (.exited 100 0)])).1 = .ok := by decide +kernel

/-- C130 fails: an error in a start-up file ends the shell before it has begun. -/
theorem C130_error (w : World) (n : Nat) (p t e : Str) (s s' : Sh) (hf : w.readFile s.trace p = .text t) (hp : parse t ≠ none)
    (he : evalText w n t (did s (.readFile p)) = (.err e, s')) :
    readStartup w n p s = (.panic .unwrap, s') := by
  rw [readStartup_run, hf]
  cases hc : parse t with
  | none => exact absurd hc hp
  | some cc =>
    unfold evalText at he
    simp only [hc] at he
    unfold startupBody
    simp only [hc]
    rw [run_bind, run_tryE, he]
    rfl

/-- Such a file: its evaluation gives an error. -/
example : outcome (evalText (demoWorld []) 10 (cs!"{ ls; }") (initSh false 1 2 (cs!"/") [(cs!"PATH", cs!"/bin")] [])).1 = .err := by
  decide +kernel

/-- The names of the files read by an interactive shell with these files, whose home is `/home/u`, and how it ends. -/
def startsWithFiles (files : AMap Str) : List Str × Outcome :=
  let r := mainM (demoWorld files) 10 5 [cs!"rsh"] [.eof] (initSh false 1 2 (cs!"/") [(cs!"PATH", cs!"/bin"), (cs!"HOME", cs!"/home/u")] [])
  (readsOf r.2.trace, outcome r.1)

theorem C130_counterexample :
    startsWithFiles [(cs!"/home/u/.rshrc", cs!"X=1")] = ([cs!"~/.rshrc", cs!"~/.profile"], .ok) ∧
    startsWithFiles [(cs!"~/.rshrc", cs!"{ ls; }")] = ([cs!"~/.rshrc"], .panic .unwrap) := by decide +kernel

end Rsh

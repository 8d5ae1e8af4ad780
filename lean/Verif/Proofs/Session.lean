import Verif.Proofs.Frames
import Verif.Spec.Session

/-!
# What a session preserves
-/

namespace Rsh

open Spec

variable {w : World} {P : (List AndOr → M Int) → Prop} {R Q : Sh → Sh → Prop}

namespace Frame

variable (F : Frame w P R Q)
include F

theorem interactiveLine (hP : ∀ n, P (Rsh.evalFuel w n)) (n : Nat) (l : Str) :
    Keeps R Q (Rsh.interactiveLine w n l) := by
  unfold Rsh.interactiveLine
  have h1 := F.evalTop hP n
  keeps

theorem readStartup (hP : ∀ n, P (Rsh.evalFuel w n)) (n : Nat) (p : Str) :
    Keeps R Q (Rsh.readStartup w n p) := by
  unfold Rsh.readStartup
  have h1 := F.evalTop hP n
  have h2 := F.readFileM (w := w)
  keeps

theorem prompt : Keeps R Q Spec.prompt := by
  unfold Spec.prompt
  keeps

theorem sigChld (hmark : ∀ s id pid st, R s { s with jc := s.jc.modJob id fun j =>
      { j with processes := setStatusFirst pid st j.processes } })
    (hfin : ∀ s id st, R s { s with jc := s.jc.modJob id fun j =>
      { j with stopStatus := st, state := .finished } })
    (hw : ∀ id, Keeps R Q (Rsh.waitForJob w id)) : Keeps R Q (onSigchld w) := by
  have h1 : ∀ id st, Keeps R Q (waitForJobSigchld w id st) := by
    intro id st
    unfold waitForJobSigchld
    have h1 : ∀ id st, Keeps R Q (modJc fun jc => jc.modJob id fun j =>
        { j with stopStatus := st, state := .finished }) := fun id st => Keeps.modS fun s => hfin s id st
    have h2 := F.deleteJobM
    keeps
  have h2 : ∀ pid st msg, Keeps R Q (sigChldWith.go w pid st msg) := by
    intro pid st msg
    unfold sigChldWith.go
    have h3 : ∀ id pid st, Keeps R Q (modJc fun jc => jc.modJob id fun j =>
        { j with processes := setStatusFirst pid st j.processes }) :=
      fun id pid st => Keeps.modS fun s => hmark s id pid st
    keeps
  have h3 : ∀ r, Keeps R Q (sigChldWith w r) := by
    intro r
    unfold sigChldWith
    keeps
  have h4 := F.waitpidM
  have h5 : ∀ b, Keeps R Q (modS fun s => { s with gotSigchld := b }) :=
    fun b => Keeps.modS fun s => F.gotSigchld s b
  unfold onSigchld
  keeps

theorem deliver (hmark : ∀ s id pid st, R s { s with jc := s.jc.modJob id fun j =>
      { j with processes := setStatusFirst pid st j.processes } })
    (hfin : ∀ s id st, R s { s with jc := s.jc.modJob id fun j =>
      { j with stopStatus := st, state := .finished } })
    (hw : ∀ id, Keeps R Q (Rsh.waitForJob w id)) (g : Nat) : Keeps R Q (Rsh.deliver w g) := by
  have h1 := F.sigChld hmark hfin hw
  have h2 : Keeps R Q (onSigOther w g) := by
    unfold onSigOther
    keeps
  unfold Rsh.deliver
  keeps

end Frame

/-- Before the start-up files, only the current context and events are touched. -/
theorem setSignal_of {R Q : Sh → Sh → Prop} (S : Seq R Q) (hm : ∀ s m, R s { s with sigMode := m })
    (hd : ∀ s d, R s { s with disp := d }) (g : Nat) : Keeps R Q (setSignal g) := by
  unfold setSignal
  refine .ite (.panicM S _) (.bind S (.getS S) fun s => .ite (.pure S _)
    (.bind S (.modS fun s => hm s _) fun _ => .ite (.panicM S _) (.modS fun s => hd s _)))

theorem good_init (root : Bool) (ppid pid : Nat) (cwd : Str) (env : AMap Str) :
    Good (CtxMgr.init root ppid pid cwd env) where
  nonempty := by simp [CtxMgr.init]
  nodup := by simp [CtxMgr.init]
  stackLt := by simp [CtxMgr.init]
  exportedLt := by simp [CtxMgr.init]
  noRo i := by
    simp only [CtxMgr.init]
    split <;> rfl

/-- The contexts are well-formed if they were. -/
def KeepsGood (s s' : Sh) : Prop := Good s.ctx → Good s'.ctx

theorem KeepsGood.seq : Seq KeepsGood (fun _ _ => True) where
  refl _ := id
  trans h1 h2 g := h2 (h1 g)
  rq _ := trivial
  rqq _ _ := trivial

theorem KeepsGood.of_stacked {m : M α} (h : Keeps (Stacked False) (fun _ _ => True) m) :
    Keeps KeepsGood (fun _ _ => True) m := by
  intro s
  have h1 := h s
  rcases hm : m s with ⟨o, s'⟩
  rw [hm] at h1
  cases o <;> first | exact fun g => (h1 g).1 | trivial

theorem KeepsGood.of_ctx {s s' : Sh} (h : s'.ctx = s.ctx) : KeepsGood s s' := fun g => h ▸ g

theorem KeepsGood.addVarAt (w : World) (set : Str) (pos : Nat) : Keeps KeepsGood (fun _ _ => True) (addVarAt set pos) :=
  KeepsGood.of_stacked ((Stacked.frame w False).addVarAt set pos)

theorem KeepsGood.argLoop (w : World) (as : List Str) (st : ArgState) :
    Keeps KeepsGood (fun _ _ => True) (argLoop as st) := by
  have S := KeepsGood.seq
  induction as generalizing st with
  | nil => exact .pure S _
  | cons a as ih =>
    unfold Rsh.argLoop
    refine .bind S (.modS fun s => .of_ctx rfl) fun _ => ?_
    have h1 : ∀ a, Keeps KeepsGood (fun _ _ => True) (setScriptName a) := fun a => .modS fun s => .of_ctx rfl
    have h2 : ∀ a i, Keeps KeepsGood (fun _ _ => True) (setInputArgs a i) := fun a i => KeepsGood.addVarAt w _ _
    split
    · exact .panicM S _
    · refine .ite (.ite (.pure S _) (ih _)) (.ite (.bind S (h1 _) fun _ => ih _)
        (.ite (.bind S (h2 _ _) fun _ => ih _) (.ite (.bind S (h1 _) fun _ => ih _) (ih _))))

theorem KeepsGood.startUp (n : Nat) (args : List Str) :
    Keeps KeepsGood (fun _ _ => True) (startUp w n args) := by
  have S := KeepsGood.seq
  have hr : ∀ p, Keeps KeepsGood (fun _ _ => True) (readStartup w n p) := fun p =>
    KeepsGood.of_stacked ((Stacked.frame w False).readStartup (fun _ h => h.elim) n p)
  have hs : ∀ g, Keeps KeepsGood (fun _ _ => True) (setSignal g) := fun g =>
    setSignal_of S (fun _ _ => .of_ctx rfl) (fun _ _ => .of_ctx rfl) g
  unfold Spec.startUp
  refine .bind S ?_ fun _ => .bind S (.modS fun s g => good_pushNew g) fun _ =>
    .bind S (.bind S (.getS S) fun _ => KeepsGood.addVarAt w _ _) fun _ => .bind S (hr _) fun _ =>
    .bind S (hr _) fun _ => .bind S (hs _) fun _ => .bind S (hs _) fun _ => .bind S (hs _) fun _ =>
    .modS fun s => .of_ctx rfl
  unfold parseArgs
  refine .ite (.pure S _) (.bind S (KeepsGood.argLoop w _ _) fun st => .ite (.bind S (.modS fun s => .of_ctx rfl)
    fun _ => .bind S (.modS fun s => .of_ctx rfl) fun _ => .pure S _) (.pure S _))

/-- The contexts of a running session are well-formed. -/
theorem AtPrompt_good {s : Sh} (h : AtPrompt w s) : Good s.ctx := by
  have F := Stacked.frame w False
  have S := KeepsGood.seq
  induction h with
  | start h => exact (KeepsGood.startUp _ _).ok h (good_init ..)
  | line _ h ih =>
    exact (Keeps.bind S (KeepsGood.of_stacked F.prompt) fun _ =>
      KeepsGood.of_stacked (F.interactiveLine (fun _ h => h.elim) _ _)).ok h ih
  | interrupted _ h ih => exact (KeepsGood.of_stacked F.prompt).ok h ih
  | sig _ h ih =>
    exact (KeepsGood.of_stacked (F.deliver (fun _ _ _ _ => .of_ctx rfl) (fun _ _ _ => .of_ctx rfl)
      F.waitForJob _)).ok h ih
  | waits _ ih => exact ih

end Rsh

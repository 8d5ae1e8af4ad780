import Verif.Proofs.Session

/-!
# Walks over whole runs of the shell
-/

namespace Rsh

/-- What `main` itself changes is within `R`. -/
structure StartSteps (R : Sh → Sh → Prop) : Prop where
  mark : ∀ s id pid st, R s { s with jc := s.jc.modJob id fun j =>
    { j with processes := setStatusFirst pid st j.processes } }
  fin : ∀ s id st, R s { s with jc := s.jc.modJob id fun j => { j with stopStatus := st, state := .finished } }
  mode : ∀ s m, R s { s with sigMode := m }
  disp : ∀ s d, R s { s with disp := d }
  hist : ∀ s h, R s { s with historyLoc := h }
  push : ∀ s, R s { s with ctx := s.ctx.pushNew }
  script : ∀ s a, R s { s with scriptName := a, interactive := false }
  quiet : ∀ s, R s { s with interactive := false }

/-- `E` is what `R`, and then the last act of a session, leads to. -/
structure EndStep (R E : Sh → Sh → Prop) : Prop where
  weaken : ∀ {a b}, R a b → E a b
  comp : ∀ {a b c}, R a b → E b c → E a c
  saved : ∀ s loc, E s { s with trace := .saveHistory loc :: s.trace }

theorem Keeps.weaken {R E Q : Sh → Sh → Prop} (h : ∀ {a b}, R a b → E a b) {m : M α} (hm : Keeps R Q m) : Keeps E Q m := by
  intro s
  have := hm s
  generalize m s = r at this
  obtain ⟨o, s1⟩ := r
  cases o <;> first | exact h this | exact this

theorem Keeps.bindEnd {R E Q : Sh → Sh → Prop} (S : Seq R Q) (L : EndStep R E) {m : M α} {f : α → M β} (hm : Keeps R Q m)
    (hf : ∀ a, Keeps E Q (f a)) : Keeps E Q (m >>= f) := by
  intro s
  rw [run_bind]
  have h1 := hm s
  generalize m s = r at h1
  obtain ⟨o, s1⟩ := r
  cases o with
  | ok a =>
    have h2 := hf a s1
    simp only
    generalize f a s1 = r at h2
    obtain ⟨o, s2⟩ := r
    cases o <;> first | exact L.comp h1 h2 | exact S.rqq h1 h2
  | err e => exact L.weaken h1
  | _ => exact h1

namespace Frame

variable {w : World} {P : (List AndOr → M Int) → Prop} {R Q : Sh → Sh → Prop} (F : Frame w P R Q)
include F

theorem argLoop (T : StartSteps R) (as : List Str) : ∀ st, Keeps R Q (Rsh.argLoop as st) := by
  have S := F.toSeq
  induction as with
  | nil => exact fun _ => .pure S _
  | cons a as ih =>
    intro st
    unfold Rsh.argLoop
    refine .bind S (F.printlnM _) fun _ => ?_
    have h1 : ∀ a, Keeps R Q (setScriptName a) := fun a => .modS fun s => T.script s a
    have h2 : ∀ a i, Keeps R Q (setInputArgs a i) := fun a i => F.addVarAt _ _
    split
    · exact .panicM S _
    · refine .ite (.ite (.pure S _) (ih _)) (.ite (.bind S (h1 _) fun _ => ih _)
        (.ite (.bind S (h2 _ _) fun _ => ih _) (.ite (.bind S (h1 _) fun _ => ih _) (ih _))))

theorem parseArgs (T : StartSteps R) (args : List Str) : Keeps R Q (Rsh.parseArgs w args) := by
  have S := F.toSeq
  unfold Rsh.parseArgs
  exact .ite (.pure S _) (.bind S (F.argLoop T _ _) fun st => .ite (.bind S (.modS fun s => T.quiet s)
    fun _ => .bind S (F.printlnM _) fun _ => .pure S _) (.pure S _))

theorem interactiveLoop {E : Sh → Sh → Prop} (hP : ∀ n, P (Rsh.evalFuel w n)) (T : StartSteps R) (L : EndStep R E) (n : Nat)
    (ins : List SessionIn) : Keeps E Q (Rsh.interactiveLoop w n ins) := by
  have S := F.toSeq
  have h1 : Keeps E Q (Rsh.saveHistory w) := by
    intro s
    unfold Rsh.saveHistory
    rw [run_getS_bind]
    split
    · exact L.saved s _
    · exact L.weaken (F.trace s _ rfl)
  have h2 := F.interactiveLine hP n
  have h3 : Keeps R Q Spec.prompt := F.prompt
  have h4 := F.deliver T.mark T.fin F.waitForJob
  have hp : ∀ f : Unit → M Unit, (∀ u, Keeps E Q (f u)) → Keeps E Q (do
      let p ← (do unwrapM .unwrap (← Rsh.expandVar .none (cs!"PS1")))
      Rsh.printM p
      f () : M Unit) := by
    intro f hf
    have := Keeps.bindEnd S L h3 hf
    unfold Spec.prompt at this
    simpa only [bind_assoc] using this
  induction ins with
  | nil => exact h1
  | cons i ins ih =>
    cases i with
    | line l => exact hp _ fun _ => .bindEnd S L (h2 _) fun _ => ih
    | interrupted => exact hp _ fun _ => ih
    | eof => exact hp _ fun _ => h1
    | rlError => exact hp _ fun _ => .bindEnd S L (F.printlnM _) fun _ => h1
    | sig g => exact .bindEnd S L (h4 _) fun _ => ih

theorem scriptLine (hP : ∀ n, P (Rsh.evalFuel w n)) (n : Nat) (l : Str) : Keeps R Q (Rsh.scriptLine w n l) :=
  .bind F.toSeq (.unwrapM F.toSeq _ _) fun _ => .bind F.toSeq (.tryE (F.evalTop hP _ _)) fun _ => .pure F.toSeq _

theorem scriptLines (hP : ∀ n, P (Rsh.evalFuel w n)) (n k : Nat) (ls : List Str) :
    Keeps R Q (Rsh.scriptLines w n k ls) := by
  induction ls with
  | nil =>
    unfold Rsh.scriptLines
    induction k with
    | zero => exact .hangM F.toSeq
    | succ k ih => exact .bind F.toSeq (F.scriptLine hP n []) fun _ => ih
  | cons l ls ih => exact .bind F.toSeq (F.scriptLine hP n l) fun _ => ih

theorem scriptLoop (hP : ∀ n, P (Rsh.evalFuel w n)) (n k : Nat) (name : Str) :
    Keeps R Q (Rsh.scriptLoop w n k name) := by
  have S := F.toSeq
  unfold Rsh.scriptLoop
  refine .bind S (F.readFileM _) fun r => ?_
  split
  · exact .panicM S _
  · exact .panicM S _
  · exact F.scriptLines hP n k _

/-- What follows the reading of the arguments. -/
theorem mainTail {E : Sh → Sh → Prop} (hP : ∀ n, P (Rsh.evalFuel w n)) (T : StartSteps R) (L : EndStep R E) (n k : Nat)
    (args : List Str) (ins : List SessionIn) :
    ∃ f, Rsh.mainM w n k args ins = Rsh.parseArgs w args >>= f ∧ ∀ i, Keeps E Q (f i) := by
  have S := F.toSeq
  have hr := F.readStartup hP n
  have hs : ∀ g, Keeps R Q (setSignal g) := fun g => setSignal_of S T.mode T.disp g
  refine ⟨_, rfl, fun i => .bindEnd S L (.modS fun s => T.push s) fun _ =>
    .bindEnd S L (.bind S (.getS S) fun _ => F.addVarAt _ _) fun _ => .bindEnd S L (hr _) fun _ => .bindEnd S L (hr _) fun _ =>
    .bindEnd S L (.getS S) fun s => ?_⟩
  split
  · exact .weaken L.weaken (F.scriptLine hP n _)
  · exact .ite (.bindEnd S L (hs _) fun _ => .bindEnd S L (hs _) fun _ => .bindEnd S L (hs _) fun _ =>
      .bindEnd S L (.modS fun s => T.hist s _) fun _ => F.interactiveLoop hP T L n ins)
      (.weaken L.weaken (F.scriptLoop hP n k _))

/-- A whole run of the shell: any arguments, any start-up files, script, program or session. -/
theorem mainEnd {E : Sh → Sh → Prop} (hP : ∀ n, P (Rsh.evalFuel w n)) (T : StartSteps R) (L : EndStep R E) (n k : Nat)
    (args : List Str) (ins : List SessionIn) : Keeps E Q (Rsh.mainM w n k args ins) := by
  obtain ⟨f, e, h⟩ := F.mainTail hP T L n k args ins
  rw [e]
  exact .bindEnd F.toSeq L (F.parseArgs T _) h

/-- The same where the last act is nothing special. -/
theorem mainM (hP : ∀ n, P (Rsh.evalFuel w n)) (T : StartSteps R)
    (hs : ∀ s loc, R s { s with trace := .saveHistory loc :: s.trace }) (n k : Nat) (args : List Str) (ins : List SessionIn) :
    Keeps R Q (Rsh.mainM w n k args ins) :=
  F.mainEnd hP T ⟨id, F.trans, hs⟩ n k args ins

end Frame

end Rsh

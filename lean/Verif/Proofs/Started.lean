import Verif.Proofs.Frame
import Verif.Proofs.Str
import Verif.Spec.Programs

/-!
# Every program that is started

A walk through the whole evaluator and `main`: whatever the shell does, in itself or in a forked copy, each
program it starts meets `Started`.
-/

namespace Rsh

open Spec (programs programs1 ends ends1)

theorem mem_programs {img : ExecImage} {evs : List Event} :
    img ∈ programs evs ↔ ∃ e ∈ evs, img ∈ programs1 e := by
  induction evs with
  | nil => simp [programs]
  | cons e es ih => simp [programs, ih]

theorem mem_ends {x : ChildEnd} {evs : List Event} : x ∈ ends evs ↔ ∃ e ∈ evs, x ∈ ends1 e := by
  induction evs with
  | nil => simp [ends]
  | cons e es ih => simp [ends, ih]

/-- What is known of the environment and of the unhandled signals: a property that no valid setting of a variable
destroys, and the dispositions. -/
structure Par where
  env : AMap Str → Prop
  disp : Nat → Disp
  closed : ∀ e k v, k ≠ [] → '=' ∉ k → '\x00' ∉ k → '\x00' ∉ v → env e → env (e.insert k v)

/-- What is known of every program. -/
structure Started (E : Par) (img : ExecImage) : Prop where
  unmasked : img.masked = false
  disp : ∀ g, img.disp g = if g ∈ handledSignals ∨ E.disp g = .catch then .dfl else E.disp g
  argv : img.argv ≠ []
  args : ∀ a ∈ img.argv, '\x00' ∉ a
  path : '\x00' ∉ img.path
  env : img.env = [] ∨ E.env img.env
  fds : ∀ p ∈ img.fds, p.2.cloexec = false

/-- What is known of an event: each program in it, and that no child has returned. -/
structure EvOk (E : Par) (e : Event) : Prop where
  programs : ∀ img ∈ programs1 e, Started E img
  ends : ChildEnd.returned ∉ ends1 e

theorem EvOk.plain {E : Par} {e : Event} (h : ends1 e = []) : EvOk E e := by
  refine ⟨fun img hi => ?_, by simp [h]⟩
  cases e <;> first | cases hi | cases h

/-- What is known of the shell and of its forked copies at any moment; `base` is what happened before. -/
structure Holds (E : Par) (base : List Event) (s : Sh) : Prop where
  trace : ∃ new, s.trace = new ++ base ∧ ∀ e ∈ new, EvOk E e
  env : E.env s.env
  disp : ∀ g, g ∉ handledSignals → s.disp g = E.disp g

theorem Holds.congr {E : Par} {base : List Event} {s s' : Sh} (h : Holds E base s) (h1 : s'.env = s.env)
    (h2 : s'.disp = s.disp) (h3 : s'.trace = s.trace) : Holds E base s' :=
  ⟨by rw [h3]; exact h.trace, by rw [h1]; exact h.env, by rw [h2]; exact h.disp⟩

theorem Holds.event {E : Par} {base : List Event} {s s' : Sh} {e : Event} (h : Holds E base s)
    (h1 : s'.env = s.env) (h2 : s'.disp = s.disp) (h3 : s'.trace = e :: s.trace)
    (h4 : EvOk E e) : Holds E base s' := by
  refine ⟨?_, by rw [h1]; exact h.env, by rw [h2]; exact h.disp⟩
  obtain ⟨new, hn, hp⟩ := h.trace
  refine ⟨e :: new, by rw [h3, hn]; rfl, fun x hm => ?_⟩
  rcases List.mem_cons.1 hm with rfl | hm
  · exact h4
  · exact hp x hm

/-- `m` does not fail with an error message. -/
structure NoThrow (m : M α) : Prop where
  run : ∀ s e, (m s).1 ≠ .err e

/-- `m` never comes to its end: it leaves the process (or never ends). -/
structure Leaves (m : M α) : Prop where
  run : ∀ s, match (m s).1 with
    | .ok _ | .err _ => False
    | _ => True

namespace Leaves

theorem exitM (c : Int) : Leaves (Rsh.exitM c : M α) := ⟨fun _ => trivial⟩
theorem panicM (k : PanicKind) : Leaves (Rsh.panicM k : M α) := ⟨fun _ => trivial⟩

theorem bind {m : M α} {f : α → M β} (hm : NoThrow m) (hf : ∀ a, Leaves (f a)) : Leaves (m >>= f) := by
  refine ⟨fun s => ?_⟩
  have h1 := hm.run s
  rw [run_bind]
  rcases h : m s with ⟨o, s1⟩
  rw [h] at h1
  cases o with
  | ok a => exact (hf a).run s1
  | err e => exact (h1 e rfl).elim
  | _ => trivial

theorem ite {c : Prop} [Decidable c] {a b : M α} (ha : Leaves a) (hb : Leaves b) :
    Leaves (if c then a else b) := by split <;> assumption

end Leaves

namespace NoThrow

variable {w : World}

theorem pure (a : α) : NoThrow (Pure.pure a : M α) := ⟨fun _ _ h => nomatch h⟩
theorem getS : NoThrow Rsh.getS := ⟨fun _ _ h => nomatch h⟩
theorem modS (f : Sh → Sh) : NoThrow (Rsh.modS f) := ⟨fun _ _ h => nomatch h⟩
theorem panicM (k : PanicKind) : NoThrow (Rsh.panicM k : M α) := ⟨fun _ _ h => nomatch h⟩
theorem exitM (c : Int) : NoThrow (Rsh.exitM c : M α) := ⟨fun _ _ h => nomatch h⟩
theorem printM (t : Str) : NoThrow (Rsh.printM t) := ⟨fun _ _ h => nomatch h⟩
theorem eprintM (t : Str) : NoThrow (Rsh.eprintM t) := ⟨fun _ _ h => nomatch h⟩
theorem eprintlnM (t : Str) : NoThrow (Rsh.eprintlnM t) := ⟨fun _ _ h => nomatch h⟩
theorem emit (e : Event) : NoThrow (Rsh.emit e) := ⟨fun _ _ h => nomatch h⟩
theorem pushContextNew : NoThrow Rsh.pushContextNew := ⟨fun _ _ h => nomatch h⟩
theorem setCtxMgr (m : CtxMgr) : NoThrow (Rsh.setCtxMgr m) := ⟨fun _ _ h => nomatch h⟩

theorem unwrapM (k : PanicKind) (o : Option α) : NoThrow (Rsh.unwrapM k o) := by
  cases o with
  | none => exact panicM k
  | some a => exact pure a

theorem bind {m : M α} {f : α → M β} (hm : NoThrow m) (hf : ∀ a, NoThrow (f a)) : NoThrow (m >>= f) := by
  refine ⟨fun s e => ?_⟩
  have h1 := hm.run s
  rw [run_bind]
  rcases h : m s with ⟨o, s1⟩
  rw [h] at h1
  cases o with
  | ok a => exact (hf a).run s1 e
  | err e => exact (h1 e rfl).elim
  | _ => exact fun h => nomatch h

theorem ite {c : Prop} [Decidable c] {a b : M α} (ha : NoThrow a) (hb : NoThrow b) :
    NoThrow (if c then a else b) := by split <;> assumption

theorem tryE (m : M α) : NoThrow (Rsh.tryE m) := by
  refine ⟨fun s e => ?_⟩
  rw [run_tryE]
  rcases m s with ⟨o, s1⟩
  cases o <;> exact fun h => nomatch h

/-- Close a goal `NoThrow m` by the structure of `m`. -/
macro "nothrow" : tactic => `(tactic| repeat' first
  | assumption
  | with_reducible exact NoThrow.pure _
  | with_reducible exact NoThrow.getS
  | with_reducible exact NoThrow.modS _
  | with_reducible exact NoThrow.panicM _
  | with_reducible exact NoThrow.exitM _
  | with_reducible exact NoThrow.emit _
  | with_reducible exact NoThrow.eprintlnM _
  | with_reducible exact NoThrow.unwrapM _ _
  | with_reducible exact NoThrow.pushContextNew
  | with_reducible exact NoThrow.setCtxMgr _
  | with_reducible exact NoThrow.tryE _
  | with_reducible refine NoThrow.bind ?_ fun _ => ?_
  | with_reducible refine NoThrow.ite ?_ ?_
  | with_reducible apply_assumption
  | dsimp only
  | split)

theorem closeU (fd : Int) : NoThrow (Rsh.closeU fd) := by
  have : NoThrow (Rsh.closeM fd) := by
    refine ⟨fun s e => ?_⟩
    unfold Rsh.closeM
    split <;> exact fun h => nomatch h
  unfold Rsh.closeU; nothrow

theorem dup2U (a b : Int) : NoThrow (Rsh.dup2U a b) := by
  refine ⟨fun s e => ?_⟩
  unfold Rsh.dup2U
  split
  · exact fun h => nomatch h
  · split <;> exact fun h => nomatch h

theorem openU (ty : RedirectType) (p : Str) : NoThrow (Rsh.openU w ty p) := by
  refine ⟨fun s e => ?_⟩
  unfold Rsh.openU
  split <;> exact fun h => nomatch h

theorem setEnv (k v : Str) : NoThrow (Rsh.setEnv k v) := by
  refine ⟨fun s e => ?_⟩
  unfold Rsh.setEnv
  split <;> exact fun h => nomatch h

theorem evalAssignments (as : List Str) : NoThrow (Rsh.evalAssignments as) := by
  have := setEnv
  induction as with
  | nil => exact pure _
  | cons p a ih => unfold Rsh.evalAssignments; nothrow

theorem evalRedirects (rs : List IoRedirect) : NoThrow (Rsh.evalRedirects w rs) := by
  have := openU (w := w)
  have := dup2U
  have h1 : ∀ r, NoThrow (Rsh.evalRedirect1 w r) := by intro r; unfold Rsh.evalRedirect1; nothrow
  induction rs with
  | nil => exact pure _
  | cons p a ih => unfold Rsh.evalRedirects; nothrow

theorem evalPrefixSuffix (c : SimpleCommand) : NoThrow (Rsh.evalPrefixSuffix w c) := by
  have := evalRedirects (w := w)
  have := evalAssignments
  unfold Rsh.evalPrefixSuffix; nothrow

theorem callFunction (rec : List AndOr → M Int) (c : SimpleCommand) : NoThrow (Rsh.callFunction rec c) := by
  unfold Rsh.callFunction; nothrow

end NoThrow

namespace Leaves

variable {w : World} {rec : List AndOr → M Int}

theorem substChild (cc : CompleteCommand) (r wr : Int) : Leaves (Rsh.substChild rec cc r wr) := by
  unfold Rsh.substChild
  exact bind (.dup2U _ _) fun _ => bind (.dup2U _ _) fun _ => bind (.closeU _) fun _ => bind (.closeU _) fun _ =>
    bind (.tryE _) fun _ => exitM 0

theorem pipelineChild (b : Bool) (id : Nat) (pip : Int × Int) (prev : Int) (p : Process) (c : SimpleCommand) :
    Leaves (Rsh.pipelineChild w rec b id pip prev p c) := by
  have h1 := NoThrow.closeU
  have h2 := NoThrow.dup2U
  have h3 := NoThrow.evalPrefixSuffix (w := w)
  have h4 := NoThrow.callFunction rec
  unfold Rsh.pipelineChild
  repeat' first
    | with_reducible exact exitM _
    | with_reducible exact panicM _
    | with_reducible refine bind (by nothrow; done) fun _ => ?_
    | with_reducible refine ite ?_ ?_
    | dsimp only
    | split

end Leaves

/-- `m` keeps `Holds`, and if it replaces the process, then by such a program. -/
def Safe (E : Par) (m : M α) : Prop :=
  ∀ base s, Holds E base s → Holds E base (m s).2 ∧ ∀ img, (m s).1 = .execed img → Started E img

namespace Safe

variable {E : Par} {w : World}

theorem still {m : M α} (h : ∀ s, (m s).2 = s ∧ ∀ img, (m s).1 ≠ .execed img) : Safe E m :=
  fun _ s hs => ⟨by rw [(h s).1]; exact hs, fun img hi => absurd hi ((h s).2 img)⟩

theorem pure (a : α) : Safe E (Pure.pure a : M α) := still fun _ => ⟨rfl, by simp⟩
theorem getS : Safe E Rsh.getS := still fun _ => ⟨rfl, by simp⟩
theorem throwE (e : Str) : Safe E (Rsh.throwE e : M α) := still fun _ => ⟨rfl, by simp⟩
theorem panicM (k : PanicKind) : Safe E (Rsh.panicM k : M α) := still fun _ => ⟨rfl, by simp⟩
theorem exitM (c : Int) : Safe E (Rsh.exitM c : M α) := still fun _ => ⟨rfl, by simp⟩
theorem hangM : Safe E (Rsh.hangM : M α) := still fun _ => ⟨rfl, by simp⟩
theorem deepM : Safe E (Rsh.deepM : M α) := still fun _ => ⟨rfl, by simp⟩

theorem unwrapM (k : PanicKind) (o : Option α) : Safe E (Rsh.unwrapM k o) := by
  cases o with
  | none => exact panicM k
  | some a => exact pure a

theorem bindAt {m : M α} {f : α → M β} {base : List Event} {s : Sh} (hs : Holds E base s) (hm : Safe E m)
    (hf : ∀ a s1, m s = (.ok a, s1) → Holds E base s1 →
      Holds E base (f a s1).2 ∧ ∀ img, (f a s1).1 = .execed img → Started E img) :
    Holds E base ((m >>= f) s).2 ∧ ∀ img, ((m >>= f) s).1 = .execed img → Started E img := by
  rw [run_bind]
  have h1 := hm base s hs
  rcases h : m s with ⟨o, s1⟩
  rw [h] at h1
  cases o with
  | ok a => exact hf a s1 h h1.1
  | execed i => exact ⟨h1.1, fun img hi => h1.2 img (by cases hi; rfl)⟩
  | _ => exact ⟨h1.1, fun _ hi => nomatch hi⟩

theorem bind {m : M α} {f : α → M β} (hm : Safe E m) (hf : ∀ a, Safe E (f a)) : Safe E (m >>= f) :=
  fun _ _ hs => bindAt hs hm fun a s1 _ h1 => hf a _ s1 h1

theorem getS_bind {f : Sh → M β} (hf : ∀ base s, Holds E base s → Safe E (f s)) : Safe E (Rsh.getS >>= f) :=
  fun _ s hs => hf _ s hs _ s hs

theorem ite {c : Prop} [Decidable c] {a b : M α} (ha : Safe E a) (hb : Safe E b) :
    Safe E (if c then a else b) := by split <;> assumption

theorem tryE {m : M α} (h : Safe E m) : Safe E (Rsh.tryE m) := by
  intro base s hs
  rw [run_tryE]
  have h1 := h base s hs
  rcases h : m s with ⟨o, s1⟩
  rw [h] at h1
  cases o with
  | execed i => exact ⟨h1.1, fun img hi => h1.2 img (by cases hi; rfl)⟩
  | _ => exact ⟨h1.1, fun _ hi => nomatch hi⟩

theorem modS {f : Sh → Sh} (h : ∀ s, (f s).env = s.env ∧ (f s).disp = s.disp ∧ (f s).trace = s.trace) :
    Safe E (Rsh.modS f) :=
  fun _ s hs => ⟨hs.congr (h s).1 (h s).2.1 (h s).2.2, fun _ hi => nomatch hi⟩

theorem event {f : Sh → Sh} (e : Sh → Event) (h1 : ∀ s, ends1 (e s) = [])
    (h : ∀ s, (f s).env = s.env ∧ (f s).disp = s.disp ∧ (f s).trace = e s :: s.trace) :
    Safe E (Rsh.modS f) :=
  fun _ s hs => ⟨hs.event (h s).1 (h s).2.1 (h s).2.2 (.plain (h1 s)), fun _ hi => nomatch hi⟩

theorem emit {e : Event} (h : EvOk E e) : Safe E (Rsh.emit e) :=
  fun _ _ hs => ⟨hs.event (e := e) rfl rfl rfl h, fun _ hi => nomatch hi⟩

theorem emitPlain {e : Event} (h : ends1 e = []) : Safe E (Rsh.emit e) := emit (.plain h)

theorem printM (t : Str) : Safe E (Rsh.printM t) := event _ (fun _ => rfl) fun _ => ⟨rfl, rfl, rfl⟩
theorem eprintM (t : Str) : Safe E (Rsh.eprintM t) := event _ (fun _ => rfl) fun _ => ⟨rfl, rfl, rfl⟩
theorem printlnM (t : Str) : Safe E (Rsh.printlnM t) := printM _
theorem eprintlnM (t : Str) : Safe E (Rsh.eprintlnM t) := eprintM _
theorem interruptsOff : Safe E Rsh.interruptsOff := modS fun _ => ⟨rfl, rfl, rfl⟩
theorem interruptsOn : Safe E Rsh.interruptsOn := modS fun _ => ⟨rfl, rfl, rfl⟩
theorem modJc (f : JobControl → JobControl) : Safe E (Rsh.modJc f) := modS fun _ => ⟨rfl, rfl, rfl⟩
theorem setCtxMgr (m : CtxMgr) : Safe E (Rsh.setCtxMgr m) := modS fun _ => ⟨rfl, rfl, rfl⟩
theorem pushContextNew : Safe E Rsh.pushContextNew := modS fun _ => ⟨rfl, rfl, rfl⟩

/-- What is known of a child's end and of what it did. -/
structure Child (E : Par) (r : ChildEnd × List Event) : Prop where
  image : ∀ img, r.1 = .exec img → Started E img
  gone : r.1 ≠ .returned
  events : ∀ e ∈ r.2, EvOk E e

theorem Child.spawn {r : ChildEnd × List Event} (h : Child E r) (pid : Nat) : EvOk E (.spawn pid r.1 r.2) := by
  refine ⟨fun img hm => ?_, fun hm => ?_⟩
  · simp only [programs1, List.mem_append] at hm
    rcases hm with hm | hm
    · split at hm
      · next i hi => rw [List.mem_singleton.1 hm]; exact h.image i hi
      · cases hm
    · obtain ⟨e, he, hi⟩ := mem_programs.1 hm
      exact (h.events e he).programs img hi
  · simp only [ends1] at hm
    rcases List.mem_cons.1 hm with hm | hm
    · exact h.gone hm.symm
    · obtain ⟨e, he, hi⟩ := mem_ends.1 hm
      exact (h.events e he).ends hi

theorem Child.subst {r : ChildEnd × List Event} (h : Child E r) : EvOk E (.subst r.1 r.2) := by
  refine ⟨fun img hm => ?_, fun hm => ?_⟩
  · simp only [programs1, List.mem_append] at hm
    rcases hm with hm | hm
    · split at hm
      · next i hi => rw [List.mem_singleton.1 hm]; exact h.image i hi
      · cases hm
    · obtain ⟨e, he, hi⟩ := mem_programs.1 hm
      exact (h.events e he).programs img hi
  · simp only [ends1] at hm
    rcases List.mem_cons.1 hm with hm | hm
    · exact h.gone hm.symm
    · obtain ⟨e, he, hi⟩ := mem_ends.1 hm
      exact (h.events e he).ends hi

theorem runChild_bind {m : M α} {f : ChildEnd × List Event → M β} (hm : Safe E m) (hl : Leaves m)
    (hf : ∀ r, Child E r → Safe E (f r)) : Safe E (Rsh.runChild w m >>= f) := by
  intro base s hs
  rw [run_bind]
  have h0 : Holds E (childStart w s).trace (childStart w s) :=
    ⟨⟨[], rfl, fun _ hi => nomatch hi⟩, hs.env, hs.disp⟩
  have h1 := hm _ _ h0
  unfold Rsh.runChild
  rcases h : m (childStart w s) with ⟨o, s1⟩
  rw [h] at h1
  simp only
  cases he : childEnd o s1 with
  | none => exact ⟨hs, fun _ hi => nomatch hi⟩
  | some e =>
    refine hf (e, _) ⟨fun img hi => h1.2 img ?_, fun hi => ?_, fun ev hev => ?_⟩ _ s hs
    · cases o <;> cases hi <;> cases he
      rfl
    · have := hl.run (childStart w s)
      rw [h] at this
      cases hi
      cases o <;> cases he <;> exact this
    · obtain ⟨new, hn, hp⟩ := h1.1.trace
      refine hp ev ?_
      simp only at hn hev
      unfold newEvents at hev
      rw [hn] at hev
      simpa using hev

/-- Close a goal `Safe E m` by the structure of `m`. -/
macro "safe" : tactic => `(tactic| repeat' first
  | assumption
  | with_reducible exact Safe.pure _
  | with_reducible exact Safe.getS
  | with_reducible exact Safe.throwE _
  | with_reducible exact Safe.panicM _
  | with_reducible exact Safe.exitM _
  | with_reducible exact Safe.hangM
  | with_reducible exact Safe.deepM
  | with_reducible exact Safe.unwrapM _ _
  | with_reducible exact Safe.printM _
  | with_reducible exact Safe.printlnM _
  | with_reducible exact Safe.eprintM _
  | with_reducible exact Safe.eprintlnM _
  | with_reducible exact Safe.interruptsOff
  | with_reducible exact Safe.interruptsOn
  | with_reducible exact Safe.modJc _
  | with_reducible exact Safe.setCtxMgr _
  | with_reducible exact Safe.pushContextNew
  | with_reducible exact Safe.emitPlain rfl
  | with_reducible exact Safe.modS fun _ => ⟨rfl, rfl, rfl⟩
  | with_reducible exact Safe.emit (Safe.Child.spawn ‹_› _)
  | with_reducible exact Safe.emit (Safe.Child.subst ‹_›)
  | with_reducible refine Safe.runChild_bind ?_ ?_ fun _ _ => ?_
  | with_reducible refine Safe.bind ?_ fun _ => ?_
  | with_reducible refine Safe.tryE ?_
  | with_reducible refine Safe.ite ?_ ?_
  | with_reducible apply_assumption
  | dsimp only
  | split)

/-! ## The wrappers -/

theorem expandVar (h : Held) (x : Str) : Safe E (Rsh.expandVar h x) := by unfold Rsh.expandVar; safe
theorem addVarContext (x : Str) : Safe E (Rsh.addVarContext x) := by unfold Rsh.addVarContext; safe
theorem addVarAt (x : Str) (i : Nat) : Safe E (Rsh.addVarAt x i) := by unfold Rsh.addVarAt; safe
theorem popContext : Safe E Rsh.popContext := by unfold Rsh.popContext; safe
theorem addFunctionM (x : Str) (b : FunctionBody) : Safe E (Rsh.addFunctionM x b) := by
  unfold Rsh.addFunctionM; safe
theorem lookupCommandM (x : Str) : Safe E (Rsh.lookupCommandM w x) := by unfold Rsh.lookupCommandM; safe
theorem addContextM (x : Str) (id : Nat) : Safe E (Rsh.addContextM x id) := by unfold Rsh.addContextM; safe
theorem wordAt (ws : List Str) (i : Nat) : Safe E (Rsh.wordAt ws i) := unwrapM _ _
theorem readFileM (p : Str) : Safe E (Rsh.readFileM w p) := by unfold Rsh.readFileM; safe

theorem setEnv (k v : Str) : Safe E (Rsh.setEnv k v) := by
  intro base s hs
  unfold Rsh.setEnv
  split
  · exact ⟨hs, fun _ hi => nomatch hi⟩
  · next hc =>
    simp only [not_or, Bool.not_eq_true] at hc
    obtain ⟨h1, h2, h3, h4⟩ := hc
    have hno : ∀ {c : Char} {t : Str}, hasChar c t = false → c ∉ t := by
      intro c t h hm
      rw [hasChar_iff.2 hm] at h
      cases h
    exact ⟨⟨hs.trace, E.closed _ _ _ h1 (hno h2) (hno h3) (hno h4) hs.env, hs.disp⟩, fun _ hi => nomatch hi⟩

theorem pipeM : Safe E (Rsh.pipeM w) := by
  intro base s hs
  unfold Rsh.pipeM
  split
  · exact ⟨hs.congr rfl rfl rfl, fun _ hi => nomatch hi⟩
  · exact ⟨hs, fun _ hi => nomatch hi⟩

theorem closeM (fd : Int) : Safe E (Rsh.closeM fd) := by
  intro base s hs
  unfold Rsh.closeM
  split
  · exact ⟨hs.congr rfl rfl rfl, fun _ hi => nomatch hi⟩
  · exact ⟨hs, fun _ hi => nomatch hi⟩

theorem closeU (fd : Int) : Safe E (Rsh.closeU fd) := by
  have := closeM (E := E) fd
  unfold Rsh.closeU; safe

theorem dup2U (a b : Int) : Safe E (Rsh.dup2U a b) := by
  intro base s hs
  unfold Rsh.dup2U
  split
  · exact ⟨hs, fun _ hi => nomatch hi⟩
  · split
    · exact ⟨hs, fun _ hi => nomatch hi⟩
    · exact ⟨hs.congr rfl rfl rfl, fun _ hi => nomatch hi⟩

theorem openU (ty : RedirectType) (p : Str) : Safe E (Rsh.openU w ty p) := by
  intro base s hs
  unfold Rsh.openU
  split
  · exact ⟨hs.event (e := .opened ty p) rfl rfl rfl (.plain rfl), fun _ hi => nomatch hi⟩
  · exact ⟨hs, fun _ hi => nomatch hi⟩

theorem setSignal (g : Nat) (h : g ∈ handledSignals) : Safe E (Rsh.setSignal g) := by
  have h1 : ∀ a, Safe E (Rsh.modS fun s => { s with disp := fun n => if n = g then a else s.disp n }) := by
    intro a base s hs
    refine ⟨⟨hs.trace, hs.env, fun n hn => ?_⟩, fun _ hi => nomatch hi⟩
    show (if n = g then a else s.disp n) = _
    rw [if_neg (by rintro rfl; exact hn h)]
    exact hs.disp n hn
  unfold Rsh.setSignal
  safe

theorem removeHandlers : Safe E Rsh.removeHandlers := by
  intro base s hs
  refine ⟨⟨hs.trace, hs.env, fun n hn => ?_⟩, fun _ hi => nomatch hi⟩
  show (if handledSignals.contains n then Disp.dfl else s.disp n) = _
  rw [if_neg (by simpa using hn)]
  exact hs.disp n hn

theorem tempExecve (a : Str) (argv : List Str) (env : AMap Str) (h1 : argv ≠ []) (h2 : ∀ x ∈ argv, '\x00' ∉ x)
    (h3 : env = [] ∨ E.env env) : Safe E (Rsh.tempExecve w a argv env) := by
  intro base s hs
  have hh := (removeHandlers base s hs).1
  have hd : ∀ g, (Rsh.removeHandlers s).2.disp g = if g ∈ handledSignals then .dfl else E.disp g := by
    intro g
    split
    · next hg =>
      show (if handledSignals.contains g then Disp.dfl else s.disp g) = _
      rw [if_pos (by simpa using hg)]
    · next hg => exact hh.disp g hg
  have hm : (Rsh.removeHandlers s).2.masked = false := rfl
  unfold Rsh.tempExecve
  rw [run_bind_ok (show Rsh.removeHandlers s = (.ok (), (Rsh.removeHandlers s).2) from rfl)]
  revert hh hd hm
  generalize (Rsh.removeHandlers s).2 = s1
  intro hh hd hm
  unfold Rsh.lookupCommandM
  rw [bind_assoc, run_getS_bind]
  cases s1.ctx.lookupCommand (w.isFile s1.trace) a with
  | none => exact panicM _ _ s1 hh
  | some o =>
    rw [unwrapM_some, pure_bind]
    cases o with
    | none => exact throwE _ _ s1 hh
    | some path =>
      dsimp only
      split
      · exact panicM _ _ s1 hh
      · next hp =>
        rw [run_getS_bind]
        split
        · refine ⟨hh, fun img hi => ?_⟩
          cases hi
          refine ⟨hm, fun g => ?_, h1, h2, fun hmem => hp (hasChar_iff.2 hmem), h3, fun p hp => ?_⟩
          · show (if s1.disp g = .catch then Disp.dfl else s1.disp g) = _
            rw [hd]
            by_cases h : g ∈ handledSignals
            · simp [h]
            · simp [h]
          · simpa using (List.mem_filter.1 hp).2
        · exact throwE _ _ s1 hh

/-! ## Jobs -/

theorem deleteJobM (id : Nat) : Safe E (Rsh.deleteJobM id) := by unfold Rsh.deleteJobM; safe

theorem createJobM (ps : List Process) (b : Bool) : Safe E (Rsh.createJobM ps b) :=
  fun _ _ hs => ⟨hs.congr rfl rfl rfl, fun _ hi => nomatch hi⟩

theorem showJobs (h : Held) (t : List (Nat × Job)) : Safe E (Rsh.showJobs h t) := by
  have := expandVar (E := E)
  induction t with
  | nil => exact pure _
  | cons p t ih => unfold Rsh.showJobs; safe

theorem displayJobs : Safe E Rsh.displayJobs := by
  have := showJobs (E := E)
  unfold Rsh.displayJobs; safe

theorem waitpidM : Safe E Rsh.waitpidM := by
  intro base s hs
  unfold Rsh.waitpidM
  split
  · exact ⟨hs, fun _ hi => nomatch hi⟩
  · next r rs _ =>
    exact ⟨hs.event (e := .waited r) rfl rfl rfl (.plain rfl), fun _ hi => nomatch hi⟩

theorem waitRetry (n : Nat) : Safe E (Rsh.waitRetry n) := by
  have := waitpidM (E := E)
  induction n with
  | zero => exact hangM
  | succ n ih => unfold Rsh.waitRetry; safe

theorem waitProcess : Safe E Rsh.waitProcess := by
  have := waitRetry (E := E)
  unfold Rsh.waitProcess; safe

theorem formatStatus (st : WStatus) : Safe E (Rsh.formatStatus w st) := by
  have := expandVar (E := E)
  unfold Rsh.formatStatus; safe

theorem waitOne (id : Nat) : Safe E (Rsh.waitOne w id) := by
  have := waitProcess (E := E)
  have := formatStatus (E := E) (w := w)
  unfold Rsh.waitOne; safe

theorem doWaitLoop (id n : Nat) (b : Bool) : Safe E (Rsh.doWaitLoop w id n b) := by
  have := waitOne (E := E) (w := w)
  induction n generalizing b with
  | zero => exact hangM
  | succ n ih => unfold Rsh.doWaitLoop; safe

theorem doWait (id : Nat) : Safe E (Rsh.doWait w id) := by
  have := doWaitLoop (E := E) (w := w)
  unfold Rsh.doWait; safe

theorem waitForJob (id : Nat) : Safe E (Rsh.waitForJob w id) := by
  have := doWait (E := E) (w := w)
  have := deleteJobM (E := E)
  unfold Rsh.waitForJob; safe

theorem waitForJobSigchld (id : Nat) (st : WStatus) : Safe E (Rsh.waitForJobSigchld w id st) := by
  have := waitForJob (E := E) (w := w)
  have := deleteJobM (E := E)
  unfold Rsh.waitForJobSigchld; safe

/-! ## Expansion -/

variable {rec : List AndOr → M Int}

theorem evalCC (h : ∀ l, Safe E (rec l)) (cc : CompleteCommand) : Safe E (Rsh.evalCC rec cc) := by
  unfold Rsh.evalCC; safe

theorem substSignal (o : Option Nat) : Safe E (Rsh.substSignal w o) := by
  unfold Rsh.substSignal Rsh.onSigOther; safe

theorem evalSubshell (h : ∀ l, Safe E (rec l)) (x : Str) : Safe E (Rsh.evalSubshell w rec x) := by
  have h0 := evalCC h
  have h1 := dup2U (E := E)
  have h2 := closeU (E := E)
  have h3 := pipeM (E := E) (w := w)
  have h6 := substSignal (E := E) (w := w)
  have h4 : ∀ cc r wr, Safe E (substChild rec cc r wr) := by
    intro cc r wr
    unfold substChild
    safe
  unfold Rsh.evalSubshell
  split
  · safe
  · refine bind (unwrapM _ _) fun cc => bind getS fun st => bind (by safe) fun p => ?_
    obtain ⟨r, wr⟩ := p
    refine bind getS fun st => bind (unwrapM _ _) fun _ => runChild_bind (h4 _ _ _) (Leaves.substChild _ _ _) fun p hp => ?_
    obtain ⟨e, evs⟩ := p
    refine bind (emit hp.subst) fun _ => ?_
    safe

theorem cutLoop (h : ∀ l, Safe E (rec l)) (n : Nat) (x : Str) : Safe E (Rsh.cutLoop w rec n x) := by
  have := evalSubshell (w := w) h
  induction n generalizing x with
  | zero => exact pure _
  | succ n ih =>
    cases x with
    | nil => exact pure _
    | cons c x => unfold Rsh.cutLoop; safe

theorem cutQuotes (h : ∀ l, Safe E (rec l)) (x : Str) : Safe E (Rsh.cutQuotes w rec x) := by
  have := cutLoop (w := w) h
  unfold Rsh.cutQuotes; safe

theorem evalDoubleQuotes (h : ∀ l, Safe E (rec l)) (x : Str) : Safe E (Rsh.evalDoubleQuotes w rec x) := by
  have := cutQuotes (w := w) h
  have := evalSubshell (w := w) h
  unfold Rsh.evalDoubleQuotes; safe

theorem evalNameWords (h : ∀ l, Safe E (rec l)) (ps : List Str) : Safe E (Rsh.evalNameWords w rec ps) := by
  have := evalDoubleQuotes (w := w) h
  induction ps with
  | nil => exact pure _
  | cons p ps ih => unfold Rsh.evalNameWords; safe

theorem evalSuffixWords (h : ∀ l, Safe E (rec l)) (ps : List Str) :
    Safe E (Rsh.evalSuffixWords w rec ps) := by
  have := evalDoubleQuotes (w := w) h
  have := cutQuotes (w := w) h
  induction ps with
  | nil => exact pure _
  | cons p ps ih => unfold Rsh.evalSuffixWords; safe

theorem evalWords (h : ∀ l, Safe E (rec l)) (c : SimpleCommand) : Safe E (Rsh.evalWords w rec c) := by
  have := evalNameWords (w := w) h
  have := evalSuffixWords (w := w) h
  have := cutQuotes (w := w) h
  unfold Rsh.evalWords; safe

theorem expandCommand (h : ∀ l, Safe E (rec l)) (c : SimpleCommand) : Safe E (Rsh.expandCommand w rec c) := by
  have := evalWords (w := w) h
  unfold Rsh.expandCommand Rsh.aliasLookup Rsh.expandVars; safe

/-! ## Builtins -/

theorem bCd (c : SimpleCommand) : Safe E (Rsh.bCd w c) := by
  have := wordAt (E := E)
  have : ∀ d p, Safe E (Rsh.modS fun s => { s with cwd := d, trace := Event.chdir p :: s.trace }) :=
    fun d p => event _ (fun _ => rfl) fun _ => ⟨rfl, rfl, rfl⟩
  unfold Rsh.bCd; safe

theorem saveHistory : Safe E (Rsh.saveHistory w) := by unfold Rsh.saveHistory; safe

theorem bExit (c : SimpleCommand) : Safe E (Rsh.bExit w c) := by
  have := saveHistory (E := E) (w := w)
  unfold Rsh.bExit; safe

theorem bReturn (c : SimpleCommand) : Safe E (Rsh.bReturn c) := by unfold Rsh.bReturn; safe

theorem bJobs : Safe E Rsh.bJobs := by
  have := displayJobs (E := E)
  unfold Rsh.bJobs; safe

theorem contAll (ps : List Process) : Safe E (Rsh.contAll w ps) := by
  induction ps with
  | nil => exact pure _
  | cons p ps ih => unfold Rsh.contAll; safe

theorem resume (j : Job) (b : Bool) : Safe E (Rsh.resume w j b) := by
  have := contAll (E := E) (w := w)
  unfold Rsh.resume; safe

theorem fgbgId (c : SimpleCommand) : Safe E (Rsh.fgbgId c) := by
  have := wordAt (E := E)
  unfold Rsh.fgbgId; safe

theorem findJob (id : Nat) (ty : IdType) : Safe E (Rsh.findJob id ty) := by unfold Rsh.findJob; safe

theorem bFgBg (c : SimpleCommand) : Safe E (Rsh.bFgBg w c) := by
  have := fgbgId (E := E)
  have := findJob (E := E)
  have := resume (E := E) (w := w)
  have := waitForJob (E := E) (w := w)
  unfold Rsh.bFgBg; safe

theorem displayAliases (a : AMap Str) : Safe E (Rsh.displayAliases a) := by
  induction a with
  | nil => exact pure _
  | cons p a ih => unfold Rsh.displayAliases; safe

theorem addAliases (xs : List Str) : Safe E (Rsh.addAliases xs) := by
  have : ∀ x, Safe E (Rsh.addAlias x) := by
    intro x
    unfold Rsh.addAlias; safe
  induction xs with
  | nil => exact pure _
  | cons p a ih => unfold Rsh.addAliases; safe

theorem bAlias (c : SimpleCommand) : Safe E (Rsh.bAlias c) := by
  have := displayAliases (E := E)
  have := addAliases (E := E)
  have := wordAt (E := E)
  unfold Rsh.bAlias; safe

theorem bUnalias (c : SimpleCommand) : Safe E (Rsh.bUnalias c) := by
  have := wordAt (E := E)
  unfold Rsh.bUnalias; safe

theorem createContextFromFile (h : ∀ l, Safe E (rec l)) (f : Str) :
    Safe E (Rsh.createContextFromFile w rec f) := by
  have := evalCC h
  have := readFileM (E := E) (w := w)
  have := popContext (E := E)
  unfold Rsh.createContextFromFile; safe

theorem printEnv (a : AMap Str) : Safe E (Rsh.printEnv a) := by
  induction a with
  | nil => exact pure _
  | cons p a ih => unfold Rsh.printEnv; safe

theorem exportAll (xs : List Str) : Safe E (Rsh.exportAll xs) := by
  have := expandVar (E := E)
  have := addVarAt (E := E)
  have := setEnv (E := E)
  have h1 : ∀ x, Safe E (Rsh.exportName x) := by
    intro x
    unfold Rsh.exportName; safe
  have h2 : ∀ x, Safe E (Rsh.exportSet x) := by
    intro x
    unfold Rsh.exportSet; safe
  induction xs with
  | nil => exact pure _
  | cons p a ih => unfold Rsh.exportAll; safe

theorem bExport (h : ∀ l, Safe E (rec l)) (c : SimpleCommand) : Safe E (Rsh.bExport w rec c) := by
  have := printEnv (E := E)
  have := exportAll (E := E)
  have := createContextFromFile (w := w) h
  have := addContextM (E := E)
  unfold Rsh.bExport Rsh.exportContext; safe

theorem bAssign (c : SimpleCommand) : Safe E (Rsh.bAssign c) := by
  have := addVarContext (E := E)
  unfold Rsh.bAssign; safe

theorem bEval (h : ∀ l, Safe E (rec l)) (c : SimpleCommand) : Safe E (Rsh.bEval w rec c) := by
  have := evalCC h
  have := wordAt (E := E)
  unfold Rsh.bEval; safe

theorem bUnset (c : SimpleCommand) : Safe E (Rsh.bUnset c) := by
  have := wordAt (E := E)
  unfold Rsh.bUnset Rsh.unsetFlags; safe

theorem printReadonly (xs : List Str) : Safe E (Rsh.printReadonly xs) := by
  induction xs with
  | nil => exact pure _
  | cons p a ih => unfold Rsh.printReadonly; safe

theorem printNames (xs : List Str) : Safe E (Rsh.printNames xs) := by
  induction xs with
  | nil => exact pure _
  | cons p a ih => unfold Rsh.printNames; safe

theorem bReadonly (c : SimpleCommand) : Safe E (Rsh.bReadonly c) := by
  have := wordAt (E := E)
  have := printReadonly (E := E)
  have := printNames (E := E)
  have h1 : ∀ x, Safe E (Rsh.readonlyFlags x) := by intro x; unfold Rsh.readonlyFlags; safe
  have h2 : ∀ x p b, Safe E (Rsh.readonlyFlags2 x p b) := by intro x p b; unfold Rsh.readonlyFlags2; safe
  have h3 : ∀ fl ws p, Safe E (Rsh.readonlyPrint fl ws p) := by
    intro fl ws p
    unfold Rsh.readonlyPrint; safe
  unfold Rsh.bReadonly
  split
  · safe
  · next heq =>
    rw [← heq]
    refine bind (h1 _) fun p => ?_
    obtain ⟨fl, pos, print⟩ := p
    refine bind (wordAt _ _) fun y => ?_
    refine bind (h2 _ _ _) fun p => ?_
    obtain ⟨pos, print⟩ := p
    refine ite (h3 _ _ _) (bind getS fun s => ?_)
    split
    · exact printNames _
    · cases c.words[pos]? with
      | none => exact throwE _
      | some a => safe

theorem bExec (c : SimpleCommand) : Safe E (Rsh.bExec w c) := by
  have hw := wordAt (E := E)
  have h1 : ∀ ws, Safe E (Rsh.execOpts1 ws) := by intro ws; unfold Rsh.execOpts1; safe
  have h2 : ∀ ws o, Safe E (Rsh.execOpts2 ws o) := by intro ws o; unfold Rsh.execOpts2; safe
  unfold Rsh.bExec
  split
  · safe
  · refine bind (h1 _) fun o => bind (h2 _ _) fun o => ?_
    dsimp only
    split
    · safe
    · next hn =>
      intro base s hs
      refine bindAt hs (hw _ _) fun a s1 ha hs1 => ?_
      rw [run_getS_bind]
      refine tempExecve (w := w) _ _ _ ?_ ?_ ?_ _ s1 hs1
      · intro h
        unfold Rsh.wordAt at ha
        cases hx : c.words[o.pos]? with
        | none => rw [hx] at ha; cases ha
        | some x =>
          have hl := (List.getElem?_eq_some_iff.1 hx).1
          unfold execArgv at h
          cases hd : c.words.drop o.pos with
          | nil => have := congrArg List.length hd; simp at this; omega
          | cons y ys => rw [hd] at h; cases h
      · intro x hx hmem
        exact hn (List.any_eq_true.2 ⟨x, hx, hasChar_iff.2 hmem⟩)
      · split
        · exact .inl rfl
        · exact .inr hs1.env

theorem sourceArgs (i : Nat) (xs : List Str) : Safe E (Rsh.sourceArgs i xs) := by
  have := addVarContext (E := E)
  induction xs generalizing i with
  | nil => exact pure _
  | cons p a ih => unfold Rsh.sourceArgs; safe

theorem bSource (h : ∀ l, Safe E (rec l)) (c : SimpleCommand) : Safe E (Rsh.bSource w rec c) := by
  have := evalCC h
  have := sourceArgs (E := E)
  have := lookupCommandM (E := E) (w := w)
  have := readFileM (E := E) (w := w)
  unfold Rsh.bSource; safe

theorem callBuiltin (h : ∀ l, Safe E (rec l)) (c : SimpleCommand) : Safe E (Rsh.callBuiltin w rec c) := by
  unfold Rsh.callBuiltin
  have hp : Safe E Rsh.bPwd := by unfold Rsh.bPwd; safe
  exact .ite (bCd _) <| .ite (bExit _) <| .ite (bReturn _) <| .ite bJobs <|
    .ite (bFgBg _) <| .ite (bAlias _) <| .ite (bUnalias _) <| .ite (bExport h _) <|
    .ite (bEval h _) <| .ite (bUnset _) <| .ite hp <| .ite (bReadonly _) <|
    .ite (bExec _) <| .ite (bSource h _) <| .ite (bAssign _) (.throwE _)

/-! ## Evaluation -/

theorem evalAssignments (as : List Str) : Safe E (Rsh.evalAssignments as) := by
  have := setEnv (E := E)
  induction as with
  | nil => exact pure _
  | cons p a ih => unfold Rsh.evalAssignments; safe

theorem evalRedirects (rs : List IoRedirect) : Safe E (Rsh.evalRedirects w rs) := by
  have := openU (E := E) (w := w)
  have := dup2U (E := E)
  have h1 : ∀ r, Safe E (Rsh.evalRedirect1 w r) := by intro r; unfold Rsh.evalRedirect1; safe
  induction rs with
  | nil => exact pure _
  | cons p a ih => unfold Rsh.evalRedirects; safe

theorem evalPrefixSuffix (c : SimpleCommand) : Safe E (Rsh.evalPrefixSuffix w c) := by
  have := evalRedirects (E := E) (w := w)
  have := evalAssignments (E := E)
  unfold Rsh.evalPrefixSuffix; safe

theorem setParams (i : Nat) (as : List Str) : Safe E (Rsh.setParams i as) := by
  have := addVarContext (E := E)
  induction as generalizing i with
  | nil => exact pure _
  | cons p a ih => unfold Rsh.setParams; safe

theorem callFunction (h : ∀ l, Safe E (rec l)) (c : SimpleCommand) : Safe E (Rsh.callFunction rec c) := by
  have h1 : ∀ cc, Safe E (evalCompound rec cc) := by intro cc; unfold evalCompound; safe
  have h2 := addVarContext (E := E)
  have h3 := setParams (E := E)
  have h4 := popContext (E := E)
  have h5 : ∀ c, Safe E (Rsh.evalFunction rec c) := by intro c; unfold Rsh.evalFunction; safe
  unfold Rsh.callFunction; safe

theorem evalCommand (h : ∀ l, Safe E (rec l)) (c : Command) : Safe E (Rsh.evalCommand w rec c) := by
  have := expandCommand (w := w) h
  have := callBuiltin (w := w) h
  have := addFunctionM (E := E)
  unfold Rsh.evalCommand Rsh.evalSimple Rsh.evalBuiltin; safe

theorem evalCommands (h : ∀ l, Safe E (rec l)) (cs : List Command) : Safe E (Rsh.evalCommands w rec cs) := by
  have := evalCommand (w := w) h
  induction cs with
  | nil => exact pure _
  | cons p a ih => unfold Rsh.evalCommands; safe

/-- The arguments of a process are those of a command. -/
def ArgsOk (q : Process × SimpleCommand) : Prop := q.1.argv ≠ [] ∧ ∀ a ∈ q.1.argv, '\x00' ∉ a

theorem argvOf_ok {c : SimpleCommand} {l : List Str} (h : argvOf c = some l) :
    l ≠ [] ∧ ∀ a ∈ l, '\x00' ∉ a := by
  unfold argvOf at h
  have key : ∀ l' : List Str, l' ≠ [] → (if l'.any (hasChar '\x00') then none else some l') = some l →
      l ≠ [] ∧ ∀ a ∈ l, '\x00' ∉ a := by
    intro l' h0 h
    split at h
    · cases h
    · next hn =>
      cases h
      exact ⟨h0, fun a ha hm => hn (List.any_eq_true.2 ⟨a, ha, hasChar_iff.2 hm⟩)⟩
  exact key _ (by simp) h

theorem evalCommands_args {cs : List Command} {s s' : Sh}
    {procs : List (Process × SimpleCommand)} (h : Rsh.evalCommands w rec cs s = (.ok procs, s')) :
    ∀ q ∈ procs, ArgsOk q := by
  induction cs generalizing s s' procs with
  | nil => cases h; simp
  | cons c cs ih =>
    unfold Rsh.evalCommands at h
    obtain ⟨o, s1, h1, h2⟩ := bind_ok_iff.1 h
    cases o with
    | none => cases h2; simp
    | some pc =>
      obtain ⟨rest, s2, h3, h4⟩ := bind_ok_iff.1 h2
      cases h4
      intro q hq
      rcases List.mem_cons.1 hq with rfl | hq
      · unfold Rsh.evalCommand at h1
        split at h1
        · unfold evalSimple at h1
          split at h1
          · obtain ⟨_, _, _, h5⟩ := bind_ok_iff.1 h1
            cases h5
          · obtain ⟨c', _, _, h5⟩ := bind_ok_iff.1 h1
            obtain ⟨l, _, hl, h6⟩ := bind_ok_iff.1 h5
            cases h6
            cases ha : argvOf c' with
            | none => rw [ha] at hl; cases hl
            | some l' => rw [ha] at hl; cases hl; exact argvOf_ok ha
        · obtain ⟨_, _, _, h5⟩ := bind_ok_iff.1 h1
          cases h5
        · cases h1
      · exact ih h3 q hq

theorem runFunctions (h : ∀ l, Safe E (rec l)) (ps : List (Process × SimpleCommand)) :
    Safe E (Rsh.runFunctions rec ps) := by
  have := callFunction h
  induction ps with
  | nil => exact pure _
  | cons p ps ih => unfold Rsh.runFunctions; safe

theorem pipelineChild (h : ∀ l, Safe E (rec l)) (b : Bool) (id : Nat) (pip : Int × Int) (prev : Int)
    (p : Process) (c : SimpleCommand) (hp : ArgsOk (p, c)) :
    Safe E (Rsh.pipelineChild w rec b id pip prev p c) := by
  have := callFunction h
  have := evalPrefixSuffix (E := E) (w := w)
  have := dup2U (E := E)
  have := closeU (E := E)
  have h1 : Safe E (do
      let s ← Rsh.getS
      Rsh.tempExecve w p.argv0 p.argv s.env) :=
    getS_bind fun _ s hs => tempExecve _ _ _ hp.1 hp.2 (.inr hs.env)
  unfold Rsh.pipelineChild; safe

theorem forkLoop (h : ∀ l, Safe E (rec l)) (b : Bool) (id total : Nat)
    (ps : List (Process × SimpleCommand)) (hps : ∀ q ∈ ps, ArgsOk q) (count : Nat) (pip : Int × Int) (prev : Int) :
    Safe E (Rsh.forkLoop w rec b id total ps count pip prev) := by
  have h1 := closeU (E := E)
  have h2 := closeM (E := E)
  have h3 := pipeM (E := E) (w := w)
  induction ps generalizing count pip prev with
  | nil => exact pure _
  | cons p ps ih =>
    replace ih := ih fun q hq => hps q (List.mem_cons_of_mem _ hq)
    have hl := fun pip => Leaves.pipelineChild (w := w) (rec := rec) b id pip prev p.1 p.2
    have hc := fun pip => pipelineChild (w := w) h b id pip prev p.1 p.2 (hps _ List.mem_cons_self)
    unfold Rsh.forkLoop
    safe

theorem afterFork (b : Bool) (id count : Nat) : Safe E (Rsh.afterFork w b id count) := by
  have := deleteJobM (E := E)
  have := waitForJob (E := E) (w := w)
  unfold Rsh.afterFork; safe

theorem evalPipeline (h : ∀ l, Safe E (rec l)) (pl : Pipeline) : Safe E (Rsh.evalPipeline w rec pl) := by
  have h5 := afterFork (E := E) (w := w)
  have h6 := createJobM (E := E)
  have h3 : ∀ procs : List (Process × SimpleCommand), (∀ q ∈ procs, ArgsOk q) → Safe E (do
      let jobId ← Rsh.createJobM (procs.map Prod.fst) pl.background
      Rsh.forkLoop w rec pl.background jobId procs.length procs 0 (-1, -1) (-1)
      Rsh.afterFork w pl.background jobId procs.length
      Rsh.interruptsOn
      let s ← Rsh.getS
      Pure.pure s.exitStatus) := by
    intro procs hp
    have := fun b id total => forkLoop (w := w) h b id total procs hp
    safe
  intro base s hs
  unfold Rsh.evalPipeline
  refine bindAt hs interruptsOff fun _ s1 _ hs1 => ?_
  refine bindAt hs1 (evalCommands h _) fun procs s2 hc hs2 => ?_
  have hprocs := evalCommands_args hc
  dsimp only
  split
  · exact pure _ _ s2 hs2
  · split
    · exact h3 procs hprocs _ s2 hs2
    · refine bindAt hs2 (runFunctions h _) fun procs' s3 hr hs3 => ?_
      exact h3 procs' (fun q hq => hprocs q (runFunctions_sub hr q hq)) _ s3 hs3

theorem evalAndOr (h : ∀ l, Safe E (rec l)) (a : AndOr) : Safe E (Rsh.evalAndOr w rec a) := by
  have := evalPipeline (w := w) h
  fun_induction Rsh.evalAndOr w rec a with
  | case1 c p => safe
  | case2 l c p ih => safe

theorem evalListFrom (h : ∀ l, Safe E (rec l)) (st : Int) (l : List AndOr) :
    Safe E (Rsh.evalListFrom w rec st l) := by
  have := evalAndOr (w := w) h
  induction l generalizing st with
  | nil => exact pure _
  | cons p ps ih => unfold Rsh.evalListFrom; safe

theorem evalFuel (n : Nat) (l : List AndOr) : Safe E (Rsh.evalFuel w n l) := by
  induction n generalizing l with
  | zero => exact deepM
  | succ n ih => exact evalListFrom ih (-1) l

theorem evalTop (n : Nat) (cc : CompleteCommand) : Safe E (Rsh.evalTop w n cc) := evalCC (evalFuel n) cc

/-! ## `main` -/

theorem interactiveLine (n : Nat) (x : Str) : Safe E (Rsh.interactiveLine w n x) := by
  have := evalTop (E := E) (w := w)
  unfold Rsh.interactiveLine; safe

theorem deliver (g : Nat) : Safe E (Rsh.deliver w g) := by
  have h1 := waitForJobSigchld (E := E) (w := w)
  have h2 : ∀ pid st msg, Safe E (sigChldWith.go w pid st msg) := by
    intro pid st msg
    unfold sigChldWith.go; safe
  have h3 : ∀ r, Safe E (sigChldWith w r) := by intro r; unfold sigChldWith; safe
  have h4 := waitpidM (E := E)
  unfold Rsh.deliver Rsh.onSigchld Rsh.onSigOther; safe

theorem interactiveLoop (n : Nat) (ins : List SessionIn) : Safe E (Rsh.interactiveLoop w n ins) := by
  have := interactiveLine (E := E) (w := w)
  have := expandVar (E := E)
  have := saveHistory (E := E) (w := w)
  have := deliver (E := E) (w := w)
  induction ins with
  | nil => unfold Rsh.interactiveLoop; safe
  | cons i ins ih => cases i <;> unfold Rsh.interactiveLoop <;> safe

theorem scriptLine (n : Nat) (x : Str) : Safe E (Rsh.scriptLine w n x) := by
  have := evalTop (E := E) (w := w)
  unfold Rsh.scriptLine; safe

theorem scriptEof (n k : Nat) : Safe E (Rsh.scriptEof w n k) := by
  have := scriptLine (E := E) (w := w)
  induction k with
  | zero => exact hangM
  | succ k ih => unfold Rsh.scriptEof; safe

theorem scriptLines (n k : Nat) (ls : List Str) : Safe E (Rsh.scriptLines w n k ls) := by
  have := scriptLine (E := E) (w := w)
  have := scriptEof (E := E) (w := w)
  induction ls with
  | nil => unfold Rsh.scriptLines; safe
  | cons l ls ih => unfold Rsh.scriptLines; safe

theorem readStartup (n : Nat) (p : Str) : Safe E (Rsh.readStartup w n p) := by
  have := evalTop (E := E) (w := w)
  have := readFileM (E := E) (w := w)
  unfold Rsh.readStartup; safe

theorem argLoop (as : List Str) (st : ArgState) : Safe E (Rsh.argLoop as st) := by
  have := addVarAt (E := E)
  have h1 : ∀ a i, Safe E (Rsh.setInputArgs a i) := by intro a i; unfold Rsh.setInputArgs; safe
  have h2 : ∀ a, Safe E (Rsh.setScriptName a) := by intro a; unfold Rsh.setScriptName; safe
  induction as generalizing st with
  | nil => exact pure _
  | cons a as ih => unfold Rsh.argLoop; safe

theorem mainM (n k : Nat) (args : List Str) (ins : List SessionIn) : Safe E (Rsh.mainM w n k args ins) := by
  have h1 := readStartup (E := E) (w := w)
  have h2 := interactiveLoop (E := E) (w := w)
  have h3 := scriptLines (E := E) (w := w)
  have h4 := evalTop (E := E) (w := w)
  have h5 := readFileM (E := E) (w := w)
  have h6 := argLoop (E := E)
  have h7 := addVarAt (E := E)
  have h8 := setSignal (E := E) SIGCHLD (by decide)
  have h9 := setSignal (E := E) SIGTSTP (by decide)
  have h10 := setSignal (E := E) SIGINT (by decide)
  unfold Rsh.mainM Rsh.readFromArgs Rsh.scriptLoop Rsh.parseArgs Rsh.setArg0
  safe

end Safe

end Rsh

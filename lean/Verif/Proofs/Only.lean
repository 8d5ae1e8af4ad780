import Verif.Proofs.Room
import Verif.Proofs.Started
import Verif.Spec.Only

/-!
# Only programs named in the input

A walk through the evaluator that keeps track of the names of the programs.
-/

namespace Rsh

open Spec

variable {P : List Str} {w : World}

/-- All programs started in an event have names in `P`. -/
def EvNamed (P : List Str) (e : Event) : Prop := ∀ img ∈ programs1 e, NamedIn P img

theorem EvNamed.plain {e : Event} (h : ends1 e = []) : EvNamed P e := by
  intro img hi
  cases e <;> first | cases hi | cases h

/-- What is known of the shell and of its forked copies at any moment; `base` is what happened before. -/
structure Tamed (P : List Str) (base : List Event) (s : Sh) : Prop where
  funs : KnownFuns P s
  trace : ∃ new, s.trace = new ++ base ∧ ∀ e ∈ new, EvNamed P e

/-- The same for the end of a run, and a program the process has turned into has a name in `P`. -/
abbrev AllNamed (P : List Str) (base : List Event) (r : Out α × Sh) : Prop :=
  (∀ img, r.1 = .execed img → NamedIn P img) ∧ Tamed P base r.2

/-- `m` starts programs with names in `P` only. -/
def Only (P : List Str) (m : M α) : Prop := ∀ ⦃base⦄ s, Tamed P base s → AllNamed P base (m s)

theorem Tamed.same {base : List Event} {s s' : Sh} (h : Tamed P base s) (h1 : s'.ctx.heap = s.ctx.heap)
    (h2 : s'.aliases = s.aliases) (h3 : s'.trace = s.trace) : Tamed P base s' :=
  ⟨⟨fun id f b hb => h.funs.functions id f b (by rw [← h1]; exact hb), by rw [h2]; exact h.funs.aliases⟩,
    by rw [h3]; exact h.trace⟩

theorem Tamed.event {base : List Event} {s s' : Sh} {e : Event} (h : Tamed P base s) (h1 : s'.ctx.heap = s.ctx.heap)
    (h2 : s'.aliases = s.aliases) (h3 : s'.trace = e :: s.trace) (h4 : EvNamed P e) : Tamed P base s' := by
  refine ⟨⟨fun id f b hb => h.funs.functions id f b (by rw [← h1]; exact hb), by rw [h2]; exact h.funs.aliases⟩, ?_⟩
  obtain ⟨new, hn, hp⟩ := h.trace
  refine ⟨e :: new, by rw [h3, hn]; rfl, fun x hm => ?_⟩
  rcases List.mem_cons.1 hm with rfl | hm
  · exact h4
  · exact hp x hm

theorem Tamed.ctx {base : List Event} {s : Sh} {m : CtxMgr} (h : Tamed P base s)
    (hm : ∀ id f b, (m.heap id).getFunction f = some b → bodyOnly P b = true) : Tamed P base { s with ctx := m } :=
  ⟨⟨hm, h.funs.aliases⟩, h.trace⟩

namespace Only

theorem pure (a : α) : Only P (Pure.pure a : M α) := fun _ _ h => ⟨nofun, h⟩
theorem getS : Only P Rsh.getS := fun _ _ h => ⟨nofun, h⟩
theorem throwE (e : Str) : Only P (Rsh.throwE e : M α) := fun _ _ h => ⟨nofun, h⟩
theorem panicM (k : PanicKind) : Only P (Rsh.panicM k : M α) := fun _ _ h => ⟨nofun, h⟩
theorem hangM : Only P (Rsh.hangM : M α) := fun _ _ h => ⟨nofun, h⟩
theorem deepM : Only P (Rsh.deepM : M α) := fun _ _ h => ⟨nofun, h⟩
theorem exitM (c : Int) : Only P (Rsh.exitM c : M α) := fun _ _ h => ⟨nofun, h⟩
theorem execM {i : ExecImage} (hi : NamedIn P i) : Only P (Rsh.execM i : M α) :=
  fun _ _ h => ⟨fun img he => by cases he; exact hi, h⟩

theorem unwrapM (k : PanicKind) (o : Option α) : Only P (Rsh.unwrapM k o) := by
  cases o with
  | none => exact panicM k
  | some a => exact pure a

theorem bindAt {m : M α} {f : α → M β} {base : List Event} {s : Sh} (hm : AllNamed P base (m s))
    (hf : ∀ a s1, m s = (.ok a, s1) → Tamed P base s1 → AllNamed P base (f a s1)) : AllNamed P base ((m >>= f) s) := by
  rw [run_bind]
  rcases h : m s with ⟨o, s1⟩
  rw [h] at hm
  cases o with
  | ok a => exact hf a s1 h hm.2
  | execed i => exact ⟨fun img hi => hm.1 img (by cases hi; rfl), hm.2⟩
  | _ => exact ⟨nofun, hm.2⟩

theorem bind {m : M α} {f : α → M β} (hm : Only P m) (hf : ∀ a, Only P (f a)) : Only P (m >>= f) :=
  fun _ s h => bindAt (hm s h) fun a s1 _ hs1 => hf a s1 hs1

theorem ite {c : Prop} [Decidable c] {a b : M α} (ha : Only P a) (hb : Only P b) :
    Only P (if c then a else b) := by split <;> assumption

theorem tryE {m : M α} (h : Only P m) : Only P (Rsh.tryE m) := by
  intro base s h1
  rw [run_tryE]
  have h3 := h s h1
  rcases h : m s with ⟨o, s1⟩
  rw [h] at h3
  cases o with
  | execed i => exact ⟨fun img hi => h3.1 img (by cases hi; rfl), h3.2⟩
  | _ => exact ⟨nofun, h3.2⟩

theorem stateOnly {m : M α} (h : ∀ s, (m s).2.ctx.heap = s.ctx.heap ∧ (m s).2.aliases = s.aliases ∧
    ((m s).2.trace = s.trace ∨ ∃ e, ends1 e = [] ∧ (m s).2.trace = e :: s.trace) ∧ ∀ img, (m s).1 ≠ .execed img) :
    Only P m := fun _ s ht => ⟨fun img hi => absurd hi ((h s).2.2.2 img), by
  rcases (h s).2.2.1 with h3 | ⟨e, he, h3⟩
  · exact ht.same (h s).1 (h s).2.1 h3
  · exact ht.event (h s).1 (h s).2.1 h3 (.plain he)⟩

theorem modS {f : Sh → Sh} (h : ∀ s, (f s).ctx.heap = s.ctx.heap ∧ (f s).aliases = s.aliases ∧ (f s).trace = s.trace) :
    Only P (Rsh.modS f) := fun _ s ht => ⟨nofun, ht.same (h s).1 (h s).2.1 (h s).2.2⟩

theorem event {f : Sh → Sh} {e : Sh → Event} (h1 : ∀ s, ends1 (e s) = [])
    (h : ∀ s, (f s).ctx.heap = s.ctx.heap ∧ (f s).aliases = s.aliases ∧ (f s).trace = e s :: s.trace) :
    Only P (Rsh.modS f) := fun _ s ht => ⟨nofun, ht.event (h s).1 (h s).2.1 (h s).2.2 (.plain (h1 s))⟩

theorem emit {e : Event} (h : EvNamed P e) : Only P (Rsh.emit e) := fun _ _ ht => ⟨nofun, ht.event rfl rfl rfl h⟩
theorem emitPlain {e : Event} (h : ends1 e = []) : Only P (Rsh.emit e) := emit (.plain h)
theorem printM (t : Str) : Only P (Rsh.printM t) := stateOnly fun _ => ⟨rfl, rfl, .inr ⟨_, rfl, rfl⟩, nofun⟩
theorem eprintM (t : Str) : Only P (Rsh.eprintM t) := stateOnly fun _ => ⟨rfl, rfl, .inr ⟨_, rfl, rfl⟩, nofun⟩
theorem printlnM (t : Str) : Only P (Rsh.printlnM t) := printM _
theorem eprintlnM (t : Str) : Only P (Rsh.eprintlnM t) := eprintM _
theorem interruptsOff : Only P Rsh.interruptsOff := modS fun _ => ⟨rfl, rfl, rfl⟩
theorem interruptsOn : Only P Rsh.interruptsOn := modS fun _ => ⟨rfl, rfl, rfl⟩

/-- What is known of a child's end and of what it did. -/
structure Child (P : List Str) (r : ChildEnd × List Event) : Prop where
  image : ∀ img, r.1 = .exec img → NamedIn P img
  events : ∀ e ∈ r.2, EvNamed P e

theorem Child.spawn {r : ChildEnd × List Event} (h : Child P r) (pid : Nat) : EvNamed P (.spawn pid r.1 r.2) := by
  intro img hm
  simp only [programs1, List.mem_append] at hm
  rcases hm with hm | hm
  · split at hm
    · next i hi => rw [List.mem_singleton.1 hm]; exact h.image i hi
    · cases hm
  · obtain ⟨e, he, hi⟩ := mem_programs.1 hm
    exact h.events e he img hi

theorem runChild_bind {m : M α} {f : ChildEnd × List Event → M β} (hm : Only P m)
    (hf : ∀ r, Child P r → Only P (f r)) : Only P (Rsh.runChild w m >>= f) := by
  intro base s hs
  rw [run_bind]
  have h0 : Tamed P (childStart w s).trace (childStart w s) :=
    ⟨⟨hs.funs.functions, hs.funs.aliases⟩, [], rfl, fun _ hi => nomatch hi⟩
  have h1 := hm _ h0
  unfold Rsh.runChild
  rcases h : m (childStart w s) with ⟨o, s1⟩
  rw [h] at h1
  simp only
  cases he : childEnd o s1 with
  | none => exact ⟨fun _ hi => (nomatch hi), hs⟩
  | some e =>
    refine hf (e, _) ⟨fun img hi => h1.1 img ?_, fun ev hev => ?_⟩ s hs
    · cases o <;> cases hi <;> cases he
      rfl
    · obtain ⟨new, hn, hp⟩ := h1.2.trace
      refine hp ev ?_
      simp only at hn hev
      unfold newEvents at hev
      rw [hn] at hev
      simpa using hev

/-- Close a goal `Only P m` by the structure of `m`. -/
macro "named" : tactic => `(tactic| repeat' first
  | assumption
  | with_reducible exact Only.pure _
  | with_reducible exact Only.getS
  | with_reducible exact Only.throwE _
  | with_reducible exact Only.panicM _
  | with_reducible exact Only.hangM
  | with_reducible exact Only.exitM _
  | with_reducible exact Only.unwrapM _ _
  | with_reducible exact Only.printM _
  | with_reducible exact Only.printlnM _
  | with_reducible exact Only.eprintM _
  | with_reducible exact Only.eprintlnM _
  | with_reducible exact Only.emitPlain rfl
  | with_reducible exact Only.emit (Only.Child.spawn ‹_› _)
  | with_reducible exact Only.interruptsOff
  | with_reducible exact Only.interruptsOn
  | with_reducible exact Only.modS fun _ => ⟨rfl, rfl, rfl⟩
  | with_reducible exact Only.event (fun _ => rfl) fun _ => ⟨rfl, rfl, rfl⟩
  | with_reducible refine Only.runChild_bind ?_ fun _ _ => ?_
  | with_reducible refine Only.bind ?_ fun _ => ?_
  | with_reducible refine Only.tryE ?_
  | with_reducible refine Only.ite ?_ ?_
  | with_reducible apply_assumption
  | dsimp only
  | split)

/-! ## Variables and functions -/

theorem ctxStep {f : CtxMgr → CtxMgr} (h : ∀ m, Calm.FunsIn m (f m)) :
    Only P (Rsh.modS fun s => { s with ctx := f s.ctx }) :=
  fun _ s ht => ⟨nofun, ht.ctx fun id g b hb => ht.funs.functions id g b (h s.ctx id g b hb)⟩

theorem setCtxAt {base : List Event} {s : Sh} {m : CtxMgr} (ht : Tamed P base s) (h : Calm.FunsIn s.ctx m) :
    AllNamed P base (Rsh.setCtxMgr m s) :=
  ⟨nofun, ht.ctx fun id g b hb => ht.funs.functions id g b (h id g b hb)⟩

theorem unwrapCtx {base : List Event} {s : Sh} {k : PanicKind} {o : Option CtxMgr} (ht : Tamed P base s)
    (h : ∀ m, o = some m → Calm.FunsIn s.ctx m) : AllNamed P base ((Rsh.unwrapM k o >>= fun m => setCtxMgr m) s) := by
  cases o with
  | none => exact ⟨nofun, ht⟩
  | some m => exact setCtxAt ht (h m rfl)

theorem addVarContext (set : Str) : Only P (Rsh.addVarContext set) := by
  intro base s ht
  unfold Rsh.addVarContext
  rw [run_getS_bind]
  exact unwrapCtx ht fun m h => Calm.addVar_funs h

theorem pushContextNew : Only P Rsh.pushContextNew := by
  refine ctxStep fun s id f b hb => ?_
  unfold CtxMgr.pushNew at hb
  simp only at hb
  split at hb
  · cases hb
  · exact hb

theorem popContext : Only P Rsh.popContext := by
  intro base s ht
  unfold Rsh.popContext
  rw [run_getS_bind]
  rcases hp : s.ctx.pop with _ | ⟨id, m⟩
  · exact ⟨nofun, ht⟩
  · rw [unwrapM_some]
    show AllNamed P base ((setCtxMgr m >>= fun _ => Pure.pure id) s)
    refine bindAt (setCtxAt ht ?_) fun _ s1 _ h1 => pure _ s1 h1
    unfold CtxMgr.pop at hp
    split at hp
    · cases hp; exact fun _ _ _ h => h
    · cases hp

theorem addFunctionM {f : Str} {b : FunctionBody} (hb : bodyOnly P b = true) : Only P (Rsh.addFunctionM f b) := by
  intro base s ht
  unfold Rsh.addFunctionM
  rw [run_getS_bind]
  have key : ∀ id g b', ((s.ctx.addFunction f b).1.heap id).getFunction g = some b' → bodyOnly P b' = true := by
    intro id g b' h
    rcases Roomy.addFunction_funs h with ⟨rfl, rfl⟩ | h1
    · exact hb
    · exact ht.funs.functions id g b' h1
  rcases e : s.ctx.addFunction f b with ⟨m, ro⟩
  rw [e] at key
  simp only
  refine bindAt (m := setCtxMgr m) ⟨nofun, ht.ctx key⟩ fun _ s1 _ h1 => ?_
  exact ite (eprintlnM _) (pure _) s1 h1

theorem expandVar (h : Held) (x : Str) : Only P (Rsh.expandVar h x) := by unfold Rsh.expandVar; named
theorem lookupCommandM (x : Str) : Only P (Rsh.lookupCommandM w x) := by unfold Rsh.lookupCommandM; named
theorem wordAt (ws : List Str) (i : Nat) : Only P (Rsh.wordAt ws i) := unwrapM _ _


/-! ## Descriptors and signals -/

theorem pipeM : Only P (Rsh.pipeM w) := by
  refine stateOnly fun s => ?_
  unfold Rsh.pipeM
  split <;> exact ⟨rfl, rfl, .inl rfl, nofun⟩

theorem closeM (fd : Int) : Only P (Rsh.closeM fd) := by
  refine stateOnly fun s => ?_
  unfold Rsh.closeM
  split <;> exact ⟨rfl, rfl, .inl rfl, nofun⟩

theorem closeU (fd : Int) : Only P (Rsh.closeU fd) := by
  have := closeM (P := P) fd
  unfold Rsh.closeU; named

theorem removeHandlers : Only P Rsh.removeHandlers := modS fun _ => ⟨rfl, rfl, rfl⟩

theorem onSigOther (g : Nat) : Only P (Rsh.onSigOther w g) := by
  unfold Rsh.onSigOther; named

/-! ## Jobs -/

theorem modJc (f : JobControl → JobControl) : Only P (Rsh.modJc f) := modS fun _ => ⟨rfl, rfl, rfl⟩

theorem deleteJobM (id : Nat) : Only P (Rsh.deleteJobM id) := by
  have := modJc (P := P)
  unfold Rsh.deleteJobM; named

theorem createJobM (ps : List Process) (b : Bool) : Only P (Rsh.createJobM ps b) :=
  stateOnly fun _ => ⟨rfl, rfl, .inl rfl, nofun⟩

theorem showJobs (h : Held) (t : List (Nat × Job)) : Only P (Rsh.showJobs h t) := by
  have := expandVar (P := P)
  induction t with
  | nil => exact pure _
  | cons p t ih => unfold Rsh.showJobs; named

theorem waitpidM : Only P Rsh.waitpidM := by
  intro base s ht
  unfold Rsh.waitpidM
  split
  · exact ⟨nofun, ht⟩
  · next r rs _ =>
    exact ⟨nofun, ht.event rfl rfl rfl (.plain rfl)⟩

theorem waitRetry (n : Nat) : Only P (Rsh.waitRetry n) := by
  have := waitpidM (P := P)
  induction n with
  | zero => exact hangM
  | succ n ih => unfold Rsh.waitRetry; named

theorem waitProcess : Only P Rsh.waitProcess := by
  have := waitRetry (P := P)
  unfold Rsh.waitProcess; named

theorem formatStatus (st : WStatus) : Only P (Rsh.formatStatus w st) := by
  have := expandVar (P := P)
  unfold Rsh.formatStatus
  refine bind getS fun s => ?_
  simp only
  named

theorem waitOne (id : Nat) : Only P (Rsh.waitOne w id) := by
  have := waitProcess (P := P)
  have := formatStatus (P := P) (w := w)
  have := modJc (P := P)
  unfold Rsh.waitOne; named

theorem doWaitLoop (id n : Nat) (b : Bool) : Only P (Rsh.doWaitLoop w id n b) := by
  have := waitOne (P := P) (w := w)
  induction n generalizing b with
  | zero => exact hangM
  | succ n ih => unfold Rsh.doWaitLoop; named

theorem doWait (id : Nat) : Only P (Rsh.doWait w id) := by
  have := doWaitLoop (P := P) (w := w)
  unfold Rsh.doWait; named

theorem waitForJob (id : Nat) : Only P (Rsh.waitForJob w id) := by
  have := doWait (P := P) (w := w)
  have := deleteJobM (P := P)
  unfold Rsh.waitForJob; named

/-! ## Expansion -/

variable {rec : List AndOr → M Int}
/-! ## Builtins -/

theorem displayJobs : Only P Rsh.displayJobs := by
  have := showJobs (P := P)
  unfold Rsh.displayJobs; named

theorem bCd (c : SimpleCommand) : Only P (Rsh.bCd w c) := by
  have := wordAt (P := P)
  unfold Rsh.bCd
  named

theorem saveHistory : Only P (Rsh.saveHistory w) := by
  unfold Rsh.saveHistory; named

theorem bExit (c : SimpleCommand) : Only P (Rsh.bExit w c) := by
  have := saveHistory (P := P) (w := w)
  unfold Rsh.bExit; named

theorem bReturn (c : SimpleCommand) : Only P (Rsh.bReturn c) := by unfold Rsh.bReturn; named

theorem bJobs : Only P Rsh.bJobs := by
  have := displayJobs (P := P)
  unfold Rsh.bJobs; named

theorem contAll (ps : List Process) : Only P (Rsh.contAll w ps) := by
  induction ps with
  | nil => exact pure _
  | cons p ps ih => unfold Rsh.contAll; named

theorem bFgBg (c : SimpleCommand) : Only P (Rsh.bFgBg w c) := by
  have := wordAt (P := P)
  have := contAll (P := P) (w := w)
  have := modJc (P := P)
  have := waitForJob (P := P) (w := w)
  have h1 : Only P (fgbgId c) := by unfold fgbgId; named
  have h2 : ∀ id ty, Only P (findJob id ty) := by
    intro id ty
    cases ty <;> unfold findJob <;> named
  have h3 : ∀ j b, Only P (Rsh.resume w j b) := by intro j b; unfold Rsh.resume; named
  unfold Rsh.bFgBg; named

theorem bUnalias (c : SimpleCommand) : Only P (Rsh.bUnalias c) := by
  have := wordAt (P := P)
  have h1 : Only P (Rsh.modS fun s => { s with aliases := [] }) := fun _ s ht =>
    ⟨nofun, ⟨ht.funs.functions, rfl⟩, ht.trace⟩
  have h2 : ∀ x, Only P (Rsh.modS fun s => { s with aliases := s.aliases.erase x }) := fun x _ s ht =>
    ⟨nofun, ⟨ht.funs.functions, by show s.aliases.erase x = []; rw [ht.funs.aliases]; rfl⟩, ht.trace⟩
  unfold Rsh.bUnalias; named

theorem bAssign (c : SimpleCommand) : Only P (Rsh.bAssign c) := by
  have := addVarContext (P := P)
  unfold Rsh.bAssign; named

theorem bUnset (c : SimpleCommand) : Only P (Rsh.bUnset c) := by
  have := wordAt (P := P)
  have h1 : ∀ x, Only P (Rsh.modS fun s => { s with ctx := s.ctx.removeVar x }) := fun x =>
    ctxStep fun s => Calm.removeVar_funs _ _
  have h2 : ∀ x, Only P (Rsh.modS fun s => { s with ctx := s.ctx.removeFunction x }) := fun x =>
    ctxStep fun s => Calm.removeFunction_funs _ _
  have h3 : ∀ x, Only P (Rsh.modS fun s => { s with ctx := s.ctx.removeContext x }) := fun x =>
    ctxStep (f := fun m => m.removeContext x) fun _ _ _ _ h => h
  unfold Rsh.bUnset Rsh.unsetFlags; named

theorem printReadonly (xs : List Str) : Only P (Rsh.printReadonly xs) := by
  induction xs with
  | nil => exact pure _
  | cons p a ih => unfold Rsh.printReadonly; named

theorem printNames (xs : List Str) : Only P (Rsh.printNames xs) := by
  induction xs with
  | nil => exact pure _
  | cons p a ih => unfold Rsh.printNames; named

theorem bReadonly (c : SimpleCommand) : Only P (Rsh.bReadonly c) := by
  have := wordAt (P := P)
  have := printReadonly (P := P)
  have := printNames (P := P)
  have h1 : ∀ x, Only P (Rsh.readonlyFlags x) := by intro x; unfold Rsh.readonlyFlags; named
  have h2 : ∀ x p b, Only P (Rsh.readonlyFlags2 x p b) := by intro x p b; unfold Rsh.readonlyFlags2; named
  have h3 : ∀ fl ws p, Only P (Rsh.readonlyPrint fl ws p) := by
    intro fl ws p
    unfold Rsh.readonlyPrint; named
  unfold Rsh.bReadonly
  split
  · named
  · next heq =>
    rw [← heq]
    refine bind (h1 _) fun p => ?_
    obtain ⟨fl, pos, print⟩ := p
    refine bind (wordAt _ _) fun y => ?_
    refine bind (h2 _ _ _) fun p => ?_
    obtain ⟨pos, print⟩ := p
    refine ite (h3 _ _ _) fun base s ht => ?_
    rw [run_getS_bind]
    have hrest : AllNamed P base ((match c.words[pos]? with
        | none => Rsh.throwE (cs!"readonly needs an argument")
        | some a =>
          if hasChar '=' a then do
            let m ← Rsh.unwrapM .unwrap (s.ctx.addVarReadonly a)
            setCtxMgr m
          else do
            let m ← Rsh.unwrapM .unwrap (s.ctx.setVarReadonly a)
            setCtxMgr m : M Unit) s) := by
      cases c.words[pos]? with
      | none => exact throwE _ s ht
      | some a =>
        show AllNamed P base ((if hasChar '=' a then (Rsh.unwrapM .unwrap (s.ctx.addVarReadonly a) >>= fun m => setCtxMgr m)
          else (Rsh.unwrapM .unwrap (s.ctx.setVarReadonly a) >>= fun m => setCtxMgr m) : M Unit) s)
        by_cases he : hasChar '=' a = true
        · rw [if_pos he]; exact unwrapCtx ht fun m h => Calm.addVarReadonly_funs h
        · rw [if_neg he]; exact unwrapCtx ht fun m h => Calm.setVarReadonly_funs h
    cases fl with
    | function => exact printNames _ s ht
    | _ => exact hrest

theorem searchPath_dir {isFile : Str → Bool} {cmd p : Str} : ∀ {ds : List Str}, CtxMgr.searchPath isFile cmd ds = some p →
    ∃ d, p = d ++ '/' :: cmd
  | [], h => nomatch h
  | d :: ds, h => by
    unfold CtxMgr.searchPath at h
    dsimp only at h
    split at h
    · cases h; exact ⟨d, rfl⟩
    · exact searchPath_dir h

theorem lookup_dir {x p : Str} {s s1 : Sh} (h : Rsh.lookupCommandM w x s = (.ok (some p), s1)) : ∃ d, p = d ++ '/' :: x := by
  unfold Rsh.lookupCommandM CtxMgr.lookupCommand at h
  rw [run_getS_bind] at h
  cases he : s.ctx.envCtx.bind fun id => ((s.ctx.heap id).getVar (cs!"PATH")).map fun v =>
      CtxMgr.searchPath (w.isFile s.trace) x (splitOn ':' v.value) with
  | none => rw [he] at h; cases h
  | some o =>
    rw [he, unwrapM_some] at h
    cases h
    obtain ⟨id, _, h2⟩ := Option.bind_eq_some_iff.1 he
    obtain ⟨v, _, h3⟩ := Option.map_eq_some_iff.1 h2
    exact searchPath_dir h3

theorem tempExecve {x : Str} {argv : List Str} (hx : x ∈ P) (ha : argv.head? = some x) (e : AMap Str) :
    Only P (Rsh.tempExecve w x argv e) := by
  have := removeHandlers (P := P)
  unfold Rsh.tempExecve
  refine bind this fun _ => ?_
  intro base s hs
  refine bindAt (lookupCommandM x s hs) fun o s1 h hs1 => ?_
  cases o with
  | none => exact throwE _ s1 hs1
  | some p =>
    dsimp only
    have hd := lookup_dir h
    refine ite (panicM _) ?_ s1 hs1
    refine bind getS fun s2 => ite (execM ?_) (throwE _)
    exact ⟨x, hx, ha, hd⟩

theorem callBuiltin {c : SimpleCommand} (hc : c.name ∉ indirect) (hx : c.name ≠ cs!"exec") : Only P (Rsh.callBuiltin w rec c) := by
  have hp : Only P Rsh.bPwd := by unfold Rsh.bPwd; named
  unfold Rsh.callBuiltin
  refine ite (bCd c) (ite (bExit c) (ite (bReturn c) (ite bJobs (ite (bFgBg c) ?_))))
  by_cases e : c.name = cs!"alias"
  · exact absurd (by rw [e]; decide) hc
  rw [if_neg e]
  refine ite (bUnalias c) ?_
  by_cases e : c.name = cs!"export"
  · exact absurd (by rw [e]; decide) hc
  rw [if_neg e]
  by_cases e : c.name = cs!"eval"
  · exact absurd (by rw [e]; decide) hc
  rw [if_neg e]
  refine ite (bUnset c) (ite hp (ite (bReadonly c) ?_))
  rw [if_neg hx]
  by_cases e : c.name = cs!"." ∨ c.name = cs!"source"
  · refine absurd ?_ hc
    rcases e with e | e <;> rw [e] <;> decide
  rw [if_neg e]
  exact ite (bAssign c) (throwE _)

end Only

end Rsh

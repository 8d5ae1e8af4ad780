import Verif.Proofs.Room
import Verif.Proofs.Started
import Verif.Spec.Opens

/-!
# Only files named in the input

A walk through the evaluator that keeps track of the files that are opened.
-/

namespace Rsh

open Spec

variable {F : List (RedirectType × Str)} {tx : Bool} {w : World}

/-- All files touched in an event are allowed. -/
def EvTouch (F : List (RedirectType × Str)) (tx : Bool) (e : Event) : Prop := ∀ t ∈ touched1 e, t.Within F tx

theorem EvTouch.plain {e : Event} (h : touched1 e = []) : EvTouch F tx e := by
  intro t ht
  rw [h] at ht
  cases ht

theorem mem_touched {t : Touch} {es : List Event} : t ∈ touched es ↔ ∃ e ∈ es, t ∈ touched1 e := by
  induction es with
  | nil => simp [touched]
  | cons e es ih => simp [touched, ih]

/-- What is known of the shell and of its forked copies at any moment; `base` is what happened before. -/
structure TamedF (F : List (RedirectType × Str)) (tx : Bool) (base : List Event) (s : Sh) : Prop where
  funs : OpeningFuns F s
  trace : ∃ new, s.trace = new ++ base ∧ ∀ e ∈ new, EvTouch F tx e

/-- The same for the end of a run. -/
abbrev AllTouch (F : List (RedirectType × Str)) (tx : Bool) (base : List Event) (r : Out α × Sh) : Prop := TamedF F tx base r.2

/-- `m` touches allowed files only. -/
def Opening (F : List (RedirectType × Str)) (tx : Bool) (m : M α) : Prop := ∀ ⦃base⦄ s, TamedF F tx base s → AllTouch F tx base (m s)

theorem TamedF.same {base : List Event} {s s' : Sh} (h : TamedF F tx base s) (h1 : s'.ctx.heap = s.ctx.heap)
    (h2 : s'.aliases = s.aliases) (h3 : s'.trace = s.trace) : TamedF F tx base s' :=
  ⟨⟨fun id f b hb => h.funs.functions id f b (by rw [← h1]; exact hb), by rw [h2]; exact h.funs.aliases⟩,
    by rw [h3]; exact h.trace⟩

theorem TamedF.event {base : List Event} {s s' : Sh} {e : Event} (h : TamedF F tx base s) (h1 : s'.ctx.heap = s.ctx.heap)
    (h2 : s'.aliases = s.aliases) (h3 : s'.trace = e :: s.trace) (h4 : EvTouch F tx e) : TamedF F tx base s' := by
  refine ⟨⟨fun id f b hb => h.funs.functions id f b (by rw [← h1]; exact hb), by rw [h2]; exact h.funs.aliases⟩, ?_⟩
  obtain ⟨new, hn, hp⟩ := h.trace
  refine ⟨e :: new, by rw [h3, hn]; rfl, fun x hm => ?_⟩
  rcases List.mem_cons.1 hm with rfl | hm
  · exact h4
  · exact hp x hm

theorem TamedF.ctx {base : List Event} {s : Sh} {m : CtxMgr} (h : TamedF F tx base s)
    (hm : ∀ id f b, (m.heap id).getFunction f = some b → bodyOpens F b = true) : TamedF F tx base { s with ctx := m } :=
  ⟨⟨hm, h.funs.aliases⟩, h.trace⟩

namespace Opening

theorem pure (a : α) : Opening F tx (Pure.pure a : M α) := fun _ _ h => h
theorem getS : Opening F tx Rsh.getS := fun _ _ h => h
theorem throwE (e : Str) : Opening F tx (Rsh.throwE e : M α) := fun _ _ h => h
theorem panicM (k : PanicKind) : Opening F tx (Rsh.panicM k : M α) := fun _ _ h => h
theorem hangM : Opening F tx (Rsh.hangM : M α) := fun _ _ h => h
theorem deepM : Opening F tx (Rsh.deepM : M α) := fun _ _ h => h
theorem exitM (c : Int) : Opening F tx (Rsh.exitM c : M α) := fun _ _ h => h
theorem execM (i : ExecImage) : Opening F tx (Rsh.execM i : M α) := fun _ _ h => h

theorem unwrapM (k : PanicKind) (o : Option α) : Opening F tx (Rsh.unwrapM k o) := by
  cases o with
  | none => exact panicM k
  | some a => exact pure a

theorem bindAt {m : M α} {f : α → M β} {base : List Event} {s : Sh} (hm : AllTouch F tx base (m s))
    (hf : ∀ a s1, m s = (.ok a, s1) → TamedF F tx base s1 → AllTouch F tx base (f a s1)) : AllTouch F tx base ((m >>= f) s) := by
  rw [run_bind]
  rcases h : m s with ⟨o, s1⟩
  rw [h] at hm
  cases o with
  | ok a => exact hf a s1 h hm
  | _ => exact hm

theorem bind {m : M α} {f : α → M β} (hm : Opening F tx m) (hf : ∀ a, Opening F tx (f a)) : Opening F tx (m >>= f) :=
  fun _ s h => bindAt (hm s h) fun a s1 _ hs1 => hf a s1 hs1

theorem ite {c : Prop} [Decidable c] {a b : M α} (ha : Opening F tx a) (hb : Opening F tx b) :
    Opening F tx (if c then a else b) := by split <;> assumption

theorem tryE {m : M α} (h : Opening F tx m) : Opening F tx (Rsh.tryE m) := by
  intro base s h1
  rw [run_tryE]
  have h3 := h s h1
  rcases h : m s with ⟨o, s1⟩
  rw [h] at h3
  cases o with
  | _ => exact h3

theorem stateOnly {m : M α} (h : ∀ s, (m s).2.ctx.heap = s.ctx.heap ∧ (m s).2.aliases = s.aliases ∧
    ((m s).2.trace = s.trace ∨ ∃ e, touched1 e = [] ∧ (m s).2.trace = e :: s.trace)) :
    Opening F tx m := fun _ s ht => by
  rcases (h s).2.2 with h3 | ⟨e, he, h3⟩
  · exact ht.same (h s).1 (h s).2.1 h3
  · exact ht.event (h s).1 (h s).2.1 h3 (.plain he)

theorem modS {f : Sh → Sh} (h : ∀ s, (f s).ctx.heap = s.ctx.heap ∧ (f s).aliases = s.aliases ∧ (f s).trace = s.trace) :
    Opening F tx (Rsh.modS f) := fun _ s ht => ht.same (h s).1 (h s).2.1 (h s).2.2

theorem event {f : Sh → Sh} {e : Sh → Event} (h1 : ∀ s, touched1 (e s) = [])
    (h : ∀ s, (f s).ctx.heap = s.ctx.heap ∧ (f s).aliases = s.aliases ∧ (f s).trace = e s :: s.trace) :
    Opening F tx (Rsh.modS f) := fun _ s ht => ht.event (h s).1 (h s).2.1 (h s).2.2 (.plain (h1 s))

theorem emit {e : Event} (h : EvTouch F tx e) : Opening F tx (Rsh.emit e) := fun _ _ ht => ht.event rfl rfl rfl h
theorem emitPlain {e : Event} (h : touched1 e = []) : Opening F tx (Rsh.emit e) := emit (.plain h)
theorem printM (t : Str) : Opening F tx (Rsh.printM t) := stateOnly fun _ => ⟨rfl, rfl, .inr ⟨_, rfl, rfl⟩⟩
theorem eprintM (t : Str) : Opening F tx (Rsh.eprintM t) := stateOnly fun _ => ⟨rfl, rfl, .inr ⟨_, rfl, rfl⟩⟩
theorem printlnM (t : Str) : Opening F tx (Rsh.printlnM t) := printM _
theorem eprintlnM (t : Str) : Opening F tx (Rsh.eprintlnM t) := eprintM _
theorem interruptsOff : Opening F tx Rsh.interruptsOff := modS fun _ => ⟨rfl, rfl, rfl⟩
theorem interruptsOn : Opening F tx Rsh.interruptsOn := modS fun _ => ⟨rfl, rfl, rfl⟩

/-- What is known of what a child did. -/
def Child (F : List (RedirectType × Str)) (tx : Bool) (r : ChildEnd × List Event) : Prop := ∀ e ∈ r.2, EvTouch F tx e

theorem Child.spawn {r : ChildEnd × List Event} (h : Child F tx r) (pid : Nat) : EvTouch F tx (.spawn pid r.1 r.2) := by
  intro t ht
  obtain ⟨e, he, hi⟩ := mem_touched.1 ht
  exact h e he t hi

theorem runChild_bind {m : M α} {f : ChildEnd × List Event → M β} (hm : Opening F tx m)
    (hf : ∀ r, Child F tx r → Opening F tx (f r)) : Opening F tx (Rsh.runChild w m >>= f) := by
  intro base s hs
  rw [run_bind]
  have h0 : TamedF F tx (childStart w s).trace (childStart w s) :=
    ⟨⟨hs.funs.functions, hs.funs.aliases⟩, [], rfl, fun _ hi => nomatch hi⟩
  have h1 := hm _ h0
  unfold Rsh.runChild
  rcases h : m (childStart w s) with ⟨o, s1⟩
  rw [h] at h1
  simp only
  cases he : childEnd o s1 with
  | none => exact hs
  | some e =>
    refine hf (e, _) (fun ev hev => ?_) s hs
    obtain ⟨new, hn, hp⟩ := h1.trace
    refine hp ev ?_
    simp only at hn hev
    unfold newEvents at hev
    rw [hn] at hev
    simpa using hev

/-- Close a goal `Opening F tx m` by the structure of `m`. -/
macro "opening" : tactic => `(tactic| repeat' first
  | assumption
  | with_reducible exact Opening.pure _
  | with_reducible exact Opening.getS
  | with_reducible exact Opening.throwE _
  | with_reducible exact Opening.panicM _
  | with_reducible exact Opening.hangM
  | with_reducible exact Opening.exitM _
  | with_reducible exact Opening.execM _
  | with_reducible exact Opening.unwrapM _ _
  | with_reducible exact Opening.printM _
  | with_reducible exact Opening.printlnM _
  | with_reducible exact Opening.eprintM _
  | with_reducible exact Opening.eprintlnM _
  | with_reducible exact Opening.emitPlain rfl
  | with_reducible exact Opening.emit (Opening.Child.spawn ‹_› _)
  | with_reducible exact Opening.interruptsOff
  | with_reducible exact Opening.interruptsOn
  | with_reducible exact Opening.modS fun _ => ⟨rfl, rfl, rfl⟩
  | with_reducible exact Opening.event (fun _ => rfl) fun _ => ⟨rfl, rfl, rfl⟩
  | with_reducible refine Opening.runChild_bind ?_ fun _ _ => ?_
  | with_reducible refine Opening.bind ?_ fun _ => ?_
  | with_reducible refine Opening.tryE ?_
  | with_reducible refine Opening.ite ?_ ?_
  | with_reducible apply_assumption
  | dsimp only
  | split)

/-! ## Variables and functions -/

theorem ctxStep {f : CtxMgr → CtxMgr} (h : ∀ m, Calm.FunsIn m (f m)) :
    Opening F tx (Rsh.modS fun s => { s with ctx := f s.ctx }) :=
  fun _ s ht => ht.ctx fun id g b hb => ht.funs.functions id g b (h s.ctx id g b hb)

theorem setCtxAt {base : List Event} {s : Sh} {m : CtxMgr} (ht : TamedF F tx base s) (h : Calm.FunsIn s.ctx m) :
    AllTouch F tx base (Rsh.setCtxMgr m s) :=
  ht.ctx fun id g b hb => ht.funs.functions id g b (h id g b hb)

theorem unwrapCtx {base : List Event} {s : Sh} {k : PanicKind} {o : Option CtxMgr} (ht : TamedF F tx base s)
    (h : ∀ m, o = some m → Calm.FunsIn s.ctx m) : AllTouch F tx base ((Rsh.unwrapM k o >>= fun m => setCtxMgr m) s) := by
  cases o with
  | none => exact ht
  | some m => exact setCtxAt ht (h m rfl)

theorem addVarContext (set : Str) : Opening F tx (Rsh.addVarContext set) := by
  intro base s ht
  unfold Rsh.addVarContext
  rw [run_getS_bind]
  exact unwrapCtx ht fun m h => Calm.addVar_funs h

theorem pushContextNew : Opening F tx Rsh.pushContextNew := by
  refine ctxStep fun s id f b hb => ?_
  unfold CtxMgr.pushNew at hb
  simp only at hb
  split at hb
  · cases hb
  · exact hb

theorem popContext : Opening F tx Rsh.popContext := by
  intro base s ht
  unfold Rsh.popContext
  rw [run_getS_bind]
  rcases hp : s.ctx.pop with _ | ⟨id, m⟩
  · exact ht
  · rw [unwrapM_some]
    show AllTouch F tx base ((setCtxMgr m >>= fun _ => Pure.pure id) s)
    refine bindAt (setCtxAt ht ?_) fun _ s1 _ h1 => pure _ s1 h1
    unfold CtxMgr.pop at hp
    split at hp
    · cases hp; exact fun _ _ _ h => h
    · cases hp

theorem addFunctionM {f : Str} {b : FunctionBody} (hb : bodyOpens F b = true) : Opening F tx (Rsh.addFunctionM f b) := by
  intro base s ht
  unfold Rsh.addFunctionM
  rw [run_getS_bind]
  have key : ∀ id g b', ((s.ctx.addFunction f b).1.heap id).getFunction g = some b' → bodyOpens F b' = true := by
    intro id g b' h
    rcases Roomy.addFunction_funs h with ⟨rfl, rfl⟩ | h1
    · exact hb
    · exact ht.funs.functions id g b' h1
  rcases e : s.ctx.addFunction f b with ⟨m, ro⟩
  rw [e] at key
  simp only
  refine bindAt (m := setCtxMgr m) (ht.ctx key) fun _ s1 _ h1 => ?_
  exact ite (eprintlnM _) (pure _) s1 h1

theorem expandVar (h : Held) (x : Str) : Opening F tx (Rsh.expandVar h x) := by unfold Rsh.expandVar; opening
theorem lookupCommandM (x : Str) : Opening F tx (Rsh.lookupCommandM w x) := by unfold Rsh.lookupCommandM; opening
theorem wordAt (ws : List Str) (i : Nat) : Opening F tx (Rsh.wordAt ws i) := unwrapM _ _


/-! ## Descriptors and signals -/

theorem pipeM : Opening F tx (Rsh.pipeM w) := by
  refine stateOnly fun s => ?_
  unfold Rsh.pipeM
  split <;> exact ⟨rfl, rfl, .inl rfl⟩

theorem closeM (fd : Int) : Opening F tx (Rsh.closeM fd) := by
  refine stateOnly fun s => ?_
  unfold Rsh.closeM
  split <;> exact ⟨rfl, rfl, .inl rfl⟩

theorem closeU (fd : Int) : Opening F tx (Rsh.closeU fd) := by
  have := closeM (F := F) (tx := tx) fd
  unfold Rsh.closeU; opening

theorem removeHandlers : Opening F tx Rsh.removeHandlers := modS fun _ => ⟨rfl, rfl, rfl⟩

theorem onSigOther (g : Nat) : Opening F tx (Rsh.onSigOther w g) := by
  unfold Rsh.onSigOther; opening

/-! ## Jobs -/

theorem modJc (f : JobControl → JobControl) : Opening F tx (Rsh.modJc f) := modS fun _ => ⟨rfl, rfl, rfl⟩

theorem deleteJobM (id : Nat) : Opening F tx (Rsh.deleteJobM id) := by
  have := modJc (F := F) (tx := tx)
  unfold Rsh.deleteJobM; opening

theorem createJobM (ps : List Process) (b : Bool) : Opening F tx (Rsh.createJobM ps b) :=
  stateOnly fun _ => ⟨rfl, rfl, .inl rfl⟩

theorem showJobs (h : Held) (t : List (Nat × Job)) : Opening F tx (Rsh.showJobs h t) := by
  have := expandVar (F := F) (tx := tx)
  induction t with
  | nil => exact pure _
  | cons p t ih => unfold Rsh.showJobs; opening

theorem waitpidM : Opening F tx Rsh.waitpidM := by
  intro base s ht
  unfold Rsh.waitpidM
  split
  · exact ht
  · next r rs _ =>
    exact ht.event rfl rfl rfl (.plain rfl)

theorem waitRetry (n : Nat) : Opening F tx (Rsh.waitRetry n) := by
  have := waitpidM (F := F) (tx := tx)
  induction n with
  | zero => exact hangM
  | succ n ih => unfold Rsh.waitRetry; opening

theorem waitProcess : Opening F tx Rsh.waitProcess := by
  have := waitRetry (F := F) (tx := tx)
  unfold Rsh.waitProcess; opening

theorem formatStatus (st : WStatus) : Opening F tx (Rsh.formatStatus w st) := by
  have := expandVar (F := F) (tx := tx)
  unfold Rsh.formatStatus
  refine bind getS fun s => ?_
  simp only
  opening

theorem waitOne (id : Nat) : Opening F tx (Rsh.waitOne w id) := by
  have := waitProcess (F := F) (tx := tx)
  have := formatStatus (F := F) (tx := tx) (w := w)
  have := modJc (F := F) (tx := tx)
  unfold Rsh.waitOne; opening

theorem doWaitLoop (id n : Nat) (b : Bool) : Opening F tx (Rsh.doWaitLoop w id n b) := by
  have := waitOne (F := F) (tx := tx) (w := w)
  induction n generalizing b with
  | zero => exact hangM
  | succ n ih => unfold Rsh.doWaitLoop; opening

theorem doWait (id : Nat) : Opening F tx (Rsh.doWait w id) := by
  have := doWaitLoop (F := F) (tx := tx) (w := w)
  unfold Rsh.doWait; opening

theorem waitForJob (id : Nat) : Opening F tx (Rsh.waitForJob w id) := by
  have := doWait (F := F) (tx := tx) (w := w)
  have := deleteJobM (F := F) (tx := tx)
  unfold Rsh.waitForJob; opening

/-! ## Expansion -/

variable {rec : List AndOr → M Int}
/-! ## Builtins -/

theorem displayJobs : Opening F tx Rsh.displayJobs := by
  have := showJobs (F := F) (tx := tx)
  unfold Rsh.displayJobs; opening

theorem bCd (c : SimpleCommand) : Opening F tx (Rsh.bCd w c) := by
  have := wordAt (F := F) (tx := tx)
  unfold Rsh.bCd
  opening

theorem saveHistory : Opening F tx (Rsh.saveHistory w) := by
  unfold Rsh.saveHistory; opening

theorem bExit (c : SimpleCommand) : Opening F tx (Rsh.bExit w c) := by
  have := saveHistory (F := F) (tx := tx) (w := w)
  unfold Rsh.bExit; opening

theorem bReturn (c : SimpleCommand) : Opening F tx (Rsh.bReturn c) := by unfold Rsh.bReturn; opening

theorem bJobs : Opening F tx Rsh.bJobs := by
  have := displayJobs (F := F) (tx := tx)
  unfold Rsh.bJobs; opening

theorem contAll (ps : List Process) : Opening F tx (Rsh.contAll w ps) := by
  induction ps with
  | nil => exact pure _
  | cons p ps ih => unfold Rsh.contAll; opening

theorem bFgBg (c : SimpleCommand) : Opening F tx (Rsh.bFgBg w c) := by
  have := wordAt (F := F) (tx := tx)
  have := contAll (F := F) (tx := tx) (w := w)
  have := modJc (F := F) (tx := tx)
  have := waitForJob (F := F) (tx := tx) (w := w)
  have h1 : Opening F tx (fgbgId c) := by unfold fgbgId; opening
  have h2 : ∀ id ty, Opening F tx (findJob id ty) := by
    intro id ty
    cases ty <;> unfold findJob <;> opening
  have h3 : ∀ j b, Opening F tx (Rsh.resume w j b) := by intro j b; unfold Rsh.resume; opening
  unfold Rsh.bFgBg; opening

theorem bUnalias (c : SimpleCommand) : Opening F tx (Rsh.bUnalias c) := by
  have := wordAt (F := F) (tx := tx)
  have h1 : Opening F tx (Rsh.modS fun s => { s with aliases := [] }) := fun _ s ht =>
    ⟨⟨ht.funs.functions, rfl⟩, ht.trace⟩
  have h2 : ∀ x, Opening F tx (Rsh.modS fun s => { s with aliases := s.aliases.erase x }) := fun x _ s ht =>
    ⟨⟨ht.funs.functions, by show s.aliases.erase x = []; rw [ht.funs.aliases]; rfl⟩, ht.trace⟩
  unfold Rsh.bUnalias; opening

theorem bAssign (c : SimpleCommand) : Opening F tx (Rsh.bAssign c) := by
  have := addVarContext (F := F) (tx := tx)
  unfold Rsh.bAssign; opening

theorem bUnset (c : SimpleCommand) : Opening F tx (Rsh.bUnset c) := by
  have := wordAt (F := F) (tx := tx)
  have h1 : ∀ x, Opening F tx (Rsh.modS fun s => { s with ctx := s.ctx.removeVar x }) := fun x =>
    ctxStep fun s => Calm.removeVar_funs _ _
  have h2 : ∀ x, Opening F tx (Rsh.modS fun s => { s with ctx := s.ctx.removeFunction x }) := fun x =>
    ctxStep fun s => Calm.removeFunction_funs _ _
  have h3 : ∀ x, Opening F tx (Rsh.modS fun s => { s with ctx := s.ctx.removeContext x }) := fun x =>
    ctxStep (f := fun m => m.removeContext x) fun _ _ _ _ h => h
  unfold Rsh.bUnset Rsh.unsetFlags; opening

theorem printReadonly (xs : List Str) : Opening F tx (Rsh.printReadonly xs) := by
  induction xs with
  | nil => exact pure _
  | cons p a ih => unfold Rsh.printReadonly; opening

theorem printNames (xs : List Str) : Opening F tx (Rsh.printNames xs) := by
  induction xs with
  | nil => exact pure _
  | cons p a ih => unfold Rsh.printNames; opening

theorem bReadonly (c : SimpleCommand) : Opening F tx (Rsh.bReadonly c) := by
  have := wordAt (F := F) (tx := tx)
  have := printReadonly (F := F) (tx := tx)
  have := printNames (F := F) (tx := tx)
  have h1 : ∀ x, Opening F tx (Rsh.readonlyFlags x) := by intro x; unfold Rsh.readonlyFlags; opening
  have h2 : ∀ x p b, Opening F tx (Rsh.readonlyFlags2 x p b) := by intro x p b; unfold Rsh.readonlyFlags2; opening
  have h3 : ∀ fl ws p, Opening F tx (Rsh.readonlyPrint fl ws p) := by
    intro fl ws p
    unfold Rsh.readonlyPrint; opening
  unfold Rsh.bReadonly
  split
  · opening
  · next heq =>
    rw [← heq]
    refine bind (h1 _) fun p => ?_
    obtain ⟨fl, pos, print⟩ := p
    refine bind (wordAt _ _) fun y => ?_
    refine bind (h2 _ _ _) fun p => ?_
    obtain ⟨pos, print⟩ := p
    refine ite (h3 _ _ _) fun base s ht => ?_
    rw [run_getS_bind]
    have hrest : AllTouch F tx base ((match c.words[pos]? with
        | none => Rsh.throwE (cs!"readonly needs an argument")
        | some a =>
          if hasChar '=' a then do
            let m ← Rsh.unwrapM .unwrap (s.ctx.addVarReadonly a)
            setCtxMgr m
          else do
            let m ← Rsh.unwrapM .unwrap (s.ctx.setVarReadonly a)
            setCtxMgr m : M Unit) s) := by
      cases c.words[pos]? with
      | none => exact throwE _ s ht
      | some a =>
        show AllTouch F tx base ((if hasChar '=' a then (Rsh.unwrapM .unwrap (s.ctx.addVarReadonly a) >>= fun m => setCtxMgr m)
          else (Rsh.unwrapM .unwrap (s.ctx.setVarReadonly a) >>= fun m => setCtxMgr m) : M Unit) s)
        by_cases he : hasChar '=' a = true
        · rw [if_pos he]; exact unwrapCtx ht fun m h => Calm.addVarReadonly_funs h
        · rw [if_neg he]; exact unwrapCtx ht fun m h => Calm.setVarReadonly_funs h
    cases fl with
    | function => exact printNames _ s ht
    | _ => exact hrest

theorem tempExecve (x : Str) (argv : List Str) (e : AMap Str) : Opening F tx (Rsh.tempExecve w x argv e) := by
  have := removeHandlers (F := F) (tx := tx)
  have := lookupCommandM (F := F) (tx := tx) (w := w)
  unfold Rsh.tempExecve
  opening

theorem callBuiltin {c : SimpleCommand} (hc : c.name ∉ indirect) : Opening F tx (Rsh.callBuiltin w rec c) := by
  have hp : Opening F tx Rsh.bPwd := by unfold Rsh.bPwd; opening
  have hx : Opening F tx (Rsh.bExec w c) := by
    have := tempExecve (F := F) (tx := tx) (w := w)
    have := wordAt (F := F) (tx := tx)
    have h1 : ∀ ws, Opening F tx (Rsh.execOpts1 ws) := by intro ws; unfold Rsh.execOpts1; opening
    have h2 : ∀ ws o, Opening F tx (Rsh.execOpts2 ws o) := by intro ws o; unfold Rsh.execOpts2; opening
    unfold Rsh.bExec
    split
    · exact throwE _
    · exact bind (h1 _) fun o => bind (h2 _ _) fun o => ite (panicM _) (bind (wordAt _ _) fun x => bind getS fun s => tempExecve _ _ _)
  unfold Rsh.callBuiltin
  refine ite (bCd c) (ite (bExit c) (ite (bReturn c) (ite bJobs (ite (bFgBg c) ?_))))
  by_cases e : c.name = cs!"alias"
  · exact absurd (by rw [e]; decide) hc
  rw [if_neg e]
  refine ite (bUnalias c) ?_
  by_cases e : c.name = cs!"export"
  · exact absurd (by rw [e]; decide) hc
  rw [if_neg e]
  by_cases e : c.name = cs!"eval"
  · exact absurd (by rw [e]; decide) hc
  rw [if_neg e]
  refine ite (bUnset c) (ite hp (ite (bReadonly c) (ite hx ?_)))
  by_cases e : c.name = cs!"." ∨ c.name = cs!"source"
  · refine absurd ?_ hc
    rcases e with e | e <;> rw [e] <;> decide
  rw [if_neg e]
  exact ite (bAssign c) (throwE _)

end Opening

end Rsh
